import Verif.Pyramid.Model

/-!
# What a client of the pyramid expects

The client keeps a log of the operations it asked for, grouped into levels:
an operation outside a composite is a level of its own, everything between
the outermost `beginComposite` and `endComposite` is one level, and
`cutAbove(i)` forgets the levels above `i`.  Level `i` is the base segmentation
after the operations of the first `i` groups.
-/

namespace Verif.Pyramid

variable {O σ : Type}

/-- `Replay S s l t`: performing the operations `l` one after the other, all of them
returning normally, leads from `s` to `t`. -/
inductive Replay (S : Sys O σ) : σ → List O → σ → Prop where
  | nil (s) : Replay S s [] s
  | cons {s t u o l} (h : S.exec o s = (t, true)) (r : Replay S t l u) : Replay S s (o :: l) u

/-- The client's log. -/
structure Log (O : Type) where
  /-- the finished levels, each a group of operations -/
  levels : List (List O)
  /-- how many composites are open -/
  depth : Nat
  /-- the operations of the open composite -/
  cur : List O

/-- The operations that make up level `i`. -/
def Log.upTo (g : Log O) (i : Nat) : List O := (g.levels.take i).flatten

/-- The calls of a client.  The client may keep level objects, which it numbers; they
come from `getLevel` or from copying `topLevel()`. -/
inductive Cmd (O : Type) where
  | op (o : O)
  | beginComposite
  | endComposite
  | storeCheckpoint
  | cutAbove (i : Nat)
  | cutAboveHeld (j : Nat)
  | getLevel (i : Nat)
  | copyTop
  | gotoLevel (j i : Nat)
  | approachLevel (j i maxSteps : Nat)

/-- What the log becomes when the call returns.  `idx` are the indices of the levels
the client keeps. -/
def Cmd.logged (g : Log O) (idx : List Nat) : Cmd O → Log O
  | .op o =>
    if g.depth = 0 then { g with
      levels := g.levels ++ [[o]] }
    else { g with
      cur := g.cur ++ [o] }
  | .beginComposite => { g with
      depth := g.depth + 1 }
  | .endComposite =>
    if g.depth = 1 then ⟨g.levels ++ [g.cur], 0, []⟩ else { g with
      depth := g.depth - 1 }
  | .cutAbove i => { g with
      levels := g.levels.take i }
  | .cutAboveHeld j => { g with
      levels := g.levels.take (idx.getD j 0) }
  | _ => g

/-- The calls a client may make: composites are ended only when open and not empty;
levels are addressed within the finished levels; levels the client keeps are named
correctly; `storeCheckpoint(topLevel())` and copies of the top level are made outside
composites. -/
def Cmd.legal (g : Log O) (idx : List Nat) : Cmd O → Prop
  | .op _ | .beginComposite => True
  | .endComposite => 0 < g.depth ∧ g.cur ≠ []
  | .storeCheckpoint | .copyTop => g.depth = 0
  | .cutAbove _ => True
  | .cutAboveHeld j => j < idx.length
  | .getLevel i => i ≤ g.levels.length
  | .gotoLevel j i | .approachLevel j i _ => j < idx.length ∧ i ≤ g.levels.length

/-- The pyramid and the client: its log and the level objects it keeps. -/
structure World (O σ : Type) where
  pyr : Pyr O σ
  held : List (Level σ)
  log : Log O

/-- The indices of the kept levels. -/
def World.idx (w : World O σ) : List Nat := w.held.map (·.index)

/-- A call and its outcome.  After a cut the client throws away the levels it keeps
that are above the cut. -/
def Cmd.run (S : Sys O σ) (w : World O σ) (c : Cmd O) : World O σ × Outcome Unit :=
  let log := c.logged w.log w.idx
  let still (l : List (Level σ)) := l.filter fun L => L.index ≤ log.levels.length
  match c with
  | .op o => let r := Pyramid.add S w.pyr o; (⟨r.1, w.held, log⟩, r.2)
  | .beginComposite => (⟨Pyramid.beginComposite w.pyr, w.held, log⟩, .ok ())
  | .endComposite => let r := Pyramid.endComposite S w.pyr; (⟨r.1, w.held, log⟩, r.2)
  | .storeCheckpoint => (⟨Pyramid.storeCheckpoint S w.pyr w.pyr.top, w.held, log⟩, .ok ())
  | .cutAbove i => let r := Pyramid.cutAbove S w.pyr i; (⟨r.1, still w.held, log⟩, r.2)
  | .cutAboveHeld j =>
    match w.held[j]? with
    | none => (w, .ub)
    | some L => let r := Pyramid.cutAboveLevel S w.pyr L; (⟨r.1, still w.held, log⟩, r.2)
  | .getLevel i =>
    match Pyramid.getLevel S w.pyr i with
    | .ok L => (⟨w.pyr, w.held ++ [L], log⟩, .ok ())
    | .precond => (w, .precond)
    | .ub => (w, .ub)
    | .hang => (w, .hang)
  | .copyTop => (⟨w.pyr, w.held ++ [w.pyr.top], log⟩, .ok ())
  | .gotoLevel j i =>
    match w.held[j]? with
    | none => (w, .ub)
    | some L => let r := Pyramid.gotoLevel S w.pyr L i; (⟨w.pyr, w.held.set j r.1, log⟩, r.2)
  | .approachLevel j i n =>
    match w.held[j]? with
    | none => (w, .ub)
    | some L =>
      let r := Pyramid.approachLevel S w.pyr L i n; (⟨w.pyr, w.held.set j r.1, log⟩, r.2.map fun _ => ())

/-- The worlds reached from a new pyramid by legal calls that return normally. -/
inductive Reach (S : Sys O σ) (base : σ) : World O σ → Prop where
  | init : Reach S base ⟨Pyramid.init S base, [], ⟨[], 0, []⟩⟩
  | step {w w' : World O σ} (c : Cmd O) (h : Reach S base w) (hl : c.legal w.log w.idx)
      (hr : c.run S w = (w', .ok ())) : Reach S base w'

end Verif.Pyramid
