import Verif.Outcome

/-!
# The cell pyramid

Models `src/cellimage/cellpyramid.hxx`: a base segmentation, a history of
operations, checkpoints (copies of some levels), and levels that are reached
by re-performing history entries from a checkpoint.

The template parameters `SEGMENTATION` and `CELLSTATISTICS` are abstracted by a
structure `Sys`: a state type and, for each basic operation, the state it leaves
behind and whether it returned normally or threw.  Memory exhaustion, the
diagnostic output and the leak in `Operation::operator=` (79-85) are not
modelled.  Counters are unbounded except where the code relies on wrapping
(`endComposite` without a matching begin).
-/

namespace Verif.Pyramid

/-- What the pyramid needs to know of its template parameters.  `O`: the basic
operations with their serialised parameter dart (cellpyramid.hxx:54-71); `σ`: the
contents of a `Level` besides its index, i.e. segmentation, statistics and
`subIndex_` (285-288). -/
structure Sys (O σ : Type) where
  /-- One basic `performOperation` (cellpyramid.hxx:236-278): the state left behind,
  and `true` if it returned, `false` if it threw. -/
  exec : O → σ → σ × Bool
  /-- `subIndex_`. -/
  sub : σ → Nat
  /-- `nodeCount() + edgeCount() + faceCount()`. -/
  cells : σ → Nat

/-- `Operation` (cellpyramid.hxx:62-108): a basic one or a list. -/
inductive Op (O : Type) where
  | basic (o : O)
  | composite (l : List (Op O))

/-- `Level` (cellpyramid.hxx:110-290). -/
structure Level (σ : Type) where
  index : Nat
  st : σ
  deriving DecidableEq

/-- The data members of `CellPyramid` (cellpyramid.hxx:300-304).  The map of
checkpoints is a partial function. -/
structure Pyr (O σ : Type) where
  cks : Nat → Option (Level σ)
  hist : List (Op O)
  top : Level σ
  next : Nat
  composing : Nat

variable {O σ : Type}

mutual
/-- `Level::performOperation` (cellpyramid.hxx:225-283), acting on the contents of
the level.  An empty composite ends in `return *result` with a null pointer. -/
def perform (S : Sys O σ) : Op O → σ → σ × Outcome Unit
  | .basic o, s =>
    let r := S.exec o s
    (r.1, if r.2 then .ok () else .precond)
  | .composite [], s => (s, .ub)
  | .composite (o :: l), s =>
    match perform S o s with
    | (t, .ok _) => performAll S l t
    | r => r
/-- The loop of the composite case (cellpyramid.hxx:230-232). -/
def performAll (S : Sys O σ) : List (Op O) → σ → σ × Outcome Unit
  | [], s => (s, .ok ())
  | o :: l, s =>
    match perform S o s with
    | (t, .ok _) => performAll S l t
    | r => r
end

/-- `--checkpoints_.upper_bound(i)` (cellpyramid.hxx:173-175): the entry with the
largest key not above `i`; `none` if there is none (decrementing `begin()`). -/
def lastCk (c : Nat → Option (Level σ)) : Nat → Option (Nat × Level σ)
  | 0 => (c 0).map fun l => (0, l)
  | n + 1 =>
    match c (n + 1) with
    | some l => some (n + 1, l)
    | none => lastCk c n

/-- `Level::gotoLastCheckpointBefore` (cellpyramid.hxx:170-186): the level and
whether it was replaced. -/
def gotoCk (P : Pyr O σ) (L : Level σ) (i : Nat) : Outcome (Level σ × Bool) :=
  match lastCk P.cks i with
  | none => .ub
  | some (k, C) =>
    if L.index ≤ i ∧ k ≤ L.index then .ok (L, false) else .ok (C, true)

/-- Perform history entries, at most `n` of them, while the index is below `i`
(the loops cellpyramid.hxx:137-141 and 150-154).  `history_[index_]` out of range is
undefined.  The level is also returned when an operation throws. -/
def forward (S : Sys O σ) (P : Pyr O σ) (i : Nat) : Nat → Level σ → Level σ × Outcome Unit
  | 0, L => (L, .ok ())
  | n + 1, L =>
    if L.index < i then
      match P.hist[L.index]? with
      | none => (L, .ub)
      | some o =>
        match perform S o L.st with
        | (t, .ok _) => forward S P i n ⟨L.index + 1, t⟩
        | (t, r) => (⟨L.index, t⟩, r)
    else (L, .ok ())

/-- `Level::gotoLevel` (cellpyramid.hxx:146-155). -/
def gotoLevel (S : Sys O σ) (P : Pyr O σ) (L : Level σ) (i : Nat) : Level σ × Outcome Unit :=
  match gotoCk P L i with
  | .ok (L, _) => forward S P i (i - L.index) L
  | .precond => (L, .precond)
  | .ub => (L, .ub)
  | .hang => (L, .hang)

/-- `Level::approachLevel` (cellpyramid.hxx:132-144): a used checkpoint counts as a
step; the result tells whether the level was reached. -/
def approachLevel (S : Sys O σ) (P : Pyr O σ) (L : Level σ) (i maxSteps : Nat) :
    Level σ × Outcome Bool :=
  match gotoCk P L i with
  | .ok (L, used) =>
    let r := forward S P i (maxSteps - if used then 1 else 0) L
    (r.1, r.2.map fun _ => decide (r.1.index = i))
  | .precond => (L, .precond)
  | .ub => (L, .ub)
  | .hang => (L, .hang)

/-- `levelCount` (cellpyramid.hxx:489-492). -/
def levelCount (P : Pyr O σ) : Nat := P.hist.length + 1

/-- `getLastCheckpointBefore` (cellpyramid.hxx:472-480). -/
def getCk (P : Pyr O σ) (i : Nat) : Outcome (Level σ) :=
  if i < levelCount P then
    match lastCk P.cks i with
    | none => .ub
    | some (_, C) => .ok C
  else .precond

/-- `getLevel` (cellpyramid.hxx:482-487). -/
def getLevel (S : Sys O σ) (P : Pyr O σ) (i : Nat) : Outcome (Level σ) :=
  (getCk P i).bind fun C =>
    let r := gotoLevel S P C i
    r.2.map fun _ => r.1

/-- `storeCheckpoint` (cellpyramid.hxx:360-379). -/
def storeCheckpoint (S : Sys O σ) (P : Pyr O σ) (L : Level σ) : Pyr O σ :=
  { P with
    next := S.sub L.st + max (S.cells L.st / 4) 10
    cks := fun k => if k = L.index ∧ P.cks k = none then some L else P.cks k }

/-- The constructor (cellpyramid.hxx:381-388). -/
def init (S : Sys O σ) (s : σ) : Pyr O σ :=
  storeCheckpoint S ⟨fun _ => none, [], ⟨0, s⟩, 0, 0⟩ ⟨0, s⟩

/-- `if(topLevel_.subIndex_ >= nextCheckpointLevelIndex_) storeCheckpoint(topLevel_)`
(cellpyramid.hxx:324-325, 457-458). -/
def autoStore (S : Sys O σ) (P : Pyr O σ) : Pyr O σ :=
  if P.next ≤ S.sub P.top.st then storeCheckpoint S P P.top else P

/-- `cutApex` (cellpyramid.hxx:350-357).  Erasing from an iterator behind `end()` is
undefined, and so is decrementing the iterator of an empty map. -/
def cutApex (S : Sys O σ) (P : Pyr O σ) : Pyr O σ × Outcome Unit :=
  if P.top.index ≤ P.hist.length then
    let P := { P with
      hist := P.hist.take P.top.index
      cks := fun k => if k ≤ P.top.index then P.cks k else none }
    match lastCk P.cks P.top.index with
    | none => (P, .ub)
    | some (_, C) => (storeCheckpoint S P C, .ok ())
  else (P, .ub)

/-- `cutAbove(const Level &)` (cellpyramid.hxx:507-521). -/
def cutAboveLevel (S : Sys O σ) (P : Pyr O σ) (L : Level σ) : Pyr O σ × Outcome Unit :=
  if P.top.index ≠ levelCount P - 1 then (P, .precond)
  else if P.top.index ≠ L.index then cutApex S { P with top := L }
  else (P, .ok ())

/-- `cutAbove(unsigned int)` (cellpyramid.hxx:523-537). -/
def cutAbove (S : Sys O σ) (P : Pyr O σ) (i : Nat) : Pyr O σ × Outcome Unit :=
  if P.top.index ≠ levelCount P - 1 then (P, .precond)
  else if i < P.top.index then
    let r := gotoLevel S P P.top i
    match r.2 with
    | .ok _ => cutApex S { P with top := r.1 }
    | e => ({ P with top := r.1 }, e)
  else (P, .ok ())

/-- The operation performed on the top level (cellpyramid.hxx:322, 338); the index is
advanced separately. -/
def onTop (P : Pyr O σ) (s : σ) : Pyr O σ := { P with top := ⟨P.top.index, s⟩ }

/-- The branch of `addAndPerformOperation` outside composites (cellpyramid.hxx:316-332).
The handler calls `cutAbove`; if that throws, its exception leaves the function
instead of the original one, which is the same outcome here. -/
def addOutside (S : Sys O σ) (P : Pyr O σ) (o : O) : Pyr O σ × Outcome Unit :=
  let P := { P with hist := P.hist ++ [.basic o] }
  match perform S (.basic o) P.top.st with
  | (t, .ok _) => (autoStore S { P with top := ⟨P.top.index + 1, t⟩ }, .ok ())
  | (t, .precond) =>
    let r := cutAbove S (onTop P t) P.top.index
    match r.2 with
    | .ok _ => (r.1, .precond)
    | e => (r.1, e)
  | (t, r) => (onTop P t, r)

/-- The branch inside a composite (cellpyramid.hxx:333-346).  The last history entry
must be a composite, otherwise the wrong member of the union is used. -/
def addInside (S : Sys O σ) (P : Pyr O σ) (o : O) : Pyr O σ × Outcome Unit :=
  match P.hist.getLast? with
  | some (.composite l) =>
    match perform S (.basic o) P.top.st with
    | (t, .ok _) =>
      (onTop { P with hist := P.hist.dropLast ++ [.composite (l ++ [.basic o])] } t, .ok ())
    | (t, r) => (onTop P t, r)
  | _ => (P, .ub)

/-- `addAndPerformOperation` (cellpyramid.hxx:310-348), i.e. `mergeFaces` etc. (390-424). -/
def add (S : Sys O σ) (P : Pyr O σ) (o : O) : Pyr O σ × Outcome Unit :=
  if P.composing = 0 then addOutside S P o else addInside S P o

/-- `beginComposite` (cellpyramid.hxx:426-431). -/
def beginComposite (P : Pyr O σ) : Pyr O σ :=
  { P with
    hist := if P.composing = 0 then P.hist ++ [.composite []] else P.hist
    composing := P.composing + 1 }

/-- `changeIntoComposite` (cellpyramid.hxx:433-443). -/
def changeIntoComposite (P : Pyr O σ) : Pyr O σ × Outcome Unit :=
  if P.composing = 0 then
    match P.hist.getLast? with
    | none => (P, .ub)
    | some o =>
      ({ P with
          hist := P.hist.dropLast ++ [.composite [o]]
          composing := 1 }, .ok ())
  else ({ P with composing := P.composing + 1 }, .ok ())

/-- The unwrapping of a composite with a single entry (cellpyramid.hxx:449-455). -/
def unwrap : List (Op O) → Op O
  | [o] => o
  | l => .composite l

/-- `endComposite` (cellpyramid.hxx:445-460); the counter wraps at 0. -/
def endComposite (S : Sys O σ) (P : Pyr O σ) : Pyr O σ × Outcome Unit :=
  if P.composing = 1 then
    match P.hist.getLast? with
    | some (.composite l) =>
      (autoStore S { P with
          hist := P.hist.dropLast ++ [unwrap l]
          top := ⟨P.top.index + 1, P.top.st⟩
          composing := 0 }, .ok ())
    | _ => (P, .ub)
  else
    ({ P with composing := if P.composing = 0 then 4294967295 else P.composing - 1 }, .ok ())

end Verif.Pyramid
