import Verif.GeoMap.ModelInit
import Mathlib.Logic.Function.Basic

/-!
# Crack edge maps

Models `crackConnectionImage` (src/geomap/vigra/crackconnections.hxx:46-118) and `CrackEdgeMapGenerator`
(src/geomap/crackedgemap.hxx:39-147, crackedgemap.cxx:32-229), with the `GeoMap` of `Verif/GeoMap` as result.

Simplifications: an image is a function on all integer positions; reading outside of it is `ub`, and the loops of the
code name the positions they visit.  The bits of a pixel of `crackConnections` are a structure of truth values, a pixel of
`nodeImage` (0, or `(label + 1) << 4` and four bits) is an optional label with four truth values.
-/

namespace Verif.Crack
open Verif Verif.GeoMap

/-- an image position; for crack images, a pixel corner -/
abbrev Pos := Int × Int

/-- vigra's `FourNeighborCode` directions; y grows downwards -/
inductive Dir
  | E | N | W | S
deriving DecidableEq, Repr

namespace Dir
/-- `turnLeft()` -/
def left : Dir → Dir
  | E => N | N => W | W => S | S => E
/-- `turnRight()` -/
def right : Dir → Dir
  | E => S | S => W | W => N | N => E
/-- `opposite()`, `turnRound()` -/
def opp : Dir → Dir
  | E => W | W => E | N => S | S => N
/-- `diff()` -/
def diff : Dir → Pos
  | E => (1, 0) | N => (0, -1) | W => (-1, 0) | S => (0, 1)
end Dir

/-- crackedgemap.hxx:70-85: `CONN_RIGHT`, `CONN_DOWN`, `CONN_LEFT`, `CONN_UP`, `CONN_DIAG_UPLEFT`,
`CONN_DIAG_UPRIGHT`, `CONN_NODE`, `CONN_MAYBE_NODE` -/
structure Conn where
  r : Bool := false
  d : Bool := false
  l : Bool := false
  u : Bool := false
  ul : Bool := false
  ur : Bool := false
  node : Bool := false
  maybe : Bool := false
deriving DecidableEq, Repr

namespace Conn
/-- `conn & connections[dir]`, crackedgemap.cxx:102-103 -/
def has (c : Conn) : Dir → Bool
  | .E => c.r | .N => c.u | .W => c.l | .S => c.d
/-- `conn & ~connections[dir]` -/
def clear (c : Conn) : Dir → Conn
  | .E => { c with r := false } | .N => { c with u := false }
  | .W => { c with l := false } | .S => { c with d := false }
/-- `conn & CONN_DIAG` -/
def diag (c : Conn) : Bool := c.ul || c.ur
/-- the integer -/
def toNat (c : Conn) : Nat :=
  c.r.toNat + 2 * c.d.toNat + 4 * c.l.toNat + 8 * c.u.toNat + 16 * c.ul.toNat + 32 * c.ur.toNat +
    64 * c.node.toNat + 128 * c.maybe.toNat
/-- `(conn & CONN_ALL4) == 0` -/
def none4 (c : Conn) : Bool := !c.r && !c.d && !c.l && !c.u
/-- `conn == CONN_ALL4` -/
def isAll4 (c : Conn) : Bool := c = { r := true, d := true, l := true, u := true }
end Conn

/-- `crackConnections` -/
structure CImg where
  get : Pos → Conn

/-- writing a pixel -/
def put (im : CImg) (p : Pos) (c : Conn) : CImg := ⟨Function.update im.get p c⟩

section Image
variable {α : Type} [LinearOrder α]

/-- crackconnections.hxx:60-81: the first row -/
def firstRow (lab : Pos → α) (w : Nat) (im : CImg) : CImg :=
  let im := put im (0, 0) { r := true, d := true }
  let im := (List.range (w - 1)).foldl (fun im (i : Nat) =>
    put im ((i : Int) + 1, 0) { r := true, d := lab ((i : Int), 0) ≠ lab ((i : Int) + 1, 0) }) im
  put im ((w : Int), 0) { d := true }

/-- crackconnections.hxx:87-115: one of the middle rows -/
def midRow (lab : Pos → α) (w : Nat) (im : CImg) (y : Int) : CImg :=
  let im := put im (0, y) { d := true, r := lab (0, y - 1) ≠ lab (0, y) }
  let im := (List.range (w - 1)).foldl (fun im (i : Nat) =>
    put im ((i : Int) + 1, y) { r := lab ((i : Int) + 1, y - 1) ≠ lab ((i : Int) + 1, y),
                                d := lab ((i : Int), y) ≠ lab ((i : Int) + 1, y) }) im
  put im ((w : Int), y) { d := true }

/-- crackconnections.hxx:118-122: the last row -/
def lastRow (w h : Nat) (im : CImg) : CImg :=
  (List.range w).foldl (fun im (i : Nat) => put im ((i : Int), (h : Int)) { r := true }) im

/-- crackconnections.hxx:46-123 `crackConnectionImage` of a `w` × `h` image into an image of zeros; the iterators of an
empty image run past its end. -/
def crackConnectionImage (lab : Pos → α) (w h : Nat) : Outcome CImg :=
  if w = 0 ∨ h = 0 then .ub
  else
    let im := firstRow lab w ⟨fun _ => {}⟩
    let im := (List.range (h - 1)).foldl (fun im (i : Nat) => midRow lab w im ((i : Int) + 1)) im
    .ok (lastRow w h im)

/-- crackedgemap.cxx:42-43 -/
def symRight (im : CImg) (p : Pos) : CImg :=
  if (im.get p).r then put im (p.1 + 1, p.2) { im.get (p.1 + 1, p.2) with l := true } else im
/-- crackedgemap.cxx:44-45 -/
def symDown (im : CImg) (p : Pos) : CImg :=
  if (im.get p).d then put im (p.1, p.2 + 1) { im.get (p.1, p.2 + 1) with u := true } else im

/-- crackedgemap.cxx:32-54 `makeCCSymmetric` -/
def makeCCSymmetric (w h : Nat) (im : CImg) : CImg :=
  let im := (List.range h).foldl (fun im (y : Nat) =>
    symDown ((List.range w).foldl (fun im (x : Nat) => symDown (symRight im ((x : Int), (y : Int))) ((x : Int), (y : Int))) im)
      ((w : Int), (y : Int))) im
  (List.range w).foldl (fun im (x : Nat) => symRight im ((x : Int), (h : Int))) im

/-- crackedgemap.hxx:122-145: one corner of `markEightConnectedRegions` -/
def markEight (lab : Pos → α) (p : Pos) (c : Conn) : Conn :=
  if c.isAll4 then
    let c := if lab p = lab (p.1 - 1, p.2 - 1) then { c with ul := true } else c
    let c := if lab (p.1 - 1, p.2) = lab (p.1, p.2 - 1) then { c with ur := true } else c
    if c.ul ∧ c.ur then
      if lab (p.1, p.2 - 1) > lab (p.1 - 1, p.2 - 1) then { c with ul := false } else { c with ur := false }
    else c
  else c

/-- crackedgemap.hxx:110-147 `markEightConnectedRegions`: the inner corners -/
def markEightConnectedRegions (lab : Pos → α) (w h : Nat) (im : CImg) : CImg :=
  (List.range (h - 1)).foldl (fun im (y : Nat) => (List.range (w - 1)).foldl (fun im (x : Nat) =>
    put im ((x : Int) + 1, (y : Int) + 1) (markEight lab ((x : Int) + 1, (y : Int) + 1) (im.get ((x : Int) + 1, (y : Int) + 1)))) im) im

end Image

/-- a loop over positions -/
def forAll {σ : Type} (f : σ → Pos → Outcome σ) : List Pos → σ → Outcome σ
  | [], s => .ok s
  | p :: l, s => (f s p).bind fun t => forAll f l t

/-- all corners of a `w` × `h` image, row by row -/
def raster (w h : Nat) : List Pos :=
  (List.range (h + 1)).flatMap fun (y : Nat) => (List.range (w + 1)).map fun (x : Nat) => ((x : Int), (y : Int))

/-- crackedgemap.cxx:58-61 -/
def conn2degree : List Nat :=
  [0, 1, 1, 2, 1, 2, 2, 3, 1, 2, 2, 3, 2, 3, 3, 4,
   0, 1, 1, 2, 1, 2, 2, 3, 1, 2, 2, 3, 2, 3, 3, 2,
   0, 1, 1, 2, 1, 2, 2, 3, 1, 2, 2, 3, 2, 3, 3, 2]

/-- crackedgemap.cxx:70-79: one corner of `markNodes`; reading behind the table is undefined -/
def markNode (c : Conn) : Outcome Conn :=
  match conn2degree[c.toNat]? with
  | none => .ub
  | some n =>
    if n > 2 then .ok { c with node := true }
    else if (c.r && c.d && !c.l && !c.u) || c.diag then .ok { c with maybe := true }
    else .ok c

/-- crackedgemap.cxx:56-81 `markNodes` -/
def markNodes (w h : Nat) (im : CImg) : Outcome CImg :=
  forAll (fun im p => (markNode (im.get p)).bind fun c => .ok (put im p c)) (raster w h) im

section
variable {K : Type} [Field K] [LinearOrder K]

/-- `Vector2(pos.x - 0.5, pos.y - 0.5)` -/
def vec (p : Pos) : Pt K := ((p.1 : K) - 1 / 2, (p.2 : K) - 1 / 2)

/-- crackedgemap.cxx:96-100 `dirVector` -/
def dirVec : Dir → Pt K
  | .E => (1, 0) | .N => (0, -1) | .W => (-1, 0) | .S => (0, 1)

/-- crackedgemap.cxx:145-147: `while((connection & connections[dir.direction()]) == 0) dir.turnLeft();` -/
def findDir (c : Conn) : Nat → Dir → Outcome Dir
  | 0, _ => .hang
  | n + 1, dir => if c.has dir then .ok dir else findDir c n dir.left

/-- crackedgemap.cxx:121-124 -/
def turnsLeft (c : Conn) (dir : Dir) : Bool :=
  if c.ul then dir = .N ∨ dir = .S else dir = .E ∨ dir = .W

/-- crackedgemap.cxx:118-137: passing a diagonal connection; new pixel value and direction -/
def passDiag (c : Conn) (dir : Dir) : Conn × Dir :=
  let c1 := c.clear dir.opp
  let dir' := if turnsLeft c dir then dir.left else dir.right
  let c2 := c1.clear dir'
  (if c2.none4 then { c2 with maybe := false } else c2, dir')

/-- is the corner in the image? -/
def inside (w h : Nat) (p : Pos) : Prop := 0 ≤ p.1 ∧ p.1 ≤ w ∧ 0 ≤ p.2 ∧ p.2 ≤ h

instance (w h : Nat) (p : Pos) : Decidable (inside w h p) := by unfold inside; infer_instance

/-- what `followEdge` returns -/
structure Followed (K : Type) where
  cc : CImg
  pos : Pos
  dir : Dir
  points : List (Pt K)

/-- crackedgemap.cxx:105-149: the loop of `followEdge` -/
def followLoop (w h : Nat) (start : Pos) : Nat → CImg → Pos → Dir → Pt K → List (Pt K) → Outcome (Followed K)
  | 0, _, _, _, _, _ => .hang
  | n + 1, cc, pos, dir, v, pts =>
    let v := v + dirVec dir
    let pts := pts ++ [v]
    let pos := pos + dir.diff
    if pos = start then .ok ⟨cc, pos, dir.opp, pts⟩
    else if ¬ inside w h pos then .ub
    else
      let c := cc.get pos
      if c.diag then
        let x := passDiag c dir
        followLoop w h start n (put cc pos x.1) pos x.2 v pts
      else if c.node then .ok ⟨cc, pos, dir.opp, pts⟩
      else
        let cc := if c.maybe then put cc pos { c with maybe := false } else cc
        (findDir c 4 dir.right).bind fun dir => followLoop w h start n cc pos dir v pts

/-- fuel: more than the number of directed cracks -/
def fuel (w h : Nat) : Nat := 4 * ((w + 1) * (h + 1)) + 1

/-- crackedgemap.cxx:83-153 `followEdge` -/
def followEdge (w h : Nat) (cc : CImg) (pos : Pos) (dir : Dir) : Outcome (Followed K) :=
  followLoop w h pos (fuel w h) cc pos dir (vec pos) [vec pos]

/-- crackedgemap.hxx:87-88: `crackConnections`, `nodeImage`, `result` -/
structure Gen (K : Type) where
  cc : CImg
  ni : Pos → Option (Nat × (Dir → Bool))
  map : GMap K

/-- crackedgemap.cxx:173-180, 196-205: the node at a position, added if there is none -/
def nodeAt (g : Gen K) (p : Pos) : (Nat × (Dir → Bool)) × GMap K :=
  match g.ni p with
  | some x => (x, g.map)
  | none =>
    let r := g.map.addNodeAt (vec p) 0
    ((r.1, fun _ => false), r.2)

/-- `info | connections[dir]` -/
def use (u : Dir → Bool) (dir : Dir) : Dir → Bool := fun x => u x || x = dir

/-- crackedgemap.cxx:188-222: one direction; `lab` and `used` are `startNodeInfo` -/
def tryDir (w h : Nat) (p : Pos) (lab : Nat) (x : Gen K × (Dir → Bool)) (dir : Dir) : Outcome (Gen K × (Dir → Bool)) :=
  let g := x.1
  let used := x.2
  if (g.cc.get p).has dir && !used dir then
    (followEdge (K := K) w h g.cc p dir).bind fun f =>
      let e := nodeAt { g with cc := f.cc } f.pos
      (e.2.addEdge (.node lab) (.node e.1.1) f.points 0).bind fun r =>
        let used := use used dir
        if lab = e.1.1 then
          let used := use used f.dir
          .ok ({ cc := f.cc, ni := Function.update g.ni p (some (lab, used)), map := r.2 }, used)
        else
          .ok ({ cc := f.cc, ni := Function.update (Function.update g.ni p (some (lab, used))) f.pos
                  (some (e.1.1, use e.1.2 f.dir)), map := r.2 }, used)
  else .ok x

/-- crackedgemap.cxx:163-226: one position; `flag` is `conn & connMask` -/
def startAt (w h : Nat) (flag : Conn → Bool) (g : Gen K) (p : Pos) : Outcome (Gen K) :=
  if flag (g.cc.get p) then
    let n := nodeAt g p
    let g := { g with ni := Function.update g.ni p (some n.1), map := n.2 }
    (((tryDir w h p n.1.1 (g, n.1.2) .E).bind fun x => tryDir w h p n.1.1 x .N).bind fun x =>
      tryDir w h p n.1.1 x .W).bind fun x => (tryDir w h p n.1.1 x .S).bind fun x => .ok x.1
  else .ok g

/-- crackedgemap.cxx:155-229 `followAllEdgesStartingWith` -/
def followAll (w h : Nat) (flag : Conn → Bool) (g : Gen K) : Outcome (Gen K) :=
  forAll (startAt w h flag) (raster w h) g

/-- crackedgemap.hxx:43-57, constructor of `CrackEdgeMapGenerator` -/
def generate {α : Type} [LinearOrder α] (lab : Pos → α) (w h : Nat) (eight : Bool) : Outcome (Gen K) :=
  (crackConnectionImage lab w h).bind fun im =>
    let im := makeCCSymmetric w h im
    let im := if eight then markEightConnectedRegions lab w h im else im
    (markNodes w h im).bind fun cc =>
      (followAll w h Conn.node { cc := cc, ni := fun _ => none, map := GMap.empty }).bind fun g =>
        followAll w h Conn.maybe g

end
end Verif.Crack
