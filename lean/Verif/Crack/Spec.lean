import Verif.Crack.Model

/-!
# Cracks

What a crack is, stated for the label image alone.
-/

namespace Verif.Crack
open Verif

variable {α : Type}

/-- The label of a pixel, `none` outside of the image. -/
def pix (lab : Pos → α) (w h : Nat) (p : Pos) : Option α :=
  if 0 ≤ p.1 ∧ p.1 < w ∧ 0 ≤ p.2 ∧ p.2 < h then some (lab p) else none

/-- The pixel to the left of the unit step from the corner `p` in the given direction; the corner `(x, y)` is the upper
left corner of the pixel `(x, y)`, and y grows downwards. -/
def leftPix (p : Pos) : Dir → Pos
  | .E => (p.1, p.2 - 1)
  | .N => (p.1 - 1, p.2 - 1)
  | .W => (p.1 - 1, p.2)
  | .S => (p.1, p.2)

/-- the pixel to the right of the step -/
def rightPix (p : Pos) : Dir → Pos
  | .E => (p.1, p.2)
  | .N => (p.1, p.2 - 1)
  | .W => (p.1 - 1, p.2 - 1)
  | .S => (p.1 - 1, p.2)

/-- There is a crack from the corner `p` in direction `dir`: the labels on both sides differ, or one of the pixels is
outside of the image. -/
def IsCrack (lab : Pos → α) (w h : Nat) (p : Pos) (dir : Dir) : Prop :=
  pix lab w h (leftPix p dir) ≠ pix lab w h (rightPix p dir)

instance [DecidableEq α] (lab : Pos → α) (w h : Nat) (p : Pos) (dir : Dir) : Decidable (IsCrack lab w h p dir) := by
  unfold IsCrack; infer_instance

/-- number of cracks that meet in a corner -/
def crackCount [DecidableEq α] (lab : Pos → α) (w h : Nat) (p : Pos) : Nat :=
  (decide (IsCrack lab w h p .E)).toNat + (decide (IsCrack lab w h p .N)).toNat + (decide (IsCrack lab w h p .W)).toNat +
    (decide (IsCrack lab w h p .S)).toNat

/-- Two of the four pixels around the corner touch diagonally and have the same label. -/
def Touches (lab : Pos → α) (p : Pos) : Prop :=
  lab (p.1 - 1, p.2 - 1) = lab (p.1, p.2) ∨ lab (p.1 - 1, p.2) = lab (p.1, p.2 - 1)

/-- A corner where edges have to end: three or four cracks meet; with eight-connected regions, not if there are four and
two of the pixels belong to the same region. -/
def Junction [DecidableEq α] (lab : Pos → α) (w h : Nat) (eight : Bool) (p : Pos) : Prop :=
  3 ≤ crackCount lab w h p ∧ ¬ (eight = true ∧ crackCount lab w h p = 4 ∧ Touches lab p)

section
open Verif.GeoMap
variable {K : Type} [Field K] [LinearOrder K]

/-- The `i`-th segment of the dart `d` is the unit step from the corner `p` in direction `x`.  (Corner `(x, y)` has the
coordinates `(x - ½, y - ½)`, since pixel centres have integer coordinates.) -/
def Step (m : GMap K) (d : Int) (i : Nat) (p : Pos) (x : Dir) : Prop :=
  ∃ e, m.edge d.natAbs = some e ∧ (e.dartPts d)[i]? = some (vec p) ∧ (e.dartPts d)[i + 1]? = some (vec (p + x.diff))

/-- A map of the cracks of the image. -/
structure CrackMap [DecidableEq α] (lab : Pos → α) (w h : Nat) (eight : Bool) (m : GMap K) : Prop where
  /-- each crack, in each direction, is one segment of one dart -/
  each_crack : ∀ p x, IsCrack lab w h p x → ∃! di : Int × Nat, Step m di.1 di.2 p x
  /-- edges have at least one segment, and all their segments are cracks -/
  only_cracks : ∀ d e, m.edge (Int.natAbs d) = some e → 2 ≤ e.pts.length ∧
    ∀ i, i + 1 < e.pts.length → ∃ p x, Step m d i p x ∧ IsCrack lab w h p x
  /-- every junction is a node -/
  junctions : ∀ p, Junction lab w h eight p → ∃ n nd, m.node n = some nd ∧ nd.pos = vec p
  /-- the other nodes are where an edge without junctions starts and ends -/
  nodes : ∀ n nd, m.node n = some nd → ∃ p, nd.pos = vec p ∧ (∃ x, IsCrack lab w h p x) ∧
    (Junction lab w h eight p ∨ ∃ l e, m.edge l = some e ∧ e.startN = n ∧ e.endN = n)
  /-- there is only one node at a position -/
  distinct : ∀ n n' nd nd', m.node n = some nd → m.node n' = some nd' → nd.pos = nd'.pos → n = n'
  /-- edges end at nodes -/
  ends : ∀ l e, m.edge l = some e → ∃ nd nd', m.node e.startN = some nd ∧ m.node e.endN = some nd' ∧
    e.pts.head? = some nd.pos ∧ e.pts.getLast? = some nd'.pos
  /-- an edge does not pass through a junction or through its own end node -/
  inner : ∀ l e i p, m.edge l = some e → e.pts[i]? = some (vec p) → i ≠ 0 → i + 1 < e.pts.length →
    ¬ Junction lab w h eight p ∧ e.pts.head? ≠ some (vec p) ∧ e.pts.getLast? ≠ some (vec p)
  /-- an edge separates the same two labels all along -/
  sides : ∀ d i j p q x y, Step m d i p x → Step m d j q y →
    pix lab w h (leftPix p x) = pix lab w h (leftPix q y) ∧ pix lab w h (rightPix p x) = pix lab w h (rightPix q y)

end
end Verif.Crack
