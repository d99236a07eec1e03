import Verif.Eventually.Model
import Verif.GeoMap.Inv
import Verif.PointIter.Props

/-!
# Specification: the angles at which darts leave a circle, and orders that respect them
-/

namespace Verif.Eventually
open Verif Verif.GeoMap Verif.PointIter Verif.DartPos

/-- `p` is the first point of the polyline `L` on the circle around `c` with the squared radius `r2`, or the last point of `L` if
the polyline does not leave the circle. -/
def Crossing (L : List (Pt ℝ)) (c : Pt ℝ) (r2 : ℝ) (p : Pt ℝ) : Prop :=
  (∃ k a b, ∃ t : ℝ, L[k]? = some a ∧ L[k + 1]? = some b ∧ (∀ j v, j ≤ k → L[j]? = some v → sqMag (v - c) < r2) ∧
    r2 ≤ sqMag (b - c) ∧ 0 ≤ t ∧ t ≤ 1 ∧ p = a + t • (b - a) ∧ sqMag (p - c) = r2) ∨
  ((∀ v ∈ L, sqMag (v - c) < r2) ∧ L.getLast? = some p)

/-- The angle of `p` seen from `c`, in `[-π, π)`; the y axis points downwards. -/
noncomputable def angleOf (c p : Pt ℝ) : ℝ := normAngle (atan2 (c.2 - p.2) (p.1 - c.1))

/-- The list `r` agrees with the angles `w` across every gap of the width `m`: if no dart has an angle between `a` and `a + m`, the
darts below the gap come before those above it. -/
def AgreesAcrossGaps (m : ℝ) (w : Int → ℝ) (r : List Int) : Prop :=
  ∀ a, (∀ d ∈ r, w d ≤ a ∨ a + m ≤ w d) → r.Pairwise fun x y => ¬ (w y ≤ a ∧ a + m ≤ w x)

/-- The angles `w` are the angles `θ` up to full turns, counted from some starting direction on. -/
def Unwrapped (θ w : Int → ℝ) (r : List Int) : Prop :=
  ∃ cut : ℝ, ∀ d ∈ r, (w d = θ d ∨ w d = θ d + 2 * Real.pi) ∧ cut ≤ w d ∧ w d < cut + 2 * Real.pi

/-- `r` lists the darts at the node `n` in the order of sigma. -/
def SigmaList (s : GMap ℝ) (n : Nat) (r : List Int) : Prop :=
  r.Nodup ∧ (∀ d, d ∈ r ↔ s.startN? d = some n) ∧ ∀ i (h : i < r.length), s.sigma r[i] = r[(i + 1) % r.length]'(Nat.mod_lt _ (by omega))

/-- Every edge has at least two points. -/
def EdgesLong (s : GMap ℝ) : Prop := ∀ l e, s.edge l = some e → 2 ≤ e.pts.length

/-- The order of the darts at the node `n` agrees with the directions in which they leave the circle. -/
def OrderOK (s t : GMap ℝ) (r2 m : ℝ) (n : Nat) : Prop :=
  ∀ nd, s.node n = some nd → ∃ (r : List Int) (p : Int → Pt ℝ) (w : Int → ℝ), SigmaList t n r ∧
    (∀ d ∈ r, Crossing (pointsOf s d) nd.pos r2 (p d)) ∧ Unwrapped (fun d => angleOf nd.pos (p d)) w r ∧ AgreesAcrossGaps m w r

/-- New groups of unsortable darts at the node `n`. -/
structure GroupsOK (t : GMap ℝ) (n : Nat) (u : List Int) : Prop where
  two : 2 ≤ u.length
  start : ∀ d ∈ u, t.startN? d = some n
  next : u.IsChain fun d d' => t.sigma d = d'

/-- At the first circle around the node `n`, any two darts are at least the angle `m` apart. -/
def Separated (s : GMap ℝ) (r2 m : ℝ) (n : Nat) : Prop :=
  ∀ nd, s.node n = some nd → ∀ x y p q, x ≠ y → s.startN? x = some n → s.startN? y = some n →
    Crossing (pointsOf s x) nd.pos r2 p → Crossing (pointsOf s y) nd.pos r2 q →
    m ≤ |angleOf nd.pos p - angleOf nd.pos q| ∧ |angleOf nd.pos p - angleOf nd.pos q| ≤ 2 * Real.pi - m

/-- At most `N` darts start at every node. -/
def DegreeLE (s : GMap ℝ) (N : Nat) : Prop :=
  ∀ (n : Nat) (l : List Int), l.Nodup → (∀ d ∈ l, s.startN? d = some n) → l.length ≤ N

/-- The darts at the node `n` leave the circle at the points `p`; these lie all around the node: their mean is the position of the
node, and after each of them another one follows at less than the angle `m`. -/
structure AllAround (s : GMap ℝ) (r2 m : ℝ) (n : Nat) (nd : Node ℝ) (p : Int → Pt ℝ) : Prop where
  node : s.node n = some nd
  dart : ∃ d, s.startN? d = some n
  leaves : ∀ d, s.startN? d = some n → Crossing (pointsOf s d) nd.pos r2 (p d) ∧ sqMag (p d - nd.pos) = r2
  mean : ∀ r : List Int, r.Nodup → (∀ d, d ∈ r ↔ s.startN? d = some n) → (r.map fun d => p d - nd.pos).sum = 0
  around : ∀ d, s.startN? d = some n → ∃ d', s.startN? d' = some n ∧ ∃ (g : ℝ) (k : ℤ), 0 < g ∧ g < m ∧
    angleOf nd.pos (p d') = angleOf nd.pos (p d) + g + k * (2 * Real.pi)

end Verif.Eventually
