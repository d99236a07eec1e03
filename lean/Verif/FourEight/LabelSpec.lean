import Verif.FourEight.DartSpec
import Verif.FourEight.Labels

/-!
# Labels of edges: specification
-/

namespace Verif.FourEight
open Verif Verif.CellImage

/-- Two pixels of edges are neighbours along an edge: side by side, or diagonally with two face pixels between them. -/
def EdgeNext (m : Map) (p q : Int × Int) : Prop :=
  (m.px p.1 p.2).1 = .line ∧ (m.px q.1 q.2).1 = .line ∧ ∃ k : Fin 8, q = (p.1 + dx k, p.2 + dy k) ∧
    (k.val % 2 = 1 → (m.look p.1 p.2 (k + 1)).1 = .region ∧ (m.look p.1 p.2 (k + 7)).1 = .region)

/-- Two pixels belong to the same edge: one can go from one to the other along pixels of edges. -/
def SameEdge (m : Map) : Int × Int → Int × Int → Prop := Relation.ReflTransGen (EdgeNext m)

/-- pixel of an edge -/
def Map.isLine (m : Map) (p : Int × Int) : Prop := m.inside p.1 p.2 ∧ (m.px p.1 p.2).1 = .line

/-- label of a pixel -/
def Map.label (m : Map) (p : Int × Int) : Nat := (m.px p.1 p.2).2

/-- Every pixel of an edge has one of the labels 1, ..., `n`, all of them are used, and two pixels have the same label exactly if they
belong to the same edge. -/
structure EdgesLabelled (m : Map) (n : Nat) : Prop where
  range : ∀ p, m.isLine p → 1 ≤ m.label p ∧ m.label p ≤ n
  used : ∀ l, 1 ≤ l → l ≤ n → ∃ p, m.isLine p ∧ m.label p = l
  same : ∀ p q, m.isLine p → m.isLine q → (m.label p = m.label q ↔ SameEdge m p q)

/-- the first pixel of a node, line by line -/
structure FirstOf (m : Map) (x y : Int) : Prop where
  inside : m.inside x y
  node : (m.px x y).1 = .vertex
  first : ∀ x' y', m.inside x' y' → (m.px x' y').1 = .vertex → (m.px x' y').2 = (m.px x y).2 → y < y' ∨ y = y' ∧ x ≤ x'

/-- `n` times `nextSigma` -/
def sigmas (m : Map) : Nat → Dart → Outcome Dart
  | 0, d => .ok d
  | n + 1, d => (sigmas m n d).bind (sigma m 1)

/-- No dart of a node is hidden in a hole of the node: `nextSigma` reaches every dart of a node from the dart that is found from the west
of its first pixel. -/
def OneRim (m : Map) : Prop := ∀ x y d, FirstOf m x y → IsDart m d → (m.px d.x d.y).2 = (m.px x y).2 →
  ∃ a n, mkDart m ⟨x, y, 4⟩ = .ok a ∧ sigmas m n a = .ok d

/-- pixels of an image that do not belong to its margin -/
def Inner (w h : Nat) (x y : Int) : Prop := -2 < x ∧ x < (w : Int) - 3 ∧ -2 < y ∧ y < (h : Int) - 3

/-- What `labelImageWithBackground` promises for the nodes and faces: labels from 1 to the largest one, the same for neighbouring pixels
(eight neighbours for nodes, four for faces). -/
structure Components.Sane (v : Components) (w h : Nat) (cells : Int → Int → CellType) : Prop where
  node : ∀ x y, cells x y = .vertex → 1 ≤ v.node x y ∧ v.node x y ≤ v.maxNode
  nodeNext : ∀ x y (k : Fin 8), cells x y = .vertex → cells (x + dx k) (y + dy k) = .vertex →
    v.node (x + dx k) (y + dy k) = v.node x y
  nodeUsed : 1 ≤ v.maxNode → ∃ x y, -2 ≤ x ∧ x < (w : Int) - 2 ∧ -2 ≤ y ∧ y < (h : Int) - 2 ∧ cells x y = .vertex ∧ v.node x y = v.maxNode
  face : ∀ x y, Inner w h x y → cells x y = .region → 1 ≤ v.face x y ∧ v.face x y ≤ v.maxFace
  faceNext : ∀ x y (k : Fin 8), k.val % 2 = 0 → Inner w h x y → Inner w h (x + dx k) (y + dy k) → cells x y = .region →
    cells (x + dx k) (y + dy k) = .region → v.face (x + dx k) (y + dy k) = v.face x y
  faceUsed : 1 ≤ v.maxFace → ∃ x y, Inner w h x y ∧ cells x y = .region ∧ v.face x y = v.maxFace

end Verif.FourEight
