import Verif.FourEight.Model
import Mathlib.Data.Finset.Prod
import Mathlib.Order.Interval.Finset.Basic
import Mathlib.Data.Int.Interval
import Mathlib.Logic.Relation

/-!
# What the pixel based map promises: specification

Nothing here refers to how the operations work: only to the image, the stored cell information and the counts.
-/

namespace Verif.FourEight
open Verif Verif.CellImage

/-- all pixels of the image -/
def Map.pixels (m : Map) : Finset (Int × Int) := Finset.Ico (-2) ((m.w : Int) - 2) ×ˢ Finset.Ico (-2) ((m.h : Int) - 2)

/-- the pixels of a cell -/
def Map.cell (m : Map) (c : Pixel) : Finset (Int × Int) := m.pixels.filter fun p => m.px p.1 p.2 = c

/-- `r` is the smallest rectangle around `S` (any empty rectangle, if there is nothing in `S`) -/
def IsBox (S : Finset (Int × Int)) (r : Rect) : Prop :=
  (∀ p ∈ S, (r.x0 ≤ p.1 ∧ p.1 < r.x1) ∧ (r.y0 ≤ p.2 ∧ p.2 < r.y1)) ∧
  (S = ∅ → r.isEmpty = true) ∧
  (S.Nonempty → (∃ p ∈ S, p.1 = r.x0) ∧ (∃ p ∈ S, p.1 + 1 = r.x1) ∧ (∃ p ∈ S, p.2 = r.y0) ∧ (∃ p ∈ S, p.2 + 1 = r.y1))

/-- what nodes, edges and faces have in common -/
structure Info where
  live : Bool
  box : Rect
  size : Nat
  deriving DecidableEq, Repr

def Node.info (n : Node) : Info := ⟨n.live, n.box, n.size⟩
def Edge.info (e : Edge) : Info := ⟨e.live, e.box, e.size⟩
def Face.info (f : Face) : Info := ⟨f.live, f.box, f.size⟩

/-- The stored information about the cells of one type fits the image: every pixel of this type belongs to an existing cell, the stored
bounds are the smallest rectangle, the stored size is the number of pixels (as `unsigned int`, and except for the infinite face, whose
size is meaningless). -/
structure Exact (m : Map) (t : CellType) (l : List Info) : Prop where
  owner : ∀ x y label, m.inside x y → m.px x y = (t, label) → ∃ a, l[label]? = some a ∧ a.live = true
  box : ∀ (label : Nat) (a : Info), l[label]? = some a → a.live = true → IsBox (m.cell (t, label)) a.box
  size : ∀ (label : Nat) (a : Info), l[label]? = some a → a.live = true → (t, label) ≠ (CellType.region, 0) →
    a.size = (m.cell (t, label)).card % 2 ^ 32

/-- All stored information fits the image. -/
structure Consistent (m : Map) : Prop where
  nodes : Exact m .vertex (m.nodes.map Node.info)
  edges : Exact m .line (m.edges.map Edge.info)
  faces : Exact m .region (m.faces.map Face.info)
  nodeCount : m.nodeCount = (m.nodes.countP (·.live)) % 2 ^ 32
  edgeCount : m.edgeCount = (m.edges.countP (·.live)) % 2 ^ 32
  faceCount : m.faceCount = (m.faces.countP (·.live)) % 2 ^ 32

/-- The frame around the image belongs to the infinite face 0, which exists. -/
structure Outer (m : Map) : Prop where
  ring : ∀ x y, m.inside x y → (x = -2 ∨ y = -2 ∨ x = m.w - 3 ∨ y = m.h - 3) → m.px x y = (.region, 0)
  exists_ : ∃ f, m.faces[0]? = some f ∧ f.live = true

/-- node `i` exists -/
def HasNode (m : Map) (i : Nat) : Prop := ∃ a, m.nodes[i]? = some a ∧ a.live = true
/-- edge `i` exists -/
def HasEdge (m : Map) (i : Nat) : Prop := ∃ a, m.edges[i]? = some a ∧ a.live = true
/-- face `i` exists -/
def HasFace (m : Map) (i : Nat) : Prop := ∃ a, m.faces[i]? = some a ∧ a.live = true

/-- the four Euler operations -/
inductive Op where
  | removeIsolatedNode (d : Dart)
  | mergeFaces (d : Dart)
  | removeBridge (d : Dart)
  | mergeEdges (d : Dart)

def run (m : Map) : Op → Outcome (Map × Nat)
  | .removeIsolatedNode d => removeIsolatedNode m d
  | .mergeFaces d => mergeFaces m d
  | .removeBridge d => removeBridge m d
  | .mergeEdges d => mergeEdges m d

/-- Every 4-neighbour of a pixel of node `n` belongs to the node or to face `f`. -/
def Isolated (m : Map) (n f : Nat) : Prop :=
  ∀ x y, m.inside x y → m.px x y = (.vertex, n) → ∀ k : Fin 8, k.val % 2 = 0 →
    m.inside (x + dx k) (y + dy k) ∧
    (m.px (x + dx k) (y + dy k) = (.vertex, n) ∨ m.px (x + dx k) (y + dy k) = (.region, f))

/-- The stored ends of the edge at dart `d` fit together: `d` is one of them, and what is left of one end is right of the other. -/
structure EndsFit (m : Map) (d : Dart) : Prop where
  init : m.init = true
  edge : ∃ e E l r, m.nb d 0 = .ok (.line, e) ∧ m.edges[e]? = some E ∧ E.live = true ∧ (d = E.start ∨ d = E.stop) ∧
    m.nb E.start 0 = .ok (.line, e) ∧ m.nb E.stop 0 = .ok (.line, e) ∧
    leftFace m E.start = .ok l ∧ rightFace m E.start = .ok r ∧ leftFace m E.stop = .ok r ∧ rightFace m E.stop = .ok l ∧
    (m.cell (.region, l)).Nonempty ∧ (m.cell (.region, r)).Nonempty

/-- what an operation is allowed to be called with -/
def Allowed (m : Map) : Op → Prop
  | .removeIsolatedNode d => ∀ n f, nodeLabel m d = .ok n → leftFace m d = .ok f → Isolated m n f
  | .mergeFaces d => EndsFit m d
  | .removeBridge _ => True
  | .mergeEdges _ => True

/-- one call that returns normally -/
def Step (m m' : Map) : Prop := ∃ op l, Allowed m op ∧ run m op = .ok (m', l)

/-- histories -/
def Reach : Map → Map → Prop := Relation.ReflTransGen Step

end Verif.FourEight
