import Verif.Copy.Model
import Verif.NodeIndex.Props

/-!
# What can be seen of a map

The specification for `Verif.Copy`: everything the methods of a map show, read through the pointers, and when the pointers of
a heap are in order.
-/

namespace Verif.Copy
open Verif Verif.GeoMap Verif.LabelLUT Verif.NodeIndex

variable {K : Type}

/-- What a cell of `m` shows: for the darts of a face (`contour()`), whether they belong to `m`, and their labels.  The
scanlines are computed from the points when they are not there. -/
inductive Shown (K : Type) where
  | node (pos : Pt K) (anchor : Int)
  | edge (startN endN : Nat) (leftF rightF : Option Nat) (pts : List (Pt K)) (flags : Nat)
  | face (anchors : List (Prop × Int)) (area : Option K) (pixelArea : Nat)

def Data.shown (m : Nat) : Data K → Shown K
  | .node p a => .node p a
  | .edge s e l r pts f _ => .edge s e l r pts f
  | .face as ar px => .face (as.map fun d => (d.map = m, d.label)) ar px

/-- All there is to see of a map. -/
structure View (K : Type) where
  /-- `node(l)`, `edge(l)`, `face(l)`: whether `map()` of the cell is this map, its label, its members -/
  cell : Kind → Nat → Option (Prop × Nat × Shown K)
  /-- `maxNodeLabel()`, `maxEdgeLabel()`, `maxFaceLabel()` -/
  max : Kind → Nat
  /-- `nodeCount()`, … -/
  count : Kind → Nat
  /-- `nextSigma`, `prevSigma` of a dart label; `none` is an access outside the array -/
  next : Int → Option Int
  prev : Int → Option Int
  size : Nat × Nat
  /-- the label image, with the lookup table it is read through -/
  image : Option (Option (Int × Int → Int) × LUT)
  sorted : Bool

/-- Reading an array through an iterator. -/
def Heap.read (h : Heap K) (arr : MapObj K → List Int) (it : Nat × Nat) (d : Int) : Option Int :=
  if 0 ≤ it.2 + d then (h.map it.1).bind fun M => (arr M)[(it.2 + d).toNat]? else none

/-- The cell behind a pointer, as seen from the map `m`. -/
def Heap.show (h : Heap K) (m : Nat) : Option (Option Nat) → Option (Prop × Nat × Shown K)
  | some (some a) => (h.cell a).map fun c => (c.map = some m, c.label, c.data.shown m)
  | _ => none

/-- What the methods of the map `m` show, `none` if there is no such map. -/
def Heap.view (h : Heap K) (m : Nat) : Option (View K) :=
  (h.map m).map fun M =>
    { cell := fun k l => h.show m (M.table k)[l]?
      max := fun k => (M.table k).length
      count := M.count
      next := h.read MapObj.sigma M.sigmaAt
      prev := h.read MapObj.sigmaInv M.invAt
      size := M.size
      image := M.img.map fun a => (h.image a, M.lut)
      sorted := M.sorted }

/-- The darts stored in a cell belong to the map. -/
def Data.Own (m : Nat) : Data K → Prop
  | .face as _ _ => ∀ d ∈ as, d.map = m
  | _ => True

/-- The map `m` has its own cells, under their labels, and its own arrays and label image. -/
structure MapWell (h : Heap K) (m : Nat) (M : MapObj K) : Prop where
  here : m < h.fresh
  cells : ∀ k (l a : Nat), (M.table k)[l]? = some (some a) → a < h.fresh ∧
    ∃ c, h.cell a = some c ∧ c.map = some m ∧ c.label = l ∧ c.data.kind = k ∧ c.data.Own m
  image : ∀ a, M.img = some a → a < h.fresh ∧ ∃ im, h.image a = some im
  sigma : M.sigmaAt = (m, M.sigma.length / 2)
  inv : M.invAt = (m, M.sigmaInv.length / 2)

/-- All maps are well, and no two share a label image. -/
structure Well (h : Heap K) : Prop where
  maps : ∀ m M, h.map m = some M → MapWell h m M
  apart : ∀ m M m' M' a, h.map m = some M → h.map m' = some M' → M.img = some a → M'.img = some a → m = m'

/-- What a stored array shows through an iterator to its middle. -/
def readMid (s : List Int) (d : Int) : Option Int :=
  if 0 ≤ ((s.length / 2 : Nat) : Int) + d then s[(((s.length / 2 : Nat) : Int) + d).toNat]? else none

/-- Replacing one value of a function of a kind and a label. -/
def put {α : Type} (f : Kind → Nat → Option α) (k : Kind) (l : Nat) (x : Option α) : Kind → Nat → Option α :=
  fun k' l' => if k' = k ∧ l' = l then x else f k' l'

/-- What a write is meant to do to what is seen of its map; `none` if it is refused. -/
def Write.apply (V : View K) : Write K → Option (View K)
  | .cell l d => (V.cell d.kind l).map fun _ =>
      { V with
        cell := put V.cell d.kind l (some (True, l, (d.darts 0).shown 0)) }
  | .create pad d => some
      { V with
        cell := put V.cell d.kind (V.max d.kind + pad) (some (True, V.max d.kind + pad, (d.darts 0).shown 0))
        max := Function.update V.max d.kind (V.max d.kind + pad + 1) }
  | .remove k l => (V.cell k l).map fun _ =>
      { V with
        cell := put V.cell k l none }
  | .swap k l l' =>
      if l < V.max k ∧ l' < V.max k then some
        { V with
          cell := put (put V.cell k l ((V.cell k l').map fun c => (c.1, l, c.2.2))) k l'
            ((V.cell k l).map fun c => (c.1, l', c.2.2)) }
      else none
  | .resize k n => some
      { V with
        cell := fun k' l => if k' = k ∧ n ≤ l then none else V.cell k' l
        max := Function.update V.max k n }
  | .plain count _ lut sorted => some
      { V with
        count := count
        image := V.image.map fun i => (i.1, lut)
        sorted := sorted }
  | .sigma s i => some
      { V with
        next := readMid s
        prev := readMid i }
  | .newImage im lut => some
      { V with
        image := some (some im, lut) }
  | .image im => V.image.map fun i =>
      { V with
        image := some (some im, i.2) }
  | .dropImage => V.image.map fun _ =>
      { V with
        image := none }

/-- A sequence of writes to one map. -/
def applyAll (V : View K) : List (Write K) → Option (View K)
  | [] => some V
  | w :: ws => (w.apply V).bind fun V' => applyAll V' ws

/-- A write together with the map that makes it; a sequence of them. -/
def runAll : List (Nat × Write K) → Heap K → Outcome (Heap K)
  | [], h => .ok h
  | (m, w) :: ws, h => (w.run m h).bind (runAll ws)

/-- The positions of the nodes of a map. -/
def Heap.positions (h : Heap K) (M : MapObj K) : List (Option (Pt K)) :=
  (M.table .node).map fun
    | none => none
    | some a =>
      match h.cell a with
      | some ⟨_, _, .node p _⟩ => some p
      | _ => none

end Verif.Copy
