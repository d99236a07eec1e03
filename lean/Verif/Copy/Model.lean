import Verif.Outcome
import Verif.GeoMap.Model
import Verif.LabelLUT.Model
import Verif.NodeIndex.Model

/-!
# Copying a map

Models the copy constructor of `GeoMap` (src/geomap/cppmap.cxx:245-296) and of its cells (cppmap.hxx:464-472, 574-585,
1124-1135) on a heap, because the question is what the two maps share: a map holds pointers to its cells and to its
label image, cells and darts hold a pointer `map_` back to the map.

Simplifications: nodes, edges and faces live in one address space, addresses are never reused, vectors that are members of the map
are part of it.  Reading through a dangling or null pointer is the outcome `ub`.  The signals
(callbacks), `splitInfo_` and `edgePreferences_` are not copied by the code and not modelled; neither are the
bounding box cache and the user flags of faces, which are copied with the other plain members.
-/

namespace Verif.Copy
open Verif Verif.GeoMap Verif.LabelLUT Verif.NodeIndex

/-- A `Dart` object: pointer to the map, label (cppmap.hxx:781-796). -/
structure DartObj where
  map : Nat
  label : Int
deriving DecidableEq, Repr

/-- The members of a cell besides `map_` and `label_`: cppmap.hxx:446-447, 541-549, 1083-1088.  `scan` is the
`auto_ptr` to the cached scanlines of an edge. -/
inductive Data (K : Type) where
  | node (pos : Pt K) (anchor : Int)
  | edge (startN endN : Nat) (leftF rightF : Option Nat) (pts : List (Pt K)) (flags : Nat) (scan : Option Nat)
  | face (anchors : List DartObj) (area : Option K) (pixelArea : Nat)
deriving DecidableEq

/-- The three kinds of cells. -/
inductive Kind where
  | node
  | edge
  | face
deriving DecidableEq

def Data.kind {K : Type} : Data K → Kind
  | .node .. => .node
  | .edge .. => .edge
  | .face .. => .face

/-- A cell object: `map_` (`none` after `uninitialize`), `label_` and the rest. -/
structure Cell (K : Type) where
  map : Option Nat
  label : Nat
  data : Data K
deriving DecidableEq

/-- A `GeoMap` object (cppmap.hxx:186-214).  `sigmaAt`, `invAt`: the iterators `sigmaMapping_` and `sigmaInverseMapping_`, as the map
whose array they point into and the offset.  `img`: pointer to the label image. -/
structure MapObj (K : Type) where
  sigma : List Int
  sigmaInv : List Int
  sigmaAt : Nat × Nat
  invAt : Nat × Nat
  table : Kind → List (Option Nat)
  count : Kind → Nat
  index : List (Entry K)
  size : Nat × Nat
  img : Option Nat
  lut : LUT
  sorted : Bool

/-- All objects. -/
structure Heap (K : Type) where
  cell : Nat → Option (Cell K)
  map : Nat → Option (MapObj K)
  image : Nat → Option (Int × Int → Int)
  fresh : Nat

variable {K : Type}

/-- The plain members of the cell copy constructors: darts of a face get the new map, the scanlines of an edge are not copied
(cppmap.hxx:466-469, 575-583, 1126-1134). -/
def Data.copy (new : Nat) : Data K → Data K
  | .node p a => .node p a
  | .edge s e l r pts f _ => .edge s e l r pts f none
  | .face as ar px => .face (as.map fun d => ⟨new, d.label⟩) ar px

section
variable [Field K] [LinearOrder K]

/-- The side effect of copying a node (cppmap.hxx:471). -/
def Data.enter (label : Nat) : Data K → List (Entry K) → List (Entry K)
  | .node p _, ix => NodeIndex.insert ⟨p, label⟩ ix
  | _, ix => ix

/-- One of the loops over the cells of the other map (cppmap.cxx:260-271, 286-290): `src` are the pointers
still to visit, `out` the new vector. -/
def copyCells (new : Nat) : List (Option Nat) → Heap K × List (Option Nat) × List (Entry K) →
    Outcome (Heap K × List (Option Nat) × List (Entry K))
  | [], r => .ok r
  | none :: src, r => copyCells new src r
  | some a :: src, (h, out, ix) =>
    match h.cell a with
    | none => .ub
    | some c =>
      if c.label < out.length then
        copyCells new src ({ h with
          cell := Function.update h.cell h.fresh (some ⟨some new, c.label, c.data.copy new⟩)
          fresh := h.fresh + 1 }, out.set c.label (some h.fresh), c.data.enter c.label ix)
      else .ub

/-- `GeoMap::GeoMap(const GeoMap &other)` (cppmap.cxx:245-296): the heap and the address of the new map. -/
def copyMap (h : Heap K) (src : Nat) : Outcome (Heap K × Nat) :=
  match h.map src with
  | none => .ub
  | some M => do
    let new := h.fresh
    let h := { h with fresh := h.fresh + 1 }
    let (h, nodes, ix) ← copyCells new (M.table .node) (h, List.replicate (M.table .node).length none, [])
    let (h, edges, ix) ← copyCells new (M.table .edge) (h, List.replicate (M.table .edge).length none, ix)
    let (h, faces, ix) ← copyCells new (M.table .face) (h, List.replicate (M.table .face).length none, ix)
    let N : MapObj K :=
      { sigma := M.sigma
        sigmaInv := M.sigmaInv
        sigmaAt := (new, M.sigma.length / 2)
        invAt := (new, M.sigmaInv.length / 2)
        table := fun
          | .node => nodes
          | .edge => edges
          | .face => faces
        count := M.count
        index := ix
        size := M.size
        img := none
        lut := ⟨[], []⟩
        sorted := M.sorted }
    match M.img with
    | none => .ok ({ h with map := Function.update h.map new (some N) }, new)
    | some a =>
      if M.table .face = [] then .ok ({ h with map := Function.update h.map new (some N) }, new)
      else
        match h.image a with
        | none => .ub
        | some im => .ok ({ h with
            image := Function.update h.image h.fresh (some im)
            map := Function.update h.map new (some { N with img := some h.fresh, lut := M.lut })
            fresh := h.fresh + 1 }, new)

end

/-! ## Writes through a map

What the operations of a map do to the heap: they reach cells, arrays and the label image only through the members of
their map (`nodes_`, `edges_`, `faces_`, `labelImage_`, …) or through `map_` of a cell of this map, which is the same
map (cppmap.hxx:440-1305, cppmap.cxx:355-2256). -/

/-- A write made on behalf of a map. -/
inductive Write (K : Type) where
  /-- change the members of a cell -/
  | cell (l : Nat) (d : Data K)
  /-- `new Node(map, …)`, `new Edge`, `new Face` (cppmap.hxx:452-462, 552-572, 1099-1122): padded with null
  pointers up to the label (cppmap.cxx:359-362, 385-388) -/
  | create (pad : Nat) (d : Data K)
  /-- `uninitialize()` (cppmap.hxx:1314-1339) -/
  | remove (k : Kind) (l : Nat)
  /-- exchange two entries with their labels: renumbering (cppmap.cxx:1224-1239) is a sequence of these -/
  | swap (k : Kind) (l l' : Nat)
  /-- a vector gets another length -/
  | resize (k : Kind) (n : Nat)
  /-- plain members of the map -/
  | plain (count : Kind → Nat) (index : List (Entry K)) (lut : LUT) (sorted : Bool)
  /-- the arrays, with the iterators set to the middle (cppmap.cxx:940-963, 1255-1290) -/
  | sigma (s i : List Int)
  /-- `new LabelImage`, with a new lookup table (cppmap.cxx:986-995) -/
  | newImage (im : Int × Int → Int) (lut : LUT)
  /-- writing pixels -/
  | image (im : Int × Int → Int)
  /-- `delete labelImage_` (cppmap.cxx:1023-1024) -/
  | dropImage

/-- Darts stored in a face are made by the map itself: their `map_` is the map (cppmap.hxx:1309-1312). -/
def Data.darts (m : Nat) : Data K → Data K
  | .face as ar px => .face (as.map fun d => ⟨m, d.label⟩) ar px
  | d => d

/-- `faces_[i]->label_ = l` for a pointer that may be null. -/
def relabel (p : Option Nat) (l : Nat) (cell : Nat → Option (Cell K)) : Nat → Option (Cell K) :=
  match p with
  | none => cell
  | some a => Function.update cell a ((cell a).map fun c => { c with label := l })

/-- The write. -/
def Write.run (m : Nat) (h : Heap K) : Write K → Outcome (Heap K)
  | w =>
    match h.map m with
    | none => .ub
    | some M =>
      match w with
      | .cell l d =>
        match (M.table d.kind)[l]? with
        | some (some a) =>
          match h.cell a with
          | none => .ub
          | some c => .ok { h with cell := Function.update h.cell a (some ⟨c.map, c.label, d.darts m⟩) }
        | _ => .precond
      | .create pad d =>
        let t := M.table d.kind ++ List.replicate pad none
        .ok { h with
          cell := Function.update h.cell h.fresh (some ⟨some m, t.length, d.darts m⟩)
          map := Function.update h.map m (some { M with table := Function.update M.table d.kind (t ++ [some h.fresh]) })
          fresh := h.fresh + 1 }
      | .remove k l =>
        match (M.table k)[l]? with
        | some (some a) =>
          match h.cell a with
          | none => .ub
          | some c => .ok { h with
              cell := Function.update h.cell a (some { c with map := none })
              map := Function.update h.map m (some { M with table := Function.update M.table k ((M.table k).set l none) }) }
        | _ => .precond
      | .swap k l l' =>
        match (M.table k)[l]?, (M.table k)[l']? with
        | some p, some q => .ok { h with
            cell := relabel q l (relabel p l' h.cell)
            map := Function.update h.map m (some { M with
              table := Function.update M.table k (((M.table k).set l q).set l' p) }) }
        | _, _ => .precond
      | .resize k n => .ok { h with
          map := Function.update h.map m (some { M with
            table := Function.update M.table k
              ((M.table k).take n ++ List.replicate (n - (M.table k).length) none) }) }
      | .plain count index lut sorted => .ok { h with
          map := Function.update h.map m (some { M with
            count := count
            index := index
            lut := lut
            sorted := sorted }) }
      | .sigma s i => .ok { h with
          map := Function.update h.map m (some { M with
            sigma := s
            sigmaInv := i
            sigmaAt := (m, s.length / 2)
            invAt := (m, i.length / 2) }) }
      | .newImage im lut => .ok { h with
          image := Function.update h.image h.fresh (some im)
          map := Function.update h.map m (some { M with
            img := some h.fresh
            lut := lut })
          fresh := h.fresh + 1 }
      | .image im =>
        match M.img with
        | none => .precond
        | some a => .ok { h with image := Function.update h.image a (some im) }
      | .dropImage =>
        match M.img with
        | none => .precond
        | some a => .ok { h with
            image := Function.update h.image a none
            map := Function.update h.map m (some { M with img := none }) }


end Verif.Copy
