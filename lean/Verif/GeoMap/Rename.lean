import Verif.GeoMap.Model

/-!
# Renaming faces

Models `GeoMap::changeFaceLabels` without the label image: src/geomap/cppmap.cxx:1216-1244.  A face
object carries its own label (`label_`, cppmap.hxx:1098); everywhere else in the model it is the
index at which the face is stored, here it is kept apart.
-/

namespace Verif.GeoMap
open Verif

variable {K : Type}

/-- What a call of `changeFaceLabels` leaves: `done` if it returned normally (otherwise it threw an
exception), the map, and `label_` of the face stored at each index. -/
structure Renamed (K : Type) where
  done : Bool
  map : GMap K
  label : Nat → Nat

/-- The loop over the faces (cppmap.cxx:1225-1238).  `nf`: `newFaces`, with `label_` of each; `lab`: `label_` of the face
at each old index. -/
def moveFaces (face : Nat → Option (Face K)) (new : List Nat) (size : Nat) :
    List Nat → (Nat → Option (Face K × Nat)) → (Nat → Nat) → Bool × (Nat → Option (Face K × Nat)) × (Nat → Nat)
  | [], nf, lab => (true, nf, lab)
  | l :: ls, nf, lab =>
    match face l with
    | none => moveFaces face new size ls nf lab
    | some F =>
      let t := new.getD l 0
      if size ≤ t then (false, nf, lab)
      else if (nf t).isSome then (false, nf, lab)
      else moveFaces face new size ls (Function.update nf t (some (F, t))) (Function.update lab l t)

/-- `newFaceLabels[label]` (cppmap.cxx:1243-1244); `none` is the label of an edge without faces,
beyond the vector. -/
def newLabel (new : List Nat) : Option Nat → Outcome Nat
  | none => .ub
  | some f =>
    match new[f]? with
    | none => .ub
    | some t => .ok t

/-- The loop over the edges (cppmap.cxx:1241-1245), for the labels given. -/
def renameEdges (new : List Nat) : List Nat → GMap K → Outcome (GMap K)
  | [], s => .ok s
  | l :: ls, s =>
    match s.edge l with
    | none => renameEdges new ls s
    | some e => do
      let a ← newLabel new e.leftF
      let b ← newLabel new e.rightF
      renameEdges new ls (s.setEdge l (some { e with leftF := some a, rightF := some b }))

/-- `changeFaceLabels(newFaceLabels, maxFaceLabel)` (cppmap.cxx:1216-1245) without the label image. -/
def GMap.changeFaceLabels (s : GMap K) (new : List Nat) (size : Nat) : Outcome (Renamed K) :=
  if ¬ s.initialized then .ok ⟨false, s, id⟩
  else if new.length ≠ s.nFaces then .ok ⟨false, s, id⟩
  else
    match moveFaces s.face new size (List.range new.length) (fun _ => none) id with
    | (false, _, lab) => .ok ⟨false, s, lab⟩
    | (true, nf, _) => do
      let t ← renameEdges new (List.range s.nEdges) { s with
        face := fun l => (nf l).map (·.1)
        nFaces := size }
      .ok ⟨true, t, fun l => ((nf l).map (·.2)).getD l⟩

end Verif.GeoMap
