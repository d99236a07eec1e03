import Verif.FaceStats.Model

/-! # What the statistics of faces mean, and histories with statistics attached -/

namespace Verif.FaceStats
open Verif Verif.GeoMap Verif.LabelImage

variable {K V : Type} [Field K] [LinearOrder K] [FloorRing K]

/-- The values of the image at the pixels of a face, from scratch. -/
noncomputable def faceValues (orig : Int × Int → V) (m : LMap K) (f : Nat) : Multiset V := (m.facePixels f).val.map orig

/-- The face is marked as supersampled. -/
def Stats.marked (st : Stats V) (f : Nat) : Prop := ∃ t, st.ss = some t ∧ t f ≠ 0

/-- The bounding boxes of faces contain their pixels. -/
def BoxesCover (env : Env K V) : Prop := ∀ m, LReach m → ∀ f p, p ∈ m.facePixels f → env.box m f p = true

/-- A map with label image and statistics attached: statistics created for a map with label image, followed by any
history of calls that returned normally.  `changeFaceLabels` is left out (see `rename_violated`). -/
inductive SReach (env : Env K V) : LMap K → Stats V → Prop
  | new {m : LMap K} {st : Stats V} (grid : Nat → Nat → List V) (minCount : Nat) : LReach m →
      construct env grid minCount m = .ok st → SReach env m st
  | call {m n : LMap K} {st st' : Stats V} (h : Hooks K) (asked : Bool) (op : LOp K) : SReach env m st → op.op.legal m.g → op.fits m.g →
      run env h asked m st op = .ok (n, st') → SReach env n st'

/-- The operation merges the faces `sl` and `ml`, and `sl` survives. -/
def Merges (h : Hooks K) (m : LMap K) (op : LOp K) (sl ml : Nat) : Prop :=
  ∃ d n px, (op = .mergeFaces d ∨ op = .removeEdge d) ∧ m.mergeFaces h d = .ok (some sl, n, px) ∧ sl ≠ ml ∧
    ((m.g.left? d = some sl ∧ m.g.left? (-d) = some ml) ∨ (m.g.left? d = some ml ∧ m.g.left? (-d) = some sl))

end Verif.FaceStats
