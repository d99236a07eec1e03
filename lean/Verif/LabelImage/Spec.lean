import Verif.LabelImage.Pixels

/-! # What the label image means, and histories of calls with a label image -/

namespace Verif.LabelImage
open Verif Verif.GeoMap Verif.Scan

variable {K : Type} [Field K] [LinearOrder K]

/-- Edge `l` exists and passes through pixel `p`. -/
def Crosses (g : GMap K) (l : Nat) (p : Int × Int) : Prop := ∃ e, g.edge l = some e ∧ Passes e.pts p.1 p.2

open Classical in
/-- The number of edges that pass through pixel `p`. -/
noncomputable def crossing (g : GMap K) (p : Int × Int) : Nat :=
  ((Finset.range g.nEdges).filter fun l => Crosses g l p).card

/-- The pixels of an image. -/
def image (w h : Nat) : Finset (Int × Int) := Finset.Ico 0 (w : Int) ×ˢ Finset.Ico 0 (h : Int)

theorem mem_image {w h : Nat} {p : Int × Int} : p ∈ image w h ↔ InImage w h p := by
  simp only [image, Finset.mem_product, Finset.mem_Ico, InImage, and_assoc]

/-- What `labelImage()` reports for a pixel; without a label image there is nothing to ask. -/
def LMap.report (m : LMap K) (p : Int × Int) : Outcome Int :=
  match m.img with
  | none => .precond
  | some im => resolve m.lut (im p)

open Classical in
/-- The pixels for which the label image reports face `f`. -/
noncomputable def LMap.facePixels (m : LMap K) (f : Nat) : Finset (Int × Int) :=
  (image m.w m.h).filter fun p => m.report p = .ok (f : Int)

/-! ## Histories -/

/-- The operations of an initialized map. -/
inductive LOp (K : Type) where
  | addNode (p : Pt K) (label : Nat)
  | removeIsolatedNode (n : Nat)
  | mergeEdges (d : Int)
  | splitEdge (l i : Nat) (np : Option (Pt K))
  | removeBridge (d : Int)
  | mergeFaces (d : Int)
  | removeEdge (d : Int)
  | area (f : Nat)
  | setFlags (l : Nat) (flags : Nat)

/-- The operation without the label image. -/
def LOp.op : LOp K → Op K
  | .addNode p label => .addNode p label
  | .removeIsolatedNode n => .removeIsolatedNode n
  | .mergeEdges d => .mergeEdges d
  | .splitEdge l i np => .splitEdge l i np
  | .removeBridge d => .removeBridge d
  | .mergeFaces d => .mergeFaces d
  | .removeEdge d => .removeEdge d
  | .area f => .area f
  | .setFlags l flags => .setFlags l flags

/-- Geometric requirements: a point inserted by `splitEdge` lies on the segment it is inserted into. -/
def LOp.fits (s : GMap K) : LOp K → Prop
  | .splitEdge l i (some p) =>
    ∀ e a b, s.edge l = some e → e.pts[i]? = some a → e.pts[i + 1]? = some b → OnSegment a b p
  | _ => True

variable [FloorRing K]

/-- Running an operation.  Operations that do not touch the label image (cppmap.cxx:355-369,
1664-1671, cppmap.hxx:669-680, 1189-1207) change the map only. -/
def LOp.run (h : Hooks K) (m : LMap K) : LOp K → Outcome (LMap K)
  | .mergeEdges d => (m.mergeEdges h d).map (·.2)
  | .splitEdge l i np => (m.splitEdge l i np).map (·.2)
  | .removeBridge d => (m.removeBridge h d).map (·.2.1)
  | .mergeFaces d => (m.mergeFaces h d).map (·.2.1)
  | .removeEdge d => (m.removeEdge h d).map (·.2.1)
  | .addNode p label => .ok { m with g := (m.g.addNodeAt p label).2 }
  | .removeIsolatedNode n => (m.g.removeIsolatedNode h n).map fun r => { m with g := r.2 }
  | .area f => (m.g.faceArea (some f)).map fun r => { m with g := r.2 }
  | .setFlags l flags => (m.g.setFlags l flags).map fun r => { m with g := r }

/-- A map on which no label image has been created and no scanlines have been asked for. -/
def LMap.ofMap (g : GMap K) (w h : Nat) (lut : LabelLUT.LUT) : LMap K := ⟨g, w, h, none, lut, fun _ => none⟩

/-- Maps with a label image: switched on once for an initialized map, followed by any history of
calls that returned normally, including `changeFaceLabels` with the infinite face keeping its label. -/
inductive LReach : LMap K → Prop
  | on {g : GMap K} {w h : Nat} {lut : LabelLUT.LUT} {m : LMap K} : ReachG g → g.initialized →
      (∀ F, g.face 0 = some F → F.pixelArea = 0) →
      (LMap.ofMap g w h lut).setHasLabelImage true = .ok m → LReach m
  | call {m n : LMap K} (h : Hooks K) (op : LOp K) : LReach m → op.op.legal m.g → op.fits m.g →
      op.run h m = .ok n → LReach n
  | rename {m n : LMap K} {lab : Nat → Nat} (new : List Nat) (size : Nat) : LReach m → new[0]? = some 0 →
      m.changeFaceLabels new size = .ok (true, n, lab) → LReach n

end Verif.LabelImage
