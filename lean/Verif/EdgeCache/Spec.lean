import Verif.EdgeCache.Model
import Verif.Polygon.Spec

/-!
# Specification: the cached geometry of edges is that of their current points
-/

namespace Verif.EdgeCache
open Verif Verif.GeoMap Verif.Polygon

variable {K : Type} [Field K] [LinearOrder K]

/-- Histories: construction and Euler operations with any callbacks, renaming of faces, and queries of the geometry of
edges at any time.  (`legal`, `fits`, `planar`: as for `ReachG` in `Verif/GeoMap/Machine2.lean`.) -/
inductive Reach (dist : Pt K → Pt K → K) : State K → Prop
  | empty : Reach dist State.empty
  | call {c c' : State K} (h : Hooks K) (op : Op K) : Reach dist c → op.legal c.map → op.fits c.map → c.run dist h op = .ok c' →
      (planar : ¬ c.map.initialized → c'.map.initialized → PlanarOK c'.map) → Reach dist c'
  | rename {c : State K} {t : GMap K} {lab : Nat → Nat} (new : List Nat) (size : Nat) : Reach dist c → new[0]? = some 0 →
      c.map.changeFaceLabels new size = .ok ⟨true, t, lab⟩ → Reach dist ⟨t, c.poly⟩
  | query {c : State K} (l : Nat) (q : Query) : Reach dist c → Reach dist (c.query dist l q)

/-- What `length()`, `partialArea()` and `boundingBox()` of edge `l` return is recomputed from the points of the edge. -/
structure Exact (dist : Pt K → Pt K → K) (c : State K) (l : Nat) (e : Edge K) : Prop where
  points : (c.poly l).pts = e.pts
  length : ((c.poly l).length dist).1 = trueLength dist e.pts
  area : (c.poly l).partialArea.1 = trueArea e.pts
  box : IsBoundingBox (c.poly l).boundingBox.1 e.pts

end Verif.EdgeCache
