import Verif.Crack.Border
import Mathlib.Algebra.Order.Ring.Rat
import Mathlib.Algebra.Field.Rat
import Mathlib.Data.Rat.Floor

/-! # C36, C37: crack images and crack edge maps (property theorems) -/

namespace Verif.Crack.Props
open Verif Verif.GeoMap Verif.Crack

section
variable {α : Type} [LinearOrder α]

/-! ## C36 -/

/-- In the crack image of a non-empty image the bit RIGHT (DOWN) of a corner is set exactly if the two pixels above and
below (left and right of) the crack differ, where the border of the image counts as a change; all other bits are 0. -/
theorem crackConnectionImage_marks_changes (lab : Pos → α) {w h : Nat} (hw : 0 < w) (hh : 0 < h) :
    ∃ im, crackConnectionImage lab w h = .ok im ∧ ∀ q,
      ((im.get q).r = true ↔ IsCrack lab w h q .E) ∧ ((im.get q).d = true ↔ IsCrack lab w h q .S) ∧
      (im.get q).l = false ∧ (im.get q).u = false ∧ (im.get q).diag = false ∧ (im.get q).node = false ∧ (im.get q).maybe = false := by
  obtain ⟨im, e, hg⟩ := crackConnectionImage_get lab hw hh
  refine ⟨im, e, fun q => ?_⟩
  rw [hg q]
  simp only [crackTarget, decide_eq_true_eq, IsCrack, leftPix, rightPix, Conn.diag]
  exact ⟨trivial, ne_comm, by simp⟩

/-- An empty image makes the code read and write outside of it. -/
theorem crackConnectionImage_empty (lab : Pos → α) {w h : Nat} (hz : w = 0 ∨ h = 0) : crackConnectionImage lab w h = .ub := if_pos hz

/-- After `makeCCSymmetric` all four bits of a corner tell where there are cracks. -/
theorem makeCCSymmetric_marks_changes (lab : Pos → α) {w h : Nat} (hw : 0 < w) (hh : 0 < h) :
    ∃ im, crackConnectionImage lab w h = .ok im ∧ ∀ q x, ((makeCCSymmetric w h im).get q).has x = true ↔ IsCrack lab w h q x := by
  obtain ⟨im, e, hg⟩ := crackConnectionImage_get lab hw hh
  refine ⟨im, e, fun q x => ?_⟩
  rw [sym_get lab hg]
  cases x <;> simp [symTarget, Conn.has]

/-- A crack is a crack in both directions. -/
theorem crack_symmetric (lab : Pos → α) (w h : Nat) (p : Pos) (x : Dir) : IsCrack lab w h (p + x.diff) x.opp ↔ IsCrack lab w h p x :=
  isCrack_alpha lab w h p x

/-- No corner has exactly one crack. -/
theorem crackCount_ne_one (lab : Pos → α) (w h : Nat) (p : Pos) : crackCount lab w h p ≠ 1 := by
  rw [← crackCount_deg]
  exact symTarget_deg lab w h p

/-- There are no cracks outside of the image. -/
theorem crack_inside {lab : Pos → α} {w h : Nat} {p : Pos} {x : Dir} (hc : IsCrack lab w h p x) :
    0 ≤ p.1 ∧ p.1 ≤ w ∧ 0 ≤ p.2 ∧ p.2 ≤ h := isCrack_inside hc

/-! ## C37 -/

variable {K : Type} [Field K] [LinearOrder K] [IsStrictOrderedRing K]

/-- For every non-empty image the edge following ends, never reads outside of the crack image, and makes a map in which
each crack is one segment of one edge. -/
theorem crackEdgeMap_covers (lab : Pos → α) {w h : Nat} (hw : 0 < w) (hh : 0 < h) (eight : Bool) :
    ∃ g : Gen K, generate lab w h eight = .ok g ∧ CrackMap lab w h eight g.map ∧ ReachG g.map ∧ ¬ g.map.initialized := by
  obtain ⟨g, ns, es, e, D⟩ := generate_done (K := K) lab hw hh eight
  exact ⟨g, e, D.crackMap, D.built.reach, D.built.fresh⟩

omit [IsStrictOrderedRing K] in
/-- An empty image has no crack edge map: the code reads and writes outside of the images. -/
theorem crackEdgeMap_empty (lab : Pos → α) {w h : Nat} (hz : w = 0 ∨ h = 0) (eight : Bool) : (generate lab w h eight : Outcome (Gen K)) = .ub := by
  unfold generate
  rw [crackConnectionImage_empty lab hz]
  rfl

/-- Consequence of the specification: the two sides of an edge have different labels. -/
theorem crackMap_separates {lab : Pos → α} {w h : Nat} {eight : Bool} {m : GMap K} (M : CrackMap lab w h eight m) {d : Int} {i : Nat} {p : Pos} {x : Dir}
    (hs : Step m d i p x) : pix lab w h (leftPix p x) ≠ pix lab w h (rightPix p x) := by
  obtain ⟨e, h1, h2, h3⟩ := hs
  have hlen : i + 1 < e.pts.length := by
    have := (List.getElem?_eq_some_iff.mp h3).1
    unfold Edge.dartPts at this
    split at this <;> simpa using this
  obtain ⟨q, y, ⟨e', g1, g2, g3⟩, hc⟩ := (M.only_cracks d e h1).2 i hlen
  rw [h1] at g1
  cases g1
  rw [h2] at g2
  rw [h3] at g3
  have := vec_inj (Option.some.inj g2)
  subst this
  have := diff_inj (vec_inj (Option.some.inj g3))
  subst this
  exact hc

/-- With four-connected regions, edges do not meet outside of the nodes: an inner point of an edge is no other point of an edge. -/
theorem crackEdgeMap_edges_disjoint (lab : Pos → α) {w h : Nat} (hw : 0 < w) (hh : 0 < h) {g : Gen K} (hg : generate lab w h false = .ok g)
    {l l' : Nat} {e e' : Edge K} {i i' : Nat} {p : Pt K} (he : g.map.edge l = some e) (he' : g.map.edge l' = some e')
    (hi : e.pts[i]? = some p) (hi' : e'.pts[i']? = some p) (h0 : i ≠ 0) (hlt : i + 1 < e.pts.length) : l = l' ∧ i = i' := by
  obtain ⟨g', ns, es, e1, D⟩ := generate_done (K := K) lab hw hh false
  rw [hg] at e1
  cases e1
  obtain ⟨q, y, ⟨e2, g1, g2, -⟩, -⟩ := (D.crackMap.only_cracks (l : Int) e (by simpa using he)).2 i hlt
  rw [Int.natAbs_natCast, he] at g1
  cases g1
  have hdp : e.dartPts (l : Int) = e.pts := by
    unfold Edge.dartPts
    have : l ≠ 0 := fun h => by
      subst h
      rw [D.built.edge0] at he
      cases he
    rw [if_pos (by omega)]
  rw [hdp, hi] at g2
  cases g2
  exact D.inner_once he he' hi hi' h0 hlt

/-- Sorting the darts around the nodes and initializing the map succeed, whatever enclosing faces are found; the map is
still one of the cracks. -/
theorem crackEdgeMap_initializes (lab : Pos → α) {w h : Nat} (hw : 0 < w) (hh : 0 < h) (eight : Bool) (pick : GMap K → Int → Option Nat)
    {g : Gen K} (hg : generate lab w h eight = .ok g) :
    ∃ u, initMap pick g.map = .ok u ∧ u.initialized ∧ MapOK u ∧ CrackMap lab w h eight u := by
  obtain ⟨g', ns, es, e1, D⟩ := generate_done (K := K) lab hw hh eight
  rw [hg] at e1
  cases e1
  obtain ⟨t, u, h1, R⟩ := D.ready pick
  exact ⟨u, h1, R.init, R.map, R.crackMap D.crackMap⟩

/-- Along a contour of the map there is the same label on the left: an edge and the next edge of the contour bound the
same region. -/
theorem crackEdgeMap_contour_label (lab : Pos → α) {w h : Nat} (hw : 0 < w) (hh : 0 < h) (eight : Bool) (pick : GMap K → Int → Option Nat)
    {g : Gen K} (hg : generate lab w h eight = .ok g) {u : GMap K} (hu : initMap pick g.map = .ok u)
    {d d' : Int} {i j : Nat} {p q : Pos} {x y : Dir} (hr : u.phiReach d d') (hs : Step u d i p x) (hs' : Step u d' j q y) :
    pix lab w h (leftPix p x) = pix lab w h (leftPix q y) := by
  obtain ⟨g', ns, es, e1, D⟩ := generate_done (K := K) lab hw hh eight
  rw [hg] at e1
  cases e1
  obtain ⟨t, u', h1, R⟩ := D.ready pick
  rw [hu] at h1
  cases h1
  have hphi : u.phi = t.phi := by funext d; unfold GMap.phi; rw [R.same.sigmaInv]
  unfold GMap.phiReach at hr
  rw [hphi] at hr
  have hm := (step_congr R.edge).mp hs
  obtain ⟨sg, sgi, e⟩ := R.sorted.same
  have hlive : t.liveD d := by rw [e]; exact hm.live
  obtain ⟨v, k1, k2⟩ := D.contour R.sorted hlive hr
  rw [k1 _ _ _ hm, k2 _ _ _ ((step_congr R.edge).mp hs')]

/-- The border of the image, seen from outside, is one contour. -/
theorem crackEdgeMap_one_border (lab : Pos → α) {w h : Nat} (hw : 0 < w) (hh : 0 < h) (eight : Bool) (pick : GMap K → Int → Option Nat)
    {g : Gen K} (hg : generate lab w h eight = .ok g) {u : GMap K} (hu : initMap pick g.map = .ok u)
    {d d' : Int} {i j : Nat} {p q : Pos} {x y : Dir} (hs : Step u d i p x) (hs' : Step u d' j q y)
    (hl : pix lab w h (leftPix p x) = none) (hl' : pix lab w h (leftPix q y) = none) : u.phiReach d d' := by
  obtain ⟨g', ns, es, e1, D⟩ := generate_done (K := K) lab hw hh eight
  rw [hg] at e1
  cases e1
  obtain ⟨t, u', h1, R⟩ := D.ready pick
  rw [hu] at h1
  cases h1
  have hphi : u.phi = t.phi := by funext d; unfold GMap.phi; rw [R.same.sigmaInv]
  unfold GMap.phiReach
  rw [hphi]
  have hm := (step_congr R.edge).mp hs
  have hm' := (step_congr R.edge).mp hs'
  obtain ⟨sg, sgi, e⟩ := R.sorted.same
  have key : ∀ {d : Int} {i : Nat} {p : Pos} {x : Dir}, Step g.map d i p x → pix lab w h (leftPix p x) = none → LeftIs lab w h g.map d none := by
    intro d i p x h1 h2 j q y h3
    rw [← h2]
    exact (D.crackMap.sides _ _ _ _ _ _ _ h3 h1).1
  exact D.border_contour hw hh R.sorted (by rw [e]; exact hm.live) (by rw [e]; exact hm'.live) (key hm hl) (key hm' hl')

/-! ## C56 -/

/-- `getSourceLabels` gives each finite face the label of the pixels along the inner side of its outer contour, never reads
outside of the image, and leaves the other entries of the array alone. -/
theorem getSourceLabels_correct [FloorRing K] (lab : Pos → α) {w h : Nat} (hw : 0 < w) (hh : 0 < h) (eight : Bool) (pick : GMap K → Int → Option Nat)
    {g : Gen K} (hg : generate lab w h eight = .ok g) {u : GMap K} (hu : initMap pick g.map = .ok u) {size : Nat} (hsize : u.nFaces ≤ size) (out : Nat → α) :
    ∃ out', getSourceLabels lab w h u size out = .ok out' ∧
      (∀ f F, u.face f = some F → f ≠ 0 → ∃ a rest, F.anchors = a :: rest ∧ (∃ i p x, Step u a i p x) ∧
        ∀ d i p x, u.phiReach a d → Step u d i p x → pix lab w h (leftPix p x) = some (out' f)) ∧
      ∀ f, f = 0 ∨ u.face f = none → out' f = out f := by
  classical
  obtain ⟨g', ns, es, e1, D⟩ := generate_done (K := K) lab hw hh eight
  rw [hg] at e1
  cases e1
  obtain ⟨t, u', h1, R⟩ := D.ready pick
  rw [hu] at h1
  cases h1
  have hex : ∀ f, ∃ v, ∀ F, u.face f = some F → f ≠ 0 → sourceLabel lab w h u F = .ok v ∧
      ∃ a rest, F.anchors = a :: rest ∧ ∀ d, u.phiReach a d → LeftIs lab w h g.map d (some v) := by
    intro f
    cases hF : u.face f with
    | none => exact ⟨lab (0, 0), fun F h => by cases h⟩
    | some F =>
      by_cases hf : f = 0
      · exact ⟨lab (0, 0), fun _ _ h => absurd hf h⟩
      · obtain ⟨v, k1, k2⟩ := D.sourceLabel R hF hf
        refine ⟨v, fun F' h' _ => ?_⟩
        cases h'
        exact ⟨k1, k2⟩
  choose val hval using hex
  obtain ⟨out', k1, k2⟩ := sourceLabelLoop_spec (lab := lab) (w := w) (h := h) (u := u) (List.range' 1 (u.nFaces - 1)) List.nodup_range' val
    (fun f hf F hF => (hval f F hF (by rw [List.mem_range'_1] at hf; omega)).1) out
  refine ⟨out', ?_, ?_, ?_⟩
  · unfold getSourceLabels
    rw [if_neg (by simpa using R.init), if_neg (by omega), k1]
  · intro f F hF hf
    have hlt : f < u.nFaces := R.map.graph.labels.face_lt f (by rw [hF]; rfl)
    have : out' f = val f := by
      rw [k2, if_pos ⟨by rw [List.mem_range'_1]; omega, by rw [hF]; rfl⟩]
    obtain ⟨-, a, rest, c1, c2⟩ := hval f F hF hf
    obtain ⟨a', rest', -, b1, b2, -⟩ := D.outer_inside R hF hf
    rw [c1] at b1
    cases b1
    refine ⟨a, rest, c1, ?_, fun d i p x hd hs => ?_⟩
    · obtain ⟨e, he⟩ := Option.isSome_iff_exists.mp b2
      have M := R.crackMap D.crackMap
      obtain ⟨m1, m2⟩ := M.only_cracks a e he
      obtain ⟨p, x, m3, -⟩ := m2 0 (by omega)
      exact ⟨0, p, x, m3⟩
    · rw [this]
      exact c2 d hd _ _ _ ((step_congr R.edge).mp hs)
  · intro f hf
    rw [k2, if_neg]
    rintro ⟨m1, m2⟩
    rw [List.mem_range'_1] at m1
    rcases hf with rfl | hf
    · omega
    · rw [hf] at m2
      cases m2

omit [LinearOrder α] [IsStrictOrderedRing K] in
/-- The array must have room for all face labels, and the map must be initialized. -/
theorem getSourceLabels_precond [FloorRing K] (lab : Pos → α) (w h : Nat) (u : GMap K) (size : Nat) (out : Nat → α) (hz : ¬ u.initialized ∨ size < u.nFaces) :
    getSourceLabels lab w h u size out = .precond := by
  unfold getSourceLabels
  rcases hz with h | h
  · rw [if_pos h]
  · rw [if_pos h, ite_self]

end

/-! Examples: a 2 × 2 checkerboard. -/
section
/-- labels 1 0 / 0 1 -/
def board : Pos → Nat := fun p => if p.1 = p.2 then 1 else 0

example : crackCount board 2 2 (1, 1) = 4 ∧ crackCount board 2 2 (1, 0) = 3 ∧ crackCount board 2 2 (0, 0) = 2 := by decide +kernel
example : Junction board 2 2 false (1, 1) := by unfold Junction Touches; decide +kernel
example : ¬ Junction board 2 2 true (1, 1) := by unfold Junction Touches; decide +kernel
example : IsCrack board 2 2 (1, 1) .N := by decide +kernel
/-- 5 nodes and 8 edges, or 4 nodes and 6 edges with eight-connected regions -/
example : (match (generate board 2 2 false : Outcome (Gen Rat)) with | .ok g => (g.map.nNodes, g.map.nEdges) | _ => (0, 0)) = (5, 9) := by decide +kernel
example : (match (generate board 2 2 true : Outcome (Gen Rat)) with | .ok g => (g.map.nNodes, g.map.nEdges) | _ => (0, 0)) = (4, 7) := by decide +kernel
/-- one pixel: a loop -/
example : (match (generate (fun _ => 0) 1 1 false : Outcome (Gen Rat)) with | .ok g => (g.map.nNodes, g.map.nEdges) | _ => (0, 0)) = (1, 2) := by decide +kernel
/-- the source labels of all face labels, 9 where there is no finite face -/
def sourceLabels (lab : Pos → Nat) (w h : Nat) (eight : Bool) : List Nat :=
  match (generate lab w h eight : Outcome (Gen Rat)) with
  | .ok g => (match initMap (fun _ _ => none) g.map with
    | .ok u => (match getSourceLabels lab w h u u.nFaces (fun _ => 9) with | .ok o => (List.range u.nFaces).map o | _ => [])
    | _ => [])
  | _ => []

/-- the four pixels of the checkerboard; with eight-connected regions the two pixels of label 1 are one face -/
example : sourceLabels board 2 2 false = [9, 9, 0, 1, 0, 1] := by decide +kernel
example : sourceLabels board 2 2 true = [9, 9, 0, 1, 0] := by decide +kernel
example : sourceLabels (fun _ => 7) 1 1 false = [9, 9, 7] := by decide +kernel
end
end Verif.Crack.Props
