import Verif.Midcrack.Props
import Verif.Midcrack.Shape
import Verif.Midcrack.Contour

/-! # Midcracks: shape, border, contour length -/

namespace Verif.Midcrack
open Verif Verif.GeoMap Verif.DartPos Verif.Crack Verif.Crack.Props

section Shape
variable {K : Type} [Field K] [LinearOrder K] [IsStrictOrderedRing K]

/-- Every new polygon lies in each half plane that contains the old polygon, hence in its convex hull and bounding box. -/
theorem midcracks_half_plane {s t : GMap K} (hlong : Long s) (hm : Midcracked (fun _ => True) s t) {l : Nat} {e e' : Edge K} (he : s.edge l = some e) (he' : t.edge l = some e')
    {a b c : K} (hp : ∀ p ∈ e.pts, a * p.1 + b * p.2 ≤ c) : ∀ p ∈ e'.pts, a * p.1 + b * p.2 ≤ c := by
  obtain ⟨e2, h1, -, h2, h3⟩ := hm.edge l e he
  rw [he'] at h1; cases h1
  by_cases ho : OnlyLoop s l
  · exact (h2 trivial ho).half_plane (hlong l e he) hp
  · exact (h3 trivial ho).half_plane hp

omit [LinearOrder K] [IsStrictOrderedRing K] in
/-- Where the node stays, the edge leaves it in the same direction (half as far): the order of the darts around a node stays right. -/
theorem midcracks_direction {s t : GMap K} (hlong : Long s) (hm : Midcracked (fun _ => True) s t) {l : Nat} {e e' : Edge K} (he : s.edge l = some e) (he' : t.edge l = some e')
    (ho : ¬ OnlyLoop s l) : (∃ p q r, e.pts[0]? = some p ∧ e.pts[1]? = some q ∧ e'.pts[0]? = some p ∧ e'.pts[1]? = some r ∧ (r - p) + (r - p) = q - p) ∧
    ∃ p q r, e.pts.reverse[0]? = some p ∧ e.pts.reverse[1]? = some q ∧ e'.pts.reverse[0]? = some p ∧ e'.pts.reverse[1]? = some r ∧ (r - p) + (r - p) = q - p := by
  obtain ⟨e2, h1, -, -, h3⟩ := hm.edge l e he
  rw [he'] at h1; cases h1
  have hk := h3 trivial ho
  have hl := hlong l e he
  constructor
  · obtain ⟨p, q, r, g1, g2, g3, g4⟩ := hk.mids 1 (by omega) (by omega)
    refine ⟨p, q, r, g1, g2, ?_, g3, ?_⟩
    · rw [← List.head?_eq_getElem?, hk.head, List.head?_eq_getElem?]; exact g1
    · have : r + r - p - p = p + q - p - p := by rw [g4]
      calc r - p + (r - p) = r + r - p - p := by abel
        _ = q - p := by rw [this]; abel
  · obtain ⟨q, p, r, g1, g2, g3, g4⟩ := hk.mids (e.pts.length - 1) (by omega) (by omega)
    have hlen := hk.length
    refine ⟨p, q, r, ?_, ?_, ?_, ?_, ?_⟩
    · rw [List.getElem?_reverse (by omega)]; exact g2
    · rw [List.getElem?_reverse (by omega)]; exact g1
    · rw [← List.head?_eq_getElem?, List.head?_reverse, hk.last, List.getLast?_eq_getElem?]; exact g2
    · rw [List.getElem?_reverse (by omega), hlen, show e.pts.length + 1 - 1 - 1 = e.pts.length - 1 by omega]; exact g3
    · have : r + r - p - p = q + p - p - p := by rw [g4]
      calc r - p + (r - p) = r + r - p - p := by abel
        _ = q - p := by rw [this]; abel

end Shape

section Length
variable {K : Type} [Field K]

open Classical in
/-- `contourLength` is the sum of the lengths of the edges along the contour; an edge that is passed twice counts twice. -/
theorem contourLength_sum {s : GMap K} (hs : MapOK s) (len : List (Pt K) → K) {d : Int} (hd : s.liveD d) :
    contourLength len s d = .ok (∑ x ∈ s.darts.filter (s.phiReach d), dartLen len s x) := by
  obtain ⟨ψ, hr, hl, hc⟩ := exists_phi hs
  have hm := mem_darts' hs hd
  have hp := hr.isPeriodicPt hm
  have := contourLengthLoop_eq hs hr hl hm len s.fuel 0 hp.1 (by unfold GMap.fuel; omega) 0
  unfold contourLength
  rw [Function.iterate_zero, id_eq, zero_add, ← Finset.range_eq_Ico, hr.sum_range hm] at this
  rw [this]
  congr 1
  apply Finset.sum_congr _ fun _ _ => rfl
  ext x
  rw [Finset.mem_filter, Finset.mem_filter, hr.sameCycle_iff hm]
  rfl

omit [Field K] in
theorem phiReach_same {s : GMap K} (hs : MapOK s) {d d' : Int} (hd : s.liveD d) (h : s.phiReach d d') : s.liveD d' ∧ ∀ x, s.phiReach d x ↔ s.phiReach d' x := by
  obtain ⟨ψ, hr, hl, hc⟩ := exists_phi hs
  have hm := mem_darts' hs hd
  have hm' : d' ∈ s.darts := by
    obtain ⟨k, rfl⟩ := h
    exact (hr.iterate_mem hm k).2
  refine ⟨hl _ hm', fun x => ?_⟩
  have h1 := (hr.sameCycle_iff hm (d' := d')).2 h
  rw [show s.phiReach d x ↔ Equiv.Perm.SameCycle ψ d x from (hr.sameCycle_iff hm).symm, show s.phiReach d' x ↔ Equiv.Perm.SameCycle ψ d' x from (hr.sameCycle_iff hm').symm]
  exact ⟨fun h => h1.symm.trans h, fun h => h1.trans h⟩

/-- It does not matter with which dart of the contour one starts. -/
theorem contourLength_start {s : GMap K} (hs : MapOK s) (len : List (Pt K) → K) {d d' : Int} (hd : s.liveD d) (h : s.phiReach d d') :
    contourLength len s d' = contourLength len s d := by
  classical
  obtain ⟨h1, h2⟩ := phiReach_same hs hd h
  rw [contourLength_sum hs len hd, contourLength_sum hs len h1]
  congr 1
  apply Finset.sum_congr _ fun _ _ => rfl
  ext x
  rw [Finset.mem_filter, Finset.mem_filter, h2]

/-- `isoperimetricQuotient` is the square of the contour length by `4π` times the area of the contour, and divides by zero exactly if the
contour has no area. -/
theorem isoperimetricQuotient_eq [DecidableEq K] [CharZero K] {s : GMap K} (hs : MapOK s) (len : List (Pt K) → K) {pi : K} (hpi : pi ≠ 0) {d : Int} (hd : s.liveD d) :
    ∃ A ℓ, s.contourArea d = .ok A ∧ contourLength len s d = .ok ℓ ∧ isoperimetricQuotient len pi s d = .ok (if A = 0 then none else some (ℓ ^ 2 / (4 * pi * A))) := by
  classical
  obtain ⟨ψ, hr, hl, hc⟩ := exists_phi hs
  have hm := mem_darts' hs hd
  have hp := hr.isPeriodicPt hm
  have h1 := contourLengthLoop_eq hs hr hl hm len s.fuel 0 hp.1 (by unfold GMap.fuel; omega) 0
  have h2 := contourAreaLoop_eq hr hl hm s.fuel 0 hp.1 (by unfold GMap.fuel; omega) 0
  have h3 := isoLoop_eq hs hr hl hm len s.fuel 0 hp.1 (by unfold GMap.fuel; omega) 0 0
  refine ⟨_, _, h2, h1, ?_⟩
  unfold isoperimetricQuotient
  rw [Function.iterate_zero, id_eq] at h3
  rw [h3]
  generalize (0 + ∑ i ∈ Finset.Ico 0 (Function.minimalPeriod s.phi d), s.areaTerm (s.phi^[i] d)) = A
  generalize (0 + ∑ i ∈ Finset.Ico 0 (Function.minimalPeriod s.phi d), dartLen len s (s.phi^[i] d)) = ℓ
  show Outcome.ok _ = _
  congr 1
  dsimp only
  by_cases hA : A = 0
  · rw [if_pos (show 4 * pi * A = 0 by rw [hA, mul_zero]), if_pos hA]
  · rw [if_neg (show ¬ 4 * pi * A = 0 from mul_ne_zero (mul_ne_zero (by norm_num) hpi) hA), if_neg hA]
    congr 1
    rw [pow_two]

end Length

section Real

/-- Changing to midcracks makes no contour longer. -/
theorem midcracks_length_le {s t : GMap ℝ} (hs : MapOK s) (hG : GeomOK s) (hlong : Long s) (e : crackEdgesToMidcracks s = .ok t) {d : Int} (hd : s.liveD d) :
    ∃ a b, contourLength pathLen s d = .ok a ∧ contourLength pathLen t d = .ok b ∧ b ≤ a := by
  classical
  obtain ⟨t', e', hT, hm, hM, -, -⟩ := crackEdgesToMidcracks_ok hs hG hlong
  rw [e] at e'; cases e'
  refine ⟨_, _, contourLength_sum hs pathLen hd, contourLength_sum hM pathLen ((hT.live d).2 hd), ?_⟩
  have hf : t.darts.filter (t.phiReach d) = s.darts.filter (s.phiReach d) := by
    ext x
    rw [Finset.mem_filter, Finset.mem_filter, mem_darts hM.graph.edge_lt, mem_darts hs.graph.edge_lt, hT.live]
    unfold GMap.phiReach
    rw [hT.phi]
  rw [hf]
  apply Finset.sum_le_sum
  intro x hx
  rw [Finset.mem_filter, mem_darts hs.graph.edge_lt] at hx
  obtain ⟨ed, hed⟩ := liveD_exists hx.1
  obtain ⟨ed', h1, -, h2, h3⟩ := hm.edge _ ed hed
  unfold dartLen
  rw [hed, h1]
  show pathLen ed'.pts ≤ pathLen ed.pts
  have hl := hlong _ _ hed
  by_cases ho : OnlyLoop s x.natAbs
  · refine (h2 trivial ho).pathLen_le hl ?_
    obtain ⟨e2, he2, hloop, -⟩ := ho
    rw [hed] at he2; cases he2
    obtain ⟨k1, k2⟩ := hG _ ed hed
    rw [k1, k2, hloop]
  · exact (h3 trivial ho).pathLen_le hl

end Real

section Border
variable {K : Type} [Field K]

theorem markLoop_mapOK {a : Int} : ∀ (n : Nat) (d : Int) {s t : GMap K}, MapOK s → markLoop a n d s = .ok t → MapOK t
  | 0, d, s, t, hs, e => by unfold markLoop at e; cases e
  | n + 1, d, s, t, hs, e => by
    unfold markLoop at e
    obtain ⟨ed, h1, e⟩ := Outcome.bind_eq_ok.1 e
    have he : s.edge d.natAbs = some ed := by
      unfold GMap.derefEdge at h1
      split_ifs at h1
      cases h : s.edge d.natAbs with
      | none => rw [h] at h1; cases h1
      | some x => rw [h] at h1; cases h1; rfl
    have hM : MapOK (s.setEdge d.natAbs (some (ed.setFlag borderProtection true))) := by
      have e1 : s.setFlags d.natAbs (ed.setFlag borderProtection true).flags = .ok (s.setEdge d.natAbs (some (ed.setFlag borderProtection true))) := by
        unfold GMap.setFlags
        rw [guaranteedEdge_of (d := (d.natAbs : Int)) (e := ed) (by rw [Int.natAbs_natCast]; exact he)]
        rfl
      rcases setFlags_step hs d.natAbs (ed.setFlag borderProtection true).flags with h | ⟨t', h, hE⟩
      · rw [e1] at h; cases h
      · rw [e1] at h; cases h; exact hE.map
    dsimp only at e
    split_ifs at e
    · cases e; exact hM
    · exact markLoop_mapOK n _ hM e

theorem markBorder_mapOK {s t : GMap K} (hs : MapOK s) (e : markBorder s = .ok t) : MapOK t := by
  unfold markBorder at e
  cases hF : s.face 0 with
  | none => rw [hF] at e; cases e
  | some F =>
    rw [hF] at e
    dsimp only at e
    cases ha : F.anchors with
    | nil => rw [ha] at e; cases e
    | cons a r => rw [ha] at e; exact markLoop_mapOK _ _ hs e

/-- Marking the border ends normally; exactly the edges of the first contour of the infinite face get the flag, and nothing else changes. -/
theorem markBorder_ok {s : GMap K} (hs : MapOK s) (hi : s.initialized) {F : Face K} (hF : s.face 0 = some F) {a : Int} {rest : List Int} (ha : F.anchors = a :: rest) :
    ∃ t, markBorder s = .ok t ∧ t = { s with edge := t.edge } ∧ MapOK t ∧ (∀ l, s.edge l = none → t.edge l = none) ∧
      ∀ l e, s.edge l = some e → ∃ e', t.edge l = some e' ∧ SameButBit 0 e e' ∧ (e'.flags.testBit 0 = true ↔ e.flags.testBit 0 = true ∨ OnContour s a l) := by
  classical
  obtain ⟨ψ, hr, hl, hc⟩ := exists_phi hs
  have hlive : s.liveD a := liveD_of_left ((hs.contours hi).anchor_left 0 F a hF (by rw [ha]; simp))
  have hm := mem_darts' hs hlive
  have hp := hr.isPeriodicPt hm
  have h := markLoop_eq hs hr hl hm s.fuel 0 hp.1 (by unfold GMap.fuel; omega)
  rw [withFlag_congr (Q := fun _ => False) (fun l _ => ⟨fun ⟨i, h, _⟩ => by omega, fun h => h.elim⟩), withFlag_none] at h
  have hon : ∀ l, (∃ i, i < Function.minimalPeriod s.phi a ∧ (s.phi^[i] a).natAbs = l) ↔ OnContour s a l := by
    intro l
    constructor
    · rintro ⟨i, -, h⟩
      exact ⟨_, h, i, rfl⟩
    · rintro ⟨d, h1, h2⟩
      obtain ⟨i, h3, h4⟩ := hr.iterate_lt hm ((hr.sameCycle_iff hm).2 h2)
      exact ⟨i, h3, by rw [h4]; exact h1⟩
  have heq : markBorder s = .ok (withFlag s borderProtection fun l => ∃ i, i < Function.minimalPeriod s.phi a ∧ (s.phi^[i] a).natAbs = l) := by
    unfold markBorder
    rw [hF]
    dsimp only
    rw [ha]
    exact h
  refine ⟨withFlag s borderProtection fun l => ∃ i, i < Function.minimalPeriod s.phi a ∧ (s.phi^[i] a).natAbs = l, heq, rfl, markBorder_mapOK hs heq, ?_, ?_⟩
  · intro l hn
    unfold withFlag; dsimp only; rw [hn]; rfl
  · intro l e he
    unfold withFlag
    dsimp only
    rw [he, Option.map_some]
    refine ⟨_, rfl, ?_⟩
    by_cases ho : OnContour s a l
    · rw [if_pos ((hon l).2 ho)]
      refine ⟨setFlag_same e 0 true, ?_⟩
      have := setFlag_testBit e 0 true 0
      rw [if_pos rfl] at this
      exact ⟨fun _ => Or.inr ho, fun _ => this⟩
    · rw [if_neg (fun h => ho ((hon l).1 h))]
      exact ⟨⟨rfl, rfl, rfl, rfl, rfl, fun _ _ => rfl⟩, fun h => Or.inl h, fun h => h.elim id (fun h => absurd h ho)⟩

omit [Field K] in
/-- If the infinite face has one contour, these are the edges with the infinite face on one side. -/
theorem onContour_border {s : GMap K} (hs : MapOK s) (hi : s.initialized) {F : Face K} (hF : s.face 0 = some F) {a : Int} (ha : F.anchors = [a]) {l : Nat} :
    OnContour s a l ↔ s.left? l = some 0 ∨ s.left? (-(l : Int)) = some 0 := by
  have hC := hs.contours hi
  have h0 := hC.anchor_left 0 F a hF (by rw [ha]; simp)
  have hlive := liveD_of_left h0
  have key : ∀ d, s.phiReach a d ↔ s.left? d = some 0 := by
    intro d
    constructor
    · rintro ⟨k, rfl⟩
      clear ha
      induction k with
      | zero => exact h0
      | succ k ih =>
        rw [Function.iterate_succ_apply', hC.left_phi _ (liveD_of_left ih)]
        exact ih
    · intro h
      obtain ⟨a', h1, h2⟩ := hC.anchor_cover 0 F d hF h
      rw [ha, List.mem_singleton] at h1
      rwa [h1] at h2
  constructor
  · rintro ⟨d, rfl, h⟩
    rw [key] at h
    rcases Int.natAbs_eq d with e | e
    · left; rw [← e]; exact h
    · right; rw [← e]; exact h
  · rintro (h | h)
    · exact ⟨l, by simp, (key _).2 h⟩
    · exact ⟨-(l : Int), by simp, (key _).2 h⟩

omit [Field K] in
/-- Without a contour of the infinite face the code dereferences an iterator at the end. -/
theorem markBorder_empty {s : GMap K} {F : Face K} (hF : s.face 0 = some F) (ha : F.anchors = []) : markBorder s = .ub := by
  unfold markBorder
  rw [hF]
  dsimp only
  rw [ha]

end Border

section CrackBorder
variable {α : Type} [LinearOrder α] {K : Type} [Field K] [LinearOrder K] [IsStrictOrderedRing K]

omit [LinearOrder K] [IsStrictOrderedRing K] in
theorem crackMap_geom {lab : Pos → α} {w h : Nat} {eight : Bool} {m : GMap K} (M : CrackMap lab w h eight m) : GeomOK m ∧ Long m := by
  refine ⟨fun l e he => ?_, fun l e he => (M.only_cracks (l : Int) e (by simpa using he)).1⟩
  obtain ⟨nd, nd', h1, h2, h3, h4⟩ := M.ends l e he
  exact ⟨by rw [h3, h1]; rfl, by rw [h4, h2]; rfl⟩

/-- In the map of a label image, if the contour of the infinite face is the border of the image, `initializeMap` of the generator marks exactly
the edges along the border: those with the outside of the image on one side. -/
theorem crackEdgeMap_border (lab : Pos → α) {w h : Nat} (hw : 0 < w) (hh : 0 < h) (eight : Bool) (pick : GMap K → Int → Option Nat)
    {g : Gen K} (hg : generate lab w h eight = .ok g) {u : GMap K} (hu : initMap pick g.map = .ok u)
    {F : Face K} (hF : u.face 0 = some F) {a : Int} {rest : List Int} (ha : F.anchors = a :: rest)
    {i : Nat} {p : Pos} {x : Dir} (hst : Step u a i p x) (hout : pix lab w h (leftPix p x) = none) :
    ∃ t, markBorder u = .ok t ∧ MapOK t ∧ GeomOK t ∧ Long t ∧ ∀ l e, u.edge l = some e → ∃ e', t.edge l = some e' ∧ e'.pts = e.pts ∧
      (e'.flags.testBit 0 = true ↔ e.flags.testBit 0 = true ∨ ∃ d j q y, d.natAbs = l ∧ Step u d j q y ∧ pix lab w h (leftPix q y) = none) := by
  obtain ⟨u', e1, hi, hM, M⟩ := crackEdgeMap_initializes lab hw hh eight pick hg
  rw [hu] at e1; cases e1
  obtain ⟨hG, hL⟩ := crackMap_geom M
  obtain ⟨t, e, ht, hMt, hn, hE⟩ := markBorder_ok hM hi hF ha
  have back : ∀ l e', t.edge l = some e' → ∃ e, u.edge l = some e ∧ SameButBit 0 e e' := by
    intro l e' he'
    cases hu : u.edge l with
    | none => rw [hn l hu] at he'; cases he'
    | some ed =>
      obtain ⟨e2, h1, h2, -⟩ := hE l ed hu
      rw [he'] at h1; cases h1
      exact ⟨ed, rfl, h2⟩
  have hnode : t.node = u.node := by rw [ht]
  refine ⟨t, e, hMt, fun l e' he' => ?_, fun l e' he' => ?_, fun l ed hed => ?_⟩
  · obtain ⟨ed, h1, h2⟩ := back l e' he'
    rw [h2.2.2.2.2.1, h2.1, h2.2.1, hnode]
    exact hG l ed h1
  · obtain ⟨ed, h1, h2⟩ := back l e' he'
    rw [h2.2.2.2.2.1]
    exact hL l ed h1
  · obtain ⟨e', h1, h2, h3⟩ := hE l ed hed
    refine ⟨e', h1, h2.2.2.2.2.1, ?_⟩
    rw [h3]
    apply or_congr Iff.rfl
    constructor
    · rintro ⟨d, rfl, hd⟩
      obtain ⟨m1, m2⟩ := M.only_cracks d ed hed
      obtain ⟨q, y, m3, -⟩ := m2 0 (by omega)
      refine ⟨d, 0, q, y, rfl, m3, ?_⟩
      rw [← hout]
      exact (crackEdgeMap_contour_label lab hw hh eight pick hg hu hd hst m3).symm
    · rintro ⟨d, j, q, y, hd, m3, m4⟩
      exact ⟨d, hd, crackEdgeMap_one_border lab hw hh eight pick hg hu hst m3 hout m4⟩

/-- The map of a label image can be changed to midcracks. -/
theorem crackEdgeMap_midcracks (lab : Pos → α) {w h : Nat} (hw : 0 < w) (hh : 0 < h) (eight : Bool) (pick : GMap K → Int → Option Nat)
    {g : Gen K} (hg : generate lab w h eight = .ok g) : ∃ u t, initMap pick g.map = .ok u ∧ crackEdgesToMidcracks u = .ok t ∧
      SameTopology u t ∧ Midcracked (fun _ => True) u t ∧ MapOK t ∧ GeomOK t := by
  obtain ⟨u, e1, hi, hM, M⟩ := crackEdgeMap_initializes lab hw hh eight pick hg
  obtain ⟨hG, hL⟩ := crackMap_geom M
  obtain ⟨t, h1, h2, h3, h4, h5, -⟩ := crackEdgesToMidcracks_ok hM hG hL
  exact ⟨u, t, e1, h1, h2, h3, h4, h5⟩

end CrackBorder

end Verif.Midcrack
