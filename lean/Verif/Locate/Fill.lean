import Verif.Locate.Base
import Verif.LabelImage.Props

/-! # Filling faces: the scanlines of a contour -/

set_option linter.unusedSectionVars false

namespace Verif.Locate
open Verif Verif.GeoMap Verif.Polygon Verif.Scan Verif.PermLemmas Verif.LabelImage Equiv.Perm

variable {K : Type} [Field K] [LinearOrder K] [IsStrictOrderedRing K] [FloorRing K]

/-- What an end point contributes. -/
def atEnd (x y : Int) (v : Option (Pt K)) : Int := (v.map (endTerm x y)).getD 0

/-- The lines are those of the points, with directions: left of a pixel that the polygon line does not pass through, the directions count how
often the line winds around the centre, except for half crossings at its ends. -/
structure DirOK (l : Lines) (pts : List (Pt K)) : Prop extends ScanOK l pts where
  dir : ∀ x y, ¬ Passes pts x y → leftSum (l.row y) x = 2 * winding (centre x y) pts - (atEnd x y pts.getLast? - atEnd x y pts.head?)

theorem edgeLines_dir (pts : List (Pt K)) : DirOK (edgeLines pts) pts := by
  refine ⟨edgeLines_ok pts, fun x y hn => ?_⟩
  cases pts with
  | nil =>
    have : (edgeLines ([] : List (Pt K))).row y = [] := by
      unfold edgeLines scanPolyBox
      simp only [scanPoly, Lines.row_empty]
    rw [this]; simp [winding, pathSum, atEnd, leftSum]
  | cons p l =>
    have hlast : (p :: l).getLast? = some ((p :: l).getLast (List.cons_ne_nil _ _)) := List.getLast?_eq_some_getLast (List.cons_ne_nil _ _)
    have hcov : ¬ Cov ((edgeLines (p :: l)).row y) x := fun h => hn (((edgeLines_ok (p :: l)).cov x y).mp h)
    rw [hlast]
    simp only [atEnd, List.head?_cons, Option.map_some, Option.getD_some]
    obtain ⟨h1, h2⟩ := y_range (pts := p :: l)
    by_cases hin : ⌊yMin (p :: l) + 1 / 2⌋ ≤ y ∧ y < ⌊yMin (p :: l) + 1 / 2⌋ + ((⌊yMax (p :: l) + 1 / 2⌋ - ⌊yMin (p :: l) + 1 / 2⌋ + 1).toNat : Int)
    · unfold edgeLines scanPolyBox at hcov ⊢
      rw [scanPoly_row, normRow_cov] at hcov
      rw [scanPoly_row, normRow_leftSum (scanRaw_wf _ _ _ _) hcov]
      have := scanRaw_wind hin hcov
      omega
    · have hfar := (box_range (y := y) h1).resolve_left hin
      have hrow : (edgeLines (p :: l)).row y = [] := scan_out_of_range _ _ _ _ hin
      have hend : ∀ q ∈ p :: l, endTerm x y q = 0 := by
        intro q hq
        unfold endTerm
        rw [if_neg]
        rintro ⟨hk, -⟩
        obtain ⟨k1, k2, -⟩ := kline_even hk
        obtain ⟨a, b⟩ := h2 q hq
        rcases hfar with h | h <;> linarith
      rw [hrow, hend _ (List.getLast_mem _), hend p List.mem_cons_self, winding_far]
      · rfl
      · rcases hfar with h | h
        · left; intro q hq; have := (h2 q hq).2; linarith
        · right; intro q hq; have := (h2 q hq).1; linarith

theorem DirOK.reverse {l : Lines} {pts : List (Pt K)} (h : DirOK l pts) : DirOK l.reverse pts.reverse := by
  have hp : ∀ x y, Passes pts.reverse x y ↔ Passes pts x y := passes_congr fun r => LabelImage.onLine_reverse pts r
  refine ⟨⟨fun x y => ?_, fun y => ?_, fun y => ?_⟩, fun x y hn => ?_⟩
  · rw [(reverse_directions l y x).2, h.cov, hp]
  · rw [Lines.row_reverse, List.pairwise_map]
    exact h.sep y
  · rw [Lines.row_reverse]
    intro s hs
    obtain ⟨t, ht, rfl⟩ := List.mem_map.mp hs
    exact h.wf y t ht
  · rw [(reverse_directions l y x).1, h.dir x y fun hh => hn ((hp x y).mpr hh), winding_reverse, List.getLast?_reverse, List.head?_reverse]
    ring

/-- What an end point contributes to the sum of all directions of a row. -/
def atFar (y : Int) (v : Option (Pt K)) : Int := (v.map fun p => 2 * Scan.side y p.2 - if kline p.2 = 2 * y then 2 * Scan.side y p.2 - 1 else 0).getD 0

theorem exists_far (l : List (Pt K)) : ∃ b : Int, ∀ r ∈ l, r.1 < (b : K) := by
  induction l with
  | nil => exact ⟨0, fun r hr => by cases hr⟩
  | cons q l ih =>
    obtain ⟨b, hb⟩ := ih
    refine ⟨max b (⌊q.1⌋ + 1), fun r hr => ?_⟩
    rcases List.mem_cons.mp hr with rfl | hr
    · refine lt_of_lt_of_le (Int.lt_floor_add_one r.1) ?_
      exact_mod_cast le_max_right b (⌊r.1⌋ + 1)
    · refine lt_of_lt_of_le (hb r hr) ?_
      exact_mod_cast le_max_left b (⌊q.1⌋ + 1)

theorem DirOK.dirSum {l : Lines} {pts : List (Pt K)} (h : DirOK l pts) (y : Int) :
    Scan.dirSum (l.row y) = atFar y pts.getLast? - atFar y pts.head? := by
  obtain ⟨b, hb⟩ := exists_far pts
  obtain ⟨x, hx1, hx2⟩ := exists_right (l.row y) b
  have hcov : ¬ Cov (l.row y) x := by
    rintro ⟨s, hs, h1, h2⟩
    have := hx2 s hs
    omega
  have hlt : ∀ r ∈ pts, r.1 < (x : K) := fun r hr => lt_of_lt_of_le (hb r hr) (by exact_mod_cast hx1)
  rw [← leftSum_eq_dirSum hx2, h.dir x y fun hp => hcov ((h.cov x y).mpr hp)]
  cases pts with
  | nil => simp [winding, pathSum, atEnd, atFar]
  | cons p q =>
    rw [winding_right x y p q hlt, List.getLast?_eq_some_getLast (List.cons_ne_nil p q)]
    have hend : ∀ r ∈ p :: q, endTerm x y r = if kline r.2 = 2 * y then 2 * Scan.side y r.2 - 1 else 0 := by
      intro r hr
      unfold endTerm
      simp only [hlt r hr, and_true]
    simp only [atEnd, atFar, List.head?_cons, Option.map_some, Option.getD_some]
    rw [hend _ (List.getLast_mem _), hend p List.mem_cons_self]
    ring

/-- The lines of a dart. -/
def dartLines (m : LMap K) (d : Int) : Lines :=
  match m.g.edge d.natAbs with
  | none => Lines.empty 0 0
  | some e => if 0 < d then m.lines d.natAbs e else (m.lines d.natAbs e).reverse

theorem dartLines_ok {m : LMap K} {d : Int} {e : Edge K} (he : m.g.edge d.natAbs = some e) (h : DirOK (m.lines d.natAbs e) e.pts) :
    DirOK (dartLines m d) (e.dartPts d) := by
  unfold dartLines
  rw [he]
  simp only [Edge.dartPts]
  split_ifs
  · exact h
  · exact h.reverse

/-- Walking around a contour collects the lines of its darts. -/
theorem contourLines_eq {m : LMap K} {L : Finset Int} {ψ : Equiv.Perm Int} (hr : Rep L m.g.phi m.g.phiInv ψ)
    (hl : ∀ d ∈ L, m.g.liveD d) {d : Int} (hd : d ∈ L) (n k : Nat) (hk : k < Function.minimalPeriod m.g.phi d)
    (hn : Function.minimalPeriod m.g.phi d - k ≤ n) (acc : Lines) :
    ∃ r, m.contourLines d n (m.g.phi^[k] d) acc = .ok r ∧ ∀ y,
      (∀ s, s ∈ r.row y ↔ s ∈ acc.row y ∨ ∃ i ∈ Finset.Ico k (Function.minimalPeriod m.g.phi d), s ∈ (dartLines m (m.g.phi^[i] d)).row y) ∧
      (∀ x, leftSum (r.row y) x = leftSum (acc.row y) x +
        ∑ i ∈ Finset.Ico k (Function.minimalPeriod m.g.phi d), leftSum ((dartLines m (m.g.phi^[i] d)).row y) x) ∧
      dirSum (r.row y) = dirSum (acc.row y) + ∑ i ∈ Finset.Ico k (Function.minimalPeriod m.g.phi d), dirSum ((dartLines m (m.g.phi^[i] d)).row y) := by
  induction n generalizing k acc with
  | zero => omega
  | succ n ih =>
    unfold LMap.contourLines
    obtain ⟨e, he⟩ := liveD_exists (hl _ (hr.iterate_mem hd k).2)
    rw [guaranteedEdge_of he]
    simp only [bind, Outcome.bind_ok]
    have hdl : (if 0 < m.g.phi^[k] d then m.lines (m.g.phi^[k] d).natAbs e else (m.lines (m.g.phi^[k] d).natAbs e).reverse) =
        dartLines m (m.g.phi^[k] d) := by
      unfold dartLines
      rw [he]
    rw [hdl, ← Function.iterate_succ_apply' m.g.phi k d]
    have hico : Finset.Ico k (Function.minimalPeriod m.g.phi d) = insert k (Finset.Ico (k + 1) (Function.minimalPeriod m.g.phi d)) :=
      (Finset.insert_Ico_add_one_left_eq_Ico hk).symm
    by_cases hk1 : k + 1 = Function.minimalPeriod m.g.phi d
    · have : m.g.phi^[k + 1] d = d := by rw [hk1]; exact Function.iterate_minimalPeriod
      rw [if_pos this]
      refine ⟨_, rfl, fun y => ?_⟩
      rw [hico, ← hk1, Finset.Ico_self, Lines.row_merge]
      exact ⟨fun s => by simp, fun x => by rw [leftSum_append]; simp, by rw [dirSum_append]; simp⟩
    · rw [if_neg (hr.iterate_ne (by omega) (by omega))]
      obtain ⟨r, h1, h2⟩ := ih (k + 1) (by omega) (by omega) (acc.merge (dartLines m (m.g.phi^[k] d)))
      refine ⟨r, h1, fun y => ⟨fun s => ?_, fun x => ?_, ?_⟩⟩
      · rw [(h2 y).1 s, Lines.row_merge, List.mem_append, hico]
        simp only [Finset.mem_insert, exists_eq_or_imp]
        tauto
      · rw [(h2 y).2.1 x, Lines.row_merge, leftSum_append, hico, Finset.sum_insert (by simp)]
        ring
      · rw [(h2 y).2.2, Lines.row_merge, dirSum_append, hico, Finset.sum_insert (by simp)]
        ring

/-- Filling lines whose directions cancel in every row. -/
theorem fill_lines {l : Lines} (hs : ∀ y, (l.row y).Pairwise fun s t => s.e < t.b) (hf : ∀ y, ∀ s ∈ l.row y, s.b ≤ s.e) (h0 : ∀ y, dirSum (l.row y) = 0)
    (w h : Nat) :
    (∀ p, p ∈ (fillScannedPoly l w h).1 ↔ InImage w h p ∧ ¬ Cov (l.row p.2) p.1 ∧ 0 < leftSum (l.row p.2) p.1) ∧
    (fillScannedPoly l w h).2 = .ok (fillScannedPoly l w h).1.length := by
  have hrow := fun y => fillRow_closed (w := (w : Int)) (by omega) (hs y) (hf y) (h0 y)
  constructor
  · rintro ⟨x, y⟩
    have hmem : (x, y) ∈ (fillScannedPoly l w h).1 ↔ y ∈ clipRows l h ∧ x ∈ (fillRow w 0 0 (l.row y)).1 := by
      simp only [fillScannedPoly, List.mem_flatMap, List.mem_map, exists_exists_and_eq_and]
      constructor
      · rintro ⟨z, hz, x', hx', he⟩
        simp only [Prod.mk.injEq] at he
        rw [← he.1, ← he.2]
        exact ⟨hz, hx'⟩
      · rintro ⟨h1, h2⟩
        exact ⟨y, h1, x, h2, rfl⟩
    rw [hmem, mem_clipRows, hrow]
    simp only [InImage]
    constructor
    · rintro ⟨⟨h1, h2, h3⟩, a1, a2, a3, a4⟩
      exact ⟨⟨a1, a2, h1, h2⟩, a3, a4⟩
    · rintro ⟨⟨a1, a2, h1, h2⟩, a3, a4⟩
      refine ⟨⟨h1, h2, ?_⟩, a1, a2, a3, a4⟩
      by_contra hin
      rw [Lines.row_out hin] at a4
      simp [leftSum] at a4
  · simp only [fillScannedPoly]
    rw [if_pos]
    rw [List.all_eq_true]
    intro z hz
    obtain ⟨y, hy, rfl⟩ := List.mem_map.mp hz
    simp only [decide_eq_true_eq]
    rw [fillRow_snd, h0 y]
    rfl

open Classical in
/-- How often the contour of dart `a` winds around `c`. -/
noncomputable def contourWind (g : GMap K) (c : Pt K) (a : Int) : Int := ∑ d ∈ g.darts, if g.phiReach a d then dartWind g c d else 0

/-- A dart of the contour of `a` passes through the pixel. -/
def ContourPasses (g : GMap K) (a : Int) (p : Int × Int) : Prop :=
  ∃ d e, g.phiReach a d ∧ g.edge d.natAbs = some e ∧ Passes e.pts p.1 p.2

open Classical in
theorem faceLines_ok {m : LMap K} (hM : MapOK m.g) (hi : m.g.initialized) (hG : GeomOK m.g)
    (hd : ∀ l e, m.g.edge l = some e → DirOK (m.lines l e) e.pts) {f : Nat} {F : Face K} (hF : m.g.face f = some F) {a : Int} {as : List Int}
    (ha : F.anchors = a :: as) :
    ∃ L, m.faceLines F = .ok L ∧ (∀ y, (L.row y).Pairwise fun s t => s.e < t.b) ∧ (∀ y, ∀ s ∈ L.row y, s.b ≤ s.e) ∧ (∀ y, dirSum (L.row y) = 0) ∧
      (∀ p : Int × Int, Cov (L.row p.2) p.1 ↔ ContourPasses m.g a p) ∧
      ∀ p : Int × Int, ¬ ContourPasses m.g a p → leftSum (L.row p.2) p.1 = 2 * contourWind m.g (centre p.1 p.2) a := by
  obtain ⟨π, hg⟩ := hM.graph.exists_rep
  obtain ⟨ψ, hc⟩ := (hM.contours hi).exists_rep hg
  have hlive : ∀ d, d ∈ m.g.darts ↔ m.g.liveD d := mem_darts hg.labels.edge_lt
  have hla : m.g.left? a = some f := (hM.contours hi).anchor_left f F a hF (by rw [ha]; simp)
  have had : a ∈ m.g.darts := by
    rw [hlive]
    unfold GMap.left? at hla
    unfold GMap.liveD
    cases he : m.g.edge a.natAbs with
    | none => rw [he] at hla; cases hla
    | some e => rfl
  obtain ⟨e, he⟩ := liveD_exists ((hlive a).mp had)
  have hper := hc.rep.isPeriodicPt had
  obtain ⟨r, h1, h2⟩ := contourLines_eq hc.rep (fun d hd => (hlive d).mp hd) had m.g.fuel 0 hper.1
    (by have := hg.card_le; unfold GMap.fuel; omega) (Lines.empty (m.lines a.natAbs e).start 0)
  have hreach : ∀ d, m.g.phiReach a d ↔ SameCycle ψ a d := fun d => (hc.rep.sameCycle_iff had).symm
  have hsum : ∀ v : Int → Int, (∑ i ∈ Finset.Ico 0 (Function.minimalPeriod m.g.phi a), v (m.g.phi^[i] a)) =
      ∑ d ∈ m.g.darts, if m.g.phiReach a d then v d else 0 := by
    intro v
    rw [← Finset.range_eq_Ico, hc.rep.sum_range had, Finset.sum_filter]
    refine Finset.sum_congr rfl fun d _ => ?_
    simp only [hreach]
  have hP : ∀ d, m.g.liveD d → (m.g.phiReach a (m.g.phi d) ↔ m.g.phiReach a d) := by
    intro d hl
    rw [hreach, hreach, hc.rep.eq d ((hlive d).mpr hl)]
    exact sameCycle_apply_right
  have hdart : ∀ d, d ∈ m.g.darts → ∃ e, m.g.edge d.natAbs = some e ∧ DirOK (dartLines m d) (e.dartPts d) ∧ head m.g d = (e.dartPts d).head? ∧
      head m.g (-d) = (e.dartPts d).getLast? := by
    intro d hd'
    obtain ⟨e, he⟩ := liveD_exists ((hlive d).mp hd')
    have d0 : d ≠ 0 := by rintro rfl; rw [Int.natAbs_zero, hM.graph.edge_zero] at he; cases he
    refine ⟨e, he, dartLines_ok he (hd _ e he), by unfold head; rw [he]; rfl, ?_⟩
    unfold head
    rw [Int.natAbs_neg, he]
    simp only [Option.bind_some]
    rw [Edge.dartPts_neg e d0, List.head?_reverse]
  have hrow0 : ∀ y, (Lines.empty (m.lines a.natAbs e).start 0).row y = [] := fun y => Lines.row_empty _ _ _
  have hmem : ∀ y s, s ∈ r.row y ↔ ∃ d ∈ m.g.darts, m.g.phiReach a d ∧ s ∈ (dartLines m d).row y := by
    intro y s
    rw [(h2 y).1 s, hrow0]
    simp only [List.not_mem_nil, false_or, Finset.mem_Ico, zero_le, true_and]
    constructor
    · rintro ⟨i, -, hs⟩
      exact ⟨_, (hc.rep.iterate_mem had i).2, ⟨i, rfl⟩, hs⟩
    · rintro ⟨d, -, ⟨k, rfl⟩, hs⟩
      refine ⟨k % Function.minimalPeriod m.g.phi a, Nat.mod_lt _ hper.1, ?_⟩
      rw [Function.iterate_mod_minimalPeriod_eq]
      exact hs
  have hwf : ∀ y, ∀ s ∈ r.row y, s.b ≤ s.e := by
    intro y s hs
    obtain ⟨d, hd', -, hs⟩ := (hmem y s).mp hs
    obtain ⟨e, -, ho, -⟩ := hdart d hd'
    exact ho.wf y s hs
  have hcov : ∀ p : Int × Int, Cov (r.row p.2) p.1 ↔ ContourPasses m.g a p := by
    intro p
    constructor
    · rintro ⟨s, hs, hx⟩
      obtain ⟨d, hd', hr, hs⟩ := (hmem _ s).mp hs
      obtain ⟨e, he, ho, -⟩ := hdart d hd'
      exact ⟨d, e, hr, he, (passes_dartPts e d _ _).mp ((ho.cov _ _).mp ⟨s, hs, hx⟩)⟩
    · rintro ⟨d, e, hr, he, hp⟩
      have hd' := (hlive d).mpr (liveD_edge he)
      obtain ⟨e', he', ho, -⟩ := hdart d hd'
      rw [he] at he'
      cases he'
      obtain ⟨s, hs, hx⟩ := (ho.cov _ _).mpr ((passes_dartPts e d _ _).mpr hp)
      exact ⟨s, (hmem _ s).mpr ⟨d, hd', hr, hs⟩, hx⟩
  refine ⟨r.normalize, ?_, normalize_disjoint hwf, ?_, ?_, ?_, ?_⟩
  · unfold LMap.faceLines
    rw [ha]
    simp only [guaranteedEdge_of he, bind, Outcome.bind_ok]
    have h1 : m.contourLines a m.g.fuel a (Lines.empty (m.lines a.natAbs e).start 0) = .ok r := h1
    rw [h1]
    rfl
  · intro y
    rw [Lines.row_normalize]
    exact normRow_wf (hwf y)
  · intro y
    rw [(normalize_directions hwf y).2, (h2 y).2.2, hrow0, hsum (fun d => dirSum ((dartLines m d).row y))]
    have := sum_closed_of hM hi hG (atFar y) hP
    rw [← sub_eq_zero, ← Finset.sum_sub_distrib] at this
    rw [show dirSum [] = 0 from rfl, zero_add]
    refine Eq.trans ?_ this
    refine Finset.sum_congr rfl fun d hd' => ?_
    obtain ⟨e, he, ho, q1, q2⟩ := hdart d hd'
    rw [q1, q2, ho.dirSum]
    split_ifs <;> ring
  · intro p
    rw [normalize_covers, hcov]
  · intro p hp
    have hnc : ¬ Cov (r.row p.2) p.1 := fun h => hp ((hcov p).mp h)
    rw [(normalize_directions hwf p.2).1 _ hnc, (h2 _).2.1, hrow0, hsum (fun d => leftSum ((dartLines m d).row p.2) p.1)]
    have := sum_closed_of hM hi hG (atEnd p.1 p.2) hP
    rw [← sub_eq_zero, ← Finset.sum_sub_distrib] at this
    unfold contourWind
    rw [show leftSum [] p.1 = 0 from rfl, zero_add, Finset.mul_sum, ← sub_eq_zero, ← Finset.sum_sub_distrib, ← neg_eq_zero, ← Finset.sum_neg_distrib]
    refine Eq.trans ?_ this
    refine Finset.sum_congr rfl fun d hd' => ?_
    obtain ⟨e, he, ho, q1, q2⟩ := hdart d hd'
    by_cases hr : m.g.phiReach a d
    · rw [if_pos hr, if_pos hr, if_pos hr, if_pos hr, q1, q2]
      have hnp : ¬ Passes (e.dartPts d) p.1 p.2 := fun h => hp ⟨d, e, hr, he, (passes_dartPts e d _ _).mp h⟩
      rw [ho.dir _ _ hnp]
      unfold dartWind
      rw [he]
      ring
    · simp [hr]

theorem faceLines_fill {m : LMap K} (hM : MapOK m.g) (hi : m.g.initialized) (hG : GeomOK m.g)
    (hd : ∀ l e, m.g.edge l = some e → DirOK (m.lines l e) e.pts) {f : Nat} {F : Face K} (hF : m.g.face f = some F) {a : Int} {as : List Int}
    (ha : F.anchors = a :: as) (w h : Nat) :
    ∃ L, m.faceLines F = .ok L ∧ (fillScannedPoly L w h).2 = .ok (fillScannedPoly L w h).1.length ∧
      ∀ p, p ∈ (fillScannedPoly L w h).1 ↔ InImage w h p ∧ ¬ ContourPasses m.g a p ∧ 0 < contourWind m.g (centre p.1 p.2) a := by
  obtain ⟨L, h1, h2, h3, h4, h5, h6⟩ := faceLines_ok hM hi hG hd hF ha
  obtain ⟨h7, h8⟩ := fill_lines h2 h3 h4 w h
  refine ⟨L, h1, h8, fun p => ?_⟩
  rw [h7, h5]
  constructor
  · rintro ⟨a1, a2, a3⟩
    rw [h6 p a2] at a3
    exact ⟨a1, a2, by omega⟩
  · rintro ⟨a1, a2, a3⟩
    exact ⟨a1, a2, by rw [h6 p a2]; omega⟩

end Verif.Locate
