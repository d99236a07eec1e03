import Verif.Query.Model
import Verif.PointIter.Props
import Verif.Polygon.Props
import Verif.Locate.ImageProps

/-! # Contours as polygons: lemmas -/

set_option linter.unusedSectionVars false

namespace Verif.Query
open Verif Verif.GeoMap Verif.Polygon Verif.Scan Verif.LabelImage Verif.PermLemmas Verif.Locate

variable {K : Type} [Field K] [LinearOrder K] [IsStrictOrderedRing K]

/-! ## Winding numbers and crossings -/

theorem turn_parity (c p q : Pt K) : (crossInd c p q - turn c p q) % 2 = 0 := by
  unfold crossInd turn Polygon.Crosses intersectX
  by_cases h : p.1 + (q.1 - p.1) * (c.2 - p.2) / (q.2 - p.2) < c.1 <;> by_cases h1 : p.2 < c.2 <;> by_cases h2 : q.2 < c.2 <;>
    simp [h, h1, h2, not_le.mpr, not_lt.mp]

theorem pathSum_parity {F G : Pt K → Pt K → ℤ} (h : ∀ p q, (F p q - G p q) % 2 = 0) (l : List (Pt K)) : (pathSum F l - pathSum G l) % 2 = 0 := by
  induction l with
  | nil => rfl
  | cons p l ih =>
    cases l with
    | nil => rfl
    | cons q l =>
      have := h p q
      simp only [pathSum] at ih ⊢
      omega

theorem winding_parity (c : Pt K) (l : List (Pt K)) : pathSum (crossInd c) l % 2 = 1 ↔ winding c l % 2 = 1 := by
  have := pathSum_parity (turn_parity c) l
  unfold winding
  omega

/-- A closed polygon does not wind around points outside of its bounding box. -/
theorem winding_outside {b : Box K} {l : List (Pt K)} {x : Pt K} (hb : IsBoundingBox b l) (hx : inBox b x = false) (hc : l.head? = l.getLast?) :
    winding x l = 0 := by
  cases b with
  | none => rw [show l = [] from hb]; rfl
  | some b =>
    obtain ⟨lo, hi⟩ := b
    have h0 := hb.1
    simp only [inBox, decide_eq_false_iff_not] at hx
    have hzero : ∀ l : List (Pt K), pathSum (fun _ _ : Pt K => (0 : ℤ)) l = 0 := by
      intro l
      induction l with
      | nil => rfl
      | cons p l ih => rw [pathSum_cons, ih]; cases l.head? <;> rfl
    unfold winding
    by_cases h1 : lo.1 ≤ x.1
    · by_cases h2 : x.1 ≤ hi.1
      · rw [pathSum_congr (turn x) (fun _ _ => (0 : ℤ)) (· ∈ l) ?_ l (fun _ h => h), hzero]
        intro p q hp hq
        have hp := h0 p hp; have hq := h0 q hq
        have h3 : ¬ (lo.2 ≤ x.2 ∧ x.2 ≤ hi.2) := fun h => hx ⟨h1, h2, h.1, h.2⟩
        unfold turn
        by_cases h4 : lo.2 ≤ x.2
        · have h5 : hi.2 < x.2 := by by_contra hcon; push Not at hcon; exact h3 ⟨h4, hcon⟩
          rw [if_neg (fun h : p.2 < x.2 ∧ x.2 ≤ q.2 => by linarith [h.2, hq.2.2.2]), if_neg (fun h : q.2 < x.2 ∧ x.2 ≤ p.2 => by linarith [h.2, hp.2.2.2])]
          simp
        · push Not at h4
          rw [if_neg (fun h : p.2 < x.2 ∧ x.2 ≤ q.2 => by linarith [h.1, hp.2.2.1]), if_neg (fun h : q.2 < x.2 ∧ x.2 ≤ p.2 => by linarith [h.1, hq.2.2.1])]
          simp
      · push Not at h2
        rw [pathSum_congr (turn x) (fun p q => (if x.2 ≤ q.2 then 1 else 0) - (if x.2 ≤ p.2 then (1 : ℤ) else 0)) (· ∈ l) ?_ l (fun _ h => h)]
        · cases l with
          | nil => rfl
          | cons a l =>
            have tel : ∀ (l : List (Pt K)) (a : Pt K), pathSum (fun p q : Pt K => (if x.2 ≤ q.2 then 1 else 0) - (if x.2 ≤ p.2 then (1 : ℤ) else 0)) (a :: l) =
                (if x.2 ≤ ((a :: l).getLast (List.cons_ne_nil a l)).2 then 1 else 0) - if x.2 ≤ a.2 then 1 else 0 := by
              intro l
              induction l with
              | nil => intro a; rw [List.getLast_singleton, sub_self]; rfl
              | cons b l ih =>
                intro a
                rw [pathSum_cons, ih b, List.head?_cons, joint_some, List.getLast_cons (List.cons_ne_nil b l)]
                ring
            rw [tel]
            have : (a :: l).getLast (List.cons_ne_nil a l) = a := by
              rw [List.head?_cons, List.getLast?_eq_some_getLast (List.cons_ne_nil a l)] at hc
              exact (Option.some.inj hc).symm
            rw [this, sub_self]
        · intro p q hp hq
          have hp := h0 p hp; have hq := h0 q hq
          unfold turn
          have key : (p.2 < x.2 ↔ ¬ q.2 < x.2) → p.1 + (q.1 - p.1) * (x.2 - p.2) / (q.2 - p.2) < x.1 := by
            intro h
            rcases (intersectX_between h).2 with h' | h'
            · exact lt_of_le_of_lt (h'.trans hp.2.1) h2
            · exact lt_of_le_of_lt (h'.trans hq.2.1) h2
          by_cases h4 : p.2 < x.2 <;> by_cases h5 : q.2 < x.2
          · simp [h4, h5, not_le.mpr]
          · rw [if_pos (key (by tauto)), if_pos ⟨h4, not_lt.mp h5⟩, if_pos (not_lt.mp h5), if_neg (not_le.mpr h4)]; rfl
          · rw [if_pos (key (by tauto)), if_neg (fun h => h4 h.1), if_pos ⟨h5, not_lt.mp h4⟩, if_neg (not_le.mpr h5), if_pos (not_lt.mp h4)]; rfl
          · rw [if_pos (not_lt.mp h5), if_pos (not_lt.mp h4), if_neg (fun h : p.2 < x.2 ∧ _ => h4 h.1), if_neg (fun h : q.2 < x.2 ∧ _ => h5 h.1)]; simp
    · push Not at h1
      rw [pathSum_congr (turn x) (fun _ _ => (0 : ℤ)) (· ∈ l) ?_ l (fun _ h => h), hzero]
      intro p q hp hq
      have hp := h0 p hp; have hq := h0 q hq
      unfold turn
      by_cases h : (p.2 < x.2 ↔ ¬ q.2 < x.2)
      · rw [if_neg]
        rcases (intersectX_between h).1 with h' | h'
        · exact not_lt.mpr (h1.le.trans (hp.1.trans h'))
        · exact not_lt.mpr (h1.le.trans (hq.1.trans h'))
      · have h' : ¬ (p.2 < x.2 ∧ x.2 ≤ q.2) := fun hh => h ⟨fun _ => not_lt.mpr hh.2, fun _ => hh.1⟩
        have h'' : ¬ (q.2 < x.2 ∧ x.2 ≤ p.2) := fun hh => h ⟨fun k => absurd hh.2 (not_le.mpr k), fun k => absurd hh.1 k⟩
        rw [if_neg h', if_neg h'']
        simp

/-! ## Contours -/

/-- The polygon of a contour: closed, its points are those of the darts, it winds like the contour and has its area. -/
theorem contourPoly_of {g : GMap K} (hM : MapOK g) (hi : g.initialized) (hG : GeomOK g) {a : Int} (ha : g.liveD a) (dist : Pt K → Pt K → K) :
    ∃ p, PointIter.contourPoly dist g a = .ok p ∧ p.box = none ∧ p.pts ≠ [] ∧ p.pts.head? = p.pts.getLast? ∧
      (∀ q, q ∈ p.pts ↔ ∃ d e, g.phiReach a d ∧ g.edge d.natAbs = some e ∧ q ∈ e.pts) ∧ (∀ c, winding c p.pts = contourWind g c a) ∧
      pathSum cross p.pts / 2 = g.orbitArea a := by
  obtain ⟨n, hret, hle, hlive, -, harea⟩ := PointIter.contour_darts hM.graph ha
  obtain ⟨p, h1, h2, h3, -⟩ := PointIter.contourPolyLoop_spec dist hM.graph hG ha hret g.fuel 0 hret.1 (by unfold GMap.fuel; omega)
    Polygon.Poly.default (fun _ => rfl) (fun h => absurd h (lt_irrefl _)) (by simp [Polygon.Poly.default]) rfl
  have hj := fun k => PointIter.pointsOf_joined hM.graph hG ha k
  obtain ⟨x, hx⟩ : ∃ x, (PointIter.pointsOf g a).head? = some x := by
    cases h : PointIter.pointsOf g a with
    | nil => exact absurd h (hj 0).1
    | cons x l => exact ⟨x, rfl⟩
  have hne : p.pts ≠ [] := by rw [h2, hx]; simp
  obtain ⟨-, hlast⟩ := PointIter.contour_joined hM.graph hG ha hret
  -- sums along the polygon
  have hsum : ∀ {M : Type} [AddCommGroup M] (F : Pt K → Pt K → M) (k : Nat), pathSum F ((PointIter.pointsOf g a).head?.toList ++ PointIter.contourPoints g a k) =
      ∑ i ∈ Finset.range k, pathSum F (PointIter.pointsOf g (g.phi^[i] a)) ∧
      ((PointIter.pointsOf g a).head?.toList ++ PointIter.contourPoints g a k).getLast? = (PointIter.pointsOf g (g.phi^[k] a)).head? := by
    intro M _ F k
    induction k with
    | zero => rw [hx]; simp [PointIter.contourPoints, hx, pathSum]
    | succ k ih =>
      have hc : PointIter.contourPoints g a (k + 1) = PointIter.contourPoints g a k ++ (PointIter.pointsOf g (g.phi^[k] a)).tail := by
        simp [PointIter.contourPoints, List.range_succ, List.flatMap_append]
      rw [hc, ← List.append_assoc, Finset.sum_range_succ, ← ih.1]
      refine ⟨?_, ?_⟩
      · rw [← List.drop_one, pathSum_glue F (by rw [hx]; simp) ih.2]
      · rw [PointIter.tail_last ih.2 (hj k).1]; exact (hj k).2
  refine ⟨p, h1, h3, hne, ?_, fun q => ?_, fun c => ?_, ?_⟩
  · rw [h2, hlast, hx]; rfl
  · have hmem : q ∈ p.pts ↔ ∃ k < n, q ∈ PointIter.pointsOf g (g.phi^[k] a) := by
      rw [h2, hx]
      simp only [Option.toList_some, List.singleton_append, List.mem_cons, PointIter.contourPoints, List.mem_flatMap, List.mem_range]
      constructor
      · rintro (rfl | ⟨k, hk, hq⟩)
        · exact ⟨0, hret.1, List.mem_of_mem_head? (by rw [show g.phi^[0] a = a from rfl, hx]; rfl)⟩
        · exact ⟨k, hk, List.mem_of_mem_tail hq⟩
      · rintro ⟨k, hk, hq⟩
        -- the first point of a dart is the last one of its predecessor
        cases hp : PointIter.pointsOf g (g.phi^[k] a) with
        | nil => rw [hp] at hq; simp at hq
        | cons y l =>
          rw [hp, List.mem_cons] at hq
          rcases hq with rfl | hq
          · have := (hsum (fun _ _ => (0 : ℤ)) k).2
            rw [hp, hx] at this
            have := List.mem_of_mem_getLast? (by rw [this]; rfl : q ∈ _)
            simp only [Option.toList_some, List.singleton_append, List.mem_cons, PointIter.contourPoints, List.mem_flatMap, List.mem_range] at this
            rcases this with h | ⟨j, hj', hq⟩
            · exact Or.inl h
            · exact Or.inr ⟨j, by omega, hq⟩
          · exact Or.inr ⟨k, hk, by rw [hp]; exact hq⟩
    have hpts : ∀ d e, g.edge d.natAbs = some e → (q ∈ PointIter.pointsOf g d ↔ q ∈ e.pts) := by
      intro d e he
      rw [PointIter.pointsOf_of he, Edge.dartPts]
      split_ifs
      · rfl
      · exact List.mem_reverse
    rw [hmem]
    constructor
    · rintro ⟨k, -, hq⟩
      obtain ⟨e, he⟩ := liveD_exists (hlive k)
      exact ⟨_, e, ⟨k, rfl⟩, he, (hpts _ e he).mp hq⟩
    · rintro ⟨d, e, ⟨k, rfl⟩, he, hq⟩
      refine ⟨k % n, Nat.mod_lt _ hret.1, ?_⟩
      have hper : Function.IsPeriodicPt g.phi n a := hret.2.1
      rw [hper.iterate_mod_apply k]
      exact (hpts _ e he).mpr hq
  · classical
    unfold winding
    rw [h2, (hsum (turn c) n).1]
    obtain ⟨π, hg⟩ := hM.graph.exists_rep
    obtain ⟨ψ, hc⟩ := (hM.contours hi).exists_rep hg
    have had : a ∈ g.darts := (mem_darts hg.labels.edge_lt a).mpr ha
    have hn : n = Function.minimalPeriod g.phi a := by
      have hr := hc.rep.returns had
      rcases lt_trichotomy n (Function.minimalPeriod g.phi a) with h | h | h
      · exact absurd hret.2.1 (fun h' => hr.2.2 0 n hret.1 h h'.symm)
      · exact h
      · exact absurd hr.2.1 (fun h' => hret.2.2 0 _ hr.1 h h'.symm)
    unfold contourWind
    rw [hn, hc.rep.sum_range had (fun d => pathSum (turn c) (PointIter.pointsOf g d)), Finset.sum_filter]
    refine Finset.sum_congr rfl fun d hd => ?_
    obtain ⟨e, he⟩ := liveD_exists ((mem_darts hg.labels.edge_lt d).mp hd)
    rw [PointIter.pointsOf_of he]
    have : g.phiReach a d ↔ ψ.SameCycle a d := (hc.rep.sameCycle_iff had).symm
    simp only [this]
    split_ifs
    · unfold dartWind
      rw [he]
      rfl
    · rfl
  · rw [h2, (hsum cross n).1, harea, Finset.sum_div]
    refine Finset.sum_congr rfl fun i _ => ?_
    obtain ⟨e, he⟩ := liveD_exists (hlive i)
    rw [PointIter.pathSum_area2, PointIter.pointsOf_of he, GMap.dartArea_of he]
    rfl

/-- `contourPoly(dart).contains(point)` tells whether the contour winds around the point an odd number of times. -/
theorem contourPoly_contains {g : GMap K} (hM : MapOK g) (hi : g.initialized) (hG : GeomOK g) {a : Int} (ha : g.liveD a) (dist : Pt K → Pt K → K) (c : Pt K) :
    ∃ p, PointIter.contourPoly dist g a = .ok p ∧ p.bboxContains c = .ok (decide (contourWind g c a % 2 = 1)) := by
  obtain ⟨p, h1, h2, h3, h4, -, h6, -⟩ := contourPoly_of hM hi hG ha dist
  refine ⟨p, h1, ?_⟩
  rw [Props.contains_bbox p c h3 h4 (BoxOK.boundingBox (fun x hx => by rw [h2] at hx; cases hx)), contains_eq p c h3 h4, ← h6]
  simp only [winding_parity]

theorem boxLoop_eq {g : GMap K} {L : Finset Int} {ψ : Equiv.Perm Int} (hr : Rep L g.phi g.phiInv ψ) (hl : ∀ d ∈ L, g.liveD d) {d : Int} (hd : d ∈ L)
    (n k : Nat) (hk : k < Function.minimalPeriod g.phi d) (hn : Function.minimalPeriod g.phi d - k ≤ n) (b : Box K) (l : List (Pt K)) (hb : IsBoundingBox b l) :
    ∃ x m, boxLoop g d n (g.phi^[k] d) b = .ok x ∧ IsBoundingBox x m ∧
      ∀ q, q ∈ m ↔ q ∈ l ∨ ∃ i, k ≤ i ∧ i < Function.minimalPeriod g.phi d ∧ ∃ e, g.edge (g.phi^[i] d).natAbs = some e ∧ q ∈ e.pts := by
  induction n generalizing k b l with
  | zero => omega
  | succ n ih =>
    unfold boxLoop
    obtain ⟨e, he⟩ := liveD_exists (hl _ (hr.iterate_mem hd k).2)
    rw [guaranteedEdge_of he]
    simp only [bind, Outcome.bind_ok]
    have hb' : IsBoundingBox (boxUnion b (edgeBox e.pts)) (l ++ e.pts) :=
      isBB_union hb (BoxOK.boundingBox (p := Poly.ofPoints e.pts) (fun x hx => by cases hx))
    rw [← Function.iterate_succ_apply' g.phi k d]
    by_cases hk1 : k + 1 = Function.minimalPeriod g.phi d
    · rw [if_pos (by rw [Nat.succ_eq_add_one, hk1]; exact Function.iterate_minimalPeriod)]
      refine ⟨_, _, rfl, hb', fun q => ?_⟩
      rw [List.mem_append]
      constructor
      · rintro (h | h)
        · exact Or.inl h
        · exact Or.inr ⟨k, le_rfl, hk, e, he, h⟩
      · rintro (h | ⟨i, h1, h2, e', he', hq⟩)
        · exact Or.inl h
        · have : i = k := by omega
          subst this
          rw [he] at he'; cases he'
          exact Or.inr hq
    · rw [if_neg (hr.iterate_ne (by omega) (by omega))]
      obtain ⟨x, m, h1, h2, h3⟩ := ih (k + 1) (by omega) (by omega) _ _ hb'
      refine ⟨x, m, h1, h2, fun q => ?_⟩
      rw [h3, List.mem_append]
      constructor
      · rintro ((h | h) | ⟨i, a1, a2, a3⟩)
        · exact Or.inl h
        · exact Or.inr ⟨k, le_rfl, hk, e, he, h⟩
        · exact Or.inr ⟨i, by omega, a2, a3⟩
      · rintro (h | ⟨i, a1, a2, e', he', hq⟩)
        · exact Or.inl (Or.inl h)
        · by_cases hik : i = k
          · subst hik
            rw [he] at he'; cases he'
            exact Or.inl (Or.inr hq)
          · exact Or.inr ⟨i, by omega, a2, e', he', hq⟩

/-- The box of a contour: the bounding box of its polygon. -/
theorem boxLoop_of {g : GMap K} (hM : MapOK g) (hi : g.initialized) (hG : GeomOK g) {a : Int} (ha : g.liveD a) :
    ∃ x m, boxLoop g a g.fuel a none = .ok x ∧ IsBoundingBox x m ∧ (∀ q, q ∈ m ↔ ∃ d e, g.phiReach a d ∧ g.edge d.natAbs = some e ∧ q ∈ e.pts) ∧
      ∀ c, inBox x c = false → contourWind g c a = 0 := by
  obtain ⟨π, hg⟩ := hM.graph.exists_rep
  obtain ⟨ψ, hc⟩ := (hM.contours hi).exists_rep hg
  have had : a ∈ g.darts := (mem_darts hg.labels.edge_lt a).mpr ha
  have hper := hc.rep.isPeriodicPt had
  obtain ⟨x, m, h1, h2, h3⟩ := boxLoop_eq hc.rep (fun d hd => (mem_darts hg.labels.edge_lt d).mp hd) had g.fuel 0 hper.1
    (by have := hg.card_le; unfold GMap.fuel; omega) none [] rfl
  have hmem : ∀ q, q ∈ m ↔ ∃ d e, g.phiReach a d ∧ g.edge d.natAbs = some e ∧ q ∈ e.pts := by
    intro q
    rw [h3]
    constructor
    · rintro (h | ⟨i, -, -, e, he, hq⟩)
      · simp at h
      · exact ⟨_, e, ⟨i, rfl⟩, he, hq⟩
    · rintro ⟨d, e, ⟨k, rfl⟩, he, hq⟩
      refine Or.inr ⟨k % Function.minimalPeriod g.phi a, Nat.zero_le _, Nat.mod_lt _ hper.1, e, ?_, hq⟩
      rw [Function.iterate_mod_minimalPeriod_eq]; exact he
  refine ⟨x, m, h1, h2, hmem, fun c hx => ?_⟩
  obtain ⟨p, -, -, -, hcl, hp, hw, -⟩ := contourPoly_of hM hi hG ha (fun _ _ => 0)
  rw [← hw]
  exact winding_outside (isBB_congr (fun q => by rw [hmem, hp]) h2) hx hcl

open Classical in
/-- The contours of a face wind around a point as often as all its darts together. -/
theorem faceWind_contours {g : GMap K} (hM : MapOK g) (hi : g.initialized) {f : Nat} {F : Face K} (hF : g.face f = some F) (c : Pt K) :
    faceWind g c f = (F.anchors.map fun a => contourWind g c a).sum := by
  have hC := hM.contours hi
  obtain ⟨π, hg⟩ := hM.graph.exists_rep
  obtain ⟨ψ, hc⟩ := hC.exists_rep hg
  have hlive : ∀ d, d ∈ g.darts ↔ g.liveD d := mem_darts hg.labels.edge_lt
  have hal : ∀ a ∈ F.anchors, a ∈ g.darts := by
    intro a ha
    have := hC.anchor_left f F a hF ha
    rw [hlive]
    unfold GMap.left? at this
    unfold GMap.liveD
    cases he : g.edge a.natAbs with
    | none => rw [he] at this; cases this
    | some e => rfl
  -- darts reached from one of a list of anchors
  have key : ∀ as : List Int, (∀ a ∈ as, a ∈ g.darts) → as.Pairwise (fun a b => ¬ g.phiReach a b) →
      (as.map fun a => contourWind g c a).sum = ∑ d ∈ g.darts, if ∃ a ∈ as, g.phiReach a d then dartWind g c d else 0 := by
    intro as
    induction as with
    | nil => intro _ _; simp
    | cons a as ih =>
      intro h1 h2
      obtain ⟨h3, h4⟩ := List.pairwise_cons.mp h2
      rw [List.map_cons, List.sum_cons, ih (fun b hb => h1 b (List.mem_cons_of_mem _ hb)) h4]
      unfold contourWind
      rw [← Finset.sum_add_distrib]
      refine Finset.sum_congr rfl fun d hd => ?_
      by_cases hr : g.phiReach a d
      · have hn : ¬ ∃ b ∈ as, g.phiReach b d := by
          rintro ⟨b, hb, hbd⟩
          refine h3 b hb ?_
          have ha' := h1 a List.mem_cons_self
          have hb' := h1 b (List.mem_cons_of_mem _ hb)
          have h5 : ψ.SameCycle a d := (hc.rep.sameCycle_iff ha').mpr hr
          have h6 : ψ.SameCycle b d := (hc.rep.sameCycle_iff hb').mpr hbd
          exact (hc.rep.sameCycle_iff ha').mp (h5.trans h6.symm)
        rw [if_pos hr, if_neg hn, if_pos ⟨a, List.mem_cons_self, hr⟩, add_zero]
      · rw [if_neg hr, zero_add]
        by_cases hb : ∃ b ∈ as, g.phiReach b d
        · rw [if_pos hb, if_pos]
          obtain ⟨b, hb, hbd⟩ := hb
          exact ⟨b, List.mem_cons_of_mem _ hb, hbd⟩
        · rw [if_neg hb, if_neg]
          rintro ⟨b, hb', hbd⟩
          rcases List.mem_cons.mp hb' with rfl | hb'
          · exact hr hbd
          · exact hb ⟨b, hb', hbd⟩
  rw [key F.anchors hal (hC.anchor_unique f F hF)]
  unfold faceWind
  refine Finset.sum_congr rfl fun d hd => ?_
  have : g.left? d = some f ↔ ∃ a ∈ F.anchors, g.phiReach a d := by
    constructor
    · exact hC.anchor_cover f F d hF
    · rintro ⟨a, ha, k, rfl⟩
      have hla := hC.anchor_left f F a hF ha
      clear hd
      induction k with
      | zero => exact hla
      | succ k ih =>
        rw [Function.iterate_succ_apply', hC.left_phi _ ((hlive _).mp (hc.rep.iterate_mem (hal a ha) k).2)]
        exact ih
  simp only [this]

end Verif.Query
