import Verif.Outer.Wind
import Verif.Outer.Area
import Verif.Query.Spec

/-! # Areas of outer contours and of boundaries of holes -/

set_option linter.unusedSectionVars false

namespace Verif.Outer
open Verif Verif.GeoMap Verif.Polygon Verif.Scan Verif.Locate

variable {K : Type} [Field K] [LinearOrder K] [IsStrictOrderedRing K]

theorem thin_onEdge {g : GMap K} (hl : ∀ n, (g.edge n).isSome = true → n < g.nEdges) : Thin (OnEdge g) := by
  classical
  let A : Finset (Pt K) := (Finset.range g.nEdges).biUnion fun l => (g.edge l).elim ∅ fun e => e.pts.toFinset
  have hA : ∀ l e, g.edge l = some e → ∀ p ∈ e.pts, p ∈ A := by
    intro l e he p hp
    rw [Finset.mem_biUnion]
    refine ⟨l, Finset.mem_range.mpr (hl l (by rw [he]; rfl)), ?_⟩
    rw [he]
    exact List.mem_toFinset.mpr hp
  refine ⟨A.image (·.2), fun y hy => ⟨(A ×ˢ A).image fun x => levelX x.1 x.2 y, ?_⟩⟩
  have hne : ∀ p ∈ A, p.2 ≠ y := fun p hp e => hy (Finset.mem_image.mpr ⟨p, hp, e⟩)
  rintro x ⟨l, e, he, h | ⟨p, q, hpq, t, -, -, hr⟩⟩
  · exact absurd rfl (hne _ (hA l e he _ h))
  · have hp := hA l e he p (hpq.subset (by simp))
    have hq := hA l e he q (hpq.subset (by simp))
    refine Finset.mem_image.mpr ⟨(p, q), Finset.mem_product.mpr ⟨hp, hq⟩, ?_⟩
    simp only [Prod.mk.injEq] at hr
    have h1 : q.2 - p.2 ≠ 0 := by
      intro h0
      rw [h0, mul_zero, add_zero] at hr
      exact hne p hp hr.2.symm
    unfold levelX
    rw [hr.1, hr.2]
    field_simp
    ring

theorem pathSum_cross_reverse (l : List (Pt K)) : pathSum cross l.reverse = - pathSum cross l := by
  rw [PointIter.pathSum_area2, PointIter.pathSum_area2, area2_reverse]

/-- A contour that winds around points in the positive sense only has an area that is not negative; it is positive if the contour winds around all
points near some point. -/
theorem positive_area {s : GMap K} (hp : Placed s) {a : Int} (ha : s.liveD a) (h : Positive s a) :
    0 ≤ s.orbitArea a ∧ ((∃ c, ¬ OnEdge s c ∧ ∀ c', ¬ OnEdge s c' → (∀ r, OnEdge s r → ¬ Between c c' r) → contourWind s c' a = 1) → 0 < s.orbitArea a) := by
  obtain ⟨p, -, -, -, hcl, -, hw, harea⟩ := Query.contourPoly_of hp.good.map hp.init hp.geom.geom ha (fun _ _ => 0)
  have hl := hp.good.map.graph.labels.edge_lt
  obtain ⟨h1, h2⟩ := area_nonneg hcl (thin_onEdge hl) (fun c hc => by rw [hw]; rcases h c hc with e | e <;> rw [e] <;> decide)
  rw [← harea]
  refine ⟨by linarith, ?_⟩
  rintro ⟨c, hc, hnear⟩
  obtain ⟨ε, h0, hbox⟩ := exists_box hl hc
  have := h2 c ε h0 (by
    intro c' k1 k2
    have hoff : ¬ OnEdge s c' := fun h => hbox c' h ⟨k1.le, k2.le⟩
    refine ⟨hoff, ?_⟩
    rw [hw, hnear c' hoff ?_]
    · exact one_pos
    · intro r hr hb
      refine hbox r hr ⟨?_, ?_⟩
      · rw [abs_lt] at k1
        rw [abs_le]
        obtain ⟨m1, m2⟩ := hb.1
        constructor
        · rcases min_le_iff.mp m1 with h | h <;> linarith
        · rcases le_max_iff.mp m2 with h | h <;> linarith
      · rw [abs_lt] at k2
        rw [abs_le]
        obtain ⟨m1, m2⟩ := hb.2
        constructor
        · rcases min_le_iff.mp m1 with h | h <;> linarith
        · rcases le_max_iff.mp m2 with h | h <;> linarith)
  linarith

theorem negative_area {s : GMap K} (hp : Placed s) {a : Int} (ha : s.liveD a) (h : Negative s a) : s.orbitArea a ≤ 0 := by
  obtain ⟨p, -, -, -, hcl, -, hw, harea⟩ := Query.contourPoly_of hp.good.map hp.init hp.geom.geom ha (fun _ _ => 0)
  have hl := hp.good.map.graph.labels.edge_lt
  obtain ⟨h1, -⟩ := area_nonneg (pts := p.pts.reverse) (by rw [List.head?_reverse, List.getLast?_reverse]; exact hcl.symm) (thin_onEdge hl)
    (fun c hc => by rw [winding_reverse, hw]; rcases h c hc with e | e <;> rw [e] <;> decide)
  rw [pathSum_cross_reverse] at h1
  rw [← harea]
  linarith

/-- A contour of positive area is the outer contour of a finite face, any other contour is the boundary of a hole. -/
theorem contour_signed {s : GMap K} (hs : Reach s) (hp : Placed s) {a : Int} {f : Nat} (hf : s.left? a = some f) :
    (f ≠ 0 ∧ 0 < s.orbitArea a ∧ Positive s a ∧ ∀ c, ¬ OnEdge s c → Located s c f → contourWind s c a = 1) ∨
    (s.orbitArea a ≤ 0 ∧ Negative s a ∧ ∀ c, ¬ OnEdge s c → Located s c f → contourWind s c a = 0) := by
  have ha := liveD_of_left hf
  rcases contour_kind hs hp hf with ⟨h0, h1, h2⟩ | ⟨h1, h2⟩
  · refine Or.inl ⟨h0, (positive_area hp ha h1).2 ?_, h1, h2⟩
    obtain ⟨c, hc, hl⟩ := exists_located hp hf
    exact ⟨c, hc, fun c' hc' hb => h2 c' hc' (hl.move hp.good.map hp.init hp.geom.geom hb)⟩
  · exact Or.inr ⟨negative_area hp ha h1, h1, h2⟩

/-- Exactly one contour of a finite face has positive area. -/
theorem one_positive {s : GMap K} (hs : Reach s) (hp : Placed s) {f : Nat} {F : Face K} (hF : s.face f = some F) (h0 : f ≠ 0) :
    ∃ l a r, F.anchors = l ++ a :: r ∧ 0 < s.orbitArea a ∧ ∀ b ∈ l ++ r, s.orbitArea b ≤ 0 := by
  obtain ⟨l, a, r, h1, h2, h3, h4⟩ := one_outer hs hp hF h0
  have hl : ∀ b ∈ l ++ a :: r, s.left? b = some f := fun b hb => anchor_left hp hF (by rw [h1]; exact hb)
  obtain ⟨c, hc, hlo⟩ := exists_located hp (hl a (by simp))
  refine ⟨l, a, r, h1, ?_, ?_⟩
  · rcases contour_signed hs hp (hl a (by simp)) with h | h
    · exact h.2.1
    · have := h.2.2 c hc hlo
      rw [h3 c hc hlo] at this
      exact absurd this one_ne_zero
  · intro b hb
    have hb' : s.left? b = some f := hl b (by rcases List.mem_append.mp hb with h | h <;> simp [h])
    exact negative_area hp (liveD_of_left hb') (h4 b hb).1

theorem infinite_nonpos {s : GMap K} (hs : Reach s) (hp : Placed s) {F : Face K} (hF : s.face 0 = some F) : ∀ a ∈ F.anchors, s.orbitArea a ≤ 0 := by
  intro a ha
  rcases contour_signed hs hp (anchor_left hp hF ha) with h | h
  · exact absurd rfl h.1
  · exact h.1

/-- The first contour of every finite face has positive area. -/
def FirstPositive (s : GMap K) : Prop := ∀ f F, s.face f = some F → f ≠ 0 → ∃ a as, F.anchors = a :: as ∧ 0 < s.orbitArea a

/-- Then the first contour is the outer contour, and the others are boundaries of holes. -/
theorem FirstPositive.oriented {s : GMap K} (hs : Reach s) (hp : Placed s) (h : FirstPositive s) : Query.Oriented s := by
  intro c hc f F hF
  refine ⟨fun h0 => ?_, ?_⟩
  · obtain ⟨a, as, e, hpos⟩ := h f F hF h0
    obtain ⟨l, a', r, e1, h2, h3⟩ := one_positive hs hp hF h0
    cases l with
    | cons b l =>
      rw [e] at e1
      simp only [List.cons_append, List.cons.injEq] at e1
      obtain ⟨rfl, -⟩ := e1
      exact absurd hpos (not_lt.mpr (h3 a (by simp)))
    | nil =>
      rw [e] at e1
      simp only [List.nil_append, List.cons.injEq] at e1
      obtain ⟨rfl, rfl⟩ := e1
      refine ⟨a, as, e, ?_, fun b hb => ?_⟩
      · rcases contour_signed hs hp (anchor_left hp hF (a := a) (by rw [e]; simp)) with h | h
        · exact h.2.2.1 c hc
        · exact absurd hpos (not_lt.mpr h.1)
      · rcases contour_signed hs hp (anchor_left hp hF (a := b) (by rw [e]; simp [hb])) with h | h
        · exact absurd h.2.1 (not_lt.mpr (h3 b (by simpa using hb)))
        · exact h.2.1 c hc
  · rintro rfl b hb
    exact infinite_holes hs hp hF hb c hc

theorem FirstPositive.signed {s : GMap K} (hs : Reach s) (hp : Placed s) (h : FirstPositive s) : ContoursSigned s := by
  refine ⟨fun f F hF h0 => ?_, fun F hF => infinite_nonpos hs hp hF⟩
  obtain ⟨a, as, e, hpos⟩ := h f F hF h0
  obtain ⟨l, a', r, e1, h2, h3⟩ := one_positive hs hp hF h0
  cases l with
  | cons b l =>
    rw [e] at e1
    simp only [List.cons_append, List.cons.injEq] at e1
    obtain ⟨rfl, -⟩ := e1
    exact absurd hpos (not_lt.mpr (h3 a (by simp)))
  | nil =>
    rw [e] at e1
    simp only [List.nil_append, List.cons.injEq] at e1
    obtain ⟨rfl, rfl⟩ := e1
    exact ⟨a, as, e, hpos, fun b hb => h3 b (by simpa using hb)⟩

end Verif.Outer
