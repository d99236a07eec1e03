import Verif.Outer.Tree
import Verif.Locate.Props
import Verif.Query.Lemmas

/-! # Every finite face has exactly one outer contour -/

set_option linter.unusedSectionVars false

namespace Verif.Outer
open Verif Verif.GeoMap Verif.Polygon Verif.Scan Verif.Locate

variable {K : Type} [Field K] [LinearOrder K] [IsStrictOrderedRing K]

/-- The contour of dart `a` winds around a point once in the positive sense or not at all. -/
def Positive (g : GMap K) (a : Int) : Prop := ∀ c, ¬ OnEdge g c → contourWind g c a = 0 ∨ contourWind g c a = 1

/-- The contour of dart `a` winds around a point once in the negative sense or not at all. -/
def Negative (g : GMap K) (a : Int) : Prop := ∀ c, ¬ OnEdge g c → contourWind g c a = 0 ∨ contourWind g c a = -1

theorem reach_of_drawn {s : GMap K} (h : Drawn s) : Reach s := by
  induction h with
  | start h _ _ => exact h.reach
  | call h op h0 hl _ e ih => exact .call h op.op ih hl e fun hi => absurd h0.placed.init hi
  | rename new size _ h0 e ih => exact .rename new size ih h0 e

/-- A contour is an outer contour and winds around the points of its face, or it is the boundary of a hole and does not. -/
theorem contour_kind {s : GMap K} (hs : Reach s) (hp : Placed s) {a : Int} {f : Nat} (hf : s.left? a = some f) :
    (f ≠ 0 ∧ Positive s a ∧ ∀ c, ¬ OnEdge s c → Located s c f → contourWind s c a = 1) ∨
    (Negative s a ∧ ∀ c, ¬ OnEdge s c → Located s c f → contourWind s c a = 0) := by
  classical
  have hi := hp.init
  have hM := hp.good.map
  obtain ⟨π, hg⟩ := hM.graph.exists_rep
  obtain ⟨S, hSa, hS⟩ := contour_sum hs hi (liveD_of_left hf)
  have hSf := hSa f hf
  have h0 : (s.face 0).isSome = true := (hM.contours hi).face_zero
  have hval : ∀ c g, Located s c g → contourWind s c a = (if S g then 1 else 0) - if S 0 then 1 else 0 := by
    intro c g hl
    have e : contourWind s c a = ∑ k ∈ s.liveFaces.filter S, faceWind s c k := by
      unfold contourWind faceWind
      rw [← hS (dartWind s c) fun d _ => dartWind_neg hM.graph.edge_zero c d]
    rw [e]
    have : ∀ k ∈ s.liveFaces.filter S, faceWind s c k = (if k = g then 1 else 0) - if k = 0 then 1 else 0 := by
      intro k hk
      exact hl.2 k ((mem_liveFaces hg.labels.face_lt).mp (Finset.mem_filter.mp hk).1)
    rw [Finset.sum_congr rfl this, Finset.sum_sub_distrib, Finset.sum_ite_eq', Finset.sum_ite_eq']
    simp only [Finset.mem_filter, mem_liveFaces hg.labels.face_lt, hl.1, h0, true_and]
  by_cases hS0 : S 0
  · right
    refine ⟨fun c hc => ?_, fun c _ hl => ?_⟩
    · obtain ⟨g, hl⟩ := hp.sub.located c hc
      rw [hval c g hl, if_pos hS0]
      by_cases h : S g <;> simp [h]
    · rw [hval c f hl, if_pos hS0, if_pos hSf]; rfl
  · left
    refine ⟨?_, fun c hc => ?_, fun c _ hl => ?_⟩
    · rintro rfl
      exact hS0 hSf
    · obtain ⟨g, hl⟩ := hp.sub.located c hc
      rw [hval c g hl, if_neg hS0]
      by_cases h : S g <;> simp [h]
    · rw [hval c f hl, if_neg hS0, if_pos hSf]; rfl

/-- There is a point in every face that has a dart. -/
theorem exists_located {s : GMap K} (hp : Placed s) {a : Int} {f : Nat} (hf : s.left? a = some f) : ∃ c, ¬ OnEdge s c ∧ Located s c f := by
  obtain ⟨e, he⟩ := Option.isSome_iff_exists.mp (liveD_of_left hf)
  obtain ⟨p, hp'⟩ := List.exists_mem_of_ne_nil _ (hp.good.map.graph.pts_ne _ e he)
  obtain ⟨c, f', h1, -, -, h2, h3⟩ := hp.sub.border a e he p (Or.inl hp') 1 one_pos
  rw [hf] at h1
  cases h1
  exact ⟨c, h2, h3⟩

theorem anchor_left {s : GMap K} (hp : Placed s) {f : Nat} {F : Face K} (hF : s.face f = some F) {a : Int} (ha : a ∈ F.anchors) : s.left? a = some f :=
  (hp.good.map.contours hp.init).anchor_left f F a hF ha

/-- The infinite face has boundaries of holes only. -/
theorem infinite_holes {s : GMap K} (hs : Reach s) (hp : Placed s) {F : Face K} (hF : s.face 0 = some F) {a : Int} (ha : a ∈ F.anchors) : Negative s a := by
  rcases contour_kind hs hp (anchor_left hp hF ha) with h | h
  · exact absurd rfl h.1
  · exact h.1

/-- Every finite face has exactly one outer contour; it winds around the points of the face.  The others are boundaries of holes and do not. -/
theorem one_outer {s : GMap K} (hs : Reach s) (hp : Placed s) {f : Nat} {F : Face K} (hF : s.face f = some F) (h0 : f ≠ 0) :
    ∃ l a r, F.anchors = l ++ a :: r ∧ Positive s a ∧ (∀ c, ¬ OnEdge s c → Located s c f → contourWind s c a = 1) ∧
      ∀ b ∈ l ++ r, Negative s b ∧ ∀ c, ¬ OnEdge s c → Located s c f → contourWind s c b = 0 := by
  have hne := Props.finite_face_has_contour hs hp.init hF h0
  obtain ⟨a0, ha0⟩ := List.exists_mem_of_ne_nil _ hne
  obtain ⟨c, hc, hl⟩ := exists_located hp (anchor_left hp hF ha0)
  have hsum := Query.faceWind_contours hp.good.map hp.init hF c
  rw [hl.2 f hl.1, if_pos rfl, if_neg h0, sub_zero] at hsum
  have hk : ∀ b ∈ F.anchors, (contourWind s c b = 1 ∧ Positive s b ∧ ∀ c, ¬ OnEdge s c → Located s c f → contourWind s c b = 1) ∨
      (contourWind s c b = 0 ∧ Negative s b ∧ ∀ c, ¬ OnEdge s c → Located s c f → contourWind s c b = 0) := by
    intro b hb
    rcases contour_kind hs hp (anchor_left hp hF hb) with h | h
    · exact Or.inl ⟨h.2.2 c hc hl, h.2⟩
    · exact Or.inr ⟨h.2 c hc hl, h⟩
  have key : ∀ as : List Int, (∀ b ∈ as, b ∈ F.anchors) → 0 ≤ (as.map fun a => contourWind s c a).sum ∧
      ((as.map fun a => contourWind s c a).sum = 0 → ∀ b ∈ as, contourWind s c b = 0) ∧
      ((as.map fun a => contourWind s c a).sum = 1 → ∃ l a r, as = l ++ a :: r ∧ contourWind s c a = 1 ∧ ∀ b ∈ l ++ r, contourWind s c b = 0) := by
    intro as
    induction as with
    | nil => intro _; simp
    | cons b as ih =>
      intro hb
      obtain ⟨i1, i2, i3⟩ := ih fun x hx => hb x (List.mem_cons_of_mem _ hx)
      rw [List.map_cons, List.sum_cons]
      rcases hk b (hb b List.mem_cons_self) with h | h
      · rw [h.1]
        refine ⟨by omega, fun e => by omega, fun e => ⟨[], b, as, rfl, h.1, ?_⟩⟩
        rw [List.nil_append]
        exact i2 (by omega)
      · rw [h.1]
        refine ⟨by omega, fun e => ?_, fun e => ?_⟩
        · intro x hx
          rcases List.mem_cons.mp hx with rfl | hx
          · exact h.1
          · exact i2 (by omega) x hx
        · obtain ⟨l, a, r, e1, e2, e3⟩ := i3 (by omega)
          refine ⟨b :: l, a, r, by rw [e1]; rfl, e2, ?_⟩
          intro x hx
          rw [List.cons_append] at hx
          rcases List.mem_cons.mp hx with rfl | hx
          · exact h.1
          · exact e3 x hx
  obtain ⟨l, a, r, e1, e2, e3⟩ := (key F.anchors fun _ h => h).2.2 hsum.symm
  have hmem : ∀ b ∈ l ++ r, b ∈ F.anchors := by
    intro b hb
    rw [e1]
    rcases List.mem_append.mp hb with h | h <;> simp [h]
  refine ⟨l, a, r, e1, ?_, ?_, ?_⟩
  · rcases hk a (by rw [e1]; simp) with h | h
    · exact h.2.1
    · rw [e2] at h; exact absurd h.1 one_ne_zero
  · rcases hk a (by rw [e1]; simp) with h | h
    · exact h.2.2
    · rw [e2] at h; exact absurd h.1 one_ne_zero
  · intro b hb
    rcases hk b (hmem b hb) with h | h
    · rw [e3 b hb] at h; exact absurd h.1 zero_ne_one
    · exact h.2

end Verif.Outer
