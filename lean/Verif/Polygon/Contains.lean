import Verif.Polygon.Caches
import Mathlib.Algebra.Order.Field.Basic
import Mathlib.Tactic.FieldSimp
import Mathlib.Tactic.Linarith
import Mathlib.Algebra.Order.Field.Rat

/-! # Lemmas about `contains` -/

namespace Verif.Polygon
open Verif Verif.GeoMap

variable {K : Type} [Field K] [LinearOrder K]

/-- the segment `p q` crosses the horizontal ray going left from `x` (half-open in y) -/
def Crosses (x p q : Pt K) : Prop := (p.2 < x.2 ↔ ¬ q.2 < x.2) ∧ intersectX p q x.2 < x.1

instance (x p q : Pt K) : Decidable (Crosses x p q) := by unfold Crosses; infer_instance

/-- indicator of `Crosses` -/
def crossInd (x p q : Pt K) : ℤ := if Crosses x p q then 1 else 0

/-- indicator of a change of side -/
def sideInd (x p q : Pt K) : ℤ := if (p.2 < x.2 ↔ ¬ q.2 < x.2) then 1 else 0

theorem crossings_eq (x : Pt K) (l : List (Pt K)) : ∀ p : Pt K,
    (crossings x (decide (p.2 < x.2)) (p :: l) : ℤ) = pathSum (crossInd x) (p :: l) := by
  induction l with
  | nil => intro p; simp [crossings]
  | cons q l ih =>
    intro p
    rw [pathSum_cons, ← ih q, crossings]
    by_cases h1 : p.2 < x.2 <;> by_cases h2 : q.2 < x.2 <;> by_cases h3 : intersectX p q x.2 < x.1 <;>
      simp [h1, h2, h3, crossInd, Crosses]

theorem contains_eq (p : Poly K) (x : Pt K) (hp : p.pts ≠ []) (hc : p.pts.head? = p.pts.getLast?) :
    p.contains x = .ok (decide (pathSum (crossInd x) p.pts % 2 = 1)) := by
  obtain ⟨pts, _, _, _⟩ := p
  cases pts with
  | nil => exact absurd rfl hp
  | cons a l =>
    simp only [Poly.contains, Poly.closed]
    cases h : (a :: l).getLast? with
    | none => simp at h
    | some b =>
      simp only [List.head?_cons] at hc ⊢
      have hb : b = a := by
        have := hc.trans h; simpa using this.symm
      subst hb
      have e : (Outcome.ok (decide (b = b)) >>= fun c => if ¬ c then .precond else
          Outcome.ok (decide (crossings x (decide (b.2 < x.2)) (b :: l) % 2 ≠ 0))) =
          Outcome.ok (decide (crossings x (decide (b.2 < x.2)) (b :: l) % 2 ≠ 0)) := by
        simp [bind, Outcome.bind]
      refine e.trans ?_
      rw [← crossings_eq]
      congr 1
      rw [decide_eq_decide]
      omega

omit [LinearOrder K] in
theorem intersectX_comm {p q : Pt K} (h : p.2 ≠ q.2) (y : K) : intersectX q p y = intersectX p q y := by
  have h1 : q.2 - p.2 ≠ 0 := sub_ne_zero.mpr (Ne.symm h)
  have h2 : p.2 - q.2 ≠ 0 := sub_ne_zero.mpr h
  unfold intersectX
  field_simp
  ring

theorem crosses_comm (x p q : Pt K) : Crosses x q p ↔ Crosses x p q := by
  unfold Crosses
  by_cases h : (p.2 < x.2 ↔ ¬ q.2 < x.2)
  · have hne : p.2 ≠ q.2 := by
      intro e; rw [e] at h; tauto
    rw [intersectX_comm hne]; tauto
  · tauto

theorem crossInd_comm (x p q : Pt K) : crossInd x q p = crossInd x p q := by
  unfold crossInd; simp only [crosses_comm]

omit [Field K] in
theorem sideInd_parity (x : Pt K) (l : List (Pt K)) : ∀ p q : Pt K, (p :: l).getLast? = some q →
    (pathSum (sideInd x) (p :: l) % 2 = 0 ↔ (p.2 < x.2 ↔ q.2 < x.2)) := by
  induction l with
  | nil => intro p q h; simp at h; subst h; simp
  | cons a l ih =>
    intro p q h
    rw [List.getLast?_cons_cons] at h
    have := ih a q h
    rw [pathSum_cons]
    simp only [List.head?_cons, joint_some, sideInd]
    by_cases h1 : p.2 < x.2 <;> by_cases h2 : a.2 < x.2 <;> by_cases h3 : q.2 < x.2 <;>
      simp only [h1, h2, h3, not_true, not_false_iff, iff_self, iff_true, iff_false, if_true, if_false] at this ⊢ <;>
      omega

omit [Field K] [LinearOrder K] in
theorem pathSum_congr {M : Type} [Zero M] [Add M] (f g : Pt K → Pt K → M) (S : Pt K → Prop) (h : ∀ p q, S p → S q → f p q = g p q) (l : List (Pt K))
    (hl : ∀ p ∈ l, S p) : pathSum f l = pathSum g l := by
  induction l with
  | nil => rfl
  | cons a l ih =>
    cases l with
    | nil => rfl
    | cons b l =>
      simp only [pathSum]
      rw [ih (fun p hp => hl p (by simp [hp])), h a b (hl a (by simp)) (hl b (by simp))]

variable [IsStrictOrderedRing K]

/-- the crossing point lies between the end points -/
theorem intersectX_between {x p q : Pt K} (h : p.2 < x.2 ↔ ¬ q.2 < x.2) :
    (p.1 ≤ intersectX p q x.2 ∨ q.1 ≤ intersectX p q x.2) ∧ (intersectX p q x.2 ≤ p.1 ∨ intersectX p q x.2 ≤ q.1) := by
  have key : ∃ t : K, 0 ≤ t ∧ t ≤ 1 ∧ intersectX p q x.2 = p.1 + (q.1 - p.1) * t := by
    refine ⟨(x.2 - p.2) / (q.2 - p.2), ?_, ?_, by unfold intersectX; ring⟩
    · by_cases h1 : p.2 < x.2
      · have h2 := h.mp h1; push Not at h2
        exact div_nonneg (by linarith) (by linarith)
      · have h2 : q.2 < x.2 := by tauto
        push Not at h1
        exact div_nonneg_of_nonpos (by linarith) (by linarith)
    · by_cases h1 : p.2 < x.2
      · have h2 := h.mp h1; push Not at h2
        rw [div_le_one (by linarith)]; linarith
      · have h2 : q.2 < x.2 := by tauto
        push Not at h1
        rw [div_le_one_of_neg (by linarith)]; linarith
  obtain ⟨t, h0, h1, e⟩ := key
  rw [e]
  constructor
  · by_cases hpq : p.1 ≤ q.1
    · left; have := mul_nonneg (sub_nonneg.mpr hpq) h0; linarith
    · right; push Not at hpq
      have := mul_le_mul_of_nonneg_left h1 (sub_nonneg.mpr hpq.le)
      nlinarith
  · by_cases hpq : p.1 ≤ q.1
    · right
      have := mul_le_mul_of_nonneg_left h1 (sub_nonneg.mpr hpq)
      nlinarith
    · left; push Not at hpq
      have := mul_nonneg (sub_nonneg.mpr hpq.le) h0; linarith

/-- outside the bounding box the parity is even -/
theorem even_outside {b : Box K} {l : List (Pt K)} {x : Pt K} (hb : IsBoundingBox b l) (hx : inBox b x = false) (hl : l ≠ [])
    (hc : l.head? = l.getLast?) : pathSum (crossInd x) l % 2 = 0 := by
  cases b with
  | none => exact absurd hb hl
  | some b =>
    obtain ⟨lo, hi⟩ := b
    have h0 := hb.1
    simp only [inBox, decide_eq_false_iff_not] at hx
    have hzero : ∀ l : List (Pt K), pathSum (fun _ _ : Pt K => (0 : ℤ)) l = 0 := by
      intro l
      induction l with
      | nil => rfl
      | cons a l ih => rw [pathSum_cons]; rw [ih]; cases l <;> simp
    by_cases h1 : lo.1 ≤ x.1
    · by_cases h2 : x.1 ≤ hi.1
      · -- above or below
        rw [pathSum_congr (crossInd x) (fun _ _ => (0 : ℤ)) (· ∈ l) ?_ l (fun _ h => h), hzero]; rfl
        intro p q hp hq
        have hp := h0 p hp; have hq := h0 q hq
        have : ¬ (p.2 < x.2 ↔ ¬ q.2 < x.2) := by
          by_cases h3 : lo.2 ≤ x.2
          · have h4 : hi.2 < x.2 := by
              by_contra hcon; push Not at hcon; exact hx ⟨h1, h2, h3, hcon⟩
            have : p.2 < x.2 := lt_of_le_of_lt hp.2.2.2 h4
            have : q.2 < x.2 := lt_of_le_of_lt hq.2.2.2 h4
            tauto
          · push Not at h3
            have : ¬ p.2 < x.2 := not_lt.mpr (h3.le.trans hp.2.2.1)
            have : ¬ q.2 < x.2 := not_lt.mpr (h3.le.trans hq.2.2.1)
            tauto
        exact if_neg (fun h : Crosses x p q => this h.1)
      · push Not at h2
        rw [pathSum_congr (crossInd x) (sideInd x) (· ∈ l) ?_ l (fun _ h => h)]
        · cases l with
          | nil => exact absurd rfl hl
          | cons a l =>
            exact (sideInd_parity x l a a (by simpa using hc.symm)).mpr Iff.rfl
        · intro p q hp hq
          have hp := h0 p hp; have hq := h0 q hq
          unfold crossInd sideInd
          by_cases h : (p.2 < x.2 ↔ ¬ q.2 < x.2)
          · have : intersectX p q x.2 < x.1 := by
              rcases (intersectX_between h).2 with h' | h'
              · exact lt_of_le_of_lt (h'.trans hp.2.1) h2
              · exact lt_of_le_of_lt (h'.trans hq.2.1) h2
            rw [if_pos (show Crosses x p q from ⟨h, this⟩), if_pos h]
          · rw [if_neg (fun hc : Crosses x p q => h hc.1), if_neg h]
    · push Not at h1
      rw [pathSum_congr (crossInd x) (fun _ _ => (0 : ℤ)) (· ∈ l) ?_ l (fun _ h => h), hzero]; rfl
      intro p q hp hq
      have hp := h0 p hp; have hq := h0 q hq
      unfold crossInd
      by_cases h : (p.2 < x.2 ↔ ¬ q.2 < x.2)
      · have : ¬ intersectX p q x.2 < x.1 := by
          rcases (intersectX_between h).1 with h' | h'
          · exact not_lt.mpr (h1.le.trans (hp.1.trans h'))
          · exact not_lt.mpr (h1.le.trans (hq.1.trans h'))
        exact if_neg (fun hc : Crosses x p q => this hc.2)
      · exact if_neg (fun hc : Crosses x p q => h hc.1)

end Verif.Polygon
