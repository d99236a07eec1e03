import Verif.GeoMap.ModelInit
import Mathlib.Tactic.Linarith
import Mathlib.Algebra.Order.Field.Basic
import Mathlib.Data.List.Sort
import Mathlib.Data.Rat.Defs
import Mathlib.Algebra.Order.Ring.Rat

/-! # The order in which contours are embedded (C50)

`std::sort` (cppmap.cxx:1079) requires a strict weak ordering: otherwise its behaviour is undefined.  The comparison
function treats areas that differ by less than `1e-2` specially, so this is not obvious.  (Exact arithmetic.) -/

namespace Verif.GeoMap.AreaOrder
open Verif Verif.GeoMap

variable {K : Type} [Field K] [LinearOrder K] [IsStrictOrderedRing K]

/-- the comparison of two areas, as formulas about the absolute values -/
theorem less_iff (a b : K) : GMap.absAreaLess a b = true ↔
    (a < 0 ∧ b < 0 ∧ |b| < |a|) ∨ (¬ a < 0 ∧ ¬ b < 0 ∧ |b| < |a|) ∨ (a < 0 ∧ ¬ b < 0 ∧ |b| < |a| + 1 / 100) ∨ (¬ a < 0 ∧ b < 0 ∧ |b| + 1 / 100 ≤ |a|) := by
  have h100 : (0 : K) < 1 / 100 := by norm_num
  unfold GMap.absAreaLess
  by_cases ha : a < 0 <;> by_cases hb : b < 0
  · simp [ha, hb]
  · by_cases hd : |(|a| - |b|)| < 1 / 100
    · simp only [ha, hb, decide_true, decide_false, hd]
      rw [abs_lt] at hd
      simp; linarith
    · simp only [ha, hb, decide_true, decide_false, hd]
      simp only [abs_lt, not_and_or, not_lt] at hd
      simp only [ne_eq, Bool.true_eq_false, not_false_eq_true, and_true, if_false, decide_eq_true_eq, false_and, true_and, false_or, or_false, not_true, not_false_eq_true]
      rcases hd with hd | hd
      · constructor <;> intro h <;> linarith
      · constructor <;> intro h <;> linarith
  · by_cases hd : |(|a| - |b|)| < 1 / 100
    · simp only [ha, hb, decide_true, decide_false, hd]
      rw [abs_lt] at hd
      simp; linarith
    · simp only [ha, hb, decide_true, decide_false, hd]
      simp only [abs_lt, not_and_or, not_lt] at hd
      simp only [ne_eq, Bool.false_eq_true, not_false_eq_true, and_true, if_false, decide_eq_true_eq, false_and, true_and, false_or, not_true, not_false_eq_true]
      rcases hd with hd | hd
      · constructor <;> intro h <;> linarith
      · constructor <;> intro h <;> linarith
  · simp [ha, hb]

/-- the requirements of `std::sort` on its comparison function (C++ standard, [alg.sorting]): irreflexive, transitive,
and "neither is before the other" is transitive -/
structure StrictWeak {α : Type} (lt : α → α → Prop) : Prop where
  irrefl : ∀ a, ¬ lt a a
  trans : ∀ a b c, lt a b → lt b c → lt a c
  incomp : ∀ a b c, ¬ lt a b ∧ ¬ lt b a → ¬ lt b c ∧ ¬ lt c b → ¬ lt a c ∧ ¬ lt c a

/-- **C50 (a)** `AbsAreaCompare` is a strict weak ordering. -/
theorem absAreaLess_strictWeak : StrictWeak (fun a b : K => GMap.absAreaLess a b = true) where
  irrefl := fun a h => by
    rw [less_iff] at h
    rcases h with h | h | h | h
    · exact lt_irrefl _ h.2.2
    · exact lt_irrefl _ h.2.2
    · exact h.2.1 h.1
    · exact h.1 h.2.1
  trans := fun a b c h1 h2 => by
    have h100 : (0 : K) < 1 / 100 := by norm_num
    rw [less_iff] at h1 h2 ⊢
    rcases h1 with ⟨p, q, h1⟩ | ⟨p, q, h1⟩ | ⟨p, q, h1⟩ | ⟨p, q, h1⟩ <;>
    rcases h2 with ⟨r, s, h2⟩ | ⟨r, s, h2⟩ | ⟨r, s, h2⟩ | ⟨r, s, h2⟩ <;> first
    | exact absurd q r
    | exact absurd r q
    | exact Or.inl ⟨p, s, by linarith⟩
    | exact Or.inr (Or.inl ⟨p, s, by linarith⟩)
    | exact Or.inr (Or.inr (Or.inl ⟨p, s, by linarith⟩))
    | exact Or.inr (Or.inr (Or.inr ⟨p, s, by linarith⟩))
  incomp := fun a b c h1 h2 => by
    have key : ∀ x y : K, ¬ GMap.absAreaLess x y = true ∧ ¬ GMap.absAreaLess y x = true → (x < 0 ↔ y < 0) ∧ |x| = |y| := by
      intro x y ⟨h1, h2⟩
      rw [less_iff] at h1 h2
      push Not at h1 h2
      by_cases hx : x < 0 <;> by_cases hy : y < 0
      · exact ⟨by simp [hx, hy], le_antisymm (h1.1 hx hy) (h2.1 hy hx)⟩
      · have a1 := h1.2.2.1 hx (not_lt.mp hy)
        have a2 := h2.2.2.2 (not_lt.mp hy) hx
        exact absurd a1 (not_le.mpr a2)
      · have a1 := h1.2.2.2 (not_lt.mp hx) hy
        have a2 := h2.2.2.1 hy (not_lt.mp hx)
        exact absurd a2 (not_le.mpr a1)
      · exact ⟨by simp [hx, hy], le_antisymm (h1.2.1 (not_lt.mp hx) (not_lt.mp hy)) (h2.2.1 (not_lt.mp hy) (not_lt.mp hx))⟩
    obtain ⟨k1, k2⟩ := key a b h1
    obtain ⟨k3, k4⟩ := key b c h2
    have e1 : (a < 0 ↔ c < 0) := k1.trans k3
    have e2 : |a| = |c| := k2.trans k4
    simp only [less_iff, e1, e2]
    constructor
    · rintro (h | h | h | h)
      · exact lt_irrefl _ h.2.2
      · exact lt_irrefl _ h.2.2
      · exact h.2.1 h.1
      · exact h.1 h.2.1
    · rintro (h | h | h | h)
      · exact lt_irrefl _ h.2.2
      · exact lt_irrefl _ h.2.2
      · exact h.2.1 h.1
      · exact h.1 h.2.1

/-- **C50 (b)** In a list sorted by it (no element is before an earlier one), a hole contour (negative area) comes after
every face contour whose area exceeds its own by `1e-2` or more, so it can be embedded into that face; and of
a hole contour and a face contour with nearly the same area, the hole contour comes first. -/
theorem sorted_order {l : List K} (hs : l.Pairwise fun x y => GMap.absAreaLess y x = false) {i j : Nat} {a b : K} (hi : l[i]? = some a) (hj : l[j]? = some b)
    (ha : a < 0) (hb : 0 ≤ b) : (|a| + 1 / 100 ≤ b → j < i) ∧ (b < |a| + 1 / 100 → i < j) := by
  have hne : i ≠ j := by
    rintro rfl
    rw [hi] at hj; cases hj; exact absurd ha (not_lt.mpr hb)
  have get : ∀ {i j : Nat} {x y : K}, i < j → l[i]? = some x → l[j]? = some y → GMap.absAreaLess y x = false := by
    intro i j x y hij hx hy
    obtain ⟨h1, rfl⟩ := List.getElem?_eq_some_iff.mp hx
    obtain ⟨h2, rfl⟩ := List.getElem?_eq_some_iff.mp hy
    exact List.pairwise_iff_getElem.mp hs i j h1 h2 hij
  constructor
  · intro h
    by_contra hc
    have := get (i := i) (j := j) (by omega) hi hj
    rw [← Bool.not_eq_true, less_iff] at this
    exact this (Or.inr (Or.inr (Or.inr ⟨not_lt.mpr hb, ha, by rw [abs_of_nonneg hb]; exact h⟩)))
  · intro h
    by_contra hc
    have := get (i := j) (j := i) (by omega) hj hi
    rw [← Bool.not_eq_true, less_iff] at this
    exact this (Or.inr (Or.inr (Or.inl ⟨ha, not_lt.mpr hb, by rw [abs_of_nonneg hb]; exact h⟩)))

/-- the result of the sorting step of `embedFaces` (as modelled) is such a list, and contains the same contours -/
theorem embed_sorted (cs : List (Nat × Face K × K)) :
    (cs.insertionSort (fun x y => GMap.absAreaLess y.2.2 x.2.2 = false)).Perm cs ∧
      ((cs.insertionSort (fun x y => GMap.absAreaLess y.2.2 x.2.2 = false)).map (·.2.2)).Pairwise (fun x y => GMap.absAreaLess y x = false) := by
  have sw := absAreaLess_strictWeak (K := K)
  refine ⟨List.perm_insertionSort _ _, ?_⟩
  rw [List.pairwise_map]
  have : IsTrans (Nat × Face K × K) (fun x y => GMap.absAreaLess y.2.2 x.2.2 = false) := ⟨fun x y z h1 h2 => by
    rw [← Bool.not_eq_true] at h1 h2 ⊢
    intro h3
    by_cases g1 : GMap.absAreaLess x.2.2 y.2.2 = true
    · exact h2 (sw.trans _ _ _ h3 g1)
    · by_cases g2 : GMap.absAreaLess y.2.2 z.2.2 = true
      · exact h1 (sw.trans _ _ _ g2 h3)
      · exact (sw.incomp _ _ _ ⟨g1, h1⟩ ⟨g2, h2⟩).2 h3⟩
  have : Std.Total (fun x y : Nat × Face K × K => GMap.absAreaLess y.2.2 x.2.2 = false) := ⟨fun x y => by
    by_contra hc
    push Not at hc
    have h1 : GMap.absAreaLess y.2.2 x.2.2 = true := by simpa using hc.1
    have h2 : GMap.absAreaLess x.2.2 y.2.2 = true := by simpa using hc.2
    exact sw.irrefl _ (sw.trans _ _ _ h1 h2)⟩
  exact List.pairwise_insertionSort _ _

/-- the special case of nearly equal areas is used: the hole (area -1) comes before the slightly larger face -/
example : GMap.absAreaLess (-1 : ℚ) (1 + 1 / 200) = true ∧ GMap.absAreaLess (-1 : ℚ) (1 + 1 / 50) = false := by decide +kernel

end Verif.GeoMap.AreaOrder
