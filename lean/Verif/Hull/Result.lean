import Verif.Hull.Scan
import Mathlib.Data.List.Nodup

/-! # From the stack of the scan to the hull -/

namespace Verif.Hull
open Verif

variable {K : Type} [Field K] [LinearOrder K] [IsStrictOrderedRing K]

/-- A stack of the scan that covers all points is the hull. -/
theorem isHull_of_valid {p : Pt K} {s pts : List (Pt K)} (hv : Valid p s) (hmem : ∀ c ∈ s, c ∈ pts) (hcov : ∀ q ∈ pts, q = p ∨ Cov p s q) :
    IsHull pts (p :: s).reverse := by
  obtain ⟨t, r, hs⟩ : ∃ t r, s = t :: r := by cases hv <;> exact ⟨_, _, rfl⟩
  have hlast : s.getLast? = some p := by
    clear hmem hcov hs
    induction hv with
    | one _ => rfl
    | push _ _ _ _ ih => rw [List.getLast?_cons_cons]; exact ih
  have hlen : 2 ≤ s.length := by cases hv <;> simp
  have hp : p ∈ s := hv.base
  have hq : ∀ a b, (∀ c ∈ s, 0 ≤ orient a b c) → ∀ q ∈ pts, 0 ≤ orient a b q := by
    intro a b h q hq
    rcases hcov q hq with rfl | ⟨x, y, h1, h2⟩
    · exact h _ hp
    · exact h2.orient_nonneg (h _ hp) (h _ h1.mem.1) (h _ h1.mem.2)
  -- the reversed list
  have hget : ∀ i, i ≤ s.length → (p :: s).reverse[i]? = (p :: s)[s.length - i]? := by
    intro i hi
    rw [List.getElem?_reverse (by simp; omega)]
    simp
  have hpair : ∀ i a b, (p :: s).reverse[i]? = some a → (p :: s).reverse[i + 1]? = some b → Side s a b ∨ (a = t ∧ b = p) := by
    intro i a b h1 h2
    have hi : i + 1 < s.length + 1 := by simpa using (List.getElem?_eq_some_iff.mp h2).1
    rw [hget i (by omega)] at h1
    rw [hget (i + 1) (by omega)] at h2
    by_cases e : i + 1 = s.length
    · right
      rw [show s.length - i = 1 by omega, hs] at h1
      rw [show s.length - (i + 1) = 0 by omega] at h2
      simp at h1 h2
      exact ⟨h1.symm, h2.symm⟩
    · left
      refine ⟨s.length - (i + 2), ?_, ?_⟩
      · rw [show s.length - (i + 1) = s.length - (i + 2) + 1 by omega, List.getElem?_cons_succ] at h2
        exact h2
      · rw [show s.length - i = (s.length - (i + 2) + 1) + 1 by omega, List.getElem?_cons_succ] at h1
        exact h1
  -- strict turns on the stack
  have htri : ∀ {s : List (Pt K)}, Valid p s → ∀ i a b c, s[i]? = some c → s[i + 1]? = some b → s[i + 2]? = some a → 0 < orient a b c := by
    intro s hv
    induction hv with
    | one _ => intro i a b c h1 h2 h3; simp at h3
    | push hv h h1 h2 ih =>
      intro i a b c k1 k2 k3
      cases i with
      | zero =>
        simp at k1 k2 k3
        subst k1 k2 k3
        exact h1
      | succ i => exact ih i a b c (by simpa using k1) (by simpa using k2) (by simpa using k3)
  subst hs
  obtain ⟨g1, g2, g3⟩ := hv.top rfl
  constructor
  · simp at hlen ⊢; omega
  · rw [List.head?_reverse, List.getLast?_reverse]
    simp only [List.getLast?_cons_cons, List.head?_cons]
    exact hlast
  · rw [List.tail_reverse]
    rw [List.nodup_reverse]
    have hnd := hv.nodup
    have hdl : (p :: t :: r).dropLast = p :: (t :: r).dropLast := by simp
    rw [hdl, List.nodup_cons]
    refine ⟨fun hm => ?_, hnd.sublist (List.dropLast_sublist _)⟩
    have hne : t :: r ≠ [] := by simp
    have e := List.dropLast_concat_getLast hne
    have hl2 : (t :: r).getLast hne = p := by
      have := List.getLast?_eq_some_getLast hne
      rw [hlast] at this
      exact (Option.some.inj this).symm
    rw [← e, hl2, List.nodup_append] at hnd
    exact hnd.2.2 p hm p (by simp) rfl
  · intro v hv'
    rw [List.mem_reverse, List.mem_cons] at hv'
    rcases hv' with rfl | h
    · exact hmem _ hp
    · exact hmem _ h
  · intro i a b c h1 h2 h3 h4
    have hi : i + 2 < (t :: r).length + 1 := by simpa using (List.getElem?_eq_some_iff.mp h3).1
    rw [hget i (by omega)] at h1
    rw [hget (i + 1) (by omega)] at h2
    rw [hget (i + 2) (by omega)] at h3
    by_cases e : i + 2 = (t :: r).length
    · rw [show (t :: r).length - i = 2 by omega] at h1
      rw [show (t :: r).length - (i + 1) = 1 by omega] at h2
      rw [show (t :: r).length - (i + 2) = 0 by omega] at h3
      simp only [List.getElem?_cons_zero, List.getElem?_cons_succ, Option.some.injEq] at h1 h2 h3
      subst h2 h3
      have ha : a ∈ r := List.mem_of_getElem? h1
      rw [orient_cycle]
      have hap : a ≠ p := by
        rintro rfl
        have hr : r = [a] := by
          cases hv with
          | one _ => rfl
          | push hv' _ _ k =>
            simp only [List.getElem?_cons_zero, Option.some.injEq] at h1
            subst h1
            rw [orient_self] at k
            exact absurd k (lt_irrefl _)
        subst hr
        simp at h4
      exact g3 a ha hap
    · refine htri hv ((t :: r).length - (i + 3)) a b c ?_ ?_ ?_
      · rw [show (t :: r).length - (i + 2) = ((t :: r).length - (i + 3)) + 1 by omega, List.getElem?_cons_succ] at h3
        exact h3
      · rw [show (t :: r).length - (i + 1) = ((t :: r).length - (i + 3) + 1) + 1 by omega, List.getElem?_cons_succ] at h2
        exact h2
      · rw [show (t :: r).length - i = ((t :: r).length - (i + 3) + 2) + 1 by omega, List.getElem?_cons_succ] at h1
        exact h1
  · intro a b c h1 h2 h3 h4
    have e0 : (p :: t :: r).reverse.length = (t :: r).length + 1 := by simp
    rw [e0] at h4
    rw [e0, hget _ (by omega), show (t :: r).length - ((t :: r).length + 1 - 2) = 1 by omega] at h1
    rw [hget 0 (by omega)] at h2
    rw [hget 1 (by omega)] at h3
    simp only [List.getElem?_cons_zero, List.getElem?_cons_succ, Option.some.injEq] at h1
    subst h1
    have hb : b = p := by
      rw [show (t :: r).length - 0 = (r.length) + 1 by simp, List.getElem?_cons_succ] at h2
      have : (t :: r)[r.length]? = some p := by rw [← hlast, List.getLast?_eq_getElem?]; simp
      rw [this] at h2
      exact (Option.some.inj h2).symm
    subst hb
    have hr : 2 ≤ r.length := by simp at h4; omega
    have h3' : r[r.length - 2]? = some c := by
      rw [show (t :: r).length - 1 = ((r.length - 2) + 1) + 1 by simp; omega, List.getElem?_cons_succ, List.getElem?_cons_succ] at h3
      exact h3
    have hc : c ∈ r := List.mem_of_getElem? h3'
    have hcp : c ≠ b := by
      rintro rfl
      have hnd := hv.nodup
      have h5 : (t :: r)[r.length]? = some c := by rw [← hlast, List.getLast?_eq_getElem?]; simp
      have h6 : (t :: r)[r.length - 2 + 1]? = some c := by rw [List.getElem?_cons_succ]; exact h3'
      obtain ⟨m1, m2⟩ := List.getElem?_eq_some_iff.mp h5
      obtain ⟨n1, n2⟩ := List.getElem?_eq_some_iff.mp h6
      have := hnd.getElem_inj_iff.mp (m2.trans n2.symm)
      omega
    have := g3 c hc hcp
    rwa [orient_cycle] at this
  · intro i a b h1 h2
    apply hq
    rcases hpair i a b h1 h2 with h | ⟨rfl, rfl⟩
    · exact hv.convex a b h
    · exact hv.last_side
  · intro q hq'
    rcases hcov q hq' with rfl | ⟨x, y, h1, h2⟩
    · exact ⟨q, by simp, q, by simp, q, by simp, InTri.base _ _ _⟩
    · exact ⟨p, by simp, x, by rw [List.mem_reverse]; exact List.mem_cons_of_mem _ h1.mem.1, y, by rw [List.mem_reverse]; exact List.mem_cons_of_mem _ h1.mem.2, h2⟩

end Verif.Hull
