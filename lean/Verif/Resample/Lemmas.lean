import Verif.Resample.Model
import Verif.DartPos.Lemmas

/-! # Lemmas about the loops and arrays of the resampling functions -/

namespace Verif.Resample
open Verif Verif.GeoMap Verif.DartPos

theorem rd_ok {α : Type} {l : List α} {i : Nat} {x : α} (h : l[i]? = some x) : rd l i = .ok x := by simp [rd, h]

theorem rd_lt {α : Type} {l : List α} {i : Nat} (h : i < l.length) : rd l i = .ok l[i] := by simp [rd, h]

theorem wr_lt {α : Type} {l : List α} {i : Nat} (x : α) (h : i < l.length) : wr l i x = .ok (l.set i x) := by simp [wr, h]

theorem quot_ok {x y : ℝ} (h : y ≠ 0) : quot x y = .ok (x / y) := by simp [quot, h]

theorem forUp_inv {σ : Type} {body : Nat → σ → Outcome σ} (P : Nat → σ → Prop) (n k : Nat) (s : σ) (h0 : P k s)
    (hs : ∀ j s, k ≤ j → j < k + n → P j s → ∃ s', body j s = .ok s' ∧ P (j + 1) s') :
    ∃ s', forUp body n k s = .ok s' ∧ P (k + n) s' := by
  induction n generalizing k s with
  | zero => exact ⟨s, rfl, h0⟩
  | succ n ih =>
    obtain ⟨s1, e1, p1⟩ := hs k s le_rfl (by omega) h0
    obtain ⟨s2, e2, p2⟩ := ih (k + 1) s1 p1 (fun j s a b => hs j s (by omega) (by omega))
    refine ⟨s2, ?_, by rwa [show k + (n + 1) = k + 1 + n by omega]⟩
    simp [forUp, e1, Outcome.bind, e2]

theorem forDown_inv {σ : Type} {body : Nat → σ → Outcome σ} (P : σ → Prop) (n k : Nat) (s : σ) (h0 : P s)
    (hs : ∀ j s, j ≤ k → k < j + n → P s → ∃ s', body j s = .ok s' ∧ P s') :
    ∃ s', forDown body n k s = .ok s' ∧ P s' := by
  induction n generalizing k s with
  | zero => exact ⟨s, rfl, h0⟩
  | succ n ih =>
    obtain ⟨s1, e1, p1⟩ := hs k s le_rfl (by omega) h0
    obtain ⟨s2, e2, p2⟩ := ih (k - 1) s1 p1 (fun j s a b => hs j s (by omega) (by omega))
    exact ⟨s2, by simp [forDown, e1, Outcome.bind, e2], p2⟩

/-! ## Arc lengths -/

theorem arcLoop_get (L : List (Pt ℝ)) (a : ℝ) (k : Nat) (h : k + 1 < L.length) : (arcLoop a L)[k]? = some (a + reach L (k + 1)) := by
  induction k generalizing L a with
  | zero =>
    match L, h with
    | p :: q :: l, _ => simp [arcLoop, reach_cons, reach_zero]
  | succ k ih =>
    match L, h with
    | p :: q :: l, h =>
      rw [arcLoop, List.getElem?_cons_succ, ih (q :: l) _ (by simpa using h), reach_cons p q l (k + 1)]
      simp [add_assoc]

theorem arcLoop_length (L : List (Pt ℝ)) (a : ℝ) : (arcLoop a L).length = L.length - 1 := by
  induction L generalizing a with
  | nil => rfl
  | cons p l ih =>
    match l, ih with
    | [], _ => rfl
    | q :: l, ih => simp [arcLoop, ih]

theorem arc_get (L : List (Pt ℝ)) (k : Nat) (h : k < L.length) : (arcLengthList L)[k]? = some (reach L k) := by
  match k with
  | 0 => simp [arcLengthList, reach_zero]
  | k + 1 => simp [arcLengthList, arcLoop_get L 0 k h]

theorem arc_length (L : List (Pt ℝ)) (h : 0 < L.length) : (arcLengthList L).length = L.length := by
  simp [arcLengthList, arcLoop_length]; omega

theorem reach_mono_succ (L : List (Pt ℝ)) (k : Nat) (h : k + 1 < L.length) : reach L k ≤ reach L (k + 1) := by
  rw [reach_succ (p := L[k]) (q := L[k + 1]) (by simp) (by simp [h])]
  linarith [mag_nonneg (L[k + 1] - L[k])]

/-- The search finds the first index from `l` on with an arc length of at least `cur`. -/
theorem search_spec {arc : List ℝ} {cur : ℝ} {size l m : Nat} (hlen : arc.length = size) (hl : l ≤ m) (hm : m < size)
    (hc : ∃ x, arc[m]? = some x ∧ cur ≤ x) :
    ∃ j x, search arc cur (size - l) l = .ok j ∧ l ≤ j ∧ j ≤ m ∧ arc[j]? = some x ∧ cur ≤ x ∧
      ∀ i, l ≤ i → i < j → ∃ y, arc[i]? = some y ∧ y < cur := by
  obtain ⟨n, hn⟩ : ∃ n, n = size - l := ⟨_, rfl⟩
  rw [← hn]
  induction n generalizing l with
  | zero => omega
  | succ n ih =>
    have hlt : l < arc.length := by omega
    rw [search, rd_lt hlt, Outcome.bind_ok]
    by_cases h : arc[l] ≥ cur
    · rw [if_pos h]
      exact ⟨l, arc[l], rfl, le_rfl, hl, by simp, h, fun i a b => by omega⟩
    · rw [if_neg h]
      have hne : l ≠ m := by
        rintro rfl
        obtain ⟨x, hx, hx2⟩ := hc
        rw [List.getElem?_eq_getElem hlt] at hx
        cases hx
        exact h hx2
      obtain ⟨j, x, a1, a2, a3, a4, a5, a6⟩ := ih (l := l + 1) (by omega) (by omega)
      refine ⟨j, x, a1, by omega, a3, a4, a5, fun i b1 b2 => ?_⟩
      rcases Nat.eq_or_lt_of_le b1 with rfl | b1
      · exact ⟨arc[l], by simp, not_le.1 h⟩
      · exact a6 i (by omega) b2

end Verif.Resample
