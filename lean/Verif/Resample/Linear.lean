import Verif.Resample.Lemmas

/-! # `resamplePolygonLinearInterpolation`: helper lemmas -/

namespace Verif.Resample
open Verif Verif.GeoMap Verif.DartPos

/-- `along_seg` in the form used by the code. -/
theorem along_mix {L : List (Pt ℝ)} {k : Nat} {p q : Pt ℝ} (hp : L[k]? = some p) (hq : L[k + 1]? = some q) {c : ℝ}
    (h1 : reach L k < c) (h2 : c ≤ reach L (k + 1)) :
    ((reach L (k + 1) - c) / (reach L (k + 1) - reach L k)) • p + (1 - (reach L (k + 1) - c) / (reach L (k + 1) - reach L k)) • q = along L c := by
  have hs := reach_succ hp hq
  have hm : 0 < mag (q - p) := by linarith
  set t := (c - reach L k) / mag (q - p) with ht
  have ht0 : 0 ≤ t := div_nonneg (by linarith) hm.le
  have ht1 : t ≤ 1 := by rw [ht, div_le_one hm]; linarith
  have ha := along_seg hp hq ht0 ht1
  have e1 : reach L k + t * mag (q - p) = c := by rw [ht]; field_simp; ring
  have e2 : (reach L (k + 1) - c) / (reach L (k + 1) - reach L k) = 1 - t := by
    rw [hs, add_sub_cancel_left, div_eq_iff hm.ne']; linarith
  rw [e1] at ha
  rw [ha, e2]
  ext <;> simp <;> ring

/-- The state of the loop after the samples `1, …, k - 1`. -/
def LinInv (L simple : List (Pt ℝ)) (step : ℝ) (k : Nat) (s : List (Pt ℝ) × Nat) : Prop :=
  s.1 = simple ++ (List.range k).map (fun j : Nat => along L (j * step)) ∧ 1 ≤ s.2 ∧ s.2 < L.length ∧ reach L (s.2 - 1) ≤ (k - 1 : ℝ) * step

theorem linBody_spec {L simple : List (Pt ℝ)} {step : ℝ} {n k : Nat} {s : List (Pt ℝ) × Nat} (hL : 3 ≤ L.length) (hstep : 0 < step)
    (hn : n * step = pathLen L) (hk : k < n) (hs : LinInv L simple step k s) :
    ∃ s', linBody L (arcLengthList L) step k s = .ok s' ∧ LinInv L simple step (k + 1) s' := by
  obtain ⟨h1, h2, h3, h4⟩ := hs
  have hcur : (k : ℝ) * step ≤ pathLen L := by
    rw [← hn]; exact mul_le_mul_of_nonneg_right (by exact_mod_cast hk.le) hstep.le
  obtain ⟨j, x, a1, a2, a3, a4, a5, a6⟩ := search_spec (arc := arcLengthList L) (cur := k * step) (size := L.length) (l := s.2) (m := L.length - 1)
    (arc_length L (by omega)) (by omega) (by omega)
    ⟨_, arc_get L _ (by omega), by rw [reach_last (n := L.length - 1) (by omega)]; exact hcur⟩
  rw [arc_get L j (by omega)] at a4
  cases a4
  have hlow : reach L (j - 1) < k * step := by
    rcases Nat.eq_or_lt_of_le a2 with e | e
    · rw [← e]; nlinarith
    · obtain ⟨y, y1, y2⟩ := a6 (j - 1) (by omega) (by omega)
      rw [arc_get L (j - 1) (by omega)] at y1
      cases y1; exact y2
  obtain ⟨i, rfl⟩ : ∃ i, j = i + 1 := ⟨j - 1, by omega⟩
  have hi : i + 1 - 1 = i := rfl
  rw [hi] at hlow
  have hp : L[i]? = some (L[i]'(by omega)) := List.getElem?_eq_getElem _
  have hq : L[i + 1]? = some (L[i + 1]'(by omega)) := List.getElem?_eq_getElem _
  refine ⟨(s.1 ++ [along L (k * step)], i + 1), ?_, ?_⟩
  · rw [linBody, a1, Outcome.bind_ok, rd_ok (arc_get L (i + 1) (by omega)), Outcome.bind_ok, hi, rd_ok (arc_get L i (by omega)), Outcome.bind_ok,
      quot_ok (by linarith), Outcome.bind_ok, rd_ok hp, Outcome.bind_ok, rd_ok hq, Outcome.bind_ok, along_mix hp hq hlow a5]
  · refine ⟨?_, by simp, by simp; omega, ?_⟩
    · simp [h1, List.range_succ]
    · simp only [hi]
      push_cast
      linarith

theorem linear_loop {L simple : List (Pt ℝ)} {step : ℝ} {n : Nat} {first : Pt ℝ} (hL : 3 ≤ L.length) (hf : L[0]? = some first) (hstep : 0 < step)
    (hn1 : 1 ≤ n) (hn : n * step = pathLen L) :
    ∃ l, forUp (linBody L (arcLengthList L) step) (n - 1) 1 (simple ++ [first], 1) =
      .ok (simple ++ (List.range n).map (fun j : Nat => along L (j * step)), l) := by
  have h0 : LinInv L simple step 1 (simple ++ [first], 1) := by
    refine ⟨?_, le_rfl, by simp; omega, by simp [reach_zero]⟩
    match L, hf with
    | p :: l, hf =>
      simp at hf
      simp [along_zero, hf]
  obtain ⟨s', e1, p1⟩ := forUp_inv (LinInv L simple step) (n - 1) 1 _ h0
    (fun j s _ b h => linBody_spec hL hstep hn (by omega) h)
  rw [show 1 + (n - 1) = n by omega] at p1
  exact ⟨s'.2, by rw [e1, ← p1.1]⟩

end Verif.Resample
