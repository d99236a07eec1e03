import Verif.DartPos.Lemmas

namespace Verif.DartPos
open Verif Verif.GeoMap Verif.PointIter

variable {L : List (Pt ℝ)} {s : DP} {k m e : Nat}

/-- The states of `gotoArcLength` while it goes back: the iterator stands one point too early. -/
structure Back (L : List (Pt ℝ)) (s : DP) (m : Nat) : Prop where
  it : At L s.it m
  p1 : L[m]? = some s.p1
  arc : s.arc = reach L m

theorem Back.prev (h : Back L s (m + 1)) (hs : s.seg ≠ 0) : ∃ s', s.prev = .ok (true, s') ∧ Back L s' m ∧ L[m + 1]? = some s'.p2 ∧
    s'.seg = s.seg - 1 ∧ s'.pos = s.pos ∧ s'.part = s.part := by
  obtain ⟨q, hq⟩ : ∃ q, L[m]? = some q := by
    have : m + 1 < L.length := by
      by_contra hc
      have := h.p1
      rw [List.getElem?_eq_none (by omega)] at this
      cases this
    exact ⟨_, List.getElem?_eq_getElem (by omega)⟩
  refine ⟨{ s with
      p2 := s.p1, it := s.it.reverse.next.reverse, p1 := q, arc := s.arc - mag (s.p1 - q), seg := s.seg - 1 },
    ?_, ⟨h.it.back, hq, ?_⟩, h.p1, rfl, rfl, rfl⟩
  · rw [DP.prev, if_neg hs, h.it.back.deref hq]; rfl
  · simp only
    rw [h.arc, reach_succ hq h.p1]; ring

/-- the first step back stays where it is -/
theorem Track.prev (h : Track L s (k + 1)) : ∃ s', s.prev = .ok (true, s') ∧ Back L s' (k + 1) ∧ s'.p1 = s.p1 ∧
    s'.seg = k ∧ s'.pos = s.pos ∧ s'.part = s.part := by
  refine ⟨{ s with
      p2 := s.p1, it := s.it.reverse.next.reverse, p1 := s.p1, arc := s.arc - mag (s.p1 - s.p1), seg := s.seg - 1 },
    ?_, ⟨h.it.back, h.p1, ?_⟩, rfl, ?_, rfl, rfl⟩
  · rw [DP.prev, if_neg (by rw [h.seg]; omega), h.it.back.deref h.p1]; rfl
  · have : mag 0 = 0 := mag_eq_zero.2 rfl
    simp [this, h.arc]
  · simp [h.seg]

theorem Done.prev (h : Done L s) (hs : s.seg ≠ 0) : ∃ s', s.prev = .ok (true, s') ∧ Back L s' (s.seg + 1) ∧ s'.p1 = s.p1 ∧
    s'.seg = s.seg - 1 ∧ s'.pos = s.pos ∧ s'.part = s.part := by
  have hat : At L s.it (s.seg + 1 + 1) := by
    have := h.it
    rwa [← h.seg] at this
  have hp : L[s.seg + 1]? = some s.p1 := by
    have := h.p1
    rw [List.getLast?_eq_getElem?, ← h.seg] at this
    simpa using this
  refine ⟨{ s with
      p2 := s.p1, it := s.it.reverse.next.reverse, p1 := s.p1, arc := s.arc - mag (s.p1 - s.p1), seg := s.seg - 1 },
    ?_, ⟨hat.back, hp, ?_⟩, rfl, rfl, rfl, rfl⟩
  · rw [DP.prev, if_neg hs, hat.back.deref hp]; rfl
  · have : mag 0 = 0 := mag_eq_zero.2 rfl
    simp [this, h.arc]
    rw [reach_last]
    have := h.seg
    omega

/-- going back -/
theorem Back.loop {a : ℝ} {σ : Nat} (h : Back L s m) (hs : s.seg = σ) (hm : m = σ + e) (ha : a < s.arc) :
    ∃ b s', backLoop a (σ + 1) s = .ok (b, s') ∧ (b = true ↔ reach L e ≤ a) ∧ s'.pos = s.pos ∧ s'.part = s.part ∧
      (b = true → ∃ m', Back L s' m' ∧ L[m' + 1]? = some s'.p2 ∧ s'.seg + e = m' ∧ reach L m' ≤ a ∧ a < reach L (m' + 1)) := by
  induction σ generalizing s m with
  | zero =>
    refine ⟨false, s, ?_, ?_, rfl, rfl, fun h => by cases h⟩
    · rw [backLoop, if_pos ha, DP.prev, if_pos hs]; rfl
    · rw [h.arc, hm, zero_add] at ha
      simp [ha]
  | succ σ ih =>
    obtain rfl : m = (σ + e) + 1 := by omega
    obtain ⟨s1, e1, b1, c1, d1, f1, g1⟩ := h.prev (by omega)
    rw [backLoop, if_pos ha, e1]
    simp only [Outcome.bind_ok, if_true]
    rcases lt_or_ge a s1.arc with ha' | ha'
    · obtain ⟨b, s', q1, q2, q3, q4, q5⟩ := ih b1 (by omega) rfl ha'
      exact ⟨b, s', q1, q2, by rw [q3, f1], by rw [q4, g1], q5⟩
    · refine ⟨true, s1, back_none ha' _, ?_, f1, g1, fun _ => ⟨σ + e, b1, c1, by omega, by rw [← b1.arc]; exact ha', by rw [← h.arc]; exact ha⟩⟩
      simp only [true_iff]
      refine le_trans ?_ (b1.arc ▸ ha' : reach L (σ + e) ≤ a)
      -- the arc length grows
      clear * -
      unfold reach
      have : ∀ (L : List (Pt ℝ)) (i : Nat), pathLen (L.take (e + 1)) ≤ pathLen (L.take (i + e + 1)) := by
        intro L i
        have := reach_le (L := L.take (i + e + 1)) e
        rwa [reach, List.take_take, Nat.min_eq_left (by omega)] at this
      exact this L σ

theorem Back.fwd {a : ℝ} {n : Nat} (h : Back L s m) (h2 : L[m + 1]? = some s.p2) (h3 : reach L m ≤ a) (h4 : a < reach L (m + 1)) :
    fwdLoop a (n + 1) s = .ok (true, { s with
      pos := along L a, part := a - s.arc }) := by
  have h4' := h4
  rw [reach_succ h.p1 h2] at h4
  have hm : 0 < mag (s.p2 - s.p1) := by linarith
  rw [fwdLoop, if_pos]
  · have ht := along_seg h.p1 h2 (t := (a - s.arc) / mag (s.p2 - s.p1)) (div_nonneg (by rw [h.arc]; linarith) hm.le)
      (by rw [div_le_one hm, h.arc]; linarith)
    rw [div_mul_cancel₀ _ hm.ne', ← h.arc, add_sub_cancel] at ht
    rw [← ht]
  · rw [← mag_mul_self, h.arc]
    nlinarith

end Verif.DartPos
