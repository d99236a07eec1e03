import Verif.DSL.Lemmas
import Mathlib.Algebra.Group.Int.Units

/-! Invariant of the tangent loop. -/

namespace Verif.DSL

/-- A chain of the first octant: each step goes one to the right and zero or one up. -/
def Chain (h : Int → Int) : Prop := ∀ i, h i ≤ h (i + 1) ∧ h (i + 1) ≤ h i + 1

theorem Chain.mono {h : Int → Int} (hc : Chain h) {i j : Int} (hij : i ≤ j) : h i ≤ h j := by
  obtain ⟨n, rfl⟩ : ∃ n : Nat, j = i + n := ⟨(j - i).toNat, by omega⟩
  clear hij
  induction n with
  | zero => simp
  | succ n ih =>
    have := (hc (i + n)).1
    push_cast
    rw [← add_assoc]
    omega

/-- The line is in the first octant, short, and contains the chain on `[lo, hi]`. -/
structure TInv (h : Int → Int) (L : Line) (lo hi : Int) : Prop where
  oct : Octant L
  short : L.b = 1 ∨ L.b ≤ hi - lo
  mem : ∀ i, lo ≤ i → i ≤ hi → 0 ≤ L.a * i - L.b * h i - L.pos ∧
    L.a * i - L.b * h i - L.pos < L.b

/-- Same line, with the origin moved to `o`. -/
theorem octant_setPos {L : Line} (hL : Octant L) (p : Int) : Octant (L.setPos p) :=
  ⟨hL.eight, hL.a_nonneg, hL.a_le, hL.b_pos, hL.cop⟩

/-- One `addPoint` relative to an origin: general form. -/
theorem addRel_spec {L : Line} (hL : Octant L) {o p : Int × Int}
    (hxb : L.b ≤ |p.1 - o.1|)
    (hsign : L.a * p.1 - L.b * p.2 - L.pos = -1 ∨ L.a * p.1 - L.b * p.2 - L.pos = L.b →
      (p.1 - o.1 < 0 ∧ p.2 - o.2 < 0 ∨ 0 ≤ p.1 - o.1 ∧ 0 ≤ p.2 - o.2))
    (hup : L.a * p.1 - L.b * p.2 - L.pos = -1 → if p.1 - o.1 < 0 then 1 ≤ L.a else L.a < L.b)
    (hdn : L.a * p.1 - L.b * p.2 - L.pos = L.b → if p.1 - o.1 < 0 then L.a < L.b else 1 ≤ L.a) :
    ∃ r L', addRel L o p = .ok (r, L') ∧ (r = true → Octant L' ∧
      (L'.b = L.b ∨ L'.b ≤ |p.1 - o.1|) ∧
      (0 ≤ L'.a * p.1 - L'.b * p.2 - L'.pos ∧ L'.a * p.1 - L'.b * p.2 - L'.pos < L'.b) ∧
      ∀ x y, Between (x - o.1) (p.1 - o.1) →
        0 ≤ L.a * x - L.b * y - L.pos ∧ L.a * x - L.b * y - L.pos < L.b →
        0 ≤ L'.a * x - L'.b * y - L'.pos ∧ L'.a * x - L'.b * y - L'.pos < L'.b) := by
  obtain ⟨ox, oy⟩ := o
  obtain ⟨px, py⟩ := p
  simp only at hxb hsign hup hdn ⊢
  have hb := hL.b_pos
  set M := L.setPos (L.pos - L.eval ox oy) with hM
  have hMO : Octant M := octant_setPos hL _
  have ev : ∀ x y, M.eval (x - ox) (y - oy) - M.pos = L.a * x - L.b * y - L.pos := by
    intro x y; simp only [hM, Line.setPos, Line.eval]; ring
  have hMa : M.a = L.a := rfl
  have hMb : M.b = L.b := rfl
  simp only [addRel, addPoint]
  rw [if_neg (by simpa using ⟨hMO.eight, hMO.a_le, hMO.a_nonneg⟩)]
  rw [← hM, ev]
  by_cases h1 : 0 ≤ L.a * px - L.b * py - L.pos ∧ L.a * px - L.b * py - L.pos < M.b
  · rw [if_pos h1]
    simp only [Outcome.bind_ok, if_true]
    refine ⟨_, _, rfl, fun _ => ?_⟩
    have e : M.setPos (M.pos + M.eval ox oy) = L := by
      simp only [hM, Line.setPos, Line.eval]
      obtain ⟨e, a, b, p⟩ := L
      simp only [Line.mk.injEq, true_and]; ring
    rw [e]
    exact ⟨hL, Or.inl rfl, h1, fun _ _ _ h => h⟩
  rw [if_neg h1]
  by_cases h2 : L.a * px - L.b * py - L.pos ≠ -1 ∧ L.a * px - L.b * py - L.pos ≠ M.b
  · rw [if_pos h2]
    refine ⟨_, _, rfl, fun h => ?_⟩
    simp at h
  rw [if_neg h2]
  have hor : L.a * px - L.b * py - L.pos = -1 ∨ L.a * px - L.b * py - L.pos = L.b := by
    by_contra hn; push Not at hn; exact h2 ⟨hn.1, by rw [hMb]; exact hn.2⟩
  have hs := hsign hor
  have hd : (decide (px - ox < 0) = decide (py - oy < 0)) := by
    rcases hs with ⟨a, b⟩ | ⟨a, b⟩
    · simp [a, b]
    · rw [decide_eq_false (by omega), decide_eq_false (by omega)]
  rw [if_neg (not_not.2 hd)]
  obtain ⟨L', he, hO, hlb, hcx, -, hkeep⟩ := addOutside_spec (L := M) hMO (x := px - ox)
    (y := py - oy) (above := decide (L.a * px - L.b * py - L.pos = -1))
    (by
      rw [ev]
      by_cases hm : L.a * px - L.b * py - L.pos = -1
      · simp [hm]
      · simp only [hm, decide_false, Bool.false_eq_true, if_false]
        exact hor.resolve_left hm)
    hxb hs
    (by
      by_cases hm : L.a * px - L.b * py - L.pos = -1
      · have := hup hm
        simp only [hm, decide_true]
        by_cases hx : px - ox < 0 <;> simp only [hx, if_true, if_false] at this ⊢ <;> simpa [hMa, hMb] using this
      · have := hdn (hor.resolve_left hm)
        simp only [hm, decide_false]
        by_cases hx : px - ox < 0 <;> simp only [hx, if_true, if_false] at this ⊢ <;> simpa [hMa, hMb] using this)
  rw [he]
  simp only [Outcome.bind_ok, if_true]
  refine ⟨_, _, rfl, fun _ => ?_⟩
  have ev' : ∀ x y, (L'.setPos (L'.pos + L'.eval ox oy)).a * x -
      (L'.setPos (L'.pos + L'.eval ox oy)).b * y - (L'.setPos (L'.pos + L'.eval ox oy)).pos
      = L'.eval (x - ox) (y - oy) - L'.pos := by
    intro x y; simp only [Line.setPos, Line.eval]; ring
  refine ⟨octant_setPos hO _, Or.inr hlb, ?_, ?_⟩
  · rw [ev']
    have := (contains_iff _ _ _).1 hcx
    rw [hO.width] at this
    exact this
  · intro x y hbt hin
    rw [ev']
    have hin' : M.contains (x - ox) (y - oy) = true := by
      rw [contains_iff, hMO.width, ev]; exact hin
    have := (contains_iff _ _ _).1 (hkeep _ _ hbt hin')
    rw [hO.width] at this
    exact this

/-- Extend the chain at its upper end. -/
theorem addRel_fwd {h : Int → Int} (hc : Chain h) {L : Line} {lo hi : Int}
    (H : TInv h L lo hi) (hlh : lo ≤ hi) :
    ∃ r L', addRel L (lo, h lo) (hi + 1, h (hi + 1)) = .ok (r, L') ∧
      (r = true → TInv h L' lo (hi + 1)) := by
  have hO := H.oct
  have hb := hO.b_pos
  have hm := H.mem hi hlh (le_refl _)
  have hst := hc hi
  have habs : |hi + 1 - lo| = hi + 1 - lo := abs_of_nonneg (by omega)
  have hmono := hc.mono (show lo ≤ hi + 1 by omega)
  have hcop : L.a = L.b → L.b = 1 := by
    intro e
    have := hO.cop
    rw [e] at this
    have h2 := (isCoprime_self.1 this)
    rcases Int.isUnit_iff.1 h2 with h3 | h3 <;> omega
  have hstep : h (hi + 1) = h hi ∨ h (hi + 1) = h hi + 1 := by omega
  have hv : L.a * (hi + 1) - L.b * h (hi + 1) - L.pos =
      (L.a * hi - L.b * h hi - L.pos) + L.a - L.b * (h (hi + 1) - h hi) := by ring
  obtain ⟨r, L', he, hr⟩ := addRel_spec hO (o := (lo, h lo)) (p := (hi + 1, h (hi + 1)))
    (by simp only [habs]; rcases H.short with h1 | h1 <;> omega)
    (fun _ => Or.inr ⟨by simp only; omega, by simp only; omega⟩)
    (by
      intro e
      simp only at e ⊢
      rw [if_neg (by omega)]
      by_contra hge
      have hab : L.a = L.b := le_antisymm hO.a_le (by omega)
      rw [hv] at e
      rcases hstep with h1 | h1 <;> rw [h1] at e
      · simp only [sub_self, mul_zero] at e; omega
      · simp only [add_sub_cancel_left, mul_one] at e; omega)
    (by
      intro e
      simp only at e ⊢
      rw [if_neg (by omega)]
      by_contra hge
      have ha0 : L.a = 0 := le_antisymm (by omega) hO.a_nonneg
      rw [hv] at e
      rcases hstep with h1 | h1 <;> rw [h1] at e
      · simp only [sub_self, mul_zero] at e; omega
      · simp only [add_sub_cancel_left, mul_one] at e; omega)
  refine ⟨r, L', he, fun hrt => ?_⟩
  obtain ⟨hO', hb', hnew, hkeep⟩ := hr hrt
  refine ⟨hO', ?_, ?_⟩
  · simp only [habs] at hb'
    rcases hb' with h1 | h1
    · rw [h1]; rcases H.short with h2 | h2
      · exact Or.inl h2
      · right; omega
    · right; exact h1
  · intro i h1 h2
    by_cases e : i = hi + 1
    · subst e; exact hnew
    · exact hkeep i (h i) (Or.inl ⟨by simp only; omega, by simp only; omega⟩)
        (H.mem i h1 (by omega))

/-- Extend the chain at its lower end. -/
theorem addRel_bwd {h : Int → Int} (hc : Chain h) {L : Line} {lo hi : Int}
    (H : TInv h L lo hi) (hlh : lo < hi) :
    ∃ r L', addRel L (hi, h hi) (lo - 1, h (lo - 1)) = .ok (r, L') ∧
      (r = true → TInv h L' (lo - 1) hi) := by
  have hO := H.oct
  have hb := hO.b_pos
  have hm := H.mem lo (le_refl _) (by omega)
  have hmh := H.mem hi (by omega) (le_refl _)
  have hst := hc (lo - 1)
  rw [sub_add_cancel] at hst
  have habs : |lo - 1 - hi| = hi + 1 - lo := by rw [abs_of_neg (by omega)]; ring
  have hmono := hc.mono (show lo ≤ hi by omega)
  have hcop : L.a = L.b → L.b = 1 := by
    intro e
    have := hO.cop
    rw [e] at this
    have h2 := (isCoprime_self.1 this)
    rcases Int.isUnit_iff.1 h2 with h3 | h3 <;> omega
  have hstep : h lo = h (lo - 1) ∨ h lo = h (lo - 1) + 1 := by omega
  have hv : L.a * (lo - 1) - L.b * h (lo - 1) - L.pos =
      (L.a * lo - L.b * h lo - L.pos) - L.a + L.b * (h lo - h (lo - 1)) := by ring
  obtain ⟨r, L', he, hr⟩ := addRel_spec hO (o := (hi, h hi)) (p := (lo - 1, h (lo - 1)))
    (by simp only [habs]; rcases H.short with h1 | h1 <;> omega)
    (by
      intro e
      simp only at e ⊢
      refine Or.inl ⟨by omega, ?_⟩
      by_contra hge
      have e1 : h lo = h (lo - 1) := by omega
      have e2 : h hi = h lo := by omega
      rw [hv, e1] at e
      simp only [sub_self, mul_zero, add_zero] at e
      rw [e1] at hm
      rw [e2, e1] at hmh
      have hdiff : L.a * hi = L.a * lo + L.a * (hi - lo) := by ring
      have ha := hO.a_nonneg
      have ha1 : L.a ≠ 0 := by
        intro h0; rw [h0] at e hm; simp only [zero_mul] at e hm; omega
      rcases H.short with hs | hs
      · have : 1 * 1 ≤ L.a * (hi - lo) := mul_le_mul (by omega) (by omega) (by omega) ha
        omega
      · have : 1 * L.b ≤ L.a * (hi - lo) := mul_le_mul (by omega) hs (by omega) ha
        omega)
    (by
      intro e
      simp only at e ⊢
      rw [if_pos (by omega)]
      by_contra hge
      have ha0 : L.a = 0 := le_antisymm (by omega) hO.a_nonneg
      rw [hv] at e
      rcases hstep with h1 | h1
      · rw [h1] at e hm; simp only [sub_self, mul_zero] at e; omega
      · rw [h1] at e hm; simp only [add_sub_cancel_left, mul_one] at e; omega)
    (by
      intro e
      simp only at e ⊢
      rw [if_pos (by omega)]
      by_contra hge
      have hab : L.a = L.b := le_antisymm hO.a_le (by omega)
      have hb1 := hcop hab
      rw [hv] at e
      rcases hstep with h1 | h1
      · rw [h1] at e hm; simp only [sub_self, mul_zero] at e; omega
      · rw [h1] at e hm; simp only [add_sub_cancel_left, mul_one] at e; omega)
  refine ⟨r, L', he, fun hrt => ?_⟩
  obtain ⟨hO', hb', hnew, hkeep⟩ := hr hrt
  refine ⟨hO', ?_, ?_⟩
  · simp only [habs] at hb'
    rcases hb' with h1 | h1
    · rw [h1]; rcases H.short with h2 | h2
      · exact Or.inl h2
      · right; omega
    · right; omega
  · intro i h1 h2
    by_cases e : i = lo - 1
    · subst e; exact hnew
    · exact hkeep i (h i) (Or.inr ⟨by simp only; omega, by simp only; omega⟩)
        (H.mem i (by omega) h2)

end Verif.DSL
