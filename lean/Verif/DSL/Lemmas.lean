import Verif.DSL.Model
import Mathlib.RingTheory.Coprime.Basic
import Mathlib.Tactic.Linarith
import Mathlib.Tactic.Ring
import Mathlib.Tactic.LinearCombination

/-! Lemmas about `addPoint`: the leaning point search and the new slope. -/

namespace Verif.DSL

theorem contains_iff (L : Line) (x y : Int) :
    L.contains x y = true ↔ 0 ≤ L.eval x y - L.pos ∧ L.eval x y - L.pos < L.width := by
  simp [Line.contains]

/-- A line of the first octant: `0 ≤ a ≤ b`, `0 < b`, coprime. -/
structure Octant (L : Line) : Prop where
  eight : L.eight = true
  a_nonneg : 0 ≤ L.a
  a_le : L.a ≤ L.b
  b_pos : 1 ≤ L.b
  cop : IsCoprime L.a L.b

theorem Octant.width {L : Line} (h : Octant L) : L.width = L.b := by
  have h1 := h.a_nonneg; have h2 := h.a_le
  simp only [Line.width, h.eight, if_true, abs_of_nonneg h1, abs_of_nonneg (le_trans h1 h2)]
  exact max_eq_right h2

theorem findK_spec {a b d : Int} (n : Nat) (k0 : Int) (k : Int) (hk : k0 ≤ k)
    (hlt : k < k0 + n) (hd : (a * k - d).tmod b = 0) :
    k0 ≤ findK a b d n k0 ∧ findK a b d n k0 ≤ k ∧ (a * findK a b d n k0 - d).tmod b = 0 := by
  induction n generalizing k0 with
  | zero => exact absurd hlt (by simp; omega)
  | succ n ih =>
    rw [findK]
    split
    · next h => exact ⟨le_refl _, hk, h⟩
    · next h =>
      have : k ≠ k0 := fun e => h (e ▸ hd)
      have := ih (k0 + 1) (by omega) (by push_cast at hlt; omega)
      exact ⟨by omega, this.2.1, this.2.2⟩

/-- The loop of `addPoint` finds a leaning point. -/
theorem findK_exists {a b d : Int} (hb : 1 ≤ b) (hc : IsCoprime a b) :
    ∃ k l, findK a b d b.toNat 0 = k ∧ (a * k - d).tdiv b = l ∧ 0 ≤ k ∧ k < b ∧
      a * k - b * l = d := by
  obtain ⟨u, w, huw⟩ := hc
  have hdvd : b ∣ a * ((d * u) % b) - d := by
    have h1 : b ∣ a * (d * u) - d := ⟨-(d * w), by linear_combination d * huw⟩
    have h2 : a * ((d * u) % b) - d = (a * (d * u) - d) - b * (a * ((d * u) / b)) := by
      have := Int.emod_add_mul_ediv (d * u) b
      linear_combination a * this
    rw [h2]
    exact dvd_sub h1 (dvd_mul_right _ _)
  have hspec := findK_spec (a := a) (b := b) (d := d) b.toNat 0 ((d * u) % b)
    (Int.emod_nonneg _ (by omega))
    (by have := Int.emod_lt_of_pos (d * u) (show 0 < b by omega); omega)
    (Int.tmod_eq_zero_of_dvd hdvd)
  have hlt := Int.emod_lt_of_pos (d * u) (show 0 < b by omega)
  refine ⟨_, _, rfl, rfl, hspec.1, by omega, ?_⟩
  have := Int.mul_tdiv_cancel' (Int.dvd_of_tmod_eq_zero hspec.2.2)
  linarith

/-- Slope increase: the arithmetic core of the recognition step. -/
theorem core_inc {a b pos k l x y a' b' p q : Int} (hb : 1 ≤ b) (hkb : k < b)
    (hk : a * k - b * l = pos) (hx : a * x - b * y = pos - 1)
    (ha' : a' = y - l) (hb' : b' = x - k) (hb1 : 1 ≤ b') (hp0 : 0 ≤ p) (hpx : p < x)
    (h0 : 0 ≤ a * p - b * q - pos) (h1 : a * p - b * q - pos < b) :
    0 ≤ a' * p - b' * q - (a' * x - b' * y) ∧ a' * p - b' * q - (a' * x - b' * y) < b' := by
  have hD : a' * b - a * b' = 1 := by subst ha' hb'; linear_combination hk - hx
  set v := a * p - b * q - pos with hv
  set v' := a' * p - b' * q - (a' * x - b' * y) with hv'
  have key : b * v' = (p - k) + b' * v := by
    rw [hv', hv]
    have e1 : a' * x - b' * y = a' * k - b' * l := by subst ha' hb'; ring
    rw [e1, ← hk]
    linear_combination (p - k) * hD
  constructor
  · by_contra hneg
    have h2 : v' ≤ -1 := by omega
    have h3 : b * v' ≤ b * (-1) := mul_le_mul_of_nonneg_left h2 (by omega)
    have h4 : 0 ≤ b' * v := mul_nonneg (by omega) h0
    linarith
  · by_contra hge
    have h2 : b' ≤ v' := by omega
    have h3 : b * b' ≤ b * v' := mul_le_mul_of_nonneg_left h2 (by omega)
    have h4 : b' * v ≤ b' * (b - 1) := mul_le_mul_of_nonneg_left (by omega) (by omega)
    linarith [mul_comm b b', mul_sub b' b 1]

/-- Slope decrease. -/
theorem core_dec {a b pos k l x y a' b' p q : Int} (hb : 1 ≤ b) (hkb : k < b)
    (hk : a * k - b * l = pos + b - 1) (hx : a * x - b * y = pos + b)
    (ha' : a' = y - l) (hb' : b' = x - k) (hb1 : 1 ≤ b') (hp0 : 0 ≤ p) (hpx : p < x)
    (h0 : 0 ≤ a * p - b * q - pos) (h1 : a * p - b * q - pos < b) :
    0 ≤ a' * p - b' * q - (a' * x - b' * y - b' + 1) ∧
      a' * p - b' * q - (a' * x - b' * y - b' + 1) < b' := by
  have hD : a * b' - a' * b = 1 := by subst ha' hb'; linear_combination hx - hk
  set t := a * p - b * q - pos - (b - 1) with ht
  set s := a' * p - b' * q - (a' * x - b' * y) with hs
  have key : b * s = b' * t - (p - k) := by
    rw [hs, ht]
    have e1 : a' * x - b' * y = a' * k - b' * l := by subst ha' hb'; ring
    rw [e1]
    have e2 : a * p - b * q - pos - (b - 1) = a * (p - k) - b * (q - l) := by
      linear_combination hk
    rw [e2]
    linear_combination (-(p - k)) * hD
  have es : a' * p - b' * q - (a' * x - b' * y - b' + 1) = s + b' - 1 := by rw [hs]; ring
  rw [es]
  constructor
  · by_contra hneg
    have h2 : s ≤ -b' := by omega
    have h3 : b * s ≤ b * (-b') := mul_le_mul_of_nonneg_left h2 (by omega)
    have h4 : b' * (-(b - 1)) ≤ b' * t := mul_le_mul_of_nonneg_left (by omega) (by omega)
    have h5 : b * (-b') = -(b' * b) := by ring
    have h6 : b' * (-(b - 1)) = -(b' * b) + b' := by ring
    omega
  · by_contra hge
    have h2 : 1 ≤ s := by omega
    have h3 : b * 1 ≤ b * s := mul_le_mul_of_nonneg_left h2 (by omega)
    have h4 : b' * t ≤ b' * 0 := mul_le_mul_of_nonneg_left (by omega) (by omega)
    omega

/-- The new slope stays in the first octant. -/
theorem slope_inc {a b a' b' : Int} (hb : 1 ≤ b) (ha : 0 ≤ a) (hab : a < b)
    (hb1 : 1 ≤ b') (hD : a' * b - a * b' = 1) : 0 ≤ a' ∧ a' ≤ b' := by
  constructor
  · by_contra h
    have h1 : a' * b ≤ (-1) * b := mul_le_mul_of_nonneg_right (by omega) (by omega)
    have h2 : 0 ≤ a * b' := mul_nonneg ha (by omega)
    omega
  · by_contra h
    have h1 : (b' + 1) * b ≤ a' * b := mul_le_mul_of_nonneg_right (by omega) (by omega)
    have h2 : a * b' ≤ (b - 1) * b' := mul_le_mul_of_nonneg_right (by omega) (by omega)
    have h3 : (b' + 1) * b = b' * b + b := by ring
    have h4 : (b - 1) * b' = b' * b - b' := by ring
    omega

theorem slope_dec {a b a' b' : Int} (hb : 1 ≤ b) (ha : 1 ≤ a) (hab : a ≤ b)
    (hb1 : 1 ≤ b') (hD : a * b' - a' * b = 1) : 0 ≤ a' ∧ a' ≤ b' := by
  constructor
  · by_contra h
    have h1 : a' * b ≤ (-1) * b := mul_le_mul_of_nonneg_right (by omega) (by omega)
    have h2 : 1 * b' ≤ a * b' := mul_le_mul_of_nonneg_right ha (by omega)
    omega
  · by_contra h
    have h1 : (b' + 1) * b ≤ a' * b := mul_le_mul_of_nonneg_right (by omega) (by omega)
    have h2 : a * b' ≤ b * b' := mul_le_mul_of_nonneg_right (by omega) (by omega)
    have h3 : (b' + 1) * b = b * b' + b := by ring
    omega

/-- Between the origin (included) and `x` (excluded). -/
def Between (p x : Int) : Prop := (0 ≤ p ∧ p < x) ∨ (x < p ∧ p ≤ 0)

/-- What adding a point just outside does (both sides, both directions). -/
theorem addOutside_spec {L : Line} (hL : Octant L) {x y : Int} {above : Bool}
    (hv : if above then L.eval x y - L.pos = -1 else L.eval x y - L.pos = L.b)
    (hxb : L.b ≤ |x|) (hxy : x < 0 ∧ y < 0 ∨ 0 ≤ x ∧ 0 ≤ y)
    (hoct : if (if x < 0 then !above else above) then L.a < L.b else 1 ≤ L.a) :
    ∃ L', addOutside L above x y = .ok (true, L') ∧ Octant L' ∧ L'.b ≤ |x| ∧
      L'.contains x y = true ∧
      (if above then L'.eval x y = L'.pos else L'.eval x y = L'.pos + L'.b - 1) ∧
      ∀ p q, Between p x → L.contains p q = true → L'.contains p q = true := by
  have hb := hL.b_pos
  obtain ⟨e, a, b, pos⟩ := L
  obtain rfl : e = true := hL.eight
  simp only [Line.eval] at hv hxb hoct hb
  -- generic step, after reducing to the positive side
  have fin : ∀ (inc : Bool) (posm k l X Y : Int), 1 ≤ X → b ≤ X → 0 ≤ k → k < b →
      (a * k - b * l = if inc then posm else posm + b - 1) →
      (if inc then a * X - b * Y = posm - 1 else a * X - b * Y = posm + b) →
      (if inc then a < b else 1 ≤ a) →
      0 ≤ Y - l ∧ Y - l ≤ X - k ∧ 1 ≤ X - k ∧ IsCoprime (Y - l) (X - k) := by
    intro inc posm k l X Y hX hbX hk0 hkb hkl hXY hoc
    have hb1 : 1 ≤ X - k := by omega
    cases inc
    · simp only [Bool.false_eq_true, if_false] at hkl hXY hoc
      have hD : a * (X - k) - (Y - l) * b = 1 := by linear_combination hXY - hkl
      have := slope_dec hb hoc hL.a_le hb1 hD
      exact ⟨this.1, this.2, hb1, ⟨-b, a, by linear_combination hD⟩⟩
    · simp only [if_true] at hkl hXY hoc
      have hD : (Y - l) * b - a * (X - k) = 1 := by linear_combination hkl - hXY
      have := slope_inc hb hL.a_nonneg hoc hb1 hD
      exact ⟨this.1, this.2, hb1, ⟨b, -a, by linear_combination hD⟩⟩
  have cont : ∀ p q, (⟨true, a, b, pos⟩ : Line).contains p q = true →
      0 ≤ a * p - b * q - pos ∧ a * p - b * q - pos < b := by
    intro p q h
    have := (contains_iff _ _ _).1 h
    rw [hL.width] at this
    exact this
  simp only [addOutside]
  rw [if_neg (show ¬ b = 0 by omega)]
  rcases hxy with ⟨hx, hy⟩ | ⟨hx, hy⟩
  · -- negative side: mirrored line
    simp only [hx, if_true, abs_of_neg hx, abs_of_neg hy] at hoct hxb ⊢
    obtain ⟨k, l, hk, hl, hk0, hkb, hkl⟩ := findK_exists
      (a := a) (b := b) (d := if (!above) = true then 1 - b - pos else 1 - b - pos + b - 1) hb hL.cop
    rw [hk, hl]
    have hXY : if (!above) then a * (-x) - b * (-y) = (1 - b - pos) - 1 else
        a * (-x) - b * (-y) = (1 - b - pos) + b := by
      cases above <;> simp at hv ⊢ <;> linarith
    have F := fin (!above) (1 - b - pos) k l (-x) (-y) (by omega) hxb hk0 hkb hkl hXY hoct
    set a' := -y - l with ha'
    set b' := -x - k with hb'
    set pos' := if above = true then a' * x - b' * y else a' * x - b' * y - b' + 1 with hpos'
    have hO : Octant ⟨true, a', b', pos'⟩ := ⟨rfl, F.1, F.2.1, F.2.2.1, F.2.2.2⟩
    have hev : if above then a' * x - b' * y = pos' else a' * x - b' * y = pos' + b' - 1 := by
      cases above <;> simp [hpos'] <;> ring
    have hcx : (⟨true, a', b', pos'⟩ : Line).contains x y = true := by
      rw [contains_iff, hO.width]
      simp only [Line.eval]
      have := F.2.2.1
      cases above <;> simp at hev ⊢ <;> omega
    rw [if_pos hcx]
    refine ⟨_, rfl, hO, by simp only; omega, hcx, hev, ?_⟩
    intro p q hp hc
    have hc := cont p q hc
    rw [contains_iff, hO.width]
    simp only [Line.eval]
    have hp' : 0 ≤ -p ∧ -p < -x := by rcases hp with h | h <;> omega
    cases above
    · simp only [Bool.false_eq_true, if_false, Bool.not_false, if_true] at hkl hXY hpos'
      have := core_inc (p := -p) (q := -q) hb hkb hkl hXY ha' hb' F.2.2.1 hp'.1 hp'.2
        (by linarith) (by linarith)
      rw [hpos']
      constructor <;> linarith
    · simp only [Bool.not_true, Bool.false_eq_true, if_false, if_true] at hkl hXY hpos'
      have := core_dec (p := -p) (q := -q) hb hkb hkl hXY ha' hb' F.2.2.1 hp'.1 hp'.2
        (by linarith) (by linarith)
      rw [hpos']
      constructor <;> linarith
  · have hx' : ¬ x < 0 := by omega
    simp only [hx', if_false, abs_of_nonneg hx, abs_of_nonneg hy] at hoct hxb ⊢
    obtain ⟨k, l, hk, hl, hk0, hkb, hkl⟩ := findK_exists
      (a := a) (b := b) (d := if above = true then pos else pos + b - 1) hb hL.cop
    rw [hk, hl]
    have hXY : if above then a * x - b * y = pos - 1 else a * x - b * y = pos + b := by
      cases above <;> simp at hv ⊢ <;> linarith
    have F := fin above pos k l x y (by omega) hxb hk0 hkb hkl hXY hoct
    set a' := y - l with ha'
    set b' := x - k with hb'
    set pos' := if above = true then a' * x - b' * y else a' * x - b' * y - b' + 1 with hpos'
    have hO : Octant ⟨true, a', b', pos'⟩ := ⟨rfl, F.1, F.2.1, F.2.2.1, F.2.2.2⟩
    have hev : if above then a' * x - b' * y = pos' else a' * x - b' * y = pos' + b' - 1 := by
      cases above <;> simp [hpos'] <;> ring
    have hcx : (⟨true, a', b', pos'⟩ : Line).contains x y = true := by
      rw [contains_iff, hO.width]
      simp only [Line.eval]
      have := F.2.2.1
      cases above <;> simp at hev ⊢ <;> omega
    rw [if_pos hcx]
    refine ⟨_, rfl, hO, by simp only; omega, hcx, hev, ?_⟩
    intro p q hp hc
    have hc := cont p q hc
    rw [contains_iff, hO.width]
    simp only [Line.eval]
    have hp' : 0 ≤ p ∧ p < x := by rcases hp with h | h <;> omega
    cases above
    · simp only [Bool.false_eq_true, if_false] at hkl hXY hpos'
      have := core_dec hb hkb hkl hXY ha' hb' F.2.2.1 hp'.1 hp'.2 hc.1 hc.2
      rw [hpos']; exact this
    · simp only [if_true] at hkl hXY hpos'
      have := core_inc hb hkb hkl hXY ha' hb' F.2.2.1 hp'.1 hp'.2 hc.1 hc.2
      rw [hpos']; exact this

end Verif.DSL
