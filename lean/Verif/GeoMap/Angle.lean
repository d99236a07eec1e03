import Verif.GeoMap.ModelInit
import Mathlib.Algebra.Order.Field.Basic
import Mathlib.Tactic.Linarith
import Mathlib.Tactic.FieldSimp
import Mathlib.Tactic.Ring

/-! # `angleTheta` orders directions by angle (lemmas) -/

namespace Verif.GeoMap

section
variable {K : Type} [Field K] [LinearOrder K] [IsStrictOrderedRing K]

/-- `u` comes before `v` counter-clockwise in (-π, π]: the lower half plane first, within a half plane by
the sign of the cross product. -/
def AngleLess (ux uy vx vy : K) : Prop :=
  (uy < 0 ∧ 0 ≤ vy) ∨ (uy < 0 ∧ vy < 0 ∧ 0 < ux * vy - uy * vx) ∨
  (0 ≤ uy ∧ 0 ≤ vy ∧ (0 < ux * vy - uy * vx ∨ (ux * vy - uy * vx = 0 ∧ 0 < ux ∧ vx < 0)))

/-- the four quadrants -/
theorem angleTheta_cases {x y : K} (h : ¬ (x = 0 ∧ y = 0)) :
    (0 ≤ x ∧ 0 ≤ y ∧ 0 < x + y ∧ angleTheta y x = y / (x + y)) ∨
    (0 ≤ x ∧ y < 0 ∧ 0 < x - y ∧ angleTheta y x = y / (x - y)) ∨
    (x < 0 ∧ 0 ≤ y ∧ 0 < -x + y ∧ angleTheta y x = 2 - y / (-x + y)) ∨
    (x < 0 ∧ y < 0 ∧ 0 < -x - y ∧ angleTheta y x = -2 - y / (-x - y)) := by
  unfold angleTheta
  rcases lt_or_ge x 0 with hx | hx <;> rcases lt_or_ge y 0 with hy | hy
  · right; right; right
    have : |x| + |y| = -x - y := by rw [abs_of_neg hx, abs_of_neg hy]; ring
    refine ⟨hx, hy, by linarith, ?_⟩
    simp only [this, if_pos hx, if_pos hy, if_neg (show ¬ -x - y = 0 by intro; linarith)]
    ring
  · right; right; left
    have : |x| + |y| = -x + y := by rw [abs_of_neg hx, abs_of_nonneg hy]
    refine ⟨hx, hy, by linarith, ?_⟩
    simp only [this, if_pos hx, if_neg (not_lt.mpr hy), if_neg (show ¬ -x + y = 0 by intro; linarith)]
  · right; left
    have : |x| + |y| = x - y := by rw [abs_of_nonneg hx, abs_of_neg hy]; ring
    refine ⟨hx, hy, by linarith, ?_⟩
    simp only [this, if_neg (not_lt.mpr hx), if_neg (show ¬ x - y = 0 by intro; linarith)]
  · left
    have : |x| + |y| = x + y := by rw [abs_of_nonneg hx, abs_of_nonneg hy]
    have hp : 0 < x + y := by
      rcases hx.lt_or_eq with h1 | h1
      · linarith
      · rcases hy.lt_or_eq with h2 | h2
        · linarith
        · exact absurd ⟨h1.symm, h2.symm⟩ h
    refine ⟨hx, hy, hp, ?_⟩
    simp only [this, if_neg (not_lt.mpr hx), if_neg hp.ne']

theorem angleTheta_lt_iff {ux uy vx vy : K} (hu : ¬ (ux = 0 ∧ uy = 0)) (hv : ¬ (vx = 0 ∧ vy = 0)) :
    angleTheta uy ux < angleTheta vy vx ↔ AngleLess ux uy vx vy := by
  have b1 : ∀ {a b : K}, 0 ≤ a → 0 ≤ b → 0 < a + b → 0 ≤ b / (a + b) ∧ b / (a + b) ≤ 1 := by
    intro a b ha hb hab
    exact ⟨div_nonneg hb hab.le, by rw [div_le_one hab]; linarith⟩
  have b2 : ∀ {a b : K}, 0 ≤ a → b < 0 → 0 < a - b → b / (a - b) < 0 ∧ -1 ≤ b / (a - b) := by
    intro a b ha hb hab
    exact ⟨div_neg_of_neg_of_pos hb hab, by rw [le_div_iff₀ hab]; linarith⟩
  have b3 : ∀ {a b : K}, a < 0 → 0 ≤ b → 0 < -a + b → 0 ≤ b / (-a + b) ∧ b / (-a + b) < 1 := by
    intro a b ha hb hab
    exact ⟨div_nonneg hb hab.le, by rw [div_lt_one hab]; linarith⟩
  have b4 : ∀ {a b : K}, a < 0 → b < 0 → 0 < -a - b → b / (-a - b) < 0 ∧ -1 < b / (-a - b) := by
    intro a b ha hb hab
    exact ⟨div_neg_of_neg_of_pos hb hab, by rw [lt_div_iff₀ hab]; linarith⟩
  unfold AngleLess
  rcases angleTheta_cases hu with ⟨u1, u2, u3, u4⟩ | ⟨u1, u2, u3, u4⟩ | ⟨u1, u2, u3, u4⟩ | ⟨u1, u2, u3, u4⟩ <;>
  rcases angleTheta_cases hv with ⟨v1, v2, v3, v4⟩ | ⟨v1, v2, v3, v4⟩ | ⟨v1, v2, v3, v4⟩ | ⟨v1, v2, v3, v4⟩ <;>
  rw [u4, v4]
  -- u in quadrant 1
  · rw [div_lt_div_iff₀ u3 v3]
    constructor
    · intro h; right; right; exact ⟨u2, v2, Or.inl (by linarith)⟩
    · rintro (⟨h, -⟩ | ⟨h, -⟩ | ⟨-, -, h | ⟨-, -, h⟩⟩)
      · linarith
      · linarith
      · linarith
      · linarith
  · have := b1 u1 u2 u3; have := b2 v1 v2 v3
    constructor
    · intro h; linarith
    · rintro (⟨h, h'⟩ | ⟨h, -⟩ | ⟨-, h', -⟩) <;> linarith
  · have := b1 u1 u2 u3; have := b3 v1 v2 v3
    constructor
    · intro _
      right; right
      refine ⟨u2, v2, ?_⟩
      have p1 : 0 ≤ ux * vy := mul_nonneg u1 v2
      have p2 : 0 ≤ uy * (-vx) := mul_nonneg u2 (by linarith)
      rcases u2.lt_or_eq with h | h
      · left
        have : 0 < uy * (-vx) := mul_pos h (by linarith)
        linarith
      · have hux : 0 < ux := by linarith
        rcases v2.lt_or_eq with h' | h'
        · left; have := mul_pos hux h'; rw [← h] at *; linarith
        · right; rw [← h, ← h']; exact ⟨by ring, hux, v1⟩
    · intro _; linarith
  · have := b1 u1 u2 u3; have := b4 v1 v2 v3
    constructor
    · intro h; linarith
    · rintro (⟨h, h'⟩ | ⟨h, -⟩ | ⟨-, h', -⟩) <;> linarith
  -- u in quadrant 4
  · have := b2 u1 u2 u3; have := b1 v1 v2 v3
    constructor
    · intro _; exact Or.inl ⟨u2, v2⟩
    · intro _; linarith
  · rw [div_lt_div_iff₀ u3 v3]
    constructor
    · intro h; right; left; exact ⟨u2, v2, by linarith⟩
    · rintro (⟨-, h⟩ | ⟨-, -, h⟩ | ⟨h, -, -⟩) <;> linarith
  · have := b2 u1 u2 u3; have := b3 v1 v2 v3
    constructor
    · intro _; exact Or.inl ⟨u2, v2⟩
    · intro _; linarith
  · have := b2 u1 u2 u3; have := b4 v1 v2 v3
    constructor
    · intro h; linarith
    · rintro (⟨-, h⟩ | ⟨-, -, h⟩ | ⟨h, -, -⟩)
      · linarith
      · exfalso
        have p1 : 0 ≤ ux * (-vy) := mul_nonneg u1 (by linarith)
        have p2 : 0 < (-uy) * (-vx) := mul_pos (by linarith) (by linarith)
        linarith
      · linarith
  -- u in quadrant 2
  · have := b3 u1 u2 u3; have := b1 v1 v2 v3
    constructor
    · intro h; linarith
    · rintro (⟨h, -⟩ | ⟨h, -⟩ | ⟨-, -, h | ⟨-, h, -⟩⟩)
      · linarith
      · linarith
      · exfalso
        have p1 : 0 ≤ (-ux) * vy := mul_nonneg (by linarith) v2
        have p2 : 0 ≤ uy * vx := mul_nonneg u2 v1
        linarith
      · linarith
  · have := b3 u1 u2 u3; have := b2 v1 v2 v3
    constructor
    · intro h; linarith
    · rintro (⟨h, h'⟩ | ⟨h, -⟩ | ⟨-, h', -⟩) <;> linarith
  · rw [sub_lt_sub_iff_left, div_lt_div_iff₀ v3 u3]
    constructor
    · intro h; right; right; exact ⟨u2, v2, Or.inl (by linarith)⟩
    · rintro (⟨h, -⟩ | ⟨h, -⟩ | ⟨-, -, h | ⟨-, h, -⟩⟩) <;> linarith
  · have := b3 u1 u2 u3; have := b4 v1 v2 v3
    constructor
    · intro h; linarith
    · rintro (⟨h, h'⟩ | ⟨h, -⟩ | ⟨-, h', -⟩) <;> linarith
  -- u in quadrant 3
  · have := b4 u1 u2 u3; have := b1 v1 v2 v3
    constructor
    · intro _; exact Or.inl ⟨u2, v2⟩
    · intro _; linarith
  · have := b4 u1 u2 u3; have := b2 v1 v2 v3
    constructor
    · intro _
      right; left
      refine ⟨u2, v2, ?_⟩
      have p1 : 0 < (-ux) * (-vy) := mul_pos (by linarith) (by linarith)
      have p2 : 0 ≤ (-uy) * vx := mul_nonneg (by linarith) v1
      linarith
    · intro _; linarith
  · have := b4 u1 u2 u3; have := b3 v1 v2 v3
    constructor
    · intro _; exact Or.inl ⟨u2, v2⟩
    · intro _; linarith
  · rw [sub_lt_sub_iff_left, div_lt_div_iff₀ v3 u3]
    constructor
    · intro h; right; left; exact ⟨u2, v2, by linarith⟩
    · rintro (⟨-, h⟩ | ⟨-, -, h⟩ | ⟨h, -, -⟩) <;> linarith

end
end Verif.GeoMap
