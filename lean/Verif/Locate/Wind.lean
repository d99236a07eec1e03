import Verif.Scan.Spec
import Mathlib.Tactic.Linarith
import Mathlib.Tactic.FieldSimp
import Mathlib.Tactic.Ring
import Mathlib.Tactic.LinearCombination

/-!
# Winding numbers do not change along a path that misses the polygon line
-/

set_option linter.unusedSectionVars false

namespace Verif.Locate
open Verif Verif.GeoMap Verif.Polygon Verif.Scan

variable {K : Type} [Field K] [LinearOrder K] [IsStrictOrderedRing K]

/-- The point of the line `p q` level with `y`. -/
def levelX (p q : Pt K) (y : K) : K := p.1 + (q.1 - p.1) * (y - p.2) / (q.2 - p.2)

/-- `v` is level with or above `y`. -/
def above (y : K) (v : Pt K) : Int := if y ≤ v.2 then 1 else 0

theorem turn_eq (c p q : Pt K) : turn c p q = if levelX p q c.2 < c.1 then above c.2 q - above c.2 p else 0 := by
  unfold turn levelX above
  by_cases h1 : c.2 ≤ p.2 <;> by_cases h2 : c.2 ≤ q.2
  · have : ¬ p.2 < c.2 := not_lt.mpr h1
    have : ¬ q.2 < c.2 := not_lt.mpr h2
    simp [*]
  · have : ¬ p.2 < c.2 := not_lt.mpr h1
    have : q.2 < c.2 := not_le.mp h2
    simp [*]
  · have : p.2 < c.2 := not_le.mp h1
    have : ¬ q.2 < c.2 := not_lt.mpr h2
    simp [*]
  · have : p.2 < c.2 := not_le.mp h1
    have : q.2 < c.2 := not_le.mp h2
    simp [*]

theorem level_on {p q : Pt K} {y : K} (h : above y p ≠ above y q) : OnSegment p q (levelX p q y, y) := by
  unfold above at h
  have hne : q.2 - p.2 ≠ 0 := by
    intro h0
    have : q.2 = p.2 := by linarith
    rw [this] at h
    exact h rfl
  refine ⟨(y - p.2) / (q.2 - p.2), ?_, ?_, ?_⟩
  · by_cases h1 : y ≤ p.2 <;> by_cases h2 : y ≤ q.2
    · simp [h1, h2] at h
    · exact div_nonneg_of_nonpos (by linarith) (by linarith)
    · exact div_nonneg (by linarith) (by linarith)
    · simp [h1, h2] at h
  · by_cases h1 : y ≤ p.2 <;> by_cases h2 : y ≤ q.2
    · simp [h1, h2] at h
    · rw [div_le_one_of_neg (by linarith)]; linarith
    · rw [div_le_one (by linarith)]; linarith
    · simp [h1, h2] at h
  · unfold levelX
    ext
    · simp only; ring
    · simp only; field_simp; ring

theorem onSegment_left (p q : Pt K) : OnSegment p q p := ⟨0, le_refl 0, zero_le_one, by simp⟩
theorem onSegment_right (p q : Pt K) : OnSegment p q q := ⟨1, zero_le_one, le_refl 1, by simp⟩

/-- Moving horizontally. -/
theorem turn_horiz {x x' y : K} (hx : x ≤ x') {p q : Pt K} (h : ∀ r, OnSegment p q r → ¬ (r.2 = y ∧ x ≤ r.1 ∧ r.1 ≤ x')) :
    turn (x', y) p q = turn (x, y) p q := by
  rw [turn_eq, turn_eq]
  simp only
  by_cases ha : above y p = above y q
  · simp [ha]
  · have := h _ (level_on ha)
    have hiff : levelX p q y < x' ↔ levelX p q y < x := by
      constructor
      · intro h1
        by_contra h2
        exact this ⟨rfl, not_lt.mp h2, h1.le⟩
      · intro h1; exact lt_of_lt_of_le h1 hx
    simp only [hiff]

/-- Points of a segment in a strip lie on the same side of a vertical segment that it misses. -/
theorem side {x y1 y2 : K} {p q : Pt K} (h : ∀ r, OnSegment p q r → ¬ (r.1 = x ∧ y1 ≤ r.2 ∧ r.2 ≤ y2)) {r s : Pt K} (hr : OnSegment p q r)
    (hs : OnSegment p q s) (r1 : y1 ≤ r.2) (r2 : r.2 ≤ y2) (s1 : y1 ≤ s.2) (s2 : s.2 ≤ y2) (hx : r.1 < x) : s.1 < x := by
  by_contra hsx
  have hsx : x ≤ s.1 := not_lt.mp hsx
  obtain ⟨a, a0, a1, rfl⟩ := hr
  obtain ⟨b, b0, b1, rfl⟩ := hs
  simp only at *
  set u := (x - (p.1 + a * (q.1 - p.1))) / ((p.1 + b * (q.1 - p.1)) - (p.1 + a * (q.1 - p.1))) with hu
  have hpos : 0 < (p.1 + b * (q.1 - p.1)) - (p.1 + a * (q.1 - p.1)) := by linarith
  have u0 : 0 ≤ u := div_nonneg (by linarith) hpos.le
  have u1 : u ≤ 1 := by rw [hu, div_le_one hpos]; linarith
  have hux : u * ((p.1 + b * (q.1 - p.1)) - (p.1 + a * (q.1 - p.1))) = x - (p.1 + a * (q.1 - p.1)) := by
    rw [hu]; exact div_mul_cancel₀ _ hpos.ne'
  refine h _ ⟨a + u * (b - a), ?_, ?_, rfl⟩ ⟨?_, ?_, ?_⟩
  · have : a + u * (b - a) = (1 - u) * a + u * b := by ring
    rw [this]
    have := mul_nonneg (show (0 : K) ≤ 1 - u by linarith) a0
    have := mul_nonneg u0 b0
    linarith
  · have : a + u * (b - a) = 1 - ((1 - u) * (1 - a) + u * (1 - b)) := by ring
    rw [this]
    have := mul_nonneg (show (0 : K) ≤ 1 - u by linarith) (show (0 : K) ≤ 1 - a by linarith)
    have := mul_nonneg u0 (show (0 : K) ≤ 1 - b by linarith)
    linarith
  · simp only; linear_combination hux
  · simp only
    have e : p.2 + (a + u * (b - a)) * (q.2 - p.2) = (1 - u) * (p.2 + a * (q.2 - p.2)) + u * (p.2 + b * (q.2 - p.2)) := by ring
    rw [e]
    have := mul_le_mul_of_nonneg_left r1 (show (0 : K) ≤ 1 - u by linarith)
    have := mul_le_mul_of_nonneg_left s1 u0
    linarith
  · simp only
    have e : p.2 + (a + u * (b - a)) * (q.2 - p.2) = (1 - u) * (p.2 + a * (q.2 - p.2)) + u * (p.2 + b * (q.2 - p.2)) := by ring
    rw [e]
    have := mul_le_mul_of_nonneg_left r2 (show (0 : K) ≤ 1 - u by linarith)
    have := mul_le_mul_of_nonneg_left s2 u0
    linarith

/-- What a vertical move changes at an end point. -/
def jump (x y1 y2 : K) (v : Pt K) : Int := if v.1 < x then above y2 v - above y1 v else 0

theorem above_le {y1 y2 : K} (hy : y1 ≤ y2) (v : Pt K) : above y2 v ≠ above y1 v → y1 ≤ v.2 ∧ v.2 ≤ y2 := by
  unfold above
  intro h
  by_cases h1 : y1 ≤ v.2 <;> by_cases h2 : y2 ≤ v.2
  · simp [h1, h2] at h
  · exact ⟨h1, (not_le.mp h2).le⟩
  · exact absurd (hy.trans h2) h1
  · simp [h1, h2] at h

/-- Moving vertically. -/
theorem turn_vert {x y1 y2 : K} (hy : y1 ≤ y2) {p q : Pt K} (h : ∀ r, OnSegment p q r → ¬ (r.1 = x ∧ y1 ≤ r.2 ∧ r.2 ≤ y2)) :
    turn (x, y2) p q - turn (x, y1) p q = jump x y1 y2 q - jump x y1 y2 p := by
  rw [turn_eq, turn_eq]
  simp only
  unfold jump
  by_cases hl : ∃ r, OnSegment p q r ∧ y1 ≤ r.2 ∧ r.2 ≤ y2 ∧ r.1 < x
  · obtain ⟨r, h1, h2, h3, h4⟩ := hl
    have key : ∀ s, OnSegment p q s → y1 ≤ s.2 → s.2 ≤ y2 → s.1 < x := fun s hs s1 s2 => side h h1 hs h2 h3 s1 s2 h4
    have q2 : (if levelX p q y2 < x then above y2 q - above y2 p else 0) = above y2 q - above y2 p := by
      by_cases ha : above y2 p = above y2 q
      · simp [ha]
      · rw [if_pos (key _ (level_on ha) hy (le_refl _))]
    have q1 : (if levelX p q y1 < x then above y1 q - above y1 p else 0) = above y1 q - above y1 p := by
      by_cases ha : above y1 p = above y1 q
      · simp [ha]
      · rw [if_pos (key _ (level_on ha) (le_refl _) hy)]
    have q3 : ∀ v, OnSegment p q v → (if v.1 < x then above y2 v - above y1 v else 0) = above y2 v - above y1 v := by
      intro v hv
      by_cases ha : above y2 v = above y1 v
      · simp [ha]
      · obtain ⟨a, b⟩ := above_le hy v ha
        rw [if_pos (key v hv a b)]
    rw [q1, q2, q3 q (onSegment_right p q), q3 p (onSegment_left p q)]
    ring
  · have key : ∀ s, OnSegment p q s → y1 ≤ s.2 → s.2 ≤ y2 → ¬ s.1 < x := fun s hs s1 s2 s3 => hl ⟨s, hs, s1, s2, s3⟩
    have q2 : (if levelX p q y2 < x then above y2 q - above y2 p else 0) = 0 := by
      by_cases ha : above y2 p = above y2 q
      · simp [ha]
      · rw [if_neg (key _ (level_on ha) hy (le_refl _))]
    have q1 : (if levelX p q y1 < x then above y1 q - above y1 p else 0) = 0 := by
      by_cases ha : above y1 p = above y1 q
      · simp [ha]
      · rw [if_neg (key _ (level_on ha) (le_refl _) hy)]
    have q3 : ∀ v, OnSegment p q v → (if v.1 < x then above y2 v - above y1 v else 0) = 0 := by
      intro v hv
      by_cases ha : above y2 v = above y1 v
      · simp [ha]
      · obtain ⟨a, b⟩ := above_le hy v ha
        rw [if_neg (key v hv a b)]
    rw [q1, q2, q3 q (onSegment_right p q), q3 p (onSegment_left p q)]

/-- Splitting a segment. -/
theorem turn_split {p q m : Pt K} (hm : OnSegment p q m) (c : Pt K) : turn c p q = turn c p m + turn c m q := by
  obtain ⟨t, t0, t1, rfl⟩ := hm
  rw [turn_eq, turn_eq, turn_eq]
  set m : Pt K := (p.1 + t * (q.1 - p.1), p.2 + t * (q.2 - p.2)) with hmdef
  have m1 : m.1 = p.1 + t * (q.1 - p.1) := rfl
  have m2 : m.2 = p.2 + t * (q.2 - p.2) := rfl
  -- the crossing point is the same
  have hl : ∀ {a b : Pt K} {s u : K}, a = (p.1 + s * (q.1 - p.1), p.2 + s * (q.2 - p.2)) → b = (p.1 + u * (q.1 - p.1), p.2 + u * (q.2 - p.2)) →
      above c.2 a ≠ above c.2 b → levelX a b c.2 = levelX p q c.2 := by
    intro a b s u ha hb hab
    have hne : b.2 - a.2 ≠ 0 := by
      intro h0
      apply hab
      unfold above
      rw [show b.2 = a.2 by linarith]
    have e2 : b.2 - a.2 = (u - s) * (q.2 - p.2) := by rw [ha, hb]; simp only; ring
    have e1 : b.1 - a.1 = (u - s) * (q.1 - p.1) := by rw [ha, hb]; simp only; ring
    rw [e2] at hne
    have hus : u - s ≠ 0 := left_ne_zero_of_mul hne
    have hqp : q.2 - p.2 ≠ 0 := right_ne_zero_of_mul hne
    unfold levelX
    rw [e1, e2, ha]
    simp only
    field_simp
    ring
  have hp : p = (p.1 + 0 * (q.1 - p.1), p.2 + 0 * (q.2 - p.2)) := by ext <;> simp
  have hq : q = (p.1 + 1 * (q.1 - p.1), p.2 + 1 * (q.2 - p.2)) := by ext <;> simp
  have e1 : (if levelX p m c.2 < c.1 then above c.2 m - above c.2 p else 0) = if levelX p q c.2 < c.1 then above c.2 m - above c.2 p else 0 := by
    by_cases h : above c.2 p = above c.2 m
    · simp [h]
    · rw [hl hp hmdef h]
  have e2 : (if levelX m q c.2 < c.1 then above c.2 q - above c.2 m else 0) = if levelX p q c.2 < c.1 then above c.2 q - above c.2 m else 0 := by
    by_cases h : above c.2 m = above c.2 q
    · simp [h]
    · rw [hl hmdef hq h]
  rw [e1, e2]
  split_ifs <;> ring

/-! ### Polygon lines -/

theorem winding_cons (c p q : Pt K) (l : List (Pt K)) : winding c (p :: q :: l) = turn c p q + winding c (q :: l) := rfl

theorem winding_append (c : Pt K) (l : List (Pt K)) (p : Pt K) (l' : List (Pt K)) :
    winding c (l ++ p :: l') = winding c (l ++ [p]) + winding c (p :: l') := by
  induction l with
  | nil => simp [winding, pathSum]
  | cons a l ih =>
    cases l with
    | nil =>
      show turn c a p + winding c (p :: l') = (turn c a p + winding c [p]) + winding c (p :: l')
      simp [winding, pathSum]
    | cons b l =>
      show turn c a b + winding c (b :: l ++ p :: l') = (turn c a b + winding c (b :: l ++ [p])) + winding c (p :: l')
      rw [ih]; ring

theorem onLine_cons {p q : Pt K} {l : List (Pt K)} {r : Pt K} (h : OnSegment p q r) : OnLine (p :: q :: l) r :=
  Or.inr ⟨p, q, ⟨[], l, rfl⟩, h⟩

theorem onLine_tail {p : Pt K} {l : List (Pt K)} {r : Pt K} (h : OnLine l r) : OnLine (p :: l) r := by
  rcases h with h | ⟨a, b, ⟨u, v, huv⟩, h⟩
  · exact Or.inl (List.mem_cons_of_mem _ h)
  · exact Or.inr ⟨a, b, ⟨p :: u, v, by rw [← huv]; rfl⟩, h⟩

theorem winding_horiz {x x' y : K} (hx : x ≤ x') {pts : List (Pt K)} (h : ∀ r, OnLine pts r → ¬ (r.2 = y ∧ x ≤ r.1 ∧ r.1 ≤ x')) :
    winding (x', y) pts = winding (x, y) pts := by
  induction pts with
  | nil => rfl
  | cons p l ih =>
    cases l with
    | nil => rfl
    | cons q l =>
      rw [winding_cons, winding_cons, ih (fun r hr => h r (onLine_tail hr)), turn_horiz hx fun r hr => h r (onLine_cons hr)]

theorem winding_vert {x y1 y2 : K} (hy : y1 ≤ y2) {p : Pt K} {l : List (Pt K)} {e : Pt K} (he : (p :: l).getLast? = some e)
    (h : ∀ r, OnLine (p :: l) r → ¬ (r.1 = x ∧ y1 ≤ r.2 ∧ r.2 ≤ y2)) :
    winding (x, y2) (p :: l) - winding (x, y1) (p :: l) = jump x y1 y2 e - jump x y1 y2 p := by
  induction l generalizing p with
  | nil =>
    simp only [List.getLast?_singleton, Option.some.injEq] at he
    subst he
    simp [winding, pathSum]
  | cons q l ih =>
    rw [winding_cons, winding_cons]
    have := ih (p := q) (by rw [List.getLast?_cons_cons] at he; exact he) (fun r hr => h r (onLine_tail hr))
    have h2 := turn_vert hy (p := p) (q := q) fun r hr => h r (onLine_cons hr)
    linarith

end Verif.Locate
