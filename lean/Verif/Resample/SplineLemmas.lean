import Verif.Resample.Spline
import Mathlib.MeasureTheory.Integral.IntervalIntegral.FundThmCalculus
import Mathlib.Analysis.Calculus.Deriv.Mul
import Mathlib.Analysis.Calculus.Deriv.Pow
import Mathlib.Tactic.FieldSimp

/-! # Integrals of the cubic B-spline over a polygon -/

namespace Verif.Resample
open Verif Verif.GeoMap Verif.DartPos

/-- The cubic B-spline. -/
noncomputable def bspline3 (t : ℝ) : ℝ := if |t| ≤ 1 then 2 / 3 - t ^ 2 + |t| ^ 3 / 2 else if |t| ≤ 2 then (2 - |t|) ^ 3 / 6 else 0

theorem poly_integral (t1 t2 c0 c1 c2 c3 c4 : ℝ) :
    ∫ t in t1..t2, (c0 + c1 * t + c2 * t ^ 2 + c3 * t ^ 3 + c4 * t ^ 4) =
      (c0 * t2 + c1 * t2 ^ 2 / 2 + c2 * t2 ^ 3 / 3 + c3 * t2 ^ 4 / 4 + c4 * t2 ^ 5 / 5) -
      (c0 * t1 + c1 * t1 ^ 2 / 2 + c2 * t1 ^ 3 / 3 + c3 * t1 ^ 4 / 4 + c4 * t1 ^ 5 / 5) := by
  have h : ∀ t ∈ Set.uIcc t1 t2, HasDerivAt (fun t => c0 * t + c1 * t ^ 2 / 2 + c2 * t ^ 3 / 3 + c3 * t ^ 4 / 4 + c4 * t ^ 5 / 5)
      (c0 + c1 * t + c2 * t ^ 2 + c3 * t ^ 3 + c4 * t ^ 4) t := by
    intro t _
    have := ((((hasDerivAt_id t).const_mul c0).add (((hasDerivAt_pow 2 t).const_mul c1).div_const 2)).add (((hasDerivAt_pow 3 t).const_mul c2).div_const 3)).add
      (((hasDerivAt_pow 4 t).const_mul c3).div_const 4) |>.add (((hasDerivAt_pow 5 t).const_mul c4).div_const 5)
    refine this.congr_deriv ?_
    push_cast
    ring
  rw [intervalIntegral.integral_eq_sub_of_hasDerivAt h]
  apply Continuous.intervalIntegrable
  fun_prop

/-- one coordinate, without the division -/
theorem piece_integral {t1 t2 : ℝ} (h : t1 ≤ t2) (a b : ℝ) (h0 : 0 ≤ t1) (hc : t2 ≤ 1 ∨ (1 ≤ t1 ∧ t2 ≤ 2)) :
    (spline3Integral (a, 0) (b, 0) t1 t2).1 = ∫ t in t1..t2, bspline3 t * (((t2 - t) * a + (t - t1) * b) / (t2 - t1)) := by
  rcases eq_or_lt_of_le h with rfl | hlt
  · simp [spline3Integral]
  have hd : t2 - t1 ≠ 0 := by linarith
  by_cases h1 : t1 ≥ 1
  · have h2 : t2 ≤ 2 := by rcases hc with hc | hc <;> linarith
    have e : Set.EqOn (fun t => bspline3 t * (((t2 - t) * a + (t - t1) * b) / (t2 - t1)))
      (fun t => 8 / 6 * ((t2 * a - t1 * b) / (t2 - t1)) + (8 / 6 * ((b - a) / (t2 - t1)) - 2 * ((t2 * a - t1 * b) / (t2 - t1))) * t +
        ((t2 * a - t1 * b) / (t2 - t1) - 2 * ((b - a) / (t2 - t1))) * t ^ 2 + ((b - a) / (t2 - t1) - 1 / 6 * ((t2 * a - t1 * b) / (t2 - t1))) * t ^ 3 +
        (-(1 / 6) * ((b - a) / (t2 - t1))) * t ^ 4) (Set.uIcc t1 t2) := by
      intro t ht
      rw [Set.uIcc_of_le h, Set.mem_Icc] at ht
      have hb : bspline3 t = (2 - t) ^ 3 / 6 := by
        unfold bspline3
        rw [abs_of_nonneg (by linarith)]
        by_cases h1 : t ≤ 1
        · have : t = 1 := by linarith
          rw [if_pos h1, this]; norm_num
        · rw [if_neg h1, if_pos (by linarith)]
      simp only
      rw [hb]
      field_simp
      ring
    rw [intervalIntegral.integral_congr e, poly_integral, spline3Integral, if_pos h1]
    simp only [Prod.smul_mk, smul_eq_mul, Prod.mk_add_mk]
    field_simp
    ring
  · have h2 : t2 ≤ 1 := by rcases hc with hc | hc; exact hc; exact absurd hc.1 h1
    have e : Set.EqOn (fun t => bspline3 t * (((t2 - t) * a + (t - t1) * b) / (t2 - t1)))
      (fun t => 2 / 3 * ((t2 * a - t1 * b) / (t2 - t1)) + (2 / 3 * ((b - a) / (t2 - t1))) * t +
        (-((t2 * a - t1 * b) / (t2 - t1))) * t ^ 2 + (1 / 2 * ((t2 * a - t1 * b) / (t2 - t1)) - (b - a) / (t2 - t1)) * t ^ 3 +
        (1 / 2 * ((b - a) / (t2 - t1))) * t ^ 4) (Set.uIcc t1 t2) := by
      intro t ht
      rw [Set.uIcc_of_le h, Set.mem_Icc] at ht
      have hb : bspline3 t = 2 / 3 - t ^ 2 + t ^ 3 / 2 := by
        unfold bspline3
        rw [abs_of_nonneg (by linarith), if_pos (by linarith)]
      simp only
      rw [hb]
      field_simp
      ring
    rw [intervalIntegral.integral_congr e, poly_integral, spline3Integral, if_neg h1]
    simp only [Prod.smul_mk, smul_eq_mul, Prod.mk_add_mk]
    field_simp
    ring

theorem bspline3_neg (t : ℝ) : bspline3 (-t) = bspline3 t := by simp [bspline3]

theorem bspline3_continuous : Continuous bspline3 := by
  unfold bspline3
  refine Continuous.if_le (by fun_prop) (Continuous.if_le (by fun_prop) continuous_const (by fun_prop) continuous_const ?_) (by fun_prop) continuous_const ?_
  · intro x hx
    rw [hx]; norm_num
  · intro x hx
    have h2 : x ^ 2 = 1 := by rw [← sq_abs, hx]; norm_num
    rw [if_pos (by rw [hx]; norm_num), hx, h2]; norm_num

theorem spline3Integral_coords (p q : Pt ℝ) (t1 t2 : ℝ) :
    spline3Integral p q t1 t2 = ((spline3Integral (p.1, 0) (q.1, 0) t1 t2).1, (spline3Integral (p.2, 0) (q.2, 0) t1 t2).1) := by
  unfold spline3Integral
  split_ifs <;> rfl

theorem spline3Integral_neg (p q : Pt ℝ) (t1 t2 : ℝ) : spline3Integral (-p) (-q) t1 t2 = -spline3Integral p q t1 t2 := by
  unfold spline3Integral
  split_ifs <;> (refine Prod.ext ?_ ?_ <;> simp <;> ring)

/-- The value of a coordinate on a segment from `a` at `x` to `b` at `y`. -/
noncomputable def lerp (x y a b s : ℝ) : ℝ := ((y - s) * a + (s - x) * b) / (y - x)

/-- A segment to the right of the centre. -/
theorem right_integral {x y c : ℝ} (h : x ≤ y) (hcx : c ≤ x) (hc : y ≤ c + 1 ∨ (c + 1 ≤ x ∧ y ≤ c + 2)) (a b : ℝ) :
    (spline3Integral (a, 0) (b, 0) (x - c) (y - c)).1 = ∫ s in x..y, bspline3 (s - c) * lerp x y a b s := by
  rw [piece_integral (by linarith) a b (by linarith) (by rcases hc with hc | hc; left; linarith; right; constructor <;> linarith),
    ← intervalIntegral.integral_comp_sub_right]
  congr 1
  funext s
  simp only [lerp]
  rw [show y - c - (s - c) = y - s by ring, show s - c - (x - c) = s - x by ring, show y - c - (x - c) = y - x by ring]

/-- A segment to the left of the centre. -/
theorem left_integral {x y c : ℝ} (h : x ≤ y) (hcx : y ≤ c) (hc : c - 1 ≤ x ∨ (y ≤ c - 1 ∧ c - 2 ≤ x)) (a b : ℝ) :
    (spline3Integral (b, 0) (a, 0) (c - y) (c - x)).1 = ∫ s in x..y, bspline3 (s - c) * lerp x y a b s := by
  rw [piece_integral (by linarith) b a (by linarith) (by rcases hc with hc | hc; left; linarith; right; constructor <;> linarith)]
  have := intervalIntegral.integral_comp_sub_left (a := x) (b := y) (fun t => bspline3 t * (((c - x - t) * b + (t - (c - y)) * a) / (c - x - (c - y)))) c
  rw [← this]
  congr 1
  funext s
  simp only [lerp]
  rw [show c - s = -(s - c) by ring, bspline3_neg, show c - x - -(s - c) = s - x by ring, show -(s - c) - (c - y) = y - s by ring, show c - x - (c - y) = y - x by ring,
    add_comm ((s - x) * b)]

/-- Polygon `pts` with arc lengths `arc` describes the curve `γ`: arc lengths do not decrease, and between two of them the curve is a segment. -/
structure Follows (γ : ℝ → Pt ℝ) (arc : List ℝ) (pts : List (Pt ℝ)) : Prop where
  length : pts.length = arc.length
  mono : ∀ i x y, arc[i]? = some x → arc[i + 1]? = some y → x ≤ y
  seg : ∀ i x y p q, arc[i]? = some x → arc[i + 1]? = some y → pts[i]? = some p → pts[i + 1]? = some q →
    ∀ s, x < s → s ≤ y → γ s = (lerp x y p.1 q.1 s, lerp x y p.2 q.2 s)

theorem Follows.le {γ arc pts} (h : Follows γ arc pts) {i j : Nat} {x y : ℝ} (hij : i ≤ j) (hx : arc[i]? = some x) (hy : arc[j]? = some y) : x ≤ y := by
  induction j generalizing y with
  | zero =>
    rw [Nat.le_zero.1 hij] at hx
    rw [hx] at hy
    exact (Option.some.inj hy).le
  | succ j ih =>
    rcases Nat.eq_or_lt_of_le hij with rfl | hlt
    · rw [hx] at hy; exact (Option.some.inj hy).le
    · have hj : j + 1 < arc.length := by
        by_contra hc
        rw [List.getElem?_eq_none (by omega)] at hy
        cases hy
      have hz : arc[j]? = some arc[j] := List.getElem?_eq_getElem _
      exact (ih (by omega) hz).trans (h.mono j _ _ hz hy)

theorem seg_integrable {γ : ℝ → ℝ} {x y c a b : ℝ} (h : x ≤ y) (hs : ∀ s, x < s → s ≤ y → γ s = lerp x y a b s) :
    IntervalIntegrable (fun s => bspline3 (s - c) * γ s) MeasureTheory.volume x y ∧
      ∫ s in x..y, bspline3 (s - c) * lerp x y a b s = ∫ s in x..y, bspline3 (s - c) * γ s := by
  have e : Set.EqOn (fun s => bspline3 (s - c) * γ s) (fun s => bspline3 (s - c) * lerp x y a b s) (Set.uIoc x y) := by
    intro s hs'
    rw [Set.uIoc_of_le h] at hs'
    simp only [hs s hs'.1 hs'.2]
  constructor
  · rw [intervalIntegrable_congr e]
    apply Continuous.intervalIntegrable
    have := bspline3_continuous
    unfold lerp
    fun_prop
  · rw [intervalIntegral.integral_of_le h, intervalIntegral.integral_of_le h]
    refine MeasureTheory.setIntegral_congr_fun measurableSet_Ioc fun s hs' => ?_
    rw [← Set.uIoc_of_le h] at hs'
    exact (e hs').symm

/-- What the loops add up: the integral of B-spline times curve, for both coordinates. -/
noncomputable def splineMean (γ : ℝ → Pt ℝ) (c x y : ℝ) : Pt ℝ :=
  (∫ s in x..y, bspline3 (s - c) * (γ s).1, ∫ s in x..y, bspline3 (s - c) * (γ s).2)

def Integrable2 (γ : ℝ → Pt ℝ) (c x y : ℝ) : Prop :=
  IntervalIntegrable (fun s => bspline3 (s - c) * (γ s).1) MeasureTheory.volume x y ∧ IntervalIntegrable (fun s => bspline3 (s - c) * (γ s).2) MeasureTheory.volume x y

theorem splineMean_add {γ : ℝ → Pt ℝ} {c x y z : ℝ} (h1 : Integrable2 γ c x y) (h2 : Integrable2 γ c y z) :
    splineMean γ c x y + splineMean γ c y z = splineMean γ c x z ∧ Integrable2 γ c x z :=
  ⟨Prod.ext (intervalIntegral.integral_add_adjacent_intervals h1.1 h2.1) (intervalIntegral.integral_add_adjacent_intervals h1.2 h2.2), h1.1.trans h2.1, h1.2.trans h2.2⟩

theorem splineMean_self (γ : ℝ → Pt ℝ) (c x : ℝ) : splineMean γ c x x = 0 ∧ Integrable2 γ c x x := by
  refine ⟨by simp [splineMean], ?_, ?_⟩ <;> simp

theorem Follows.right {γ arc pts} (h : Follows γ arc pts) {i : Nat} {x y c : ℝ} {p q : Pt ℝ} (hx : arc[i]? = some x) (hy : arc[i + 1]? = some y)
    (hp : pts[i]? = some p) (hq : pts[i + 1]? = some q) (hcx : c ≤ x) (hc : y ≤ c + 1 ∨ (c + 1 ≤ x ∧ y ≤ c + 2)) :
    spline3Integral p q (x - c) (y - c) = splineMean γ c x y ∧ Integrable2 γ c x y := by
  have hxy := h.mono i x y hx hy
  obtain ⟨i1, e1⟩ := seg_integrable (c := c) hxy (fun s a b => by rw [h.seg i x y p q hx hy hp hq s a b] : ∀ s, x < s → s ≤ y → (γ s).1 = lerp x y p.1 q.1 s)
  obtain ⟨i2, e2⟩ := seg_integrable (c := c) hxy (fun s a b => by rw [h.seg i x y p q hx hy hp hq s a b] : ∀ s, x < s → s ≤ y → (γ s).2 = lerp x y p.2 q.2 s)
  exact ⟨by rw [spline3Integral_coords, right_integral hxy hcx hc, right_integral hxy hcx hc, e1, e2]; rfl, i1, i2⟩

theorem Follows.left {γ arc pts} (h : Follows γ arc pts) {i : Nat} {x y c : ℝ} {p q : Pt ℝ} (hx : arc[i]? = some x) (hy : arc[i + 1]? = some y)
    (hp : pts[i]? = some p) (hq : pts[i + 1]? = some q) (hcx : y ≤ c) (hc : c - 1 ≤ x ∨ (y ≤ c - 1 ∧ c - 2 ≤ x)) :
    spline3Integral q p (c - y) (c - x) = splineMean γ c x y ∧ Integrable2 γ c x y := by
  have hxy := h.mono i x y hx hy
  obtain ⟨i1, e1⟩ := seg_integrable (c := c) hxy (fun s a b => by rw [h.seg i x y p q hx hy hp hq s a b] : ∀ s, x < s → s ≤ y → (γ s).1 = lerp x y p.1 q.1 s)
  obtain ⟨i2, e2⟩ := seg_integrable (c := c) hxy (fun s a b => by rw [h.seg i x y p q hx hy hp hq s a b] : ∀ s, x < s → s ≤ y → (γ s).2 = lerp x y p.2 q.2 s)
  exact ⟨by rw [spline3Integral_coords, left_integral hxy hcx hc, left_integral hxy hcx hc, e1, e2]; rfl, i1, i2⟩

/-- `singleSpline3ConvolvePolygon` is the integral of cubic B-spline times curve, if the distances 1 and 2 from the centre are among the arc lengths. -/
theorem spline3Convolve_integral {γ arc pts} (h : Follows γ arc pts) {l l1 c r1 r : Nat} {x : ℝ} (hl : arc[l]? = some (x - 2)) (hl1 : arc[l1]? = some (x - 1))
    (hc : arc[c]? = some x) (hr1 : arc[r1]? = some (x + 1)) (hr : arc[r]? = some (x + 2)) :
    spline3Convolve arc pts l c r = .ok (splineMean γ x (x - 2) (x + 2)) := by
  have lt : ∀ {i j : Nat} {a b : ℝ}, arc[i]? = some a → arc[j]? = some b → a < b → i < j := by
    intro i j a b ha hb hab
    by_contra hij
    exact absurd (h.le (not_lt.1 hij) hb ha) (not_le.2 hab)
  have hcr := lt hc hr (by linarith)
  have hlc := lt hl hc (by linarith)
  have hlen : r < arc.length := by
    by_contra hn
    rw [List.getElem?_eq_none (by omega)] at hr
    cases hr
  have ga : ∀ i, i < arc.length → arc[i]? = some (arc.getD i 0) := by intro i hi; simp [hi]
  have gp : ∀ i, i < arc.length → pts[i]? = some (pts.getD i 0) := by intro i hi; simp [h.length, hi]
  have hxc : arc.getD c 0 = x := by have := ga c (by omega); rw [hc] at this; exact (Option.some.inj this).symm
  have hxl : arc.getD l 0 = x - 2 := by have := ga l (by omega); rw [hl] at this; exact (Option.some.inj this).symm
  have hxr : arc.getD r 0 = x + 2 := by have := ga r (by omega); rw [hr] at this; exact (Option.some.inj this).symm
  obtain ⟨s, e1, e2, e3⟩ := forUp_inv (body := convolveRight arc pts x) (fun j s => s = splineMean γ x x (arc.getD (j - 1) 0) ∧ Integrable2 γ x x (arc.getD (j - 1) 0)) (r - c) (c + 1) 0
    (by rw [Nat.add_sub_cancel, hxc]; exact ⟨(splineMean_self _ _ _).1.symm, (splineMean_self _ _ _).2⟩) (by
      rintro j s h1 h2 ⟨rfl, hs⟩
      obtain ⟨i, rfl⟩ : ∃ i, j = i + 1 := ⟨j - 1, by omega⟩
      rw [Nat.add_sub_cancel] at hs
      have hi := ga i (by omega)
      have hi1 := ga (i + 1) (by omega)
      obtain ⟨f1, f2⟩ := h.right hi hi1 (gp i (by omega)) (gp (i + 1) (by omega)) (h.le (by omega) hc hi) (by
        by_cases hrr : i + 1 ≤ r1
        · exact Or.inl (h.le hrr hi1 hr1)
        · exact Or.inr ⟨h.le (by omega) hr1 hi, h.le (by omega) hi1 hr⟩)
      refine ⟨splineMean γ x x (arc.getD (i + 1) 0), ?_, ?_⟩
      · unfold convolveRight
        rw [Nat.add_sub_cancel, rd_ok hi, Outcome.bind_ok, rd_ok hi1, Outcome.bind_ok, rd_ok (gp i (by omega)), Outcome.bind_ok, rd_ok (gp (i + 1) (by omega)), Outcome.bind_ok, f1,
          (splineMean_add hs f2).1]
      · rw [Nat.add_sub_cancel]; exact ⟨rfl, (splineMean_add hs f2).2⟩)
  rw [show c + 1 + (r - c) - 1 = r by omega, hxr] at e2 e3
  have down : ∀ n k s, k + 1 = l + n → k < c → Integrable2 γ x (arc.getD (k + 1) 0) (x + 2) → s = splineMean γ x (arc.getD (k + 1) 0) (x + 2) →
      forDown (convolveLeft arc pts x) n k s = .ok (splineMean γ x (x - 2) (x + 2)) := by
    intro n
    induction n with
    | zero =>
      rintro k s hk - - rfl
      rw [show k + 1 = l by omega, hxl]; rfl
    | succ n ih =>
      rintro k s hk hkc hI rfl
      have hi := ga k (by omega)
      have hi1 := ga (k + 1) (by omega)
      obtain ⟨f1, f2⟩ := h.left hi hi1 (gp k (by omega)) (gp (k + 1) (by omega)) (h.le (by omega) hi1 hc) (by
        by_cases hrr : l1 ≤ k
        · exact Or.inl (h.le hrr hl1 hi)
        · exact Or.inr ⟨h.le (by omega) hi1 hl1, h.le (by omega) hl hi⟩)
      obtain ⟨g1, g2⟩ := splineMean_add f2 hI
      have hb : convolveLeft arc pts x k (splineMean γ x (arc.getD (k + 1) 0) (x + 2)) = .ok (splineMean γ x (arc.getD k 0) (x + 2)) := by
        unfold convolveLeft
        rw [rd_ok hi1, Outcome.bind_ok, rd_ok hi, Outcome.bind_ok, rd_ok (gp (k + 1) (by omega)), Outcome.bind_ok, rd_ok (gp k (by omega)), Outcome.bind_ok, spline3Integral_neg, f1,
          sub_neg_eq_add, add_comm, g1]
      rw [forDown, hb, Outcome.bind_ok]
      rcases Nat.eq_zero_or_pos n with rfl | hn
      · rw [show k = l by omega, hxl]; rfl
      · obtain ⟨k', rfl⟩ : ∃ k', k = k' + 1 := ⟨k - 1, by omega⟩
        exact ih k' _ (by omega) (by omega) g2 rfl
  rw [spline3Convolve, rd_ok hc, Outcome.bind_ok, e1, Outcome.bind_ok]
  refine down (c - l) (c - 1) s (by omega) (by omega) ?_ ?_
  · rw [show c - 1 + 1 = c by omega, hxc]; exact e3
  · rw [show c - 1 + 1 = c by omega, hxc]; exact e2

end Verif.Resample
