import Verif.Resample.Linear
import Verif.Resample.Fit
import Verif.Resample.Exp
import Mathlib.Algebra.Module.Prod
import Mathlib.Tactic.NormNum

/-!
# Properties of the resampling functions

Specification: `pathLen`, `along` and `mag` of `Verif.DartPos.Spec` (length of a polygonal line, the point on it at a given arc
length, Euclidean length).
-/

namespace Verif.Resample
open Verif Verif.GeoMap Verif.DartPos

theorem mag_axis {x : ℝ} (hx : 0 ≤ x) : mag (x, 0) = x := by
  simp only [mag, sqMag, mul_zero, add_zero]
  exact Real.sqrt_mul_self hx

/-! ## Linear interpolation -/

/-- The number of steps: the smallest number of equal steps of at most `dist`. -/
noncomputable def stepCount (len dist : ℝ) : Nat := max 1 ⌈len / dist⌉.toNat

theorem stepCount_pos (len dist : ℝ) : 1 ≤ stepCount len dist := le_max_left _ _

theorem stepCount_le {len dist : ℝ} (hd : 0 < dist) : len / stepCount len dist ≤ dist := by
  have h1 : (0 : ℝ) < stepCount len dist := by exact_mod_cast stepCount_pos len dist
  rw [div_le_iff₀ h1]
  have h2 : (⌈len / dist⌉ : ℝ) ≤ stepCount len dist := by
    have : ⌈len / dist⌉ ≤ (stepCount len dist : ℤ) := by unfold stepCount; omega
    exact_mod_cast this
  have h3 := Int.le_ceil (len / dist)
  rw [div_le_iff₀ hd] at h3
  nlinarith

/-- **C66.** `resamplePolygonLinearInterpolation` returns, for every polygon of at least three points and every positive point distance, points on
the polygon at equal arc length distances: the points at `j * len / n` for `j = 0, …, n`, with the smallest `n` for which the steps
are not longer than the desired distance. -/
theorem linearInterpolation_samples {poly : List (Pt ℝ)} (h : 3 ≤ poly.length) {dist : ℝ} (hd : 0 < dist) :
    linearInterpolation poly [] dist = .ok ((List.range (stepCount (pathLen poly) dist + 1)).map fun j : Nat =>
      along poly (j * (pathLen poly / stepCount (pathLen poly) dist))) := by
  set len := pathLen poly with hlen
  have hn1 := stepCount_pos len dist
  set n := stepCount len dist with hn
  have hf : poly[0]? = some (poly[0]'(by omega)) := List.getElem?_eq_getElem _
  have hlast : poly[poly.length - 1]? = some (poly[poly.length - 1]'(by omega)) := List.getElem?_eq_getElem _
  have harc := arc_get poly (poly.length - 1) (by omega)
  have hreach : reach poly (poly.length - 1) = len := reach_last (by omega)
  rw [hreach] at harc
  have hn0 : (0 : ℝ) < n := by exact_mod_cast hn1
  have hL : along poly (n * (len / n)) = poly[poly.length - 1]'(by omega) := by
    rw [mul_div_cancel₀ _ hn0.ne', hlen]
    exact along_last (by rw [List.getLast?_eq_getElem?]; exact hlast) le_rfl
  have hlen0 : 0 ≤ len := pathLen_nonneg poly
  rw [linearInterpolation, if_neg (by omega), rd_ok harc, Outcome.bind_ok, quot_ok hd.ne', Outcome.bind_ok, rd_ok hf, Outcome.bind_ok, rd_ok hlast,
    Outcome.bind_ok]
  rcases hlen0.lt_or_eq with hpos | hz
  · have hc : ⌈len / dist⌉ = (n : ℤ) := by
      have : 0 < ⌈len / dist⌉ := Int.ceil_pos.2 (by positivity)
      rw [hn, stepCount]; omega
    obtain ⟨l, e⟩ := linear_loop (simple := []) h hf (step := len / n) (by positivity) hn1 (by rw [mul_div_cancel₀ _ hn0.ne'])
    rw [hc, show ((n : ℤ) - 1).toNat = n - 1 by omega, Int.cast_natCast, e, Outcome.bind_ok]
    simp [List.range_succ, hL]
  · have hc : ⌈len / dist⌉ = 0 := by rw [← hz]; simp
    have hn' : n = 1 := by rw [hn, stepCount, hc]; rfl
    rw [hc]
    have h0 : along poly 0 = poly[0]'(by omega) := by
      match poly, h with
      | p :: q :: l, _ => simp [along_zero]
    rw [hn'] at hL ⊢
    simp [forUp, Outcome.bind, List.range_succ, h0]
    simpa using hL.symm

/-- **C66.** The first and the last point are kept and neighbours are at most the desired distance apart. -/
theorem linearInterpolation_spacing {poly r : List (Pt ℝ)} (h : 3 ≤ poly.length) {dist : ℝ} (hd : 0 < dist) (hr : linearInterpolation poly [] dist = .ok r) :
    r.head? = poly.head? ∧ r.getLast? = poly.getLast? ∧ ∀ (k : Nat) a b, r[k]? = some a → r[k + 1]? = some b → mag (b - a) ≤ dist := by
  rw [linearInterpolation_samples h hd] at hr
  cases hr
  have hn1 := stepCount_pos (pathLen poly) dist
  have hle := stepCount_le (len := pathLen poly) hd
  have hlen0 : 0 ≤ pathLen poly := pathLen_nonneg poly
  set n := stepCount (pathLen poly) dist
  have hn0 : (0 : ℝ) < n := by exact_mod_cast hn1
  refine ⟨?_, ?_, ?_⟩
  · match poly, h with
    | p :: q :: l, _ => simp [List.head?_range, along_zero]
  · have hlast : poly[poly.length - 1]? = some (poly[poly.length - 1]'(by omega)) := List.getElem?_eq_getElem _
    rw [List.range_succ, List.map_append]
    rw [List.getLast?_append, List.map_singleton, List.getLast?_singleton, mul_div_cancel₀ _ hn0.ne', along_last (by rw [List.getLast?_eq_getElem?]; exact hlast) le_rfl, List.getLast?_eq_getElem? (l := poly), hlast]
    rfl
  · intro k a b ha hb
    rw [List.getElem?_map, Option.map_eq_some_iff] at ha hb
    obtain ⟨x, hx, rfl⟩ := ha
    obtain ⟨y, hy, rfl⟩ := hb
    rw [List.getElem?_range (by by_contra hc; rw [List.getElem?_eq_none (by simp; omega)] at hx; cases hx)] at hx
    rw [List.getElem?_range (by by_contra hc; rw [List.getElem?_eq_none (by simp; omega)] at hy; cases hy)] at hy
    cases hx; cases hy
    refine (along_lip (by positivity) ?_).trans ?_
    · push_cast; nlinarith [div_nonneg hlen0 hn0.le]
    · push_cast; linarith

example : 3 ≤ [((0 : ℝ), (0 : ℝ)), (3, 0), (3, 4)].length ∧ (0 : ℝ) < 2 := by norm_num

/-- **C66, violated for two points.** A polygon of two points is not resampled: the segment from (0, 0) to (10, 0) keeps its two points for the point
distance 1. -/
theorem linearInterpolation_two_points_violated :
    linearInterpolation [(0, 0), (10, 0)] [] 1 = .ok [(0, 0), (10, 0)] ∧ mag (((10 : ℝ), (0 : ℝ)) - (0, 0)) = 10 := by
  refine ⟨rfl, ?_⟩
  have := mag_axis (x := 10) (by norm_num)
  simpa using this

/-! ## Least squares fit -/

/-- The loop for the farthest point: with the polygon's own first point among the candidates. -/
theorem far_loop {poly : List (Pt ℝ)} {first p : Pt ℝ} (h : 2 ≤ poly.length) (hp : poly[1]? = some p) (hc : poly[poly.length - 1]? = some first)
    (hf : poly[0]? = some first) :
    ∃ q d, forUp (farBody poly first) (poly.length - 3) 2 (p, mag (p - first)) = .ok (q, d) ∧ q ∈ poly ∧ ∀ x ∈ poly, mag (x - first) ≤ mag (q - first) := by
  obtain ⟨⟨q, d⟩, e, h1, h2, h3⟩ := forUp_inv (body := farBody poly first)
    (fun k (s : Pt ℝ × ℝ) => s.1 ∈ poly ∧ s.2 = mag (s.1 - first) ∧ ∀ i x, 1 ≤ i → i < k → poly[i]? = some x → mag (x - first) ≤ s.2) (poly.length - 3) 2
    (p, mag (p - first)) ⟨List.mem_of_getElem? hp, rfl, fun i x h1 h2 hx => by
      obtain rfl : i = 1 := by omega
      rw [hp] at hx; cases hx; exact le_rfl⟩ (by
    rintro j ⟨q, d⟩ h1 h2 ⟨a1, a2, a3⟩
    dsimp only at a1 a2 a3
    have hj : j < poly.length := by omega
    refine ⟨if mag (poly[j] - first) > d then (poly[j], mag (poly[j] - first)) else (q, d), by rw [farBody, rd_lt hj, Outcome.bind_ok], ?_⟩
    split
    · next hg =>
      refine ⟨List.getElem_mem hj, rfl, fun i x h1 h2 hx => ?_⟩
      rcases Nat.lt_succ_iff_lt_or_eq.1 h2 with h2 | rfl
      · exact (a3 i x h1 h2 hx).trans hg.le
      · rw [List.getElem?_eq_getElem hj] at hx; cases hx; exact le_rfl
    · next hg =>
      refine ⟨a1, a2, fun i x h1 h2 hx => ?_⟩
      rcases Nat.lt_succ_iff_lt_or_eq.1 h2 with h2 | rfl
      · exact a3 i x h1 h2 hx
      · rw [List.getElem?_eq_getElem hj] at hx; cases hx; exact not_lt.1 hg)
  dsimp only at h1 h2 h3
  refine ⟨q, d, e, h1, fun x hx => ?_⟩
  rw [← h2]
  obtain ⟨i, hi, rfl⟩ := List.mem_iff_getElem.1 hx
  have hd : 0 ≤ d := by rw [h2]; exact mag_nonneg _
  have hx' : poly[i]? = some poly[i] := List.getElem?_eq_getElem hi
  by_cases h0 : i = 0
  · subst h0
    rw [hf] at hx'; cases hx'
    simpa [mag, sqMag] using hd
  · by_cases hl : i = poly.length - 1
    · subst hl
      rw [hc] at hx'; cases hx'
      simpa [mag, sqMag] using hd
    · exact h3 i _ (by omega) (by omega) hx'

/-- **C67.** `resamplePolygon` stays inside of all its arrays for every polygon of at least two points and every positive point distance,
and the result has the documented form:
a result of `n + 1` points for `n = ⌈len / dist⌉ ≥ 2`; otherwise the two end points or, for a closed polygon, the end points with the point of the polygon that is
farthest from them.  Open polygons keep their end points and closed polygons stay closed. -/
theorem resamplePolygon_ok_partial {poly : List (Pt ℝ)} (h : 2 ≤ poly.length) {dist : ℝ} (hd : 0 < dist) {first last : Pt ℝ}
    (hf : poly.head? = some first) (hl : poly.getLast? = some last) :
    ∃ r, resamplePolygon poly [] dist = .ok r ∧
      (2 ≤ ⌈pathLen poly / dist⌉ → (r.length : ℤ) = ⌈pathLen poly / dist⌉ + 1) ∧
      (⌈pathLen poly / dist⌉ < 2 → first ≠ last → r = [first, last]) ∧
      (⌈pathLen poly / dist⌉ < 2 → first = last → ∃ q ∈ poly, r = [first, q, last] ∧ ∀ x ∈ poly, mag (x - first) ≤ mag (q - first)) ∧
      (first ≠ last → r.head? = some first ∧ r.getLast? = some last) ∧
      (first = last → ∃ p, r.head? = some p ∧ r.getLast? = some p) := by
  rw [List.head?_eq_getElem?] at hf
  rw [List.getLast?_eq_getElem?] at hl
  have harc := arc_get poly (poly.length - 1) (by omega)
  rw [reach_last (n := poly.length - 1) (by omega)] at harc
  rw [resamplePolygon, rd_ok hl, Outcome.bind_ok, rd_ok hf, Outcome.bind_ok, rd_ok harc, Outcome.bind_ok, quot_ok hd.ne', Outcome.bind_ok]
  by_cases hc : ⌈pathLen poly / dist⌉ < 2
  · rw [if_pos hc]
    by_cases ho : last = first
    · subst ho
      obtain ⟨q, d, e, h1, h2⟩ := far_loop h (List.getElem?_eq_getElem (i := 1) (by omega)) hl hf
      rw [if_neg (by simp), rd_lt (by omega), Outcome.bind_ok, e, Outcome.bind_ok]
      exact ⟨[last, q, last], rfl, fun x => by omega, fun _ x => absurd rfl x, fun _ _ => ⟨q, h1, rfl, h2⟩, fun x => absurd rfl x, fun _ => ⟨last, rfl, rfl⟩⟩
    · rw [if_pos ho]
      exact ⟨[first, last], rfl, fun x => by omega, fun _ _ => rfl, fun _ x => absurd x.symm ho, fun _ => ⟨rfl, rfl⟩, fun x => absurd x.symm ho⟩
  · rw [if_neg hc]
    have hlen : pathLen poly ≠ 0 := by
      intro hz; rw [hz] at hc; simp at hc
    obtain ⟨n, hn⟩ : ∃ n : Nat, ⌈pathLen poly / dist⌉ = n := ⟨⌈pathLen poly / dist⌉.toNat, by omega⟩
    have hn2 : 2 ≤ n := by omega
    rw [hn, Int.toNat_natCast, quot_ok hlen, Outcome.bind_ok]
    obtain ⟨f, e1, lf⟩ := fit_loop (isOpen := decide (last ≠ first)) (count := n) (L := poly)
      (arc := (arcLengthList poly).map (· * ((n : ℝ) / pathLen poly))) (first := first) (by omega) (by omega)
      (by rw [List.length_map]; exact arc_length poly (by omega)) (by simp [arcLengthList])
    rw [e1, Outcome.bind_ok]
    by_cases ho : last = first
    · obtain ⟨r, x, e2, l2, h1, h2⟩ := solveClosed_ok lf hn2
      rw [if_neg (by simpa using ho), e2]
      refine ⟨r, rfl, fun _ => by omega, fun x => by omega, fun x => by omega, fun x => absurd ho.symm x, fun _ => ⟨x, ?_, ?_⟩⟩
      · rw [List.head?_eq_getElem?, h1]
      · rw [List.getLast?_eq_getElem?, l2]; exact h2
    · obtain ⟨r, e2, l2, h1⟩ := solveOpen_ok lf hn2 first last
      rw [if_pos ho, e2]
      refine ⟨r ++ [last], rfl, fun _ => by simp [l2], fun x => by omega, fun x => by omega, fun _ => ⟨?_, by simp⟩, fun x => absurd x.symm ho⟩
      rw [List.head?_eq_getElem?, List.getElem?_append_left (by omega), h1]

example : ∃ (poly : List (Pt ℝ)), 2 ≤ poly.length ∧ poly.head? ≠ poly.getLast? := ⟨[(0, 0), (3, 0), (3, 4)], by simp, by simp⟩

/-- **C67, violated (one point).** A polygon of a single point is read behind its end. -/
theorem resamplePolygon_one_point_violated (p : Pt ℝ) {dist : ℝ} (hd : 0 < dist) : resamplePolygon [p] [] dist = .ub := by
  simp [resamplePolygon, rd, Outcome.bind, arcLengthList, arcLoop, quot, hd.ne']

/-- **C67, violated (no point).** -/
theorem resamplePolygon_empty_violated (dist : ℝ) : resamplePolygon [] [] dist = .ub := by
  simp [resamplePolygon, rd, Outcome.bind]

/-! ## Exponential filter -/

theorem conv_pos : Conv (fun a => 0 < a.2) (fun _ => True) := ⟨fun _ h => h, fun _ _ _ _ _ _ _ _ => trivial⟩

/-- **C68.** `resamplePolygonExponentialFilter` stays inside of its arrays and never divides by zero, for every polygon of at least three points, every scale
and every positive point distance, and returns at least two points. -/
theorem exponentialFilter_safe {poly : List (Pt ℝ)} (h : 3 ≤ poly.length) {scale dist : ℝ} (hs : scale ≠ 0) (hd : 0 < dist) :
    ∃ r, exponentialFilter poly [] scale dist = .ok r ∧ 2 ≤ r.length := by
  have hadd : ∀ (p : Pt ℝ) (w : ℝ) (a : Acc), True → 0 < w → 0 < a.2 → 0 < (Acc.add p w a).2 := by
    intro p w a _ hw ha; simp only [Acc.add]; positivity
  have hf : poly[0]? = some (poly[0]'(by omega)) := List.getElem?_eq_getElem _
  have hl : poly[poly.length - 1]? = some (poly[poly.length - 1]'(by omega)) := List.getElem?_eq_getElem _
  have h1 := sweep_inv (scale := scale) hadd poly (by simp) (poly[0]'(by omega), 1) one_pos
  have h2 := sweepBack_inv (scale := scale) hadd poly (by simp) (poly[poly.length - 1]'(by omega), 1) one_pos
  obtain ⟨r, p, e, he, hr, -⟩ := exponentialFilter_gen conv_pos h hs hd hf hl (by
    dsimp only
    split
    · exact ⟨forwardPass_inv hadd poly (by simp) _ h2, backwardPass_inv hadd poly (by simp) _ h1⟩
    · exact ⟨forwardPass_inv hadd poly (by simp) _ h1, backwardPass_inv hadd poly (by simp) _ h2⟩)
  refine ⟨_, he, ?_⟩
  have : 0 < r.length := by
    by_contra hc
    rw [List.getElem?_eq_none (by omega)] at hr; cases hr
  simp; omega

/-- **C68.** For a closed polygon the result is closed and stays inside of the convex hull of the polygon: in every half-plane that contains the polygon. -/
theorem exponentialFilter_hull {poly r : List (Pt ℝ)} (h : 3 ≤ poly.length) {scale dist : ℝ} (hs : scale ≠ 0) (hd : 0 < dist)
    (hc : poly.head? = poly.getLast?) (hr : exponentialFilter poly [] scale dist = .ok r) :
    r.head? = r.getLast? ∧ ∀ u v c : ℝ, (∀ p ∈ poly, u * p.1 + v * p.2 ≤ c) → ∀ q ∈ r, u * q.1 + v * q.2 ≤ c := by
  have hf : poly[0]? = some (poly[0]'(by omega)) := List.getElem?_eq_getElem _
  have hl : poly[poly.length - 1]? = some (poly[0]'(by omega)) := by
    rw [← List.getLast?_eq_getElem?, ← hc, List.head?_eq_getElem?, hf]
  have key : ∀ u v c : ℝ, (∀ p ∈ poly, u * p.1 + v * p.2 ≤ c) → r.head? = r.getLast? ∧ ∀ q ∈ r, u * q.1 + v * q.2 ≤ c := by
    intro u v c hH
    have hadd : ∀ (p : Pt ℝ) (w : ℝ) (a : Acc), u * p.1 + v * p.2 ≤ c → 0 < w → (0 < a.2 ∧ u * a.1.1 + v * a.1.2 ≤ c * a.2) →
        (0 < (Acc.add p w a).2 ∧ u * (Acc.add p w a).1.1 + v * (Acc.add p w a).1.2 ≤ c * (Acc.add p w a).2) := by
      rintro p w a hp hw ⟨h1, h2⟩
      refine ⟨by simp only [Acc.add]; positivity, ?_⟩
      simp only [Acc.add, Prod.fst_add, Prod.snd_add, Prod.smul_fst, Prod.smul_snd, smul_eq_mul]
      nlinarith [mul_le_mul_of_nonneg_left h2 hw.le]
    have hconv : Conv (fun a => 0 < a.2 ∧ u * a.1.1 + v * a.1.2 ≤ c * a.2) (fun q => u * q.1 + v * q.2 ≤ c) := by
      refine ⟨fun a h => h.1, ?_⟩
      rintro x y a b hx hy ⟨h1, h2⟩ ⟨h3, h4⟩
      have hW : 0 < x * a.2 + y * b.2 := by positivity
      simp only [Prod.fst_add, Prod.snd_add, Prod.smul_fst, Prod.smul_snd, smul_eq_mul]
      rw [show u * (1 / (x * a.2 + y * b.2) * (x * a.1.1 + y * b.1.1)) + v * (1 / (x * a.2 + y * b.2) * (x * a.1.2 + y * b.1.2)) =
        (x * (u * a.1.1 + v * a.1.2) + y * (u * b.1.1 + v * b.1.2)) / (x * a.2 + y * b.2) by field_simp; ring, div_le_iff₀ hW]
      nlinarith [mul_le_mul_of_nonneg_left h2 hx.le, mul_le_mul_of_nonneg_left h4 hy.le]
    have h0 : u * (poly[0]'(by omega)).1 + v * (poly[0]'(by omega)).2 ≤ c := hH _ (List.getElem_mem _)
    have hstart : (0 : ℝ) < ((poly[0]'(by omega), 1) : Acc).2 ∧ u * ((poly[0]'(by omega), 1) : Acc).1.1 + v * ((poly[0]'(by omega), 1) : Acc).1.2 ≤
        c * ((poly[0]'(by omega), 1) : Acc).2 := ⟨one_pos, by simpa using h0⟩
    obtain ⟨r', p, e, he, hp, hall, hRe, hce, -⟩ := exponentialFilter_gen hconv h hs hd hf hl (by
      dsimp only
      rw [if_neg (by simp)]
      exact ⟨forwardPass_inv hadd poly hH _ (sweep_inv hadd poly hH _ hstart), backwardPass_inv hadd poly hH _ (sweepBack_inv hadd poly hH _ hstart)⟩)
    rw [hr] at he
    cases he
    have hlt : 0 < r'.length := by
      by_contra hc
      rw [List.getElem?_eq_none (by omega)] at hp; cases hp
    refine ⟨?_, ?_⟩
    · rw [List.getLast?_append, List.head?_append, List.head?_eq_getElem?, hp, hce rfl]; simp
    · intro q hq
      rcases List.mem_append.1 hq with hq | hq
      · exact hall q hq
      · rw [List.mem_singleton.1 hq]; exact hRe
  exact ⟨(key 0 0 0 (by simp)).1, fun u v c hH => (key u v c hH).2⟩

example : ∃ poly : List (Pt ℝ), 3 ≤ poly.length ∧ poly.head? = poly.getLast? := ⟨[(0, 0), (3, 0), (3, 4), (0, 0)], by simp, by simp⟩

/-- **C68, violated (open).** The end points of open polygons are not kept: for the points 0, 1 and 3 of the axis, the first point of the result
is to the right of 0, for every scale. -/
theorem exponentialFilter_open_violated {scale dist : ℝ} (hs : scale ≠ 0) (hd : 0 < dist) {r : List (Pt ℝ)}
    (hr : exponentialFilter [(0, 0), (1, 0), (3, 0)] [] scale dist = .ok r) : ∃ x : ℝ, 0 < x ∧ r.head? = some (x, 0) := by
  have hadd : ∀ (p : Pt ℝ) (w : ℝ) (a : Acc), True → 0 < w → 0 < a.2 → 0 < (Acc.add p w a).2 := by
    intro p w a _ hw ha; simp only [Acc.add]; positivity
  obtain ⟨r', p, e, he, hp, -, -, -, a, x, b, ha, hx, hb, hab⟩ := exponentialFilter_gen (poly := [(0, 0), (1, 0), (3, 0)]) (first := (0, 0)) (last := (3, 0))
    conv_pos (by simp) hs hd rfl rfl (by
      dsimp only
      rw [if_pos (by simp)]
      exact ⟨forwardPass_inv hadd _ (by simp) _ (sweepBack_inv hadd _ (by simp) _ one_pos), backwardPass_inv hadd _ (by simp) _ (sweep_inv hadd _ (by simp) _ one_pos)⟩)
  rw [hr] at he
  cases he
  rw [if_pos (by simp)] at ha hb
  have h1 : mag (((0 : ℝ), (0 : ℝ)) - (1, 0)) = 1 := by rw [← mag_neg]; simpa using mag_axis (x := 1) (by norm_num)
  have h2 : mag (((1 : ℝ), (0 : ℝ)) - (3, 0)) = 2 := by
    rw [← mag_neg, show -((((1 : ℝ), (0 : ℝ)) - (3, 0))) = (2, 0) by ext <;> norm_num]
    exact mag_axis (by norm_num)
  simp only [forwardPass, backwardPass, weights, sweep, sweepBack, openInit, Acc.add, h1, h2] at ha hx hb
  have e1 := Real.exp_pos (-1 / scale)
  have e2 := Real.exp_pos (-2 / scale)
  generalize Real.exp (-1 / scale) = u at *
  generalize Real.exp (-2 / scale) = v at *
  simp at ha hx hb
  subst ha hx hb
  rw [blend] at hab
  split at hab
  · cases hab
  cases hab
  refine ⟨(u * v * v * (5 + 6 * u)) / (1 + u * (1 + v) + u * (1 + v * (1 + v * (1 + u)))), by positivity, ?_⟩
  rw [List.head?_append, List.head?_eq_getElem?, hp, Option.some_or, Option.some.injEq]
  ext
  · simp
    rw [inv_mul_eq_div]
    congr 1
    ring
  · simp

/-! ## Digital lines -/

theorem dig_loop {poly : List (Pt ℝ)} (four : Bool) (h : 3 ≤ poly.length) (s : Dig) (hs : s.lines = []) :
    ∃ s', forUp (digBody four poly) (poly.length - 2) 2 s = .ok s' ∧ s'.lines.length ≤ poly.length - 2 := by
  obtain ⟨s', e, hs'⟩ := forUp_inv (body := digBody four poly) (fun k s => s.lines.length ≤ k - 2) (poly.length - 2) 2 s (by simp [hs]) (by
    intro j s h1 h2 hl
    refine ⟨_, by rw [digBody, rd_lt (by omega), Outcome.bind_ok, rd_lt (by omega), Outcome.bind_ok], ?_⟩
    split
    · simp [Dig.new, Dig.finish]; omega
    · split
      · split <;> (dsimp only; omega)
      · split
        · split <;> (dsimp only; omega)
        · omega)
  exact ⟨s', e, by omega⟩

theorem meet_loop {lines : List Line3} (n k : Nat) (s r : List (Pt ℝ)) (h : forUp (meetBody lines) n k s = .ok r) : ∃ t, r = s ++ t ∧ t.length = n := by
  induction n generalizing k s with
  | zero => cases h; exact ⟨[], by simp, rfl⟩
  | succ n ih =>
    rw [forUp, Outcome.bind_eq_ok] at h
    obtain ⟨s1, h1, h2⟩ := h
    rw [meetBody, Outcome.bind_eq_ok] at h1
    obtain ⟨x, -, h1⟩ := h1
    rw [Outcome.bind_eq_ok] at h1
    obtain ⟨y, -, h1⟩ := h1
    rw [Outcome.bind_eq_ok] at h1
    obtain ⟨p, -, h1⟩ := h1
    cases h1
    obtain ⟨t, rfl, ht⟩ := ih _ _ h2
    exact ⟨p :: t, by simp, by simp [ht]⟩

/-- **C69.** Whenever `simplifyPolygonDigitalLine` succeeds it does not add points, keeps the end points of open polygons and
returns closed polygons for closed ones. -/
theorem digitalLine_ends_partial {poly r : List (Pt ℝ)} {conn : Nat} (h : 3 ≤ poly.length) (hr : digitalLine poly [] conn = .ok r) :
    r.length ≤ poly.length ∧ (poly.head? ≠ poly.getLast? → r.head? = poly.head? ∧ r.getLast? = poly.getLast?) ∧
      (poly.head? = poly.getLast? → r.head? = r.getLast?) := by
  have hf : poly[0]? = some (poly[0]'(by omega)) := List.getElem?_eq_getElem _
  have hl : poly[poly.length - 1]? = some (poly[poly.length - 1]'(by omega)) := List.getElem?_eq_getElem _
  rw [List.head?_eq_getElem?, List.getLast?_eq_getElem?, hf, hl]
  rw [digitalLine, if_neg (by omega)] at hr
  split at hr
  · cases hr
  rw [rd_ok hf, Outcome.bind_ok, rd_lt (i := 1) (by omega), Outcome.bind_ok, rd_ok hl, Outcome.bind_ok] at hr
  obtain ⟨s, e, hs⟩ := dig_loop (conn = 4) h (Dig.new [] (poly[0]'(by omega)) (poly[1]'(by omega))) rfl
  rw [e, Outcome.bind_ok] at hr
  dsimp only at hr
  rw [Outcome.bind_eq_ok] at hr
  obtain ⟨b, hb, hr⟩ := hr
  rw [Outcome.bind_eq_ok] at hr
  obtain ⟨m, hm, hr⟩ := hr
  rw [Outcome.bind_eq_ok] at hr
  obtain ⟨q, hq, hr⟩ := hr
  cases hr
  obtain ⟨t, rfl, ht⟩ := meet_loop _ _ _ _ hm
  have hfin : s.finish.length = s.lines.length + 1 := by simp [Dig.finish]
  refine ⟨by simp [ht]; omega, fun ho => ?_, fun hc => ?_⟩
  · have ho' : poly[poly.length - 1]'(by omega) ≠ poly[0]'(by omega) := fun hh => ho (by rw [hh])
    rw [if_pos ho'] at hb hq
    cases hb; cases hq
    exact ⟨rfl, by rw [List.getLast?_append]; rfl⟩
  · have hc' : poly[poly.length - 1]'(by omega) = poly[0]'(by omega) := (Option.some.inj hc).symm
    rw [if_neg (by simpa using hc')] at hb hq
    rw [hb] at hq
    cases hq
    rw [List.getLast?_append]
    rfl

/-- **C69, violated (open).** The two lines of this simple 8-connected pixel path are parallel: the function divides by zero. -/
theorem digitalLine_parallel_violated : digitalLine [(0, 0), (-1, 0), (0, 1), (1, 1), (0, 2)] [] 8 = .ub := by
  norm_num [digitalLine, rd, forUp, digBody, Dig.new, Dig.ab, Dig.finish, Outcome.bind, meetBody, lineIntersection, quot]

/-- **C69, violated (closed).** A closed polygon that is a single digital line: the line is intersected with itself. -/
theorem digitalLine_closed_violated : digitalLine [(0, 0), (1, 0), (0, 0)] [] 8 = .ub := by
  norm_num [digitalLine, rd, forUp, digBody, Dig.new, Dig.ab, Dig.finish, Outcome.bind, meetBody, lineIntersection, quot]

/-- **C69, violated (double point).** If the first point is repeated, the third point is dropped
however far it is from the result. -/
theorem digitalLine_double_violated (y : ℝ) : digitalLine [(0, 0), (0, 0), (5, y), (9, 0)] [] 8 = .ok [(0, 0), (9, 0)] := by
  norm_num [digitalLine, rd, forUp, digBody, Dig.new, Dig.ab, Dig.finish, Outcome.bind, meetBody, lineIntersection, quot]

/-- **C67, violated (spacing).** A straight segment of length 3 with the desired point distance 1: the points are not equidistant, and the first two
are farther apart than desired. -/
theorem resamplePolygon_spacing_violated :
    resamplePolygon [(0, 0), (3, 0)] [] 1 = .ok [(0, 0), (19 / 18, 0), (35 / 18, 0), (3, 0)] ∧ mag (((19 / 18 : ℝ), (0 : ℝ)) - (0, 0)) > 1 := by
  have hm : mag ((3 : ℝ), (0 : ℝ)) = 3 := mag_axis (by norm_num)
  constructor
  · norm_num [resamplePolygon, rd, arcLengthList, arcLoop, hm, quot, Outcome.bind, forUp, fitBody, fitWhile, fitRest, accumulate, addAt, wr, sum1, sumt, openStart,
      openEnd, solveOpen, elimBody, forDown, substBody, List.replicate, show Int.toNat 3 = 3 from rfl]
  · simp only [mag, sqMag]
    rw [gt_iff_lt, Real.lt_sqrt (by norm_num)]
    norm_num

/-- **C69.** The corner between two lines lies on both of them; it exists unless the lines are parallel. -/
theorem lineIntersection_on (l1 l2 : Line3) :
    (l1.1 * l2.2.1 = l1.2.1 * l2.1 → lineIntersection l1 l2 = .ub) ∧
    (l1.1 * l2.2.1 ≠ l1.2.1 * l2.1 → ∃ p, lineIntersection l1 l2 = .ok p ∧ l1.1 * p.1 + l1.2.1 * p.2 + l1.2.2 = 0 ∧
      l2.1 * p.1 + l2.2.1 * p.2 + l2.2.2 = 0) := by
  unfold lineIntersection quot
  constructor
  · intro h
    dsimp only
    rw [if_pos (by linarith)]
    rfl
  · intro h
    have hd : l1.1 * l2.2.1 - l1.2.1 * l2.1 ≠ 0 := fun hh => h (by linarith)
    refine ⟨_, by
      dsimp only
      rw [if_neg hd, Outcome.bind_ok, if_neg hd, Outcome.bind_ok], ?_, ?_⟩
    · dsimp only
      field_simp
      ring
    · dsimp only
      rw [mul_div_assoc', mul_div_assoc', ← add_div, div_add' _ _ _ hd, div_eq_zero_iff]
      left
      ring

/-- **C69.** Longer polygons are refused exactly for connectivities other than 4 and 8. -/
theorem digitalLine_refused {poly simple : List (Pt ℝ)} (h : 3 ≤ poly.length) (conn : Nat) :
    (conn ≠ 4 ∧ conn ≠ 8 → digitalLine poly simple conn = .precond) ∧
    (conn = 4 ∨ conn = 8 → digitalLine poly simple conn ≠ .precond) := by
  constructor
  · intro hc
    rw [digitalLine, if_neg (by omega), if_pos hc]
  · intro hc hr
    have hli : ∀ a b, lineIntersection a b ≠ .precond := by
      intro a b hh
      unfold lineIntersection quot at hh
      dsimp only at hh
      split at hh <;> cases hh
    have hrd : ∀ (l : List Line3) i, rd l i ≠ .precond := by
      intro l i hh
      unfold rd at hh
      split at hh <;> cases hh
    have hmeet : ∀ (lines : List Line3) n k s, forUp (meetBody lines) n k s ≠ .precond := by
      intro lines n
      induction n with
      | zero => intro k s hh; cases hh
      | succ n ih =>
        intro k s hh
        rw [forUp] at hh
        have hb : meetBody lines k s ≠ .precond := by
          intro hb
          rw [meetBody] at hb
          cases h1 : rd lines (k - 1) with
          | ok x =>
            rw [h1, Outcome.bind_ok] at hb
            cases h2 : rd lines k with
            | ok y =>
              rw [h2, Outcome.bind_ok] at hb
              cases h3 : lineIntersection x y with
              | ok p => rw [h3] at hb; cases hb
              | precond => exact hli _ _ h3
              | ub => rw [h3] at hb; cases hb
              | hang => rw [h3] at hb; cases hb
            | precond => exact hrd _ _ h2
            | ub => rw [h2] at hb; cases hb
            | hang => rw [h2] at hb; cases hb
          | precond => exact hrd _ _ h1
          | ub => rw [h1] at hb; cases hb
          | hang => rw [h1] at hb; cases hb
        cases h1 : meetBody lines k s with
        | ok x => rw [h1] at hh; exact ih _ _ hh
        | precond => exact hb h1
        | ub => rw [h1] at hh; cases hh
        | hang => rw [h1] at hh; cases hh
    have hend : ∀ (lines : List Line3) (b : Prop) [Decidable b] (q : Pt ℝ),
        (if b then .ok q else (rd lines 0).bind fun x => (rd lines (lines.length - 1)).bind fun y => lineIntersection x y) ≠ .precond := by
      intro lines b _ q hh
      split at hh
      · cases hh
      · cases h1 : rd lines 0 with
        | ok x =>
          rw [h1, Outcome.bind_ok] at hh
          cases h2 : rd lines (lines.length - 1) with
          | ok y => rw [h2, Outcome.bind_ok] at hh; exact hli _ _ hh
          | precond => exact hrd _ _ h2
          | ub => rw [h2] at hh; cases hh
          | hang => rw [h2] at hh; cases hh
        | precond => exact hrd _ _ h1
        | ub => rw [h1] at hh; cases hh
        | hang => rw [h1] at hh; cases hh
    rw [digitalLine, if_neg (by omega), if_neg (by omega), rd_lt (i := 0) (by omega), Outcome.bind_ok, rd_lt (i := 1) (by omega),
      Outcome.bind_ok, rd_lt (i := poly.length - 1) (by omega), Outcome.bind_ok] at hr
    obtain ⟨s, e, -⟩ := dig_loop (conn = 4) h (Dig.new [] (poly[0]'(by omega)) (poly[1]'(by omega))) rfl
    rw [e, Outcome.bind_ok] at hr
    dsimp only at hr
    revert hr
    generalize hb : (if poly[poly.length - 1]'(by omega) ≠ poly[0]'(by omega) then Outcome.ok (poly[0]'(by omega)) else
      (rd s.finish 0).bind fun x => (rd s.finish (s.finish.length - 1)).bind fun y => lineIntersection x y) = b
    cases b with
    | ok b =>
      rw [Outcome.bind_ok]
      generalize hm : forUp (meetBody s.finish) (s.finish.length - 1) 1 (simple ++ [b]) = r
      cases r with
      | ok r =>
        rw [Outcome.bind_ok]
        generalize hq : (if poly[poly.length - 1]'(by omega) ≠ poly[0]'(by omega) then Outcome.ok (poly[poly.length - 1]'(by omega)) else
          (rd s.finish 0).bind fun x => (rd s.finish (s.finish.length - 1)).bind fun y => lineIntersection x y) = q
        cases q with
        | ok q => intro hh; cases hh
        | precond => exact absurd hq (hend _ _ _)
        | ub => intro hh; cases hh
        | hang => intro hh; cases hh
      | precond => exact absurd hm (hmeet _ _ _ _)
      | ub => intro hh; cases hh
      | hang => intro hh; cases hh
    | precond => exact absurd hb (hend _ _ _)
    | ub => intro hh; cases hh
    | hang => intro hh; cases hh

/-- Both cases occur: a corner of a pixel path becomes the corner of the two middle lines. -/
example : digitalLine [(0, 0), (1, 0), (2, 0), (3, 0), (3, 2), (3, 4)] [] 4 = .ok [(0, 0), (3, 0), (3, 4)] ∧
    digitalLine [(0, 0), (1, 0), (1, 1), (2, 1), (2, 2), (1, 2), (0, 2)] [] 4 = .ok [(0, 0), (7 / 4, 2), (0, 2)] ∧
    digitalLine [(0, 0), (1, 0), (2, 0)] [] 6 = .precond := by
  refine ⟨?_, ?_, ?_⟩ <;>
  norm_num [digitalLine, rd, forUp, digBody, Dig.new, Dig.ab, Dig.finish, Outcome.bind, meetBody, lineIntersection, quot]

/-- Right hand side for the closed polygon 1, 2, 1: the products with the hat functions at 0, 1 and 2 (the first and the last are added
afterwards); nothing is done to the ends, unlike for open polygons. -/
example : forUp (fitBody false 2 [(1, 0), (2, 0), (1, 0)] [0, 1, 2] (1, 0)) 2 1 ⟨List.replicate 3 0, (1, 0), 0, 1⟩ =
    .ok ⟨[(2 / 3, 0), (5 / 3, 0), (2 / 3, 0)], (1, 0), 0, 3⟩ := by
  norm_num [rd, quot, Outcome.bind, forUp, fitBody, fitWhile, fitRest, accumulate, addAt, wr, sum1, sumt, openStart, openEnd, List.replicate]

end Verif.Resample
