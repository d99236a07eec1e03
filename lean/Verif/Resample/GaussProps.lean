import Verif.Resample.GaussLemmas
import Verif.Resample.Props

/-! # Resampling with a Gaussian filter: the properties -/

namespace Verif.Resample
open Verif Verif.GeoMap Verif.DartPos

/-- No segment of the polygon is longer than twice the radius of the filter. -/
def Dense (radius : ℝ) (L : List (Pt ℝ)) : Prop := ∀ k p q, L[k]? = some p → L[k + 1]? = some q → mag (q - p) ≤ 2 * radius

/-- The weights of the filter are positive and symmetric, and its radius is not negative, as for a Gaussian. -/
structure Kernel.Sane (g : Kernel) : Prop where
  pos : ∀ x, 0 < g.w x
  even : ∀ x, g.w (-x) = g.w x
  radius : 0 ≤ g.radius

theorem Dense.reach {r : ℝ} {L : List (Pt ℝ)} (h : Dense r L) (k : Nat) (hk : k + 1 < L.length) : reach L (k + 1) - reach L k ≤ 2 * r := by
  rw [reach_succ (p := L[k]) (q := L[k + 1]) (by simp) (by simp [hk])]
  have := h k L[k] L[k + 1] (by simp) (by simp [hk])
  linarith

/-- The loop over all positions, for a property `R` of the points it computes. -/
theorem gauss_loop {g : Kernel} {L : List (Pt ℝ)} {n fuel : Nat} {isOpen : Bool} (hL : L.length = n + 1) {m : Nat} (hm : 0 < m) {R : Nat → Pt ℝ → Prop}
    (hp : ∀ (k l : Nat), k < m → Located L l (k * (reach L n / m)) → ∃ p,
      (if isOpen then gaussReflective g fuel (arcLengthList L) L l (k * (reach L n / m)) else gaussCyclic g fuel (arcLengthList L) L l (k * (reach L n / m))) = .ok p ∧ R k p) :
    ∃ s, forUp (gaussBody g fuel isOpen L (reach L n / m)) m 0 ([], 0) = .ok s ∧ s.1.length = m ∧ ∀ k p, s.1[k]? = some p → R k p := by
  have hlen := arc_length L (by omega)
  have hstep : 0 ≤ reach L n / m := div_nonneg (reach_nonneg _ _) (by positivity)
  have hm0 : (0 : ℝ) < m := by exact_mod_cast hm
  obtain ⟨s, e, h1, h2, -⟩ := forUp_inv (body := gaussBody g fuel isOpen L (reach L n / m))
    (fun k s => s.1.length = k ∧ (∀ k' p, s.1[k']? = some p → R k' p) ∧ s.2 ≤ n ∧ ∀ i < s.2, reach L i < k * (reach L n / m)) m 0 ([], 0)
    ⟨rfl, by simp, by simp, by simp⟩ (by
      rintro k ⟨r, l⟩ - hk ⟨a1, a2, a3, a4⟩
      dsimp only at a1 a2 a3 a4
      have hcur : k * (reach L n / m) ≤ reach L n := by
        have : (k : ℝ) ≤ m := by exact_mod_cast (by omega : k ≤ m)
        calc k * (reach L n / m) ≤ m * (reach L n / m) := by gcongr
          _ = reach L n := mul_div_cancel₀ _ hm0.ne'
      obtain ⟨j, x, b1, b2, b3, b4, b5, b6⟩ := search_spec (arc := arcLengthList L) (cur := k * (reach L n / m)) hlen a3 (by omega)
        ⟨_, arc_get L n (by omega), hcur⟩
      have hloc : Located L j (k * (reach L n / m)) := by
        refine ⟨by omega, by positivity, ?_, fun i hi => ?_⟩
        · rw [arc_get L j (by omega)] at b4; cases b4; exact b5
        · by_cases h : i < l
          · exact a4 i h
          · obtain ⟨y, y1, y2⟩ := b6 i (by omega) hi
            rw [arc_get L i (by omega)] at y1; cases y1; exact y2
      obtain ⟨p, c1, c2⟩ := hp k j (by omega) hloc
      refine ⟨(r ++ [p], j), ?_, by simp [a1], ?_, b3, ?_⟩
      · rw [gaussBody, b1, Outcome.bind_ok, c1, Outcome.bind_ok]
      · intro k' p' h
        dsimp only at h
        by_cases hlt : k' < r.length
        · rw [List.getElem?_append_left hlt] at h; exact a2 k' p' h
        · rw [List.getElem?_append_right (by omega), List.getElem?_singleton] at h
          split_ifs at h with h0
          cases h
          rw [show k' = k by omega]; exact c2
      · intro i hi
        have := hloc.before i hi
        push_cast
        linarith)
  exact ⟨s, e, by simpa using h1, h2⟩

/-- **C89 (open polygons).** For every open polygon of at least three points that is longer than the radius of the filter and has no segment longer
than twice this radius, and for every positive point distance, `resamplePolygonGaussianFilter` returns one point more than the smallest number of
equal steps of at most this distance, starts with the first and ends with the last point of the polygon. -/
theorem gaussianFilter_open_partial {g : Kernel} (hg : g.Sane) {L : List (Pt ℝ)} (h3 : 3 ≤ L.length) (ho : L.head? ≠ L.getLast?) (hlen : g.radius < pathLen L)
    (hd : Dense g.radius L) {dist : ℝ} (hdist : 0 < dist) {fuel : Nat} (hf : 2 * L.length ≤ fuel) :
    ∃ r, gaussianFilter g fuel L [] dist = .ok r ∧ r.length = stepCount (pathLen L) dist + 1 ∧ r.head? = L.head? ∧ r.getLast? = L.getLast? := by
  obtain ⟨n, hn⟩ : ∃ n, L.length = n + 1 := ⟨L.length - 1, by omega⟩
  have hr := reach_last hn
  have hpos : 0 < pathLen L := hg.radius.trans_lt hlen
  have hq : 0 < pathLen L / dist := by positivity
  have hc : 0 < ⌈pathLen L / dist⌉ := Int.ceil_pos.2 hq
  have hsc : stepCount (pathLen L) dist = ⌈pathLen L / dist⌉.toNat := by rw [stepCount]; omega
  have hcast : ((⌈pathLen L / dist⌉ : ℤ) : ℝ) = (stepCount (pathLen L) dist : ℝ) := by
    rw [hsc]
    have : (⌈pathLen L / dist⌉ : ℤ) = ((⌈pathLen L / dist⌉.toNat : ℕ) : ℤ) := by omega
    exact_mod_cast this
  have hne : L[n]'(by omega) ≠ L[0]'(by omega) := by
    intro h
    apply ho
    rw [List.head?_eq_getElem?, List.getLast?_eq_getElem?, hn, List.getElem?_eq_getElem (by omega), Nat.add_sub_cancel, List.getElem?_eq_getElem (by omega), h]
  rw [← hr] at hlen
  obtain ⟨s, e1, e2, e3⟩ := gauss_loop (g := g) (fuel := fuel) (isOpen := true) hn (m := stepCount (pathLen L) dist) (stepCount_pos _ _)
    (R := fun k p => k = 0 → p = L[0]'(by omega)) (by
      intro k l hk hloc
      by_cases h0 : k = 0
      · subst h0
        have hl0 : l = 0 := by
          by_contra hl
          have := hloc.before 0 (by omega)
          simp [reach_zero] at this
        subst hl0
        have := gaussReflective_end hg.pos hg.even hn hf hlen hg.radius (Or.inl rfl)
        rw [reach_zero] at this
        exact ⟨_, by simpa using this, fun _ => rfl⟩
      · obtain ⟨p, hp⟩ := gaussReflective_ok hg.pos hn hf hloc hlen hd.reach hg.radius
        exact ⟨p, by simpa using hp, fun h => absurd h h0⟩)
  have hpush := gaussReflective_end hg.pos hg.even hn hf hlen hg.radius (Or.inr rfl)
  refine ⟨s.1 ++ [L[n]], ?_, by simp [e2], ?_, ?_⟩
  · rw [gaussianFilter, if_neg (by omega), show L.length - 1 = n by omega, rd_ok (arc_get L n (by omega)), Outcome.bind_ok, if_neg (by simpa using hlen),
      rd_lt (by omega), Outcome.bind_ok, rd_lt (by omega), Outcome.bind_ok, quot_ok hdist.ne', Outcome.bind_ok]
    rw [hr] at e1 hpush
    rw [hr, hcast, ← hsc, decide_eq_true hne, e1, Outcome.bind_ok, if_pos hne, show (L.length : Int) - 1 = (n : Nat) by omega, hpush, Outcome.bind_ok]
  · have h1 := stepCount_pos (pathLen L) dist
    have hs0 : s.1[0]? = some (s.1[0]'(by omega)) := List.getElem?_eq_getElem _
    rw [List.head?_append, List.head?_eq_getElem?, hs0, e3 0 _ hs0 rfl, List.head?_eq_getElem? (l := L), List.getElem?_eq_getElem (l := L) (by omega)]
    rfl
  · rw [List.getLast?_append, List.getLast?_eq_getElem? (l := L), show L.length - 1 = n by omega, List.getElem?_eq_getElem (l := L) (by omega)]
    rfl

/-- **C89 (closed polygons).** For every closed polygon of at least three points with no segment longer than twice the radius of the filter, such
that the polygon without its last segment is longer than the radius, and for every positive point distance, `resamplePolygonGaussianFilter` returns
one point more than the number of steps, the result is closed, and it is inside of every half plane that contains the polygon. -/
theorem gaussianFilter_closed_partial {g : Kernel} (hg : g.Sane) {L : List (Pt ℝ)} (h3 : 3 ≤ L.length) (hcl : L.head? = L.getLast?)
    (hlen : g.radius < reach L (L.length - 2)) (hd : Dense g.radius L) {dist : ℝ} (hdist : 0 < dist) {fuel : Nat} (hf : 2 * L.length ≤ fuel) :
    ∃ r, gaussianFilter g fuel L [] dist = .ok r ∧ r.length = stepCount (pathLen L) dist + 1 ∧ r.head? = r.getLast? ∧
      ∀ u v c : ℝ, (∀ p ∈ L, u * p.1 + v * p.2 ≤ c) → ∀ q ∈ r, u * q.1 + v * q.2 ≤ c := by
  obtain ⟨n, hn⟩ : ∃ n, L.length = n + 1 := ⟨L.length - 1, by omega⟩
  have hr := reach_last hn
  have hlen' : g.radius < reach L (n - 1) := by rwa [show n - 1 = L.length - 2 by omega]
  have hlenn : g.radius < reach L n := hlen'.trans_le (reach_mono (by omega) (by omega))
  have hpos : 0 < pathLen L := hr ▸ hg.radius.trans_lt hlenn
  have hq : 0 < pathLen L / dist := by positivity
  have hc : 0 < ⌈pathLen L / dist⌉ := Int.ceil_pos.2 hq
  have hsc : stepCount (pathLen L) dist = ⌈pathLen L / dist⌉.toNat := by rw [stepCount]; omega
  have hcast : ((⌈pathLen L / dist⌉ : ℤ) : ℝ) = (stepCount (pathLen L) dist : ℝ) := by
    rw [hsc]
    have : (⌈pathLen L / dist⌉ : ℤ) = ((⌈pathLen L / dist⌉.toNat : ℕ) : ℤ) := by omega
    exact_mod_cast this
  have heq : ¬ L[n]'(by omega) ≠ L[0]'(by omega) := by
    rw [List.head?_eq_getElem?, List.getLast?_eq_getElem?, hn, List.getElem?_eq_getElem (by omega), Nat.add_sub_cancel, List.getElem?_eq_getElem (by omega)] at hcl
    simpa using (Option.some.inj hcl).symm
  obtain ⟨s, e1, e2, e3⟩ := gauss_loop (g := g) (fuel := fuel) (isOpen := false) hn (m := stepCount (pathLen L) dist) (stepCount_pos _ _)
    (R := fun _ p => ∀ u v c : ℝ, (∀ q ∈ L, u * q.1 + v * q.2 ≤ c) → u * p.1 + v * p.2 ≤ c) (by
      intro k l hk hloc
      obtain ⟨p, hp, hh⟩ := gaussCyclic_ok hg.pos hn (by omega) hf hloc hlenn (fun hl => by
        have := hloc.le
        rw [hl] at this
        linarith) hd.reach hg.radius
      exact ⟨p, by simpa using hp, hh⟩)
  have h1 := stepCount_pos (pathLen L) dist
  have hs0 : s.1[0]? = some (s.1[0]'(by omega)) := List.getElem?_eq_getElem _
  refine ⟨s.1 ++ [s.1[0]'(by omega)], ?_, by simp [e2], ?_, ?_⟩
  · rw [gaussianFilter, if_neg (by omega), show L.length - 1 = n by omega, rd_ok (arc_get L n (by omega)), Outcome.bind_ok, if_neg (by simpa using hlenn),
      rd_lt (by omega), Outcome.bind_ok, rd_lt (by omega), Outcome.bind_ok, quot_ok hdist.ne', Outcome.bind_ok]
    rw [hr] at e1
    rw [hr, hcast, ← hsc, decide_eq_false heq, e1, Outcome.bind_ok, if_neg heq, rd_lt (by omega), Outcome.bind_ok]
  · rw [List.getLast?_append, List.head?_append, List.head?_eq_getElem?, hs0]; rfl
  · intro u v c h q hq
    rcases List.mem_append.1 hq with hq | hq
    · obtain ⟨k, hk⟩ := List.mem_iff_getElem?.1 hq
      exact e3 k q hk u v c h
    · rw [List.mem_singleton.1 hq]; exact e3 0 _ hs0 u v c h

/-- **C89.** A polygon that is not longer than the filter is refused; one of at most two points is returned as it is. -/
theorem gaussianFilter_short (g : Kernel) (fuel : Nat) (L simple : List (Pt ℝ)) (dist : ℝ) :
    (L.length ≤ 2 → gaussianFilter g fuel L simple dist = .ok L) ∧
    (3 ≤ L.length → pathLen L ≤ g.radius → gaussianFilter g fuel L simple dist = .precond) := by
  refine ⟨fun h => by rw [gaussianFilter, if_pos h], fun h hl => ?_⟩
  rw [gaussianFilter, if_neg (by omega), rd_ok (arc_get L (L.length - 1) (by omega)), Outcome.bind_ok, reach_last (by omega), if_pos (by simpa using hl)]

theorem boxKernel_sane {r : ℝ} (h : 0 ≤ r) : (⟨r, fun _ => 1⟩ : Kernel).Sane := ⟨by simp, by simp, h⟩

/-- The hypotheses are met: a line of three points, and a triangle. -/
example : ∃ (g : Kernel) (L : List (Pt ℝ)), g.Sane ∧ 3 ≤ L.length ∧ L.head? ≠ L.getLast? ∧ g.radius < pathLen L ∧ Dense g.radius L := by
  refine ⟨⟨3, fun _ => 1⟩, [(0, 0), (4, 0), (9, 0)], boxKernel_sane (by norm_num), by simp, by simp, ?_, ?_⟩
  · simp only [pathLen, Prod.mk_sub_mk, sub_zero]
    rw [mag_axis (by norm_num), mag_axis (by norm_num)]; norm_num
  · intro k p q hp hq
    match k with
    | 0 => simp at hp hq; subst hp; subst hq; simp only [Prod.mk_sub_mk, sub_zero]; rw [mag_axis (by norm_num)]; norm_num
    | 1 => simp at hp hq; subst hp; subst hq; simp only [Prod.mk_sub_mk, sub_zero]; rw [mag_axis (by norm_num)]; norm_num
    | k + 2 => simp at hq

theorem mag_345 : mag (0, 4) = 4 ∧ mag (-3, -4) = 5 := by
  constructor
  · simp only [mag, sqMag]
    rw [show (0 * 0 + 4 * 4 : ℝ) = 4 * 4 by norm_num]; exact Real.sqrt_mul_self (by norm_num)
  · simp only [mag, sqMag]
    rw [show (-3 * -3 + -4 * -4 : ℝ) = 5 * 5 by norm_num]; exact Real.sqrt_mul_self (by norm_num)

example : ∃ (g : Kernel) (L : List (Pt ℝ)), g.Sane ∧ 3 ≤ L.length ∧ L.head? = L.getLast? ∧ g.radius < reach L (L.length - 2) ∧ Dense g.radius L := by
  refine ⟨⟨3, fun _ => 1⟩, [(0, 0), (3, 0), (3, 4), (0, 0)], boxKernel_sane (by norm_num), by simp, by simp, ?_, ?_⟩
  · simp only [List.length_cons, List.length_nil, reach, List.take, pathLen, Prod.mk_sub_mk, sub_zero, sub_self]
    rw [mag_axis (by norm_num), mag_345.1]; norm_num
  · intro k p q hp hq
    match k with
    | 0 => simp at hp hq; subst hp; subst hq; simp only [Prod.mk_sub_mk, sub_zero]; rw [mag_axis (by norm_num)]; norm_num
    | 1 => simp at hp hq; subst hp; subst hq; simp only [Prod.mk_sub_mk, sub_zero, sub_self]; rw [mag_345.1]; norm_num
    | 2 => simp at hp hq; subst hp; subst hq; simp only [Prod.mk_sub_mk, zero_sub]; rw [mag_345.2]; norm_num
    | k + 3 => simp at hq

/-! ## Where it fails -/

theorem pathLen_axis3 {a b : ℝ} (ha : 0 ≤ a) (hb : a ≤ b) : pathLen [(0, 0), (a, 0), (b, 0)] = b := by
  simp only [pathLen, Prod.mk_sub_mk, sub_zero]
  rw [mag_axis ha, mag_axis (by linarith)]; ring

theorem arc_axis3 {a b : ℝ} (ha : 0 ≤ a) (hb : a ≤ b) : arcLengthList [((0 : ℝ), (0 : ℝ)), (a, 0), (b, 0)] = [0, a, b] := by
  simp only [arcLengthList, arcLoop, Prod.mk_sub_mk, sub_zero]
  rw [mag_axis ha, mag_axis (by linarith)]
  simp

theorem arc_back {a : ℝ} (ha : 0 ≤ a) : arcLengthList [((0 : ℝ), (0 : ℝ)), (a, 0), (0, 0)] = [0, a, a + a] := by
  simp only [arcLengthList, arcLoop, Prod.mk_sub_mk, sub_zero, zero_sub]
  have : mag (-a, 0) = a := by
    simp only [mag, sqMag]
    rw [show (-a * -a + 0 * 0 : ℝ) = a * a by ring]; exact Real.sqrt_mul_self ha
  rw [mag_axis ha, this]
  simp

theorem reach_of_arc {L : List (Pt ℝ)} {k : Nat} {x : ℝ} (h : (arcLengthList L)[k]? = some x) (hk : k < L.length) : reach L k = x := by
  rw [arc_get L k hk] at h; exact Option.some.inj h

/-- **C89, violated (long segments).** The polygon (0,0), (10,0), (20,0) is longer than a filter of radius 3, but around the position 5 there is no
vertex within this radius: the sum of the weights is zero and the result undefined, for all weights. -/
theorem gaussianFilter_sparse_violated {g : Kernel} (hg : g.Sane) (h3 : g.radius = 3) (fuel : Nat) (hf : 6 ≤ fuel) :
    g.radius < pathLen [(0, 0), (10, 0), (20, 0)] ∧ gaussianFilter g fuel [(0, 0), (10, 0), (20, 0)] [] 5 = .ub := by
  have hp : pathLen [((0 : ℝ), (0 : ℝ)), (10, 0), (20, 0)] = 20 := pathLen_axis3 (by norm_num) (by norm_num)
  have harc : arcLengthList [((0 : ℝ), (0 : ℝ)), (10, 0), (20, 0)] = [0, 10, 20] := arc_axis3 (by norm_num) (by norm_num)
  have h1 : reach [((0 : ℝ), (0 : ℝ)), (10, 0), (20, 0)] 1 = 10 := reach_of_arc (by rw [harc]; rfl) (by simp)
  have h2 : reach [((0 : ℝ), (0 : ℝ)), (10, 0), (20, 0)] 2 = 20 := reach_of_arc (by rw [harc]; rfl) (by simp)
  refine ⟨by rw [h3, hp]; norm_num, ?_⟩
  have e0 := gaussReflective_end hg.pos hg.even (L := [((0 : ℝ), (0 : ℝ)), (10, 0), (20, 0)]) (n := 2) (e := 0) rfl hf (by rw [h2, h3]; norm_num) hg.radius (Or.inl rfl)
  have e5 : gaussReflective g fuel (arcLengthList [((0 : ℝ), (0 : ℝ)), (10, 0), (20, 0)]) [(0, 0), (10, 0), (20, 0)] (1 : Nat) 5 = .ub := by
    obtain ⟨f, rfl⟩ : ∃ f, fuel = f + 1 := ⟨fuel - 1, by omega⟩
    have e1 := reflectRight_in (L := [((0 : ℝ), (0 : ℝ)), (10, 0), (20, 0)]) (n := 2) (m := 1) rfl (by omega)
    have e2 := reflectLeft_in (L := [((0 : ℝ), (0 : ℝ)), (10, 0), (20, 0)]) (m := 0) (by simp)
    have hR : gaussLoop g (reflectRight (arcLengthList [((0 : ℝ), (0 : ℝ)), (10, 0), (20, 0)]) [(0, 0), (10, 0), (20, 0)]) 5 1 (f + 1) (1 : Nat) (0, 0) = .ok (0, 0) := by
      rw [gaussLoop, e1, Outcome.bind_ok, h1, if_pos (by rw [h3]; norm_num)]
    have hLf : gaussLoop g (reflectLeft (arcLengthList [((0 : ℝ), (0 : ℝ)), (10, 0), (20, 0)]) [(0, 0), (10, 0), (20, 0)]) 5 (-1) (f + 1) ((1 : Nat) - 1) (0, 0) = .ok (0, 0) := by
      rw [gaussLoop, show ((1 : Nat) : Int) - 1 = (0 : Nat) by rfl, e2, Outcome.bind_ok, reach_zero, if_pos (by rw [h3]; norm_num)]
    rw [gaussReflective, hR, Outcome.bind_ok, hLf, Outcome.bind_ok, gaussMean, if_pos rfl]
  rw [reach_zero] at e0
  have hq : (⌈(20 : ℝ) / 5⌉ : ℤ) = 4 := by rw [Int.ceil_eq_iff]; norm_num
  have s0 : search [(0 : ℝ), 10, 20] 0 3 0 = .ok 0 := by norm_num [search, rd, Outcome.bind]
  have s1 : search [(0 : ℝ), 10, 20] 5 3 0 = .ok 1 := by norm_num [search, rd, Outcome.bind]
  rw [harc] at e0 e5
  rw [gaussianFilter, if_neg (by simp), harc, rd_ok (x := (20 : ℝ)) (by rfl), Outcome.bind_ok, if_neg (by rw [h3]; norm_num), rd_ok (x := ((20 : ℝ), (0 : ℝ))) (by rfl), Outcome.bind_ok,
    rd_ok (x := ((0 : ℝ), (0 : ℝ))) (by rfl), Outcome.bind_ok, quot_ok (by norm_num), Outcome.bind_ok, hq]
  have hdec : decide (((20 : ℝ), (0 : ℝ)) ≠ (0, 0)) = true := by simp
  rw [hdec, show (4 : Int).toNat = 1 + 1 + 2 by rfl]
  have b0 : gaussBody g fuel true [((0 : ℝ), (0 : ℝ)), (10, 0), (20, 0)] (20 / ((4 : Int) : ℝ)) 0 ([], 0) = .ok ([(0, 0)], 0) := by
    rw [gaussBody, harc, show ((0 : Nat) : ℝ) * (20 / ((4 : Int) : ℝ)) = 0 by norm_num]
    simp only [List.length_cons, List.length_nil, Nat.sub_zero, Nat.reduceAdd, if_true]
    rw [s0, Outcome.bind_ok, e0]; rfl
  have b1 : gaussBody g fuel true [((0 : ℝ), (0 : ℝ)), (10, 0), (20, 0)] (20 / ((4 : Int) : ℝ)) (0 + 1) ([(0, 0)], 0) = .ub := by
    rw [gaussBody, harc, show ((0 + 1 : Nat) : ℝ) * (20 / ((4 : Int) : ℝ)) = 5 by norm_num]
    simp only [List.length_cons, List.length_nil, Nat.sub_zero, Nat.reduceAdd, if_true]
    rw [s1, Outcome.bind_ok, e5]; rfl
  rw [show 1 + 1 + 2 = 3 + 1 by rfl, forUp, b0, Outcome.bind_ok, forUp, b1]
  rfl

/-- **C89, violated (short closed polygons).** The closed polygon (0,0), (2,0), (0,0) of length 4 is longer than a filter of radius 7/2, and none of
its segments is longer than twice the radius.  But around the position 3 the loop never meets a vertex that it takes to be further away than the
radius: no number of rounds suffices. -/
theorem gaussianFilter_hang_violated {g : Kernel} (hg : g.Sane) (h3 : g.radius = 7 / 2) (fuel : Nat) (hf : 6 ≤ fuel) :
    g.radius < pathLen [(0, 0), (2, 0), (0, 0)] ∧ Dense g.radius [(0, 0), (2, 0), (0, 0)] ∧
    gaussianFilter g fuel [(0, 0), (2, 0), (0, 0)] [] 1 = .hang := by
  have harc : arcLengthList [((0 : ℝ), (0 : ℝ)), (2, 0), (0, 0)] = [0, 2, 4] := by rw [arc_back (by norm_num)]; norm_num
  have h1 : reach [((0 : ℝ), (0 : ℝ)), (2, 0), (0, 0)] 1 = 2 := reach_of_arc (by rw [harc]; rfl) (by simp)
  have h2 : reach [((0 : ℝ), (0 : ℝ)), (2, 0), (0, 0)] 2 = 4 := reach_of_arc (by rw [harc]; rfl) (by simp)
  have hd : Dense g.radius [((0 : ℝ), (0 : ℝ)), (2, 0), (0, 0)] := by
    intro k p q hp hq
    have hk : k < 2 := by
      by_contra hk
      rw [List.getElem?_eq_none (by simp; omega)] at hq
      cases hq
    have := reach_succ hp hq
    have hk' : k = 0 ∨ k = 1 := by omega
    rcases hk' with rfl | rfl
    · rw [h1, reach_zero] at this; rw [h3]; linarith
    · rw [h1, h2] at this; rw [h3]; linarith
  refine ⟨by rw [h3, ← reach_last (n := 2) rfl, h2]; norm_num, hd, ?_⟩
  have ok : ∀ (i : Nat) (cur : ℝ), i < 2 → Located [((0 : ℝ), (0 : ℝ)), (2, 0), (0, 0)] i cur → ∃ p,
      gaussCyclic g fuel [0, 2, 4] [((0 : ℝ), (0 : ℝ)), (2, 0), (0, 0)] i cur = .ok p := by
    intro i cur hi hloc
    obtain ⟨p, hp, -⟩ := gaussCyclic_ok hg.pos (n := 2) rfl le_rfl hf hloc (by rw [h2, h3]; norm_num) (by omega) hd.reach hg.radius
    rw [harc] at hp
    exact ⟨p, hp⟩
  obtain ⟨p0, e0⟩ := ok 0 0 (by omega) ⟨by simp, le_rfl, by rw [reach_zero], by simp⟩
  obtain ⟨p1, e1⟩ := ok 1 1 (by omega) ⟨by simp, by norm_num, by rw [h1]; norm_num, by
    intro k hk
    rw [show k = 0 by omega, reach_zero]; norm_num⟩
  obtain ⟨p2, e2⟩ := ok 1 2 (by omega) ⟨by simp, by norm_num, by rw [h1], by
    intro k hk
    rw [show k = 0 by omega, reach_zero]; norm_num⟩
  have e3 : gaussCyclic g fuel [0, 2, 4] [((0 : ℝ), (0 : ℝ)), (2, 0), (0, 0)] (2 : Nat) 3 = .hang := by
    have : ∀ (f j : Nat) (s : GSum), 2 ≤ j → gaussLoop g (cyclicRight [0, 2, 4] [((0 : ℝ), (0 : ℝ)), (2, 0), (0, 0)]) 3 1 f j s = .hang := by
      intro f
      induction f with
      | zero => intro j s _; rfl
      | succ f ih =>
        intro j s hj
        have hs : ∃ q : ℝ × Pt ℝ, cyclicRight [0, 2, 4] [((0 : ℝ), (0 : ℝ)), (2, 0), (0, 0)] j = .ok q ∧ ¬ ((1 : Int) * (q.1 - 3) > g.radius) := by
          have hm : (j : Int).tmod 2 = 0 ∨ (j : Int).tmod 2 = 1 := by
            rw [Int.tmod_eq_emod_of_nonneg (by omega)]; omega
          unfold cyclicRight
          simp only [List.length_cons, List.length_nil, Nat.reduceAdd, Nat.cast_ofNat, Int.reduceSub]
          rw [show rdI [(0 : ℝ), 2, 4] 2 = .ok 4 by rfl, Outcome.bind_ok]
          rcases hm with hm | hm
          · rw [hm, show rdI [(0 : ℝ), 2, 4] 0 = .ok 0 by rfl, Outcome.bind_ok, show rdI [((0 : ℝ), (0 : ℝ)), (2, 0), (0, 0)] 0 = .ok (0, 0) by rfl, Outcome.bind_ok,
              if_pos (by omega)]
            exact ⟨_, rfl, by rw [h3]; norm_num⟩
          · rw [hm, show rdI [(0 : ℝ), 2, 4] 1 = .ok 2 by rfl, Outcome.bind_ok, show rdI [((0 : ℝ), (0 : ℝ)), (2, 0), (0, 0)] 1 = .ok (2, 0) by rfl, Outcome.bind_ok,
              if_pos (by omega)]
            exact ⟨_, rfl, by rw [h3]; norm_num⟩
        obtain ⟨q, hq1, hq2⟩ := hs
        rw [gaussLoop, hq1, Outcome.bind_ok, if_neg hq2]
        exact ih (j + 1) _ (by omega)
    rw [gaussCyclic, this fuel 2 _ le_rfl]; rfl
  have hq : (⌈(4 : ℝ) / 1⌉ : ℤ) = 4 := by rw [Int.ceil_eq_iff]; norm_num
  have s0 : search [(0 : ℝ), 2, 4] 0 3 0 = .ok 0 := by norm_num [search, rd, Outcome.bind]
  have s1 : search [(0 : ℝ), 2, 4] 1 3 0 = .ok 1 := by norm_num [search, rd, Outcome.bind]
  have s2 : search [(0 : ℝ), 2, 4] 2 2 1 = .ok 1 := by norm_num [search, rd, Outcome.bind]
  have s3 : search [(0 : ℝ), 2, 4] 3 2 1 = .ok 2 := by norm_num [search, rd, Outcome.bind]
  rw [gaussianFilter, if_neg (by simp), harc, rd_ok (x := (4 : ℝ)) (by rfl), Outcome.bind_ok, if_neg (by rw [h3]; norm_num), rd_ok (x := ((0 : ℝ), (0 : ℝ))) (by rfl), Outcome.bind_ok,
    rd_ok (x := ((0 : ℝ), (0 : ℝ))) (by rfl), Outcome.bind_ok, quot_ok (by norm_num), Outcome.bind_ok, hq]
  have hdec : decide (((0 : ℝ), (0 : ℝ)) ≠ (0, 0)) = false := by simp
  rw [hdec, show (4 : Int).toNat = 3 + 1 by rfl]
  have b0 : gaussBody g fuel false [((0 : ℝ), (0 : ℝ)), (2, 0), (0, 0)] (4 / ((4 : Int) : ℝ)) 0 ([], 0) = .ok ([p0], 0) := by
    rw [gaussBody, harc, show ((0 : Nat) : ℝ) * (4 / ((4 : Int) : ℝ)) = 0 by norm_num]
    simp only [List.length_cons, List.length_nil, Nat.sub_zero, Nat.reduceAdd, Bool.false_eq_true, if_false]
    rw [s0, Outcome.bind_ok, e0]; rfl
  have b1 : gaussBody g fuel false [((0 : ℝ), (0 : ℝ)), (2, 0), (0, 0)] (4 / ((4 : Int) : ℝ)) (0 + 1) ([p0], 0) = .ok ([p0, p1], 1) := by
    rw [gaussBody, harc, show ((0 + 1 : Nat) : ℝ) * (4 / ((4 : Int) : ℝ)) = 1 by norm_num]
    simp only [List.length_cons, List.length_nil, Nat.sub_zero, Nat.reduceAdd, Bool.false_eq_true, if_false]
    rw [s1, Outcome.bind_ok, e1]; rfl
  have b2 : gaussBody g fuel false [((0 : ℝ), (0 : ℝ)), (2, 0), (0, 0)] (4 / ((4 : Int) : ℝ)) (0 + 1 + 1) ([p0, p1], 1) = .ok ([p0, p1, p2], 1) := by
    rw [gaussBody, harc, show ((0 + 1 + 1 : Nat) : ℝ) * (4 / ((4 : Int) : ℝ)) = 2 by norm_num]
    simp only [List.length_cons, List.length_nil, Nat.reduceSub, Nat.reduceAdd, Bool.false_eq_true, if_false]
    rw [s2, Outcome.bind_ok, e2]; rfl
  have b3 : gaussBody g fuel false [((0 : ℝ), (0 : ℝ)), (2, 0), (0, 0)] (4 / ((4 : Int) : ℝ)) (0 + 1 + 1 + 1) ([p0, p1, p2], 1) = .hang := by
    rw [gaussBody, harc, show ((0 + 1 + 1 + 1 : Nat) : ℝ) * (4 / ((4 : Int) : ℝ)) = 3 by norm_num]
    simp only [List.length_cons, List.length_nil, Nat.reduceSub, Nat.reduceAdd, Bool.false_eq_true, if_false]
    rw [s3, Outcome.bind_ok, e3]; rfl
  rw [forUp, b0, Outcome.bind_ok, forUp, b1, Outcome.bind_ok, forUp, b2, Outcome.bind_ok, forUp, b3]
  rfl

example : (⟨3, fun _ => 1⟩ : Kernel).Sane ∧ (⟨7 / 2, fun _ => 1⟩ : Kernel).Sane := ⟨boxKernel_sane (by norm_num), boxKernel_sane (by norm_num)⟩

end Verif.Resample
