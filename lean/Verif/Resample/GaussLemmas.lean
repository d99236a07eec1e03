import Verif.Resample.Gauss

/-! # Lemmas about the Gaussian filter -/

namespace Verif.Resample
open Verif Verif.GeoMap Verif.DartPos

theorem rdI_nat {α : Type} {l : List α} {k : Nat} {x : α} (h : l[k]? = some x) : rdI l k = .ok x := by
  simp [rdI, rd_ok h]

theorem rdI_last {α : Type} {l : List α} {x : α} (hl : 0 < l.length) (h : l[l.length - 1]? = some x) : rdI l ((l.length : Int) - 1) = .ok x := by
  rw [show ((l.length : Int) - 1) = ((l.length - 1 : Nat) : Int) by omega]; exact rdI_nat h

/-! ## One loop -/

/-- The loop ends without an error if the samples are defined up to one that is too far away. -/
theorem gaussLoop_ends {g : Kernel} (hw : ∀ x, 0 < g.w x) {sample : Int → Outcome (ℝ × Pt ℝ)} {cur : ℝ} {dir : Int} {Q : ℝ × Pt ℝ → Prop} {P : GSum → Prop}
    (hP : ∀ q s, Q q → P s → P (s.1 + g.w (q.1 - cur) • q.2, s.2 + g.w (q.1 - cur))) {N fuel : Nat} (hf : N < fuel) {j : Int} {s : GSum}
    (hs : ∀ t : Nat, t ≤ N → ∃ q, sample (j + dir * t) = .ok q ∧ Q q ∧ (t = N → dir * (q.1 - cur) > g.radius)) (h0 : P s) :
    ∃ s', gaussLoop g sample cur dir fuel j s = .ok s' ∧ P s' ∧ s.2 ≤ s'.2 ∧
      ((∃ q, sample j = .ok q ∧ dir * (q.1 - cur) ≤ g.radius) → s.2 < s'.2) := by
  induction N generalizing j s fuel with
  | zero =>
    obtain ⟨q, e, -, hq⟩ := hs 0 le_rfl
    obtain ⟨fuel, rfl⟩ : ∃ f, fuel = f + 1 := ⟨fuel - 1, by omega⟩
    simp only [Nat.cast_zero, mul_zero, add_zero] at e
    refine ⟨s, by rw [gaussLoop, e, Outcome.bind_ok, if_pos (hq rfl)], h0, le_rfl, ?_⟩
    rintro ⟨q', e', hq'⟩
    rw [e] at e'
    cases e'
    exact absurd hq' (not_le.2 (hq rfl))
  | succ N ih =>
    obtain ⟨q, e, hQ, -⟩ := hs 0 (by omega)
    obtain ⟨fuel, rfl⟩ : ∃ f, fuel = f + 1 := ⟨fuel - 1, by omega⟩
    simp only [Nat.cast_zero, mul_zero, add_zero] at e
    by_cases hq : dir * (q.1 - cur) > g.radius
    · refine ⟨s, by rw [gaussLoop, e, Outcome.bind_ok, if_pos hq], h0, le_rfl, ?_⟩
      rintro ⟨q', e', hq'⟩
      rw [e] at e'
      cases e'
      exact absurd hq' (not_le.2 hq)
    · obtain ⟨s', e1, e2, e3, -⟩ := ih (fuel := fuel) (by omega) (j := j + dir) (fun t ht => by
        obtain ⟨q', a, b, c⟩ := hs (t + 1) (by omega)
        refine ⟨q', ?_, b, fun h => c (by omega)⟩
        rw [← a]; congr 1; push_cast; ring) (hP q s hQ h0)
      have := hw (q.1 - cur)
      simp only at e3
      exact ⟨s', by rw [gaussLoop, e, Outcome.bind_ok, if_neg hq]; exact e1, e2, by linarith, fun _ => by linarith⟩

/-- Two loops that meet points mirrored at `c`: their sums are mirrored too. -/
theorem gaussLoop_mirror {g : Kernel} (hw : ∀ x, 0 < g.w x) (he : ∀ x, g.w (-x) = g.w x) {sa sb : Int → Outcome (ℝ × Pt ℝ)} {cur : ℝ} {c : Pt ℝ}
    {N fuel : Nat} (hf : N < fuel) {a b : Int} {s : GSum}
    (hs : ∀ t : Nat, t ≤ N → ∃ d p, sa (a + t) = .ok (cur + d, p) ∧ sb (b - t) = .ok (cur - d, (2 : ℝ) • c - p) ∧ (t = N → d > g.radius)) :
    ∃ s', gaussLoop g sa cur 1 fuel a s = .ok s' ∧ s.2 ≤ s'.2 ∧ ∀ u, ∃ u', gaussLoop g sb cur (-1) fuel b u = .ok u' ∧
      u'.2 - u.2 = s'.2 - s.2 ∧ (s'.1 - s.1) + (u'.1 - u.1) = (2 * (s'.2 - s.2)) • c := by
  induction N generalizing a b s fuel with
  | zero =>
    obtain ⟨d, p, e1, e2, hq⟩ := hs 0 le_rfl
    obtain ⟨fuel, rfl⟩ : ∃ f, fuel = f + 1 := ⟨fuel - 1, by omega⟩
    simp only [Nat.cast_zero, add_zero, sub_zero] at e1 e2
    refine ⟨s, ?_, le_rfl, fun u => ⟨u, ?_, by simp, by simp⟩⟩
    · rw [gaussLoop, e1, Outcome.bind_ok, if_pos]; simpa using hq rfl
    · rw [gaussLoop, e2, Outcome.bind_ok, if_pos]; simpa using hq rfl
  | succ N ih =>
    obtain ⟨d, p, e1, e2, -⟩ := hs 0 (by omega)
    obtain ⟨fuel, rfl⟩ : ∃ f, fuel = f + 1 := ⟨fuel - 1, by omega⟩
    simp only [Nat.cast_zero, add_zero, sub_zero] at e1 e2
    by_cases hq : d > g.radius
    · refine ⟨s, ?_, le_rfl, fun u => ⟨u, ?_, by simp, by simp⟩⟩
      · rw [gaussLoop, e1, Outcome.bind_ok, if_pos]; simpa using hq
      · rw [gaussLoop, e2, Outcome.bind_ok, if_pos]; simpa using hq
    · obtain ⟨s', f1, f2, f3⟩ := ih (fuel := fuel) (by omega) (a := a + 1) (b := b + -1) (s := (s.1 + g.w d • p, s.2 + g.w d)) (fun t ht => by
        obtain ⟨d', p', x, y, z⟩ := hs (t + 1) (by omega)
        refine ⟨d', p', ?_, ?_, fun h => z (by omega)⟩
        · rw [← x]; congr 1; push_cast; ring
        · rw [← y]; congr 1; push_cast; ring)
      have := hw d
      simp only at f2
      refine ⟨s', ?_, by linarith, fun u => ?_⟩
      · rw [gaussLoop, e1, Outcome.bind_ok, if_neg (by simpa using hq)]
        simpa using f1
      · obtain ⟨u', v1, v2, v3⟩ := f3 (u.1 + g.w d • ((2 : ℝ) • c - p), u.2 + g.w d)
        refine ⟨u', ?_, ?_, ?_⟩
        · rw [gaussLoop, e2, Outcome.bind_ok, if_neg (by simpa using hq)]
          simpa [he] using v1
        · simp only at v2; linarith
        · simp only at v3
          have h1 := congrArg Prod.fst v3
          have h2 := congrArg Prod.snd v3
          simp only [Prod.fst_add, Prod.snd_add, Prod.fst_sub, Prod.snd_sub, Prod.smul_fst, Prod.smul_snd, smul_eq_mul] at h1 h2
          refine Prod.ext ?_ ?_
          · simp only [Prod.fst_add, Prod.fst_sub, Prod.smul_fst, smul_eq_mul]; linarith
          · simp only [Prod.snd_add, Prod.snd_sub, Prod.smul_snd, smul_eq_mul]; linarith

/-! ## The samples -/

variable {L : List (Pt ℝ)}

theorem arc_rdI (k : Nat) (h : k < L.length) : rdI (arcLengthList L) k = .ok (reach L k) := rdI_nat (arc_get L k h)

theorem pt_rdI (k : Nat) (h : k < L.length) : rdI L k = .ok L[k] := rdI_nat (by simp)

theorem reflectRight_in {n m : Nat} (hL : L.length = n + 1) (h : m ≤ n) :
    reflectRight (arcLengthList L) L m = .ok (reach L m, L[m]'(by omega)) := by
  have hlen := arc_length L (by omega)
  unfold reflectRight
  dsimp only
  rw [hlen, show (L.length : Int) - 1 = (n : Nat) by omega, arc_rdI n (by omega), pt_rdI n (by omega), if_neg (by omega),
    arc_rdI m (by omega), pt_rdI m (by omega)]
  simp only [Outcome.bind_ok]
  rw [if_neg (by omega)]

theorem reflectRight_out {n m : Nat} (hL : L.length = n + 1) (h : m ≤ n) (h0 : 0 < m) :
    reflectRight (arcLengthList L) L ((n : Int) + m) =
      .ok (2 * reach L n - reach L (n - m), (2 : ℝ) • L[n] - L[n - m]'(by omega)) := by
  have hlen := arc_length L (by omega)
  unfold reflectRight
  dsimp only
  rw [hlen, show (L.length : Int) - 1 = (n : Nat) by omega, arc_rdI n (by omega), pt_rdI n (by omega), if_pos (by omega),
    show 2 * (n : Int) - (n + m) = ((n - m : Nat) : Int) by omega, arc_rdI (n - m) (by omega), pt_rdI (n - m) (by omega)]
  simp only [Outcome.bind_ok]
  rw [if_pos (by omega)]

theorem reflectLeft_in {m : Nat} (h : m < L.length) : reflectLeft (arcLengthList L) L m = .ok (reach L m, L[m]) := by
  unfold reflectLeft
  dsimp only
  rw [show |(m : Int)| = (m : Nat) by simp, show (0 : Int) = ((0 : Nat) : Int) by rfl, pt_rdI 0 (by omega), arc_rdI m h, pt_rdI m h]
  simp only [Outcome.bind_ok]
  rw [if_neg (by omega)]

theorem reflectLeft_neg {m : Nat} (h : m < L.length) (h0 : 0 < m) :
    reflectLeft (arcLengthList L) L (-(m : Int)) = .ok (-reach L m, (2 : ℝ) • L[0] - L[m]) := by
  unfold reflectLeft
  dsimp only
  rw [show |(-(m : Int))| = (m : Nat) by simp, show (0 : Int) = ((0 : Nat) : Int) by rfl, pt_rdI 0 (by omega), arc_rdI m h, pt_rdI m h]
  simp only [Outcome.bind_ok]
  rw [if_pos (by omega)]

theorem cyclicRight_in {n m : Nat} (hL : L.length = n + 1) (h : m < n) :
    cyclicRight (arcLengthList L) L m = .ok (reach L m, L[m]) := by
  have hlen := arc_length L (by omega)
  unfold cyclicRight
  dsimp only
  rw [hlen, show (L.length : Int) - 1 = (n : Nat) by omega, arc_rdI n (by omega), Int.tmod_eq_of_lt (by omega) (by omega), arc_rdI m (by omega),
    pt_rdI m (by omega)]
  simp only [Outcome.bind_ok]
  rw [if_neg (by omega)]

theorem cyclicRight_out {n m : Nat} (hL : L.length = n + 1) (h : m < n) :
    cyclicRight (arcLengthList L) L ((n : Int) + m) = .ok (reach L m + reach L n, L[m]) := by
  have hlen := arc_length L (by omega)
  unfold cyclicRight
  dsimp only
  rw [hlen, show (L.length : Int) - 1 = (n : Nat) by omega, arc_rdI n (by omega),
    show ((n : Int) + m).tmod n = m by rw [Int.tmod_eq_emod_of_nonneg (by omega), Int.add_emod_left, Int.emod_eq_of_lt (by omega) (by omega)],
    arc_rdI m (by omega), pt_rdI m (by omega)]
  simp only [Outcome.bind_ok]
  rw [if_pos (by omega)]

theorem cyclicLeft_in {n m : Nat} (hL : L.length = n + 1) (h : m < n) :
    cyclicLeft (arcLengthList L) L m = .ok (reach L m, L[m]) := by
  have hlen := arc_length L (by omega)
  unfold cyclicLeft
  dsimp only
  rw [hlen, show (L.length : Int) - 1 = (n : Nat) by omega, arc_rdI n (by omega),
    show ((m : Int) + n).tmod n = m by rw [Int.tmod_eq_emod_of_nonneg (by omega), Int.add_emod_right, Int.emod_eq_of_lt (by omega) (by omega)],
    arc_rdI m (by omega), pt_rdI m (by omega)]
  simp only [Outcome.bind_ok]
  rw [if_neg (by omega)]

theorem cyclicLeft_neg {n m : Nat} (hL : L.length = n + 1) (h : m < n) :
    cyclicLeft (arcLengthList L) L ((m : Int) - n) = .ok (reach L m - reach L n, L[m]) := by
  have hlen := arc_length L (by omega)
  unfold cyclicLeft
  dsimp only
  rw [hlen, show (L.length : Int) - 1 = (n : Nat) by omega, arc_rdI n (by omega), sub_add_cancel, Int.tmod_eq_of_lt (by omega) (by omega),
    arc_rdI m (by omega), pt_rdI m (by omega)]
  simp only [Outcome.bind_ok]
  rw [if_pos (by omega)]

theorem reach_mono {a b : Nat} (h : a ≤ b) (hb : b < L.length) : reach L a ≤ reach L b := by
  induction b with
  | zero => rw [Nat.le_zero.1 h]
  | succ b ih =>
    rcases Nat.eq_or_lt_of_le h with rfl | h
    · exact le_rfl
    · exact (ih (by omega) (by omega)).trans (reach_mono_succ L b hb)

/-! ## One point -/

/-- The index found by the search for `cur`. -/
structure Located (L : List (Pt ℝ)) (i : Nat) (cur : ℝ) : Prop where
  lt : i < L.length
  nonneg : 0 ≤ cur
  le : cur ≤ reach L i
  before : ∀ k < i, reach L k < cur

theorem gaussMean_pos {s : GSum} (h : 0 < s.2) : gaussMean s = .ok ((1 / s.2) • s.1) := by rw [gaussMean, if_neg h.ne']

theorem gaussReflective_ok {g : Kernel} (hw : ∀ x, 0 < g.w x) {n i fuel : Nat} (hL : L.length = n + 1) (hf : 2 * L.length ≤ fuel) {cur : ℝ}
    (hi : Located L i cur) (hr : g.radius < reach L n) (hd : ∀ k, k + 1 < L.length → reach L (k + 1) - reach L k ≤ 2 * g.radius) (hr0 : 0 ≤ g.radius) :
    ∃ p, gaussReflective g fuel (arcLengthList L) L i cur = .ok p := by
  have hil := hi.lt
  have hcn : cur ≤ reach L n := hi.le.trans (reach_mono (by omega) (by omega))
  obtain ⟨s, e1, -, e2, e3⟩ := gaussLoop_ends hw (sample := reflectRight (arcLengthList L) L) (cur := cur) (dir := 1) (Q := fun _ => True) (P := fun _ => True)
    (fun _ _ _ _ => trivial) (N := 2 * n - i) (fuel := fuel) (by omega) (j := i) (s := (0, 0)) (fun t ht => by
      by_cases h : i + t ≤ n
      · refine ⟨_, by rw [show (i : Int) + 1 * t = ((i + t : Nat) : Int) by push_cast; ring]; exact reflectRight_in hL h, trivial, fun hN => ?_⟩
        have h2 : n = 0 := by omega
        have := reach_zero L
        subst h2
        linarith [hr0]
      · refine ⟨_, by rw [show (i : Int) + 1 * t = (n : Int) + ((i + t - n : Nat) : Int) by omega]; exact reflectRight_out hL (by omega) (by omega), trivial, fun hN => ?_⟩
        dsimp only; rw [show n - (i + t - n) = 0 by omega, reach_zero]
        push_cast
        linarith) trivial
  obtain ⟨u, f1, -, f2, f3⟩ := gaussLoop_ends hw (sample := reflectLeft (arcLengthList L) L) (cur := cur) (dir := -1) (Q := fun _ => True) (P := fun _ => True)
    (fun _ _ _ _ => trivial) (N := i + n - 1) (fuel := fuel) (by omega) (j := (i : Int) - 1) (s := s) (fun t ht => by
      have hn : n ≠ 0 := by
        rintro rfl
        rw [reach_zero] at hr
        linarith
      by_cases h : t < i
      · refine ⟨_, by rw [show (i : Int) - 1 + -1 * t = ((i - 1 - t : Nat) : Int) by omega]; exact reflectLeft_in (by omega), trivial, fun hN => ?_⟩
        omega
      · refine ⟨_, by rw [show (i : Int) - 1 + -1 * t = -((t + 1 - i : Nat) : Int) by omega]; exact reflectLeft_neg (by omega) (by omega), trivial, fun hN => ?_⟩
        have := hi.nonneg
        dsimp only; rw [show t + 1 - i = n by omega]
        push_cast
        linarith) trivial
  simp only at e2
  have hpos : 0 < u.2 := by
    by_cases h : reach L i - cur ≤ g.radius
    · have := e3 ⟨_, reflectRight_in hL (by omega), by simpa using h⟩
      simp only at this
      linarith
    · have hi0 : i ≠ 0 := by
        rintro rfl
        rw [reach_zero] at h
        linarith [hi.nonneg]
      have h1 := hd (i - 1) (by omega)
      rw [show i - 1 + 1 = i by omega] at h1
      have := f3 ⟨_, by rw [show (i : Int) - 1 = ((i - 1 : Nat) : Int) by omega]; exact reflectLeft_in (by omega), by
        push_cast; linarith⟩
      linarith
  exact ⟨_, by rw [gaussReflective, e1, Outcome.bind_ok, f1, Outcome.bind_ok, gaussMean_pos hpos]⟩

/-- At both ends of the polygon the sums are mirrored. -/
theorem gaussReflective_end {g : Kernel} (hw : ∀ x, 0 < g.w x) (he : ∀ x, g.w (-x) = g.w x) {n e fuel : Nat} (hL : L.length = n + 1) (hf : 2 * L.length ≤ fuel)
    (hr : g.radius < reach L n) (hr0 : 0 ≤ g.radius) (hen : e = 0 ∨ e = n) :
    gaussReflective g fuel (arcLengthList L) L e (reach L e) = .ok (L[e]'(by omega)) := by
  obtain ⟨f, rfl⟩ : ∃ f, fuel = f + 1 := ⟨fuel - 1, by omega⟩
  obtain ⟨f', rfl⟩ : ∃ f', f = f' + 1 := ⟨f - 1, by omega⟩
  have hn : n ≠ 0 := by
    rintro rfl
    rw [reach_zero] at hr
    linarith
  have hmono : ∀ fuel a s s', gaussLoop g (reflectRight (arcLengthList L) L) (reach L e) 1 fuel a s = .ok s' →
      gaussLoop g (reflectRight (arcLengthList L) L) (reach L e) 1 (fuel + 1) a s = .ok s' := by
    intro fuel
    induction fuel with
    | zero => intro a s s' h; cases h
    | succ k ih =>
      intro a s s' h
      rw [gaussLoop, Outcome.bind_eq_ok] at h
      obtain ⟨q, h1, h2⟩ := h
      rw [gaussLoop, h1, Outcome.bind_ok]
      by_cases hq : (1 : Int) * (q.1 - reach L e) > g.radius
      · rw [if_pos hq] at h2 ⊢; exact h2
      · rw [if_neg hq] at h2 ⊢; exact ih _ _ _ h2
  obtain ⟨s', e1, e2, e3⟩ := gaussLoop_mirror hw he (sa := reflectRight (arcLengthList L) L) (sb := reflectLeft (arcLengthList L) L) (cur := reach L e)
    (c := L[e]'(by omega)) (N := n - 1) (fuel := f' + 1) (by omega) (a := (e : Int) + 1) (b := (e : Int) - 1)
    (s := ((0 : Pt ℝ) + g.w 0 • L[e]'(by omega), 0 + g.w 0)) (fun t ht => by
      rcases hen with rfl | rfl
      · refine ⟨reach L (t + 1), L[t + 1]'(by omega), ?_, ?_, fun hN => ?_⟩
        · rw [show ((0 : Nat) : Int) + 1 + t = ((t + 1 : Nat) : Int) by push_cast; ring, reflectRight_in hL (by omega)]
          simp [reach_zero]
        · rw [show ((0 : Nat) : Int) - 1 - t = -((t + 1 : Nat) : Int) by push_cast; ring, reflectLeft_neg (by omega) (by omega)]
          simp [reach_zero]
        · rw [hN, show n - 1 + 1 = n by omega]; exact hr
      · refine ⟨reach L e - reach L (e - (t + 1)), (2 : ℝ) • L[e] - L[e - (t + 1)]'(by omega), ?_, ?_, fun hN => ?_⟩
        · rw [show (e : Int) + 1 + t = (e : Int) + ((t + 1 : Nat) : Int) by push_cast; ring, reflectRight_out hL (by omega) (by omega)]
          congr 2; ring
        · rw [show (e : Int) - 1 - t = ((e - (t + 1) : Nat) : Int) by omega, reflectLeft_in (by omega)]
          congr 2
          · ring
          · simp
        · rw [show e - (t + 1) = 0 by omega, reach_zero]; linarith)
  obtain ⟨u', v1, v2, v3⟩ := e3 s'
  have hright : gaussLoop g (reflectRight (arcLengthList L) L) (reach L e) 1 (f' + 1 + 1) e (0, 0) = .ok s' := by
    rw [gaussLoop, reflectRight_in hL (by omega), Outcome.bind_ok, if_neg (by simpa using hr0)]
    simpa using e1
  have hleft : gaussLoop g (reflectLeft (arcLengthList L) L) (reach L e) (-1) (f' + 1 + 1) ((e : Int) - 1) s' = .ok u' := by
    have : ∀ fuel a s s', gaussLoop g (reflectLeft (arcLengthList L) L) (reach L e) (-1) fuel a s = .ok s' →
        gaussLoop g (reflectLeft (arcLengthList L) L) (reach L e) (-1) (fuel + 1) a s = .ok s' := by
      intro fuel
      induction fuel with
      | zero => intro a s s' h; cases h
      | succ k ih =>
        intro a s s' h
        rw [gaussLoop, Outcome.bind_eq_ok] at h
        obtain ⟨q, h1, h2⟩ := h
        rw [gaussLoop, h1, Outcome.bind_ok]
        by_cases hq : ((-1 : Int) : ℝ) * (q.1 - reach L e) > g.radius
        · rw [if_pos hq] at h2 ⊢; exact h2
        · rw [if_neg hq] at h2 ⊢; exact ih _ _ _ h2
    exact this _ _ _ _ v1
  have hw0 := hw 0
  simp only [zero_add] at e2 v2 v3
  have hpos : 0 < u'.2 := by linarith
  rw [gaussReflective, hright, Outcome.bind_ok, hleft, Outcome.bind_ok, gaussMean_pos hpos]
  congr 1
  have hu : u'.2 = g.w 0 + 2 * (s'.2 - g.w 0) := by linarith
  have h1 := congrArg Prod.fst v3
  have h2 := congrArg Prod.snd v3
  simp only [Prod.fst_add, Prod.snd_add, Prod.fst_sub, Prod.snd_sub, Prod.smul_fst, Prod.smul_snd, smul_eq_mul] at h1 h2
  refine Prod.ext ?_ ?_
  · simp only [Prod.smul_fst, smul_eq_mul]
    rw [one_div, inv_mul_eq_div, div_eq_iff hpos.ne', hu]; linarith
  · simp only [Prod.smul_snd, smul_eq_mul]
    rw [one_div, inv_mul_eq_div, div_eq_iff hpos.ne', hu]; linarith

/-- The mean of points around a closed polygon. -/
theorem gaussCyclic_ok {g : Kernel} (hw : ∀ x, 0 < g.w x) {n i fuel : Nat} (hL : L.length = n + 1) (hn : 2 ≤ n) (hf : 2 * L.length ≤ fuel) {cur : ℝ}
    (hi : Located L i cur) (hr : g.radius < reach L n) (hend : i = n → g.radius < reach L (n - 1) + reach L n - cur)
    (hd : ∀ k, k + 1 < L.length → reach L (k + 1) - reach L k ≤ 2 * g.radius) (hr0 : 0 ≤ g.radius) :
    ∃ p, gaussCyclic g fuel (arcLengthList L) L i cur = .ok p ∧
      ∀ u v c : ℝ, (∀ q ∈ L, u * q.1 + v * q.2 ≤ c) → u * p.1 + v * p.2 ≤ c := by
  have hil := hi.lt
  have hcn : cur ≤ reach L n := hi.le.trans (reach_mono (by omega) (by omega))
  let Q : ℝ × Pt ℝ → Prop := fun q => q.2 ∈ L
  let P : GSum → Prop := fun s => ∀ u v c : ℝ, (∀ q ∈ L, u * q.1 + v * q.2 ≤ c) → u * s.1.1 + v * s.1.2 ≤ c * s.2
  have hP : ∀ q s, Q q → P s → P (s.1 + g.w (q.1 - cur) • q.2, s.2 + g.w (q.1 - cur)) := by
    intro q s hq hs u v c h
    have h1 := hs u v c h
    have h2 := mul_le_mul_of_nonneg_left (h _ hq) (hw (q.1 - cur)).le
    simp only [Prod.fst_add, Prod.snd_add, Prod.smul_fst, Prod.smul_snd, smul_eq_mul]
    linarith
  obtain ⟨s, e1, e4, e2, e3⟩ := gaussLoop_ends hw (sample := cyclicRight (arcLengthList L) L) (cur := cur) (dir := 1) hP
    (N := if i = n then n - 1 else n) (fuel := fuel) (by split_ifs <;> omega) (j := i) (s := (0, 0)) (fun t ht => by
      by_cases h : i + t < n
      · refine ⟨_, by rw [show (i : Int) + 1 * t = ((i + t : Nat) : Int) by push_cast; ring]; exact cyclicRight_in hL h, List.getElem_mem _, fun hN => ?_⟩
        split_ifs at hN <;> omega
      · refine ⟨_, by rw [show (i : Int) + 1 * t = (n : Int) + ((i + t - n : Nat) : Int) by omega]; exact cyclicRight_out hL (by split_ifs at ht <;> omega),
          List.getElem_mem _, fun hN => ?_⟩
        split_ifs at hN with hc
        · dsimp only; rw [show i + t - n = n - 1 by omega]
          have := hend hc
          push_cast
          linarith
        · dsimp only; rw [show i + t - n = i by omega]
          have := hi.le
          push_cast
          linarith) (by intro u v c _; simp)
  obtain ⟨u, f1, f4, f2, f3⟩ := gaussLoop_ends hw (sample := cyclicLeft (arcLengthList L) L) (cur := cur) (dir := -1) hP
    (N := if i = 0 then n - 1 else n) (fuel := fuel) (by split_ifs <;> omega) (j := (i : Int) - 1) (s := s) (fun t ht => by
      by_cases h : t < i
      · refine ⟨_, by rw [show (i : Int) - 1 + -1 * t = ((i - 1 - t : Nat) : Int) by omega]; exact cyclicLeft_in hL (by omega), List.getElem_mem _, fun hN => ?_⟩
        split_ifs at hN with hc
        · omega
        · have hin : i = n + 1 := by omega
          omega
      · refine ⟨_, by rw [show (i : Int) - 1 + -1 * t = ((n + i - 1 - t : Nat) : Int) - n by split_ifs at ht <;> omega]; exact cyclicLeft_neg hL (by omega),
          List.getElem_mem _, fun hN => ?_⟩
        split_ifs at hN with hc
        · dsimp only; rw [show n + i - 1 - t = 0 by omega, reach_zero]
          have := hi.nonneg
          push_cast
          linarith
        · dsimp only; rw [show n + i - 1 - t = i - 1 by omega]
          have := hi.before (i - 1) (by omega)
          push_cast
          linarith) e4
  simp only at e2
  have hpos : 0 < u.2 := by
    by_cases h : reach L i - cur ≤ g.radius
    · have := e3 (by
        by_cases hin : i = n
        · refine ⟨_, by rw [show (i : Int) = (n : Int) + ((0 : Nat) : Int) by omega]; exact cyclicRight_out hL (by omega), ?_⟩
          rw [hin] at h
          dsimp only
          rw [reach_zero]
          simpa using h
        · exact ⟨_, cyclicRight_in hL (by omega), by simpa using h⟩)
      simp only at this
      linarith
    · have hi0 : i ≠ 0 := by
        rintro rfl
        rw [reach_zero] at h
        linarith [hi.nonneg]
      have h1 := hd (i - 1) (by omega)
      rw [show i - 1 + 1 = i by omega] at h1
      have := f3 ⟨_, by rw [show (i : Int) - 1 = ((i - 1 : Nat) : Int) by omega]; exact cyclicLeft_in hL (by omega), by
        push_cast; linarith⟩
      linarith
  refine ⟨_, by rw [gaussCyclic, e1, Outcome.bind_ok, f1, Outcome.bind_ok, gaussMean_pos hpos], ?_⟩
  intro a b c h
  have := f4 a b c h
  simp only [Prod.smul_fst, Prod.smul_snd, smul_eq_mul]
  rw [show a * (1 / u.2 * u.1.1) + b * (1 / u.2 * u.1.2) = (a * u.1.1 + b * u.1.2) / u.2 by field_simp, div_le_iff₀ hpos]
  exact this

end Verif.Resample
