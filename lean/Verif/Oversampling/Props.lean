import Verif.Oversampling.Lemmas
import Mathlib.Algebra.BigOperators.Field
import Mathlib.Algebra.Order.Field.Rat

/-!
# C48: oversampling convolution

Specification: `reflect` is the mirror extension of the line; the output has
`2 (wo - 1) + 1` values; output `2 p` is the convolution of the mirrored line with the
integer kernel at `p`, output `2 p + 1` with the half-integer kernel at `p + 1/2`.
-/

namespace Verif.Oversampling.Props

open Verif.Oversampling Finset

variable {K : Type} [Field K]

/-- The mirror extension of a line at integer position `m`, written independently of
the model: positions are folded at the first and at the last sample. -/
def Mirror (src : List K) (m : Int) (v : K) : Prop :=
  ∃ t : Nat, src[t]? = some v ∧
    (m = t ∨ m = -t ∨ m = 2 * ((src.length : Int) - 1) - t)

/-- The value the specification asks for at output position `i`. -/
def convSpec (src ik hk : List K) (R Rh : Nat) (i : Nat) : K :=
  if i % 2 = 0 then
    ∑ j ∈ range (2 * R + 1), ik.getD j 0 *
      src.getD (reflect src.length ((i / 2 : Nat) + (R : Int) - j)).toNat 0
  else
    ∑ j ∈ range (2 * Rh), hk.getD j 0 *
      src.getD (reflect src.length ((i / 2 : Nat) + (Rh : Int) - j)).toNat 0

theorem outAt_spec (src ik hk : List K) (R Rh i : Nat) (hi : ik.length = 2 * R + 1)
    (hh : hk.length = 2 * Rh) (h1 : 2 * R + 1 ≤ src.length) (h2 : 2 * Rh ≤ src.length)
    (hlt : i < 2 * (src.length - 1) + 1) :
    outAt src ik hk R Rh i = .ok (convSpec src ik hk R Rh i) := by
  simp only [outAt, convSpec]
  by_cases he : i % 2 = 0
  · rw [if_pos (by omega), if_pos he]
    have := convAt_spec (src := src) (kernel := ik) (lb := (i : Int) / 2 - R) (n := 2 * R + 1) hi
      (fun j hj => by simp only [reflect]; split <;> [skip; split] <;> omega)
    rw [show (i : Int) / 2 - R + ((2 * R + 1 : Nat) : Int) - 1 = (i : Int) / 2 + R by push_cast; ring,
      show ((2 * R + 1 : Nat) : Int) - 1 = 2 * R by push_cast; ring] at this
    rw [this]
    congr 1
    apply Finset.sum_congr rfl
    intro j _
    rw [show (i : Int) / 2 - R + (2 * R - j) = ((i / 2 : Nat) : Int) + R - j by push_cast; ring]
  · rw [if_neg (by omega), if_neg he]
    have := convAt_spec (src := src) (kernel := hk) (lb := (i : Int) / 2 - Rh + 1) (n := 2 * Rh) hh
      (fun j hj => by simp only [reflect]; split <;> [skip; split] <;> omega)
    rw [show (i : Int) / 2 - Rh + 1 + ((2 * Rh : Nat) : Int) - 1 = (i : Int) / 2 + Rh by
        push_cast; ring,
      show ((2 * Rh : Nat) : Int) - 1 = 2 * Rh - 1 by push_cast; ring] at this
    rw [this]
    congr 1
    apply Finset.sum_congr rfl
    intro j _
    rw [show (i : Int) / 2 - Rh + 1 + (2 * Rh - 1 - j) = ((i / 2 : Nat) : Int) + Rh - j by
      push_cast; ring]

/-- C48: for every line, every pair of kernels of odd/even size satisfying the
precondition, the call reads only inside the line and the kernels, writes
`2 (wo - 1) + 1` values, and the values are the mirrored convolutions. -/
theorem line_exact (src ik hk : List K) (R Rh : Nat) (hi : ik.length = 2 * R + 1)
    (hh : hk.length = 2 * Rh) (h1 : 2 * R + 1 ≤ src.length) (h2 : 2 * Rh ≤ src.length) :
    convolutionLine src ik R hk Rh =
      .ok ((List.range (2 * (src.length - 1) + 1)).map (convSpec src ik hk R Rh)) := by
  simp only [convolutionLine]
  rw [if_neg (not_not.2 (by omega))]
  rw [show (2 * ((src.length : Int) - 1) + 1).toNat = 2 * (src.length - 1) + 1 by omega]
  have := outLoop_spec (convSpec src ik hk R Rh) (2 * (src.length - 1) + 1) 0
    (src := src) (ik := ik) (hk := hk) (R := R) (Rh := Rh)
    (fun j _ h => outAt_spec src ik hk R Rh j hi hh h1 h2 (by omega))
  rw [Nat.cast_zero] at this
  rw [this, List.range_eq_range']

/-- C48: with kernels larger than the line the call throws and reads nothing. -/
theorem line_precondition (src ik hk : List K) (R Rh : Nat)
    (h : src.length < 2 * R + 1 ∨ src.length < 2 * Rh) :
    convolutionLine src ik R hk Rh = .precond := by
  simp only [convolutionLine]
  rw [if_pos (by omega)]

/-- C48: the samples used are those of the mirror extension, independently described:
each position that occurs in `convSpec` belongs to the extension of the line. -/
theorem reflect_mirror (src : List K) (m : Int) (h1 : -(src.length : Int) < m)
    (h2 : m < 2 * (src.length : Int) - 1) :
    Mirror src m (src.getD (reflect src.length m).toNat 0) := by
  have hr : 0 ≤ reflect src.length m ∧ reflect src.length m < src.length := by
    simp only [reflect]; split <;> [skip; split] <;> omega
  refine ⟨(reflect src.length m).toNat, ?_, ?_⟩
  · rw [List.getD, List.getElem?_eq_getElem (by omega)]; simp
  · simp only [reflect]; split <;> [skip; split] <;> omega

/-- C48: a constant line stays constant under kernels that sum up to one. -/
theorem line_constant (n : Nat) (c : K) (ik hk : List K) (R Rh : Nat)
    (hi : ik.length = 2 * R + 1) (hh : hk.length = 2 * Rh) (h1 : 2 * R + 1 ≤ n)
    (h2 : 2 * Rh ≤ n) (si : ik.sum = 1) (sh : hk.sum = 1) :
    convolutionLine (List.replicate n c) ik R hk Rh =
      .ok (List.replicate (2 * (n - 1) + 1) c) := by
  rw [line_exact _ _ _ _ _ hi hh (by simpa using h1) (by simpa using h2)]
  have hsum : ∀ (k : List K) (m : Nat), k.length = m → ∑ j ∈ range m, k.getD j 0 = k.sum := by
    intro k m hm
    subst hm
    induction k with
    | nil => simp
    | cons x k ih =>
      rw [List.length_cons, Finset.sum_range_succ', List.sum_cons, ← ih]
      simp [add_comm]
  congr 1
  rw [List.length_replicate, List.eq_replicate_iff]
  refine ⟨by simp, ?_⟩
  intro b hb
  obtain ⟨i, hi', rfl⟩ := List.mem_map.1 hb
  have hi' := List.mem_range.1 hi'
  have hget : ∀ m : Int, -(n : Int) < m → m < 2 * (n : Int) - 1 →
      (List.replicate n c).getD (reflect n m).toNat 0 = c := by
    intro m h3 h4
    have hr : 0 ≤ reflect n m ∧ reflect n m < n := by
      simp only [reflect]; split <;> [skip; split] <;> omega
    have : (reflect n m).toNat < n := by omega
    rw [List.getD, List.getElem?_eq_getElem (by simpa using this)]; simp
  simp only [convSpec, List.length_replicate]
  split
  · rw [Finset.sum_congr rfl (g := fun j => ik.getD j 0 * c) (fun j hj => by
      have hj := Finset.mem_range.1 hj
      rw [hget _ (by omega) (by omega)]), ← Finset.sum_mul, hsum _ _ hi, si, one_mul]
  · rw [Finset.sum_congr rfl (g := fun j => hk.getD j 0 * c) (fun j hj => by
      have hj := Finset.mem_range.1 hj
      rw [hget _ (by omega) (by omega)]), ← Finset.sum_mul, hsum _ _ hh, sh, one_mul]

theorem sum_map_range (f : Nat → K) (n : Nat) :
    ((List.range n).map f).sum = ∑ j ∈ range n, f j := by
  induction n with
  | zero => simp
  | succ n ih => rw [List.range_succ, List.map_append, List.sum_append, ih,
      Finset.sum_range_succ]; simp

section Kernels

variable [LinearOrder K] [IsStrictOrderedRing K]

/-- C48: the smoothing kernels have the sizes the convolution expects and sum up to one,
for every radius, every scale parameter and every positive function in place of `exp`. -/
theorem smooth_kernels (ex : K → K) (hex : ∀ x, 0 < ex x) (s2 : K) (R Rh : Nat) (hR : 1 ≤ Rh) :
    (smoothInt ex s2 R).length = 2 * R + 1 ∧ (smoothInt ex s2 R).sum = 1 ∧
    (smoothHalf ex s2 Rh).length = 2 * Rh ∧ (smoothHalf ex s2 Rh).sum = 1 := by
  refine ⟨by simp [smoothInt], ?_, by simp [smoothHalf], ?_⟩
  · simp only [smoothInt]
    rw [sum_map_range, loopSum_eq, ← Finset.sum_div, sum_sym (gInt ex s2)]
    simp only [gInt_neg]
    have h0 : gInt ex s2 0 = ex 0 := by simp [gInt]
    rw [h0]
    have : ∀ j : Nat, gInt ex s2 (1 + j) + gInt ex s2 (1 + j) = 2 * gInt ex s2 (1 + j) := by
      intro j; ring
    simp only [this]
    apply div_self
    apply ne_of_gt
    have h1 := hex 0
    have h2 : 0 ≤ ∑ j ∈ range R, 2 * gInt ex s2 (1 + j) :=
      Finset.sum_nonneg fun j _ => mul_nonneg (by norm_num) (hex _).le
    linarith
  · simp only [smoothHalf]
    rw [sum_map_range, loopSum_eq, ← Finset.sum_div, sum_sym_half (gHalf ex s2)]
    simp only [gHalf_neg, zero_add]
    have : ∀ j : Nat, gHalf ex s2 j + gHalf ex s2 j = 2 * gHalf ex s2 j := by intro j; ring
    simp only [this]
    apply div_self
    apply ne_of_gt
    apply Finset.sum_pos (fun j _ => mul_pos (by norm_num) (hex _))
    exact ⟨0, by simp; omega⟩

/-- C48: at scale zero (radii 0 and 1) smoothing keeps the samples and inserts the mean of
each pair of neighbours. -/
theorem smooth_scale_zero (ex : K → K) (hex : ∀ x, 0 < ex x) (s2 : K) :
    smoothInt ex s2 0 = [1] ∧ smoothHalf ex s2 1 = [1 / 2, 1 / 2] := by
  refine ⟨?_, ?_⟩
  · simp [smoothInt, loopSum, gInt, List.range_succ, (hex 0).ne']
  · have h := gHalf_neg ex s2 0
    simp only [smoothHalf, loopSum, List.range_succ, List.range_zero]
    have h0 : gHalf ex s2 0 ≠ 0 := (hex _).ne'
    have h1 : gHalf ex s2 (-1) = gHalf ex s2 0 := by simpa using h
    simp only [List.nil_append, List.map_cons, List.map_nil,
      List.cons_append, Nat.cast_zero, Nat.cast_one, zero_sub, sub_self, zero_add, h1]
    have : gHalf ex s2 0 / (2 * gHalf ex s2 0) = 1 / 2 := by field_simp
    rw [this]

/-- Value of a kernel applied to a linear ramp at an inner position: `∑ k_j (p + R - j)`. -/
def ramp (k : List K) (R : Nat) (p : K) : K :=
  ∑ j ∈ range k.length, k.getD j 0 * (p + R - j)

omit [LinearOrder K] [IsStrictOrderedRing K] in
theorem ramp_map (f : Nat → K) (n R : Nat) (p : K) :
    ramp ((List.range n).map f) R p = ∑ j ∈ range n, f j * (p + R - j) := by
  simp only [ramp, List.length_map, List.length_range]
  apply Finset.sum_congr rfl
  intro j hj
  have hj := Finset.mem_range.1 hj
  simp [List.getD, hj]

/-- C48: the derivative kernels sum up to zero (constant lines have zero derivative) and
have exactly slope one on a linear ramp, for every positive radius. -/
theorem derivative_kernels (ex : K → K) (hex : ∀ x, 0 < ex x) (s2 : K) (R : Nat) (hR : 1 ≤ R)
    (p : K) :
    ((derivInt ex s2 R).length = 2 * R + 1 ∧ (derivInt ex s2 R).sum = 0 ∧
      ramp (derivInt ex s2 R) R p = 1) ∧
    ((derivHalf ex s2 R).length = 2 * R ∧ (derivHalf ex s2 R).sum = 0 ∧
      ramp (derivHalf ex s2 R) R p = 1) := by
  refine ⟨⟨by simp [derivInt], ?_, ?_⟩, ⟨by simp [derivHalf], ?_, ?_⟩⟩
  · simp only [derivInt]
    rw [sum_map_range, ← Finset.sum_div, sum_sym (fun i => -(i : K) * gInt ex s2 i)]
    simp only [gInt_neg]
    rw [Finset.sum_eq_zero (fun j _ => by push_cast; ring)]
    simp
  · simp only [derivInt]
    rw [ramp_map]
    have e : ∀ j : Nat, -(((j : Int) - R : Int) : K) * gInt ex s2 ((j : Int) - R) /
        loopSum (fun i => 2 * gInt ex s2 i * i * i) R 1 0 * (p + R - j) =
        (fun i : Int => -(i : K) * gInt ex s2 i * (p - i)) ((j : Int) - R) /
        loopSum (fun i => 2 * gInt ex s2 i * i * i) R 1 0 := by
      intro j; simp only; push_cast; ring
    simp only [e]
    rw [← Finset.sum_div, sum_sym (fun i : Int => -(i : K) * gInt ex s2 i * (p - i)), loopSum_eq]
    simp only [gInt_neg]
    have e2 : ∀ j : Nat, (-((1 + (j : Int) : Int) : K) * gInt ex s2 (1 + j) * (p - ((1 + (j : Int) : Int) : K)) +
        -((-(1 + (j : Int)) : Int) : K) * gInt ex s2 (1 + j) * (p - ((-(1 + (j : Int)) : Int) : K))) =
        2 * gInt ex s2 (1 + j) * ((1 + (j : Int) : Int) : K) * ((1 + (j : Int) : Int) : K) := by
      intro j; push_cast; ring
    simp only [e2]
    rw [show -((0 : Int) : K) * gInt ex s2 0 * (p - ((0 : Int) : K)) = 0 by simp]
    apply div_self
    rw [zero_add]
    apply ne_of_gt
    apply Finset.sum_pos
    · intro j _
      have : (0 : K) < ((1 + (j : Int) : Int) : K) := by
        have : (0 : Int) < 1 + j := by omega
        exact_mod_cast this
      exact mul_pos (mul_pos (mul_pos (by norm_num) (hex _)) this) this
    · exact ⟨0, by simp; omega⟩
  · simp only [derivHalf]
    rw [sum_map_range, ← Finset.sum_div,
      sum_sym_half (fun i => -((i : K) + 1 / 2) * gHalf ex s2 i)]
    simp only [gHalf_neg]
    rw [Finset.sum_eq_zero (fun j _ => by push_cast; ring)]
    simp
  · simp only [derivHalf]
    rw [ramp_map]
    set S := loopSum (fun i => 2 * gHalf ex s2 (i - 1) * ((i : K) - 1 / 2) * ((i : K) - 1 / 2)) R 1 0
      with hS
    have e : ∀ j : Nat, -((((j : Int) - R : Int) : K) + 1 / 2) * gHalf ex s2 ((j : Int) - R) /
        S * (p + R - j) =
        (fun i : Int => -((i : K) + 1 / 2) * gHalf ex s2 i * (p - i)) ((j : Int) - R) / S := by
      intro j; simp only; push_cast; ring
    simp only [e]
    rw [← Finset.sum_div,
      sum_sym_half (fun i : Int => -((i : K) + 1 / 2) * gHalf ex s2 i * (p - i))]
    simp only [gHalf_neg]
    have e2 : ∀ j : Nat, (-(((j : Int) : K) + 1 / 2) * gHalf ex s2 j * (p - ((j : Int) : K)) +
        -(((-1 - (j : Int) : Int) : K) + 1 / 2) * gHalf ex s2 j * (p - ((-1 - (j : Int) : Int) : K))) =
        2 * gHalf ex s2 j * ((j : K) + 1 / 2) * ((j : K) + 1 / 2) := by
      intro j; push_cast; ring
    simp only [e2]
    have hS' : S = ∑ j ∈ range R, 2 * gHalf ex s2 j * ((j : K) + 1 / 2) * ((j : K) + 1 / 2) := by
      rw [hS, loopSum_eq, zero_add]
      apply Finset.sum_congr rfl
      intro j _
      rw [show (1 : Int) + j - 1 = j by ring]
      push_cast
      ring
    rw [hS']
    apply div_self
    apply ne_of_gt
    apply Finset.sum_pos
    · intro j _
      have : (0 : K) < (j : K) + 1 / 2 := by positivity
      exact mul_pos (mul_pos (mul_pos (by norm_num) (hex _)) this) this
    · exact ⟨0, by simp; omega⟩

/-- C48: the same for the fixed kernels used at scale zero. -/
theorem derivative_kernels_scale_zero (p : K) :
    (derivInt0 (K := K)).length = 2 * 1 + 1 ∧ (derivInt0 (K := K)).sum = 0 ∧
      ramp (derivInt0 (K := K)) 1 p = 1 ∧
    (derivHalf0 (K := K)).length = 2 * 1 ∧ (derivHalf0 (K := K)).sum = 0 ∧
      ramp (derivHalf0 (K := K)) 1 p = 1 := by
  refine ⟨rfl, by simp [derivInt0], ?_, rfl, by simp [derivHalf0], ?_⟩
  · simp [ramp, derivInt0, Finset.sum_range_succ]; ring
  · simp [ramp, derivHalf0, Finset.sum_range_succ]

/-- C48: a constant image (smoothing in both directions) stays constant and grows to
`(2 w - 1) × (2 h - 1)`; no read leaves the image. -/
theorem image_constant (w h : Nat) (c : K) (ex : K → K) (hex : ∀ x, 0 < ex x) (s2 : K)
    (R : Nat) (hw : 2 * (R + 1) ≤ w) (hh : 2 * (R + 1) ≤ h) :
    convolution2 (List.replicate w (List.replicate h c)) h
      (smoothInt ex s2 R, R, smoothHalf ex s2 (R + 1), R + 1)
      (smoothInt ex s2 R, R, smoothHalf ex s2 (R + 1), R + 1) =
    .ok (List.replicate (2 * (h - 1) + 1) (List.replicate (2 * (w - 1) + 1) c)) := by
  obtain ⟨k1, k2, k3, k4⟩ := smooth_kernels ex hex s2 R (R + 1) (by omega)
  have line : ∀ n, 2 * (R + 1) ≤ n → convolutionLine (List.replicate n c) (smoothInt ex s2 R) R
      (smoothHalf ex s2 (R + 1)) ((R + 1 : Nat) : Int) = .ok (List.replicate (2 * (n - 1) + 1) c) :=
    fun n hn => line_constant n c _ _ R (R + 1) k1 k3 (by omega) hn k2 k4
  simp only [convolution2]
  rw [mapLines_spec (g := fun _ => List.replicate (2 * (h - 1) + 1) c) (fun l hl => by
    rw [List.eq_of_mem_replicate hl]; exact line h hh)]
  simp only [Outcome.bind_ok, List.map_replicate]
  have hrow : ∀ y ∈ List.range (2 * (h - 1) + 1),
      rowOf (List.replicate w (List.replicate (2 * (h - 1) + 1) c)) y = List.replicate w c := by
    intro y hy
    have hy := List.mem_range.1 hy
    simp [rowOf, List.getD, hy]
  rw [List.map_congr_left hrow, List.map_const', List.length_range,
    mapLines_spec (g := fun _ => List.replicate (2 * (w - 1) + 1) c) (fun l hl => by
      rw [List.eq_of_mem_replicate hl]; exact line w hw)]
  simp

end Kernels

/-- Non-vacuity: a ramp of five samples with the scale-zero smoothing kernels. -/
example : convolutionLine [(0 : ℚ), 1, 2, 3, 4] [1] 0 [1 / 2, 1 / 2] 1 =
    .ok [0, 1 / 2, 1, 3 / 2, 2, 5 / 2, 3, 7 / 2, 4] := by decide +kernel

/-- Non-vacuity: the derivative of a ramp is one away from the ends, and zero at the
mirrored ends. -/
example : convolutionLine [(0 : ℚ), 1, 2, 3, 4] derivInt0 1 derivHalf0 1 =
    .ok [0, 1, 1, 1, 1, 1, 1, 1, 0] := by decide +kernel

/-- A positive function exists (the hypotheses on `ex` are satisfiable). -/
example : ∃ ex : ℚ → ℚ, (∀ x, 0 < ex x) ∧ ex 0 = 1 := ⟨fun _ => 1, fun _ => by norm_num, rfl⟩

end Verif.Oversampling.Props
