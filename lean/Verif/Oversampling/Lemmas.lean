import Verif.Oversampling.Model
import Mathlib.Algebra.BigOperators.Ring.Finset
import Mathlib.Algebra.BigOperators.Intervals
import Mathlib.Algebra.Order.BigOperators.Ring.Finset
import Mathlib.Tactic.Linarith
import Mathlib.Tactic.Ring
import Mathlib.Tactic.FieldSimp

/-! Lemmas about the convolution loops and the kernels. -/

namespace Verif.Oversampling

open Finset

variable {K : Type} [Field K]

theorem readAt_ok {l : List K} {i : Int} (h0 : 0 ≤ i) (h1 : i < l.length) :
    readAt l i = .ok (l.getD i.toNat 0) := by
  have h2 : i.toNat < l.length := by omega
  simp [readAt, not_lt.2 h0, List.getD, h2]

theorem sumLoop_spec {src kernel : List K} {mm : Int → Int} (n : Nat) (m k : Int) (s : K)
    (hk : ∀ j : Nat, j < n → 0 ≤ k - j ∧ k - j < kernel.length)
    (hm : ∀ j : Nat, j < n → 0 ≤ mm (m + j) ∧ mm (m + j) < src.length) :
    sumLoop src kernel mm n m k s = .ok (s + ∑ j ∈ range n,
      kernel.getD (k - j).toNat 0 * src.getD (mm (m + j)).toNat 0) := by
  induction n generalizing m k s with
  | zero => simp [sumLoop]
  | succ n ih =>
    have h0 := hk 0 (by omega)
    have h1 := hm 0 (by omega)
    simp only [Nat.cast_zero, sub_zero, add_zero] at h0 h1
    rw [sumLoop, readAt_ok h0.1 h0.2, readAt_ok h1.1 h1.2]
    simp only [Outcome.bind_ok]
    rw [ih (m + 1) (k - 1) _
      (fun j hj => by have := hk (j + 1) (by omega); push_cast at this; constructor <;> omega)
      (fun j hj => by
        have := hm (j + 1) (by omega); push_cast at this
        rw [show m + 1 + (j : Int) = m + ((j : Int) + 1) by ring]; exact this)]
    rw [Finset.sum_range_succ']
    congr 1
    simp only [Nat.cast_zero, sub_zero, add_zero]
    rw [add_assoc, add_comm (kernel.getD k.toNat 0 * _)]
    congr 2
    apply Finset.sum_congr rfl
    intro j _
    push_cast
    rw [show k - 1 - (j : Int) = k - ((j : Int) + 1) by ring,
      show m + 1 + (j : Int) = m + ((j : Int) + 1) by ring]

theorem reflect_id {wo m : Int} (h0 : 0 ≤ m) (h1 : m < wo) : reflect wo m = m := by
  simp [reflect, not_lt.2 h0, not_le.2 h1]

/-- Both branches compute the same reflected sum. -/
theorem convAt_spec {src kernel : List K} {lb : Int} {n : Nat}
    (hn : kernel.length = n)
    (hr : ∀ j : Nat, j < n → 0 ≤ reflect src.length (lb + j) ∧
      reflect src.length (lb + j) < src.length) :
    convAt src kernel src.length lb (lb + n - 1) (n - 1) = .ok (∑ j ∈ range n,
      kernel.getD j 0 * src.getD (reflect src.length (lb + (n - 1 - j))).toNat 0) := by
  have key : (∑ j ∈ range n,
      kernel.getD ((n : Int) - 1 - j).toNat 0 * src.getD (reflect src.length (lb + j)).toNat 0) =
      ∑ j ∈ range n,
        kernel.getD j 0 * src.getD (reflect src.length (lb + (n - 1 - j))).toNat 0 := by
    rw [← Finset.sum_range_reflect]
    apply Finset.sum_congr rfl
    intro j hj
    have hj := Finset.mem_range.1 hj
    rw [show ((n : Int) - 1 - ((n - 1 - j : Nat) : Int)).toNat = j by omega,
      show ((n - 1 - j : Nat) : Int) = (n : Int) - 1 - j by omega]
  simp only [convAt]
  rw [show (lb + (n : Int) - 1 - lb + 1).toNat = n by omega]
  split
  · rw [sumLoop_spec n lb _ 0 (fun j hj => by constructor <;> omega) hr, zero_add, key]
  · next h =>
    push Not at h
    by_cases hn0 : n = 0
    · subst hn0; simp [sumLoop]
    have hid : ∀ j : Nat, j < n → reflect src.length (lb + j) = lb + j := by
      intro j hj; exact reflect_id (by omega) (by omega)
    rw [sumLoop_spec n lb _ 0 (fun j hj => by constructor <;> omega)
      (fun j hj => by simp only [id]; constructor <;> omega), zero_add, ← key]
    congr 1
    apply Finset.sum_congr rfl
    intro j hj
    rw [hid j (Finset.mem_range.1 hj)]
    rfl

theorem outLoop_spec {src ik hk : List K} {R Rh : Int} (f : Nat → K) (n : Nat) (i : Nat)
    (h : ∀ j, i ≤ j → j < i + n → outAt src ik hk R Rh j = .ok (f j)) :
    outLoop src ik hk R Rh n i = .ok ((List.range' i n).map f) := by
  induction n generalizing i with
  | zero => rfl
  | succ n ih =>
    rw [outLoop, h i (le_refl _) (by omega)]
    simp only [Outcome.bind_ok]
    have := ih (i + 1) (fun j h1 h2 => h j (by omega) (by omega))
    push_cast at this
    rw [this]
    rfl

omit [Field K] in
theorem mapLines_spec {f : List K → Outcome (List K)} {ls : List (List K)} {g : List K → List K}
    (h : ∀ l ∈ ls, f l = .ok (g l)) : mapLines f ls = .ok (ls.map g) := by
  induction ls with
  | nil => rfl
  | cons l ls ih =>
    rw [mapLines, h l (by simp), ih (fun l hl => h l (by simp [hl]))]
    rfl

/-! ### Kernel sums -/

theorem loopSum_eq (f : Int → K) (n : Nat) (i : Int) (s : K) :
    loopSum f n i s = s + ∑ j ∈ range n, f (i + j) := by
  induction n generalizing i s with
  | zero => simp [loopSum]
  | succ n ih =>
    rw [loopSum, ih, Finset.sum_range_succ']
    simp only [Nat.cast_zero, add_zero]
    have : ∀ j : Nat, i + 1 + (j : Int) = i + ((j + 1 : Nat) : Int) := by intro j; push_cast; ring
    simp only [this]
    ring

/-- A sum over `-R..R` splits into centre and symmetric pairs. -/
theorem sum_sym (f : Int → K) (R : Nat) :
    ∑ j ∈ range (2 * R + 1), f ((j : Int) - R) =
      f 0 + ∑ j ∈ range R, (f (1 + j) + f (-(1 + j))) := by
  induction R with
  | zero => simp
  | succ R ih =>
    rw [Finset.sum_range_succ _ R, ← add_assoc, ← ih,
      show 2 * (R + 1) + 1 = (2 * R + 1) + 1 + 1 by ring,
      Finset.sum_range_succ _ (2 * R + 1 + 1), Finset.sum_range_succ' _ (2 * R + 1)]
    have e : ∀ j : Nat, ((j + 1 : Nat) : Int) - ((R + 1 : Nat) : Int) = (j : Int) - R := by
      intro j; push_cast; ring
    rw [Finset.sum_congr rfl (fun j _ => by rw [e j]),
      show ((2 * R + 1 + 1 : Nat) : Int) - ((R + 1 : Nat) : Int) = 1 + R by push_cast; ring,
      show ((0 : Nat) : Int) - ((R + 1 : Nat) : Int) = -(1 + R) by push_cast; ring]
    ring

/-- A sum over `-R..R-1` splits into pairs symmetric about `-1/2`. -/
theorem sum_sym_half (f : Int → K) (R : Nat) :
    ∑ j ∈ range (2 * R), f ((j : Int) - R) = ∑ j ∈ range R, (f j + f (-1 - j)) := by
  induction R with
  | zero => simp
  | succ R ih =>
    rw [Finset.sum_range_succ _ R, ← ih, show 2 * (R + 1) = (2 * R) + 1 + 1 by ring,
      Finset.sum_range_succ _ (2 * R + 1), Finset.sum_range_succ' _ (2 * R)]
    have e : ∀ j : Nat, ((j + 1 : Nat) : Int) - ((R + 1 : Nat) : Int) = (j : Int) - R := by
      intro j; push_cast; ring
    rw [Finset.sum_congr rfl (fun j _ => by rw [e j]),
      show ((2 * R + 1 : Nat) : Int) - ((R + 1 : Nat) : Int) = R by push_cast; ring,
      show ((0 : Nat) : Int) - ((R + 1 : Nat) : Int) = -1 - R by push_cast; ring]
    ring

theorem gInt_neg (ex : K → K) (s2 : K) (i : Int) : gInt ex s2 (-i) = gInt ex s2 i := by
  simp only [gInt]; congr 1; push_cast; ring

theorem gHalf_neg [CharZero K] (ex : K → K) (s2 : K) (i : Int) :
    gHalf ex s2 (-1 - i) = gHalf ex s2 i := by
  simp only [gHalf]; congr 1; push_cast; ring

end Verif.Oversampling
