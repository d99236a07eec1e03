import Verif.CellImage.Model
import Mathlib.Data.Nat.Bitwise
import Mathlib.Tactic.NormNum
import Mathlib.Tactic.Ring

/-! Arithmetic form of the packed words. -/

namespace Verif.CellImage

theorem shl_eq (x n : Nat) : shl x n = (x * 2 ^ n) % 2 ^ 32 := by
  simp [shl, word, Nat.shiftLeft_eq]

/-- A word made of a part that is a multiple of `2^k` and a part below `2^k`. -/
theorem mul_or {a k t : Nat} (h : t < 2 ^ k) : (a * 2 ^ k) ||| t = a * 2 ^ k + t := by
  have := Nat.shiftLeft_add_eq_or_of_lt h a
  rw [Nat.shiftLeft_eq] at this; exact this.symm

theorem shl_eq_mod {x n : Nat} (hn : n ≤ 32) : shl x n = (x % 2 ^ (32 - n)) * 2 ^ n := by
  rw [shl_eq]
  have : (2 : Nat) ^ 32 = 2 ^ (32 - n) * 2 ^ n := by rw [← pow_add]; congr 1; omega
  rw [this, Nat.mul_mod_mul_right]

theorem pack_eq {l t : Nat} (ht : t < 4) : (shl l 2 ||| t) = (l % 2 ^ 30) * 4 + t := by
  rw [shl_eq_mod (by norm_num)]
  exact mul_or (k := 2) (by simpa using ht)

theorem and_three (n : Nat) : n &&& 3 = n % 4 := by
  simpa using Nat.and_two_pow_sub_one_eq_mod n 2

theorem and_3fff (n : Nat) : n &&& 0x3fff = n % 2 ^ 14 := by
  simpa using Nat.and_two_pow_sub_one_eq_mod n 14

theorem shr_eq (n k : Nat) : n >>> k = n / 2 ^ k := Nat.shiftRight_eq_div_pow n k

theorem dart_pack {x y d : Nat} (hx : x < 2 ^ 14) (hy : y < 2 ^ 14) (hd : d < 2 ^ 4) :
    serializeDart ⟨x, y, d⟩ = d * 2 ^ 28 + x * 2 ^ 14 + y := by
  simp only [serializeDart]
  rw [shl_eq, shl_eq, Nat.mod_eq_of_lt (by omega), Nat.mod_eq_of_lt (by omega)]
  have h1 : x * 2 ^ 14 < 2 ^ 28 := by omega
  rw [mul_or h1]
  have : d * 2 ^ 28 + x * 2 ^ 14 = (d * 2 ^ 14 + x) * 2 ^ 14 := by ring
  rw [this, mul_or hy]

theorem code_lt {t : CellType} (h : t ≠ .vertexOrLine ∧ t ≠ .errorOrLine) : t.code < 4 := by
  cases t <;> simp_all [CellType.code]

theorem ofCode_code (t : CellType) : CellType.ofCode t.code = t := by cases t <;> rfl

theorem code_ofCode {n : Nat} (h : n < 4) : (CellType.ofCode n).code = n := by
  match n, h with
  | 0, _ => rfl
  | 1, _ => rfl
  | 2, _ => rfl
  | 3, _ => rfl

end Verif.CellImage
