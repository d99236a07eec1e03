import Verif.FourEight.ConfigSpec

/-!
# Classification of contour pixels: the neighbourhood as a ring (lemmas)
-/

namespace Verif.FourEight
open Verif Verif.CellImage

/-- all of `i`, ..., `i + k` belong to the set -/
def arc (P : Fin 8 → Bool) (i : Fin 8) : Nat → Bool
  | 0 => P i
  | k + 1 => arc P i k && P (i + Fin.ofNat 8 (k + 1))

/-- `j` is on an arc that begins in `i` -/
def arcTo (P : Fin 8 → Bool) (i j : Fin 8) : Bool := arc P i (j - i).val

/-- the corner between two 4-neighbours of the set is as good as filled -/
def fill (P : Fin 8 → Bool) (k : Fin 8) : Bool := P k || (k.val % 2 = 1 && P (k - 1) && P (k + 1))

def ringConn (P : Fin 8 → Bool) (i j : Fin 8) : Bool := arcTo P i j || arcTo P j i || decide (i = j)

theorem add_sub_val (i j : Fin 8) : i + Fin.ofNat 8 (j - i).val = j := by revert i j; decide

theorem ofNat_succ (i : Fin 8) (k : Nat) : i + Fin.ofNat 8 (k + 1) = i + Fin.ofNat 8 k + 1 := by
  apply Fin.ext
  simp only [Fin.ofNat, Fin.val_add]
  show (i.val + (k + 1) % 8) % 8 = ((i.val + k % 8) % 8 + 1) % 8
  omega

theorem fin_add_sub (a : Fin 8) : a + 1 - 1 = a := by revert a; decide

theorem side_next (i : Fin 8) : sideBySide i (i + 1) = true := by revert i; decide
theorem side_symm (i j : Fin 8) : sideBySide i j = sideBySide j i := by revert i j; decide
theorem touch_next (i : Fin 8) : touching i (i + 1) = true := by revert i; decide
theorem touch_symm (i j : Fin 8) : touching i j = touching j i := by revert i j; decide
theorem touch_corner (k : Fin 8) (h : k.val % 2 = 1) : touching (k - 1) (k + 1) = true := by revert k; decide

theorem Conn.symm {P : Fin 8 → Bool} {adj : Fin 8 → Fin 8 → Bool} (hs : ∀ i j, adj i j = adj j i) {i j : Fin 8} (h : Conn P adj i j) : Conn P adj j i := by
  induction h with
  | refl => exact .refl
  | tail _ h ih => exact Relation.ReflTransGen.head ⟨h.2.1, h.1, by rw [hs]; exact h.2.2⟩ ih

theorem arc_last {P : Fin 8 → Bool} {i : Fin 8} {k : Nat} (h : arc P i k = true) : P (i + Fin.ofNat 8 k) = true := by
  cases k with
  | zero => simpa [arc] using h
  | succ k => simp only [arc, Bool.and_eq_true] at h; exact h.2

theorem conn_of_arc {P : Fin 8 → Bool} {i : Fin 8} : ∀ {k : Nat}, arc P i k = true → Conn P sideBySide i (i + Fin.ofNat 8 k)
  | 0, _ => by
    have e : i + Fin.ofNat 8 0 = i := by simp
    rw [e]; exact .refl
  | k + 1, h => by
    have h' := h
    simp only [arc, Bool.and_eq_true] at h'
    refine (conn_of_arc h'.1).tail ⟨arc_last h'.1, arc_last h, ?_⟩
    rw [ofNat_succ]; exact side_next _

theorem conn_of_fill {P : Fin 8 → Bool} {i : Fin 8} (hi : P i = true) : ∀ (k : Nat), arc (fill P) i k = true →
    P (i + Fin.ofNat 8 k) = true → Conn P touching i (i + Fin.ofNat 8 k)
  | 0, _, _ => by
    have e : i + Fin.ofNat 8 0 = i := by simp
    rw [e]; exact .refl
  | 1, _, hl => by
    refine Relation.ReflTransGen.single ⟨hi, hl, ?_⟩
    rw [ofNat_succ]; simpa using touch_next i
  | k + 2, h, hl => by
    simp only [arc, Bool.and_eq_true] at h
    by_cases hm : P (i + Fin.ofNat 8 (k + 1)) = true
    · refine (conn_of_fill hi (k + 1) (by simp only [arc, Bool.and_eq_true]; exact h.1) hm).tail ⟨hm, hl, ?_⟩
      rw [ofNat_succ i (k + 1)]; exact touch_next _
    · have hf := h.1.2
      unfold fill at hf
      simp only [hm, Bool.false_or, Bool.and_eq_true, decide_eq_true_eq] at hf
      have e : i + Fin.ofNat 8 (k + 1) - 1 = i + Fin.ofNat 8 k := by rw [ofNat_succ]; exact fin_add_sub _
      have hprev : P (i + Fin.ofNat 8 k) = true := by rw [← e]; exact hf.1.2
      refine (conn_of_fill hi k h.1.1 hprev).tail ⟨hprev, hl, ?_⟩
      have := touch_corner _ hf.1.1
      rwa [e, ← ofNat_succ i (k + 1)] at this

/-- a function on the ring from its eight values -/
def ring8 (b : Bool × Bool × Bool × Bool × Bool × Bool × Bool × Bool) : Fin 8 → Bool
  | 0 => b.1 | 1 => b.2.1 | 2 => b.2.2.1 | 3 => b.2.2.2.1 | 4 => b.2.2.2.2.1 | 5 => b.2.2.2.2.2.1 | 6 => b.2.2.2.2.2.2.1
  | 7 => b.2.2.2.2.2.2.2

theorem ring8_all {p : (Fin 8 → Bool) → Prop}
    (h : ∀ b0 b1 b2 b3 b4 b5 b6 b7 : Bool, p (ring8 (b0, b1, b2, b3, b4, b5, b6, b7))) (n : Fin 8 → Bool) : p n := by
  have : n = ring8 (n 0, n 1, n 2, n 3, n 4, n 5, n 6, n 7) := by
    funext k
    match k with
    | 0 => rfl | 1 => rfl | 2 => rfl | 3 => rfl | 4 => rfl | 5 => rfl | 6 => rfl | 7 => rfl
  rw [this]; exact h ..

theorem ring_step4 (n : Fin 8 → Bool) : ∀ i j k : Fin 8, ringConn n i j = true → n j = true → n k = true → sideBySide j k = true →
    ringConn n i k = true := by
  revert n
  apply ring8_all
  decide +kernel

theorem ring_step8 (n : Fin 8 → Bool) : ∀ i j k : Fin 8, ringConn (fill n) i j = true → n j = true → n k = true → touching j k = true →
    ringConn (fill n) i k = true := by
  revert n
  apply ring8_all
  decide +kernel

theorem conn4_iff (n : Fin 8 → Bool) (i j : Fin 8) : Conn n sideBySide i j ↔ ringConn n i j = true := by
  constructor
  · intro h
    induction h with
    | refl => simp [ringConn]
    | tail _ h ih => exact ring_step4 n _ _ _ ih h.1 h.2.1 h.2.2
  · intro h
    unfold ringConn at h
    simp only [Bool.or_eq_true, decide_eq_true_eq] at h
    rcases h with (h | h) | h
    · have := conn_of_arc h; rwa [add_sub_val] at this
    · have := conn_of_arc h; rw [add_sub_val] at this; exact this.symm side_symm
    · subst h; exact .refl

theorem conn8_iff (n : Fin 8 → Bool) (i j : Fin 8) (hi : n i = true) (hj : n j = true) : Conn n touching i j ↔ ringConn (fill n) i j = true := by
  constructor
  · intro h
    clear hj
    induction h with
    | refl => simp [ringConn]
    | tail _ h ih => exact ring_step8 n _ _ _ ih h.1 h.2.1 h.2.2
  · intro h
    unfold ringConn at h
    simp only [Bool.or_eq_true, decide_eq_true_eq] at h
    rcases h with (h | h) | h
    · have := conn_of_fill hi _ h (by rw [add_sub_val]; exact hj); rwa [add_sub_val] at this
    · have := conn_of_fill hj _ h (by rw [add_sub_val]; exact hi); rw [add_sub_val] at this; exact this.symm touch_symm
    · subst h; exact .refl

end Verif.FourEight
