import Verif.Polygon.Model
import Mathlib.Tactic.Abel
import Mathlib.Tactic.Ring
import Mathlib.Tactic.LinearCombination
import Mathlib.Algebra.Order.Ring.Rat

/-! # Lemmas about `pathSum` -/

namespace Verif.Polygon
open Verif Verif.GeoMap

variable {K M : Type} [AddCommGroup M] (g : Pt K → Pt K → M)

/-- `g` at a junction of two optional points -/
def joint (a b : Option (Pt K)) : M :=
  match a, b with
  | some a, some b => g a b
  | _, _ => 0

@[simp] theorem joint_none_left (b : Option (Pt K)) : joint g none b = 0 := by simp [joint]
@[simp] theorem joint_none_right (a : Option (Pt K)) : joint g a none = 0 := by cases a <;> simp [joint]
@[simp] theorem joint_some (a b : Pt K) : joint g (some a) (some b) = g a b := by simp [joint]

@[simp] theorem pathSum_nil : pathSum g ([] : List (Pt K)) = 0 := rfl
@[simp] theorem pathSum_single (p : Pt K) : pathSum g [p] = 0 := rfl

theorem pathSum_cons (p : Pt K) (l : List (Pt K)) : pathSum g (p :: l) = joint g (some p) l.head? + pathSum g l := by
  cases l <;> simp [pathSum]

theorem pathSum_append (A B : List (Pt K)) :
    pathSum g (A ++ B) = pathSum g A + joint g A.getLast? B.head? + pathSum g B := by
  induction A with
  | nil => simp
  | cons a A ih =>
    rw [List.cons_append, pathSum_cons, pathSum_cons, ih]
    cases A with
    | nil => simp
    | cons b A => simp only [List.cons_append, List.head?_cons, List.getLast?_cons_cons]; abel

theorem pathSum_reverse (hs : ∀ p q, g q p = g p q) (A : List (Pt K)) : pathSum g A.reverse = pathSum g A := by
  induction A with
  | nil => simp
  | cons a A ih =>
    rw [List.reverse_cons, pathSum_append, ih, pathSum_cons g a A, List.getLast?_reverse]
    cases A with
    | nil => simp
    | cons b A => simp [hs a b]; abel

theorem pathSum_reverse_neg (hs : ∀ p q, g q p = - g p q) (A : List (Pt K)) : pathSum g A.reverse = - pathSum g A := by
  induction A with
  | nil => simp
  | cons a A ih =>
    rw [List.reverse_cons, pathSum_append, ih, pathSum_cons g a A, List.getLast?_reverse]
    cases A with
    | nil => simp
    | cons b A => simp [hs a b]

/-- gluing at a common point -/
theorem pathSum_glue {A B : List (Pt K)} (hA : A ≠ []) (h : A.getLast? = B.head?) :
    pathSum g (A ++ B.drop 1) = pathSum g A + pathSum g B := by
  cases B with
  | nil => simp at h; exact absurd h hA
  | cons b B =>
    rw [pathSum_append, pathSum_cons, h]
    simp; abel

theorem pathSum_split {l : List (Pt K)} {i : Nat} {x : Pt K} (h : l[i]? = some x) :
    pathSum g (l.take (i + 1)) + pathSum g (l.drop i) = pathSum g l := by
  have hi : i < l.length := by
    rcases Nat.lt_or_ge i l.length with h' | h'
    · exact h'
    · rw [List.getElem?_eq_none h'] at h; simp at h
  have e : l = l.take (i + 1) ++ (l.drop i).drop 1 := by
    rw [List.drop_drop]; exact (List.take_append_drop (i + 1) l).symm
  conv_rhs => rw [e]
  rw [pathSum_glue]
  · intro h'
    have := congrArg List.length h'
    simp at this; subst this; simp at hi
  · rw [List.getLast?_take, List.head?_drop]
    simp [h]

omit [AddCommGroup M] in
theorem getElem?_split {l : List (Pt K)} {i : Nat} {x : Pt K} (h : l[i]? = some x) :
    ∃ A B, l = A ++ x :: B ∧ A.length = i := by
  obtain ⟨hi, hx⟩ := List.getElem?_eq_some_iff.mp h
  refine ⟨l.take i, l.drop (i + 1), ?_, by simp; omega⟩
  rw [← hx, List.getElem_cons_drop hi, List.take_append_drop]

omit [AddCommGroup M] in
theorem prev_of {A B : List (Pt K)} : (if 0 < A.length then (A ++ B)[A.length - 1]? else none) = A.getLast? := by
  cases A with
  | nil => simp
  | cons a A =>
    rw [if_pos (by simp), List.getElem?_append_left (by simp), List.getLast?_eq_getElem?]

/-- rotating a closed polyline -/
theorem pathSum_start (a : Pt K) (A : List (Pt K)) (b : Pt K) (B : List (Pt K)) :
    pathSum g (a :: A ++ b :: B ++ [a]) = pathSum g (b :: B ++ a :: A ++ [b]) := by
  have e : ∀ (a : Pt K) (A : List (Pt K)) (b : Pt K) (B : List (Pt K)),
      pathSum g (a :: A ++ b :: B ++ [a]) = pathSum g (a :: A ++ [b]) + pathSum g (b :: B ++ [a]) := by
    intro a A b B
    rw [← pathSum_glue g (A := a :: A ++ [b]) (B := b :: B ++ [a]) (by simp)
      (by rw [List.getLast?_append]; simp)]; simp
  rw [e, e, add_comm]

/-! ### effect of the single operations -/

theorem sideChange_eq (a : Option (Pt K)) (x y : Pt K) : sideChange g a x y = joint g a (some y) - joint g a (some x) := by
  cases a <;> simp [sideChange]

theorem pathSum_mid (A : List (Pt K)) (x : Pt K) (B : List (Pt K)) :
    pathSum g (A ++ x :: B) = pathSum g A + joint g A.getLast? (some x) + joint g (some x) B.head? + pathSum g B := by
  rw [pathSum_append, pathSum_cons]; simp; abel

theorem joint_comm (hs : ∀ p q, g q p = g p q) (a b : Option (Pt K)) : joint g a b = joint g b a := by
  cases a <;> cases b <;> simp [hs]

theorem pathSum_set (hs : ∀ p q, g q p = g p q) {l : List (Pt K)} {i : Nat} {old : Pt K} (h : l[i]? = some old) (x : Pt K) :
    pathSum g (l.set i x) = pathSum g l + sideChange g (if 0 < i then l[i - 1]? else none) old x + sideChange g l[i + 1]? old x := by
  obtain ⟨A, B, rfl, rfl⟩ := getElem?_split h
  rw [prev_of, List.set_append_right _ _ (Nat.le_refl _), Nat.sub_self, List.set_cons_zero, pathSum_mid, pathSum_mid,
    List.getElem?_append_right (by omega), Nat.add_sub_cancel_left, List.getElem?_cons_succ, sideChange_eq, sideChange_eq,
    joint_comm g hs B[0]?, joint_comm g hs B[0]?, List.head?_eq_getElem?]
  abel

theorem insertChange_eq (a b : Option (Pt K)) (x : Pt K) :
    insertChange g a b x = joint g a (some x) + joint g (some x) b - joint g a b := by
  cases a <;> cases b <;> simp [insertChange]

theorem pathSum_insert {l : List (Pt K)} {i : Nat} (h : i ≤ l.length) (x : Pt K) :
    pathSum g (l.insertIdx i x) = pathSum g l + insertChange g (if 0 < i then l[i - 1]? else none) l[i]? x := by
  obtain ⟨A, B, rfl, rfl⟩ : ∃ A B, l = A ++ B ∧ A.length = i := ⟨l.take i, l.drop i, by simp, by simp [h]⟩
  have e : (A ++ B).insertIdx A.length x = A ++ x :: B := by
    clear h
    induction A with
    | nil => simp
    | cons a A ih => simp [ih]
  rw [e, prev_of, pathSum_mid, pathSum_append, insertChange_eq, List.getElem?_append_right (by omega), Nat.sub_self, List.head?_eq_getElem?]
  abel

end Verif.Polygon
