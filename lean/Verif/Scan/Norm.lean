import Verif.Scan.Model
import Mathlib.Tactic.Linarith
import Mathlib.Algebra.BigOperators.Group.List.Basic

/-! # Lemmas about normalising a line -/

namespace Verif.Scan

/-- The segment covers pixel `x`. -/
def Seg.Covers (s : Seg) (x : Int) : Prop := s.b ≤ x ∧ x < s.e

instance (s : Seg) (x : Int) : Decidable (s.Covers x) := inferInstanceAs (Decidable (_ ∧ _))

/-- Some segment of the line covers pixel `x`. -/
def Cov (l : List Seg) (x : Int) : Prop := ∃ s ∈ l, s.Covers x

instance (l : List Seg) (x : Int) : Decidable (Cov l x) := inferInstanceAs (Decidable (∃ s ∈ l, _))

/-- The sum of the directions of the segments left of pixel `x`. -/
def leftSum (l : List Seg) (x : Int) : Int := (l.map fun s => if s.e ≤ x then s.d else 0).sum

/-- Sum of all directions. -/
def dirSum (l : List Seg) : Int := (l.map (·.d)).sum

@[simp] theorem cov_nil (x : Int) : ¬ Cov [] x := by simp [Cov]

@[simp] theorem cov_cons (s : Seg) (l : List Seg) (x : Int) :
    Cov (s :: l) x ↔ s.Covers x ∨ Cov l x := by
  simp [Cov]

@[simp] theorem leftSum_nil (x : Int) : leftSum [] x = 0 := rfl

@[simp] theorem leftSum_cons (s : Seg) (l : List Seg) (x : Int) :
    leftSum (s :: l) x = (if s.e ≤ x then s.d else 0) + leftSum l x := by
  simp [leftSum]

@[simp] theorem dirSum_nil : dirSum [] = 0 := rfl

@[simp] theorem dirSum_cons (s : Seg) (l : List Seg) : dirSum (s :: l) = s.d + dirSum l := by
  simp [dirSum]

theorem cov_perm {l l' : List Seg} (h : l.Perm l') (x : Int) : Cov l x ↔ Cov l' x := by
  simp only [Cov, h.mem_iff]

theorem leftSum_perm {l l' : List Seg} (h : l.Perm l') (x : Int) : leftSum l x = leftSum l' x :=
  (h.map _).sum_eq

theorem dirSum_perm {l l' : List Seg} (h : l.Perm l') : dirSum l = dirSum l' :=
  (h.map _).sum_eq

theorem cov_append (l m : List Seg) (x : Int) : Cov (l ++ m) x ↔ Cov l x ∨ Cov m x := by
  simp [Cov, or_and_right, exists_or]

theorem leftSum_append (l m : List Seg) (x : Int) :
    leftSum (l ++ m) x = leftSum l x + leftSum m x := by
  simp [leftSum]

theorem dirSum_append (l m : List Seg) : dirSum (l ++ m) = dirSum l + dirSum m := by
  simp [dirSum]

/-- Sorted by the begin. -/
abbrev Sorted (l : List Seg) : Prop := l.Pairwise Seg.le

theorem joinFrom_cov (a : Seg) (l : List Seg) (hs : Sorted (a :: l)) (x : Int) :
    Cov (joinFrom a l) x ↔ Cov (a :: l) x := by
  induction l generalizing a with
  | nil => simp [joinFrom]
  | cons o l ih =>
    obtain ⟨h1, h2⟩ := List.pairwise_cons.mp hs
    obtain ⟨h3, h4⟩ := List.pairwise_cons.mp h2
    have hao : a.b ≤ o.b := h1 o (List.mem_cons_self)
    simp only [joinFrom]
    by_cases h : o.b ≤ a.e
    · rw [if_pos h, ih (a.join o) (List.pairwise_cons.mpr
        ⟨fun s hs => h1 s (List.mem_cons_of_mem _ hs), h4⟩)]
      simp only [cov_cons, ← or_assoc]
      refine or_congr ?_ Iff.rfl
      simp only [Seg.Covers, Seg.join]
      split <;> omega
    · rw [if_neg h]
      simp only [cov_cons]
      rw [ih o h2, cov_cons]

theorem joinFrom_wf (a : Seg) (l : List Seg) (h : ∀ s ∈ a :: l, s.b ≤ s.e) :
    ∀ s ∈ joinFrom a l, s.b ≤ s.e := by
  induction l generalizing a with
  | nil =>
    intro s hs
    rw [joinFrom, List.mem_singleton] at hs
    exact h s (by simp [hs])
  | cons o l ih =>
    intro s hs
    simp only [joinFrom] at hs
    by_cases hc : o.b ≤ a.e
    · rw [if_pos hc] at hs
      refine ih (a.join o) (fun t ht => ?_) s hs
      rcases List.mem_cons.mp ht with h2 | h2
      · rw [h2]
        have := h a (by simp)
        simp only [Seg.join]
        split <;> omega
      · exact h t (by simp [h2])
    · rw [if_neg hc] at hs
      rcases List.mem_cons.mp hs with h1 | h1
      · rw [h1]
        exact h a (by simp)
      · exact ih o (fun t ht => h t (List.mem_cons_of_mem _ ht)) s h1

theorem joinFrom_begin (a : Seg) (l : List Seg) (hs : Sorted (a :: l)) :
    ∀ s ∈ joinFrom a l, a.b ≤ s.b := by
  induction l generalizing a with
  | nil =>
    intro s h
    rw [joinFrom, List.mem_singleton] at h
    rw [h]
  | cons o l ih =>
    obtain ⟨h1, h2⟩ := List.pairwise_cons.mp hs
    obtain ⟨h3, h4⟩ := List.pairwise_cons.mp h2
    intro s h
    simp only [joinFrom] at h
    by_cases hc : o.b ≤ a.e
    · rw [if_pos hc] at h
      exact ih (a.join o) (List.pairwise_cons.mpr
        ⟨fun s hs => h1 s (List.mem_cons_of_mem _ hs), h4⟩) s h
    · rw [if_neg hc] at h
      rcases List.mem_cons.mp h with h5 | h5
      · rw [h5]
      · exact le_trans (h1 o List.mem_cons_self) (ih o h2 s h5)

/-- The joined line is separated: between two segments there is a free pixel. -/
theorem joinFrom_separated (a : Seg) (l : List Seg) (hs : Sorted (a :: l))
    (hw : ∀ s ∈ a :: l, s.b ≤ s.e) : (joinFrom a l).Pairwise fun s t => s.e < t.b := by
  induction l generalizing a with
  | nil => simp [joinFrom]
  | cons o l ih =>
    obtain ⟨h1, h2⟩ := List.pairwise_cons.mp hs
    obtain ⟨h3, h4⟩ := List.pairwise_cons.mp h2
    simp only [joinFrom]
    by_cases hc : o.b ≤ a.e
    · rw [if_pos hc]
      refine ih (a.join o) (List.pairwise_cons.mpr
        ⟨fun s hs => h1 s (List.mem_cons_of_mem _ hs), h4⟩) fun t ht => ?_
      rcases List.mem_cons.mp ht with h5 | h5
      · rw [h5]
        have := hw a (by simp)
        simp only [Seg.join]
        split <;> omega
      · exact hw t (by simp [h5])
    · rw [if_neg hc]
      refine List.pairwise_cons.mpr ⟨fun s hs => ?_, ih o h2 fun t ht => hw t (List.mem_cons_of_mem _ ht)⟩
      have := joinFrom_begin o l h2 s hs
      omega

theorem joinFrom_dirSum (a : Seg) (l : List Seg) : dirSum (joinFrom a l) = dirSum (a :: l) := by
  induction l generalizing a with
  | nil => simp [joinFrom]
  | cons o l ih =>
    simp only [joinFrom]
    by_cases hc : o.b ≤ a.e
    · rw [if_pos hc, ih]
      simp [Seg.join, add_assoc]
    · rw [if_neg hc, dirSum_cons, ih o, ← dirSum_cons]

theorem joinFrom_leftSum (a : Seg) (l : List Seg) (hs : Sorted (a :: l))
    (hw : ∀ s ∈ a :: l, s.b ≤ s.e) {x : Int} (hx : ¬ Cov (a :: l) x) :
    leftSum (joinFrom a l) x = leftSum (a :: l) x := by
  induction l generalizing a with
  | nil => simp [joinFrom]
  | cons o l ih =>
    obtain ⟨h1, h2⟩ := List.pairwise_cons.mp hs
    obtain ⟨h3, h4⟩ := List.pairwise_cons.mp h2
    have hao : a.b ≤ o.b := h1 o (List.mem_cons_self)
    have hwa := hw a (by simp)
    have hwo := hw o (by simp)
    simp only [joinFrom]
    simp only [cov_cons, Seg.Covers] at hx
    by_cases hc : o.b ≤ a.e
    · rw [if_pos hc, ih (a.join o)]
      · simp only [leftSum_cons, Seg.join]
        split <;> split <;> split <;> omega
      · exact List.pairwise_cons.mpr ⟨fun s hs => h1 s (List.mem_cons_of_mem _ hs), h4⟩
      · intro t ht
        rcases List.mem_cons.mp ht with h5 | h5
        · rw [h5]
          simp only [Seg.join]
          split <;> omega
        · exact hw t (by simp [h5])
      · simp only [cov_cons, Seg.Covers, Seg.join]
        intro h
        rcases h with h | h
        · split at h <;> omega
        · exact hx (.inr (.inr h))
    · rw [if_neg hc]
      rw [leftSum_cons, ih o h2 (fun t ht => hw t (List.mem_cons_of_mem _ ht)), ← leftSum_cons]
      intro h
      exact hx (.inr (by simpa [Seg.Covers] using h))

theorem Seg.join_comm3 (a o o' : Seg) : (a.join o).join o' = (a.join o').join o := by
  simp only [Seg.join, Seg.mk.injEq, true_and]
  refine ⟨by omega, ?_⟩
  split <;> split <;> (try split) <;> (try split) <;> omega

theorem Seg.join_comm {o o' : Seg} (h : o.b = o'.b) : o.join o' = o'.join o := by
  simp only [Seg.join, Seg.mk.injEq]
  refine ⟨h, by omega, ?_⟩
  split <;> split <;> omega

theorem joinFrom_perm (n : Nat) (a : Seg) (l l' : List Seg) (hn : l.length ≤ n) (hp : l.Perm l')
    (hs : Sorted l) (hs' : Sorted l') (hw : ∀ s ∈ l, s.b ≤ s.e) :
    joinFrom a l = joinFrom a l' := by
  induction n generalizing a l l' with
  | zero =>
    have : l = [] := List.length_eq_zero_iff.mp (by omega)
    subst this
    rw [List.nil_perm.mp hp]
  | succ n ih =>
    match l, l', hp, hs, hs' with
    | [], l', hp, _, _ => rw [List.nil_perm.mp hp]
    | o :: l1, [], hp, _, _ => exact absurd hp.symm (by simp)
    | o :: l1, o' :: l1', hp, hs, hs' =>
      obtain ⟨h1, h2⟩ := List.pairwise_cons.mp hs
      obtain ⟨h3, h4⟩ := List.pairwise_cons.mp hs'
      simp only [List.length_cons] at hn
      by_cases he : o = o'
      · subst he
        have hp' := (List.perm_cons o).mp hp
        have := fun a => ih a l1 l1' (by omega) hp' h2 h4
          fun s hs => hw s (List.mem_cons_of_mem _ hs)
        simp only [joinFrom, this]
      · have m1 : o' ∈ l1 := by
          have := hp.mem_iff.mpr (List.mem_cons_self (a := o') (l := l1'))
          rcases List.mem_cons.mp this with h | h
          · exact absurd h.symm he
          · exact h
        have m2 : o ∈ l1' := by
          have := hp.mem_iff.mp (List.mem_cons_self (a := o) (l := l1))
          rcases List.mem_cons.mp this with h | h
          · exact absurd h he
          · exact h
        have hb : o.b = o'.b := le_antisymm (h1 o' m1) (h3 o m2)
        have p1 : l1.Perm (o' :: l1.erase o') := List.perm_cons_erase m1
        have p2 : l1'.Perm (o :: l1'.erase o) := List.perm_cons_erase m2
        have p3 : (l1.erase o').Perm (l1'.erase o) := by
          have : (o' :: o :: l1.erase o').Perm (o' :: o :: l1'.erase o) := by
            refine (List.Perm.swap _ _ _).trans ?_
            exact ((p1.symm.cons o).trans hp).trans (p2.cons o')
          exact (List.perm_cons o).mp ((List.perm_cons o').mp this)
        have s1 : Sorted (l1.erase o') := h2.sublist List.erase_sublist
        have s2 : Sorted (l1'.erase o) := h4.sublist List.erase_sublist
        have s1' : Sorted (o' :: l1.erase o') := List.pairwise_cons.mpr
          ⟨fun s hs => by
            have := h1 s (List.mem_of_mem_erase hs)
            simp only [Seg.le] at this ⊢
            omega, s1⟩
        have s2' : Sorted (o :: l1'.erase o) := List.pairwise_cons.mpr
          ⟨fun s hs => by
            have := h3 s (List.mem_of_mem_erase hs)
            simp only [Seg.le] at this ⊢
            omega, s2⟩
        have w1 : ∀ s ∈ l1, s.b ≤ s.e := fun s hs => hw s (List.mem_cons_of_mem _ hs)
        have w1' : ∀ s ∈ l1', s.b ≤ s.e := fun s hs =>
          hw s (hp.mem_iff.mpr (List.mem_cons_of_mem _ hs))
        have e1 := fun a => ih a l1 _ (by omega) p1 h2 s1' w1
        have hlen : l1'.length ≤ n := by
          have := hp.length_eq
          simp only [List.length_cons] at this
          omega
        have e2 := fun a => ih a l1' _ hlen p2 h4 s2' w1'
        have e3 := fun a => ih a (l1.erase o') _
          (by have := List.length_erase_le (a := o') (l := l1); omega) p3 s1 s2
          fun s hs => w1 s (List.mem_of_mem_erase hs)
        have wo : o.b ≤ o.e := hw o List.mem_cons_self
        have wo' : o'.b ≤ o'.e := w1 o' m1
        simp only [joinFrom, e1, e2, e3]
        by_cases hc : o.b ≤ a.e
        · have hc' : o'.b ≤ a.e := by omega
          have hj : o'.b ≤ (a.join o).e := by
            simp only [Seg.join]
            split <;> omega
          have hj' : o.b ≤ (a.join o').e := by
            simp only [Seg.join]
            split <;> omega
          rw [if_pos hc, if_pos hc', if_pos hj, if_pos hj', Seg.join_comm3]
        · have hc' : ¬ o'.b ≤ a.e := by omega
          rw [if_neg hc, if_neg hc', if_pos (by omega), if_pos (by omega), Seg.join_comm hb]

theorem joinAll_perm {l l' : List Seg} (hp : l.Perm l') (hs : Sorted l) (hs' : Sorted l')
    (hw : ∀ s ∈ l, s.b ≤ s.e) : joinAll l = joinAll l' := by
  -- join behind a segment far to the left, then drop it
  match l, l', hp, hs, hs' with
  | [], l', hp, _, _ => rw [List.nil_perm.mp hp]
  | o :: l1, [], hp, _, _ => exact absurd hp.symm (by simp)
  | o :: l1, o' :: l1', hp, hs, hs' =>
    obtain ⟨h1, h2⟩ := List.pairwise_cons.mp hs
    obtain ⟨h3, h4⟩ := List.pairwise_cons.mp hs'
    have hb : o.b ≤ o'.b := by
      rcases List.mem_cons.mp (hp.mem_iff.mpr (List.mem_cons_self (a := o') (l := l1'))) with h | h
      · rw [h]
      · exact h1 o' h
    have hb' : o'.b ≤ o.b := by
      rcases List.mem_cons.mp (hp.mem_iff.mp (List.mem_cons_self (a := o) (l := l1))) with h | h
      · rw [h]
      · exact h3 o h
    have := joinFrom_perm _ ⟨o.b - 2, 0, o.b - 1⟩ (o :: l1) (o' :: l1') le_rfl hp hs hs' hw
    simp only [joinFrom] at this
    rw [if_neg (by omega), if_neg (by omega)] at this
    exact (List.cons.inj this).2

instance : Std.Total Seg.le := ⟨fun a b => le_total a.b b.b⟩
instance : IsTrans Seg Seg.le := ⟨fun a _ c h1 h2 => show a.b ≤ c.b from le_trans h1 h2⟩

theorem normRow_sorted (r : List Seg) : Sorted (r.insertionSort Seg.le) :=
  List.pairwise_insertionSort Seg.le r

theorem normRow_perm (r : List Seg) : (r.insertionSort Seg.le).Perm r :=
  List.perm_insertionSort Seg.le r

theorem normRow_cov (r : List Seg) (x : Int) : Cov (normRow r) x ↔ Cov r x := by
  rw [← cov_perm (normRow_perm r)]
  have hs := normRow_sorted r
  unfold normRow
  cases h : r.insertionSort Seg.le with
  | nil => rfl
  | cons a l =>
    rw [h] at hs
    exact joinFrom_cov a l hs x

theorem normRow_dirSum (r : List Seg) : dirSum (normRow r) = dirSum r := by
  rw [← dirSum_perm (normRow_perm r)]
  unfold normRow
  cases h : r.insertionSort Seg.le with
  | nil => rfl
  | cons a l => exact joinFrom_dirSum a l

theorem normRow_leftSum {r : List Seg} (hw : ∀ s ∈ r, s.b ≤ s.e) {x : Int} (hx : ¬ Cov r x) :
    leftSum (normRow r) x = leftSum r x := by
  rw [← leftSum_perm (normRow_perm r)]
  rw [← cov_perm (normRow_perm r)] at hx
  have hs := normRow_sorted r
  have hw' : ∀ s ∈ r.insertionSort Seg.le, s.b ≤ s.e := fun s h =>
    hw s ((normRow_perm r).mem_iff.mp h)
  unfold normRow
  cases h : r.insertionSort Seg.le with
  | nil => rfl
  | cons a l =>
    rw [h] at hs hx hw'
    exact joinFrom_leftSum a l hs hw' hx

theorem normRow_separated {r : List Seg} (hw : ∀ s ∈ r, s.b ≤ s.e) :
    (normRow r).Pairwise fun s t => s.e < t.b := by
  have hs := normRow_sorted r
  have hw' : ∀ s ∈ r.insertionSort Seg.le, s.b ≤ s.e := fun s h =>
    hw s ((normRow_perm r).mem_iff.mp h)
  unfold normRow
  cases h : r.insertionSort Seg.le with
  | nil => exact List.Pairwise.nil
  | cons a l =>
    rw [h] at hs hw'
    exact joinFrom_separated a l hs hw'

theorem normRow_wf {r : List Seg} (hw : ∀ s ∈ r, s.b ≤ s.e) : ∀ s ∈ normRow r, s.b ≤ s.e := by
  have hw' : ∀ s ∈ r.insertionSort Seg.le, s.b ≤ s.e := fun s h =>
    hw s ((normRow_perm r).mem_iff.mp h)
  unfold normRow
  cases h : r.insertionSort Seg.le with
  | nil => intro s hs; cases hs
  | cons a l =>
    rw [h] at hw'
    exact joinFrom_wf a l hw'

end Verif.Scan
