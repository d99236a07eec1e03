import Mathlib.GroupTheory.Perm.Cycle.Basic
import Mathlib.Data.Finset.Card
import Mathlib.Data.Fintype.Card
import Mathlib.Tactic.Tauto

/-!
# Cycles of permutations under multiplication with transpositions

Pure permutation lemmas used for the sigma/phi orbits of the map.
-/

namespace Verif.PermLemmas
open Equiv Equiv.Perm

variable {α : Type*}

/-- To show that a relation contains the same-cycle relation it suffices that it is an
equivalence and relates every point with its image. -/
theorem sameCycle_le {f : Perm α} {R : α → α → Prop} (hR : Equivalence R)
    (hf : ∀ x, R x (f x)) {a b : α} (h : SameCycle f a b) : R a b := by
  obtain ⟨n, rfl⟩ := h
  have nat : ∀ (n : ℕ) x, R x ((f ^ n) x) := by
    intro n
    induction n with
    | zero => intro x; exact hR.refl x
    | succ n ih =>
      intro x
      rw [pow_succ', Perm.mul_apply]
      exact hR.trans (ih x) (hf _)
  cases n with
  | ofNat n => simpa using nat n a
  | negSucc n =>
    have := nat (n + 1) ((f ^ Int.negSucc n) a)
    rw [zpow_negSucc, ← Perm.mul_apply, mul_inv_cancel, Perm.one_apply] at this
    rw [zpow_negSucc]
    exact hR.symm this

/-- A predicate that is preserved in both directions by `f` is constant on cycles. -/
theorem sameCycle_iff_of_inv {f : Perm α} {P : α → Prop} (hP : ∀ x, P x ↔ P (f x)) {a b : α}
    (h : SameCycle f a b) : P a ↔ P b :=
  sameCycle_le (R := fun a b => P a ↔ P b)
    ⟨fun _ => Iff.rfl, fun h => h.symm, fun h g => h.trans g⟩ hP h

theorem sameCycle_fixed {f : Perm α} {x y : α} (hx : f x = x) : SameCycle f x y ↔ x = y := by
  constructor
  · intro h
    have := sameCycle_iff_of_inv (f := f) (P := fun z => x = z) (fun z => ?_) h
    · exact this.mp rfl
    · constructor
      · rintro rfl; exact hx.symm
      · intro h; apply f.injective; rw [hx]; exact h
  · rintro rfl; exact SameCycle.refl _ _

variable [DecidableEq α]

/-- Take `x` out of its cycle. -/
def skip (f : Perm α) (x : α) : Perm α := swap x (f x) * f

theorem skip_self (f : Perm α) (x : α) : skip f x x = x := by simp [skip]

theorem skip_of_eq (f : Perm α) {x u : α} (h : f u = x) : skip f x u = f x := by
  simp [skip, h]

theorem skip_of_ne (f : Perm α) {x u : α} (h : f u ≠ x) (hu : u ≠ x) : skip f x u = f u := by
  have : f u ≠ f x := fun e => hu (f.injective e)
  simp [skip, swap_apply_of_ne_of_ne h this]

theorem skip_sameCycle_self (f : Perm α) {x v : α} : SameCycle (skip f x) x v ↔ x = v :=
  sameCycle_fixed (skip_self f x)

theorem sameCycle_skip (f : Perm α) {x u v : α} (hu : u ≠ x) (hv : v ≠ x) :
    SameCycle (skip f x) u v ↔ SameCycle f u v := by
  constructor
  · intro h
    refine sameCycle_le (R := SameCycle f)
      ⟨SameCycle.refl f, fun h => h.symm, fun h g => h.trans g⟩ (fun y => ?_) h
    by_cases hy : y = x
    · subst hy; rw [skip_self]
    · by_cases hfy : f y = x
      · rw [skip_of_eq f hfy, ← hfy]
        exact (sameCycle_apply_right.mpr (sameCycle_apply_right.mpr (SameCycle.refl _ _)))
      · rw [skip_of_ne f hfy hy]
        exact sameCycle_apply_right.mpr (SameCycle.refl _ _)
  · intro h
    set ρ : α → α := fun y => if y = x then f x else y with hρ
    have key : SameCycle (skip f x) (ρ u) (ρ v) := by
      refine sameCycle_le (R := fun a b => SameCycle (skip f x) (ρ a) (ρ b))
        ⟨fun _ => SameCycle.refl _ _, fun h => h.symm, fun h g => h.trans g⟩ (fun y => ?_) h
      by_cases hy : y = x
      · subst hy
        by_cases hfy : f y = y
        · simp [hρ, hfy, SameCycle.refl]
        · simp [hρ, SameCycle.refl]
      · by_cases hfy : f y = x
        · have e1 : ρ y = y := by simp [hρ, hy]
          have e2 : ρ (f y) = skip f x y := by rw [skip_of_eq f hfy, hfy]; simp [hρ]
          rw [e1, e2]
          exact sameCycle_apply_right.mpr (SameCycle.refl _ _)
        · have e1 : ρ y = y := by simp [hρ, hy]
          have e2 : ρ (f y) = skip f x y := by rw [skip_of_ne f hfy hy]; simp [hρ, hfy]
          rw [e1, e2]
          exact sameCycle_apply_right.mpr (SameCycle.refl _ _)
    simpa [hρ, hu, hv] using key

/-- Insert the fixed point `x` before `y` (that is, between `f⁻¹ y` and `y`). -/
def ins (f : Perm α) (x y : α) : Perm α := swap x y * f

theorem skip_ins (f : Perm α) {x y : α} (hx : f x = x) : skip (ins f x y) x = f := by
  ext u
  simp [skip, ins, hx]

theorem ins_self (f : Perm α) {x y : α} (hx : f x = x) : ins f x y x = y := by
  simp [ins, hx]

theorem ins_pred (f : Perm α) (x y : α) : ins f x y (f⁻¹ y) = x := by
  simp [ins]

theorem ins_of_ne (f : Perm α) {x y u : α} (hx : f x = x) (hu : u ≠ x) (hu' : f u ≠ y) :
    ins f x y u = f u := by
  have : f u ≠ x := fun e => hu (f.injective (by rw [e, hx]))
  simp [ins, swap_apply_of_ne_of_ne this hu']

/-- cycles after inserting a fixed point -/
theorem sameCycle_ins (f : Perm α) {x y u v : α} (hx : f x = x) (hu : u ≠ x) (hv : v ≠ x) :
    SameCycle (ins f x y) u v ↔ SameCycle f u v := by
  rw [← sameCycle_skip (ins f x y) hu hv, skip_ins f hx]

theorem sameCycle_ins_self (f : Perm α) {x y v : α} (hx : f x = x) (hxy : y ≠ x) (hv : v ≠ x) :
    SameCycle (ins f x y) x v ↔ SameCycle f y v := by
  rw [← sameCycle_ins f (y := y) hx hxy hv]
  have : SameCycle (ins f x y) x y := by
    have := sameCycle_apply_right.mpr (SameCycle.refl (ins f x y) x)
    rwa [ins_self f hx] at this
  exact ⟨fun h => this.symm.trans h, fun h => this.trans h⟩

/-- every cycle in question is finite -/
def FinCycle (f : Perm α) (a : α) : Prop := ∃ n, 0 < n ∧ (f ^ n) a = a

omit [DecidableEq α] in
theorem finCycle_of_finset (f : Perm α) (L : Finset α) (hL : ∀ x, x ∉ L → f x = x) (a : α) :
    ∃ n, 0 < n ∧ n ≤ L.card + 1 ∧ (f ^ n) a = a := by
  classical
  by_cases ha : a ∈ L
  · have hmem : ∀ n : ℕ, (f ^ n) a ∈ L := by
      intro n
      induction n with
      | zero => simpa using ha
      | succ n ih =>
        rw [pow_succ', Perm.mul_apply]
        by_contra h
        have := hL _ h
        exact h (by rw [f.injective this]; exact ih)
    obtain ⟨i, hi, j, hj, hij, e⟩ := Finset.exists_ne_map_eq_of_card_lt_of_maps_to
      (s := Finset.range (L.card + 1)) (t := L) (by simp) (f := fun n => (f ^ n) a)
      (fun n _ => hmem n)
    simp only [Finset.mem_range] at hi hj
    have aux : ∀ i j : ℕ, i < j → j < L.card + 1 → (f ^ i) a = (f ^ j) a →
        ∃ n, 0 < n ∧ n ≤ L.card + 1 ∧ (f ^ n) a = a := by
      intro i j hlt hj e
      refine ⟨j - i, by omega, by omega, ?_⟩
      apply (f ^ i).injective
      rw [← Perm.mul_apply, ← pow_add, e]
      congr 2; omega
    rcases Nat.lt_or_gt_of_ne hij with h | h
    · exact aux i j h hj e
    · exact aux j i h hi e.symm
  · exact ⟨1, by omega, by omega, by simpa using hL a ha⟩

omit [DecidableEq α] in
/-- on a finite cycle, same-cycle points are reached by natural powers below the period -/
theorem sameCycle_iff_pow {f : Perm α} {a b : α} {n : ℕ} (hn : 0 < n) (hna : (f ^ n) a = a) :
    SameCycle f a b ↔ ∃ k, k < n ∧ (f ^ k) a = b := by
  constructor
  · rintro ⟨z, rfl⟩
    refine ⟨(z % n).toNat, ?_, ?_⟩
    · have := Int.emod_lt_of_pos z (by omega : (0:ℤ) < n)
      have := Int.emod_nonneg z (by omega : (n:ℤ) ≠ 0)
      omega
    · have h0 := Int.emod_nonneg z (by omega : (n:ℤ) ≠ 0)
      have e : (f ^ (z % n).toNat) a = (f ^ (z % (n:ℤ))) a := by
        conv_rhs => rw [← Int.toNat_of_nonneg h0]
        rw [zpow_natCast]
      rw [e]
      have hz : ∀ m : ℤ, (f ^ ((n:ℤ) * m)) a = a := by
        intro m
        rw [zpow_mul, zpow_natCast]
        exact zpow_apply_eq_self_of_apply_eq_self hna m
      conv_rhs => rw [← Int.emod_add_mul_ediv z n]
      rw [zpow_add, Perm.mul_apply, hz]
  · rintro ⟨k, -, rfl⟩
    exact ⟨k, by simp⟩

/-- Multiplying with a transposition of points of two different (finite) cycles joins them. -/
theorem swap_mul_reach {f : Perm α} {r s : α} (hfin : FinCycle f r)
    (hne : ¬ SameCycle f r s) : SameCycle (swap r s * f) r s := by
  obtain ⟨n, hn, hna⟩ := hfin
  classical
  have hex : ∃ n, 0 < n ∧ (f ^ n) r = r := ⟨n, hn, hna⟩
  let m := Nat.find hex
  obtain ⟨hm, hmr⟩ : 0 < m ∧ (f ^ m) r = r := Nat.find_spec hex
  have hmin : ∀ j, 0 < j → j < m → (f ^ j) r ≠ r := fun j h0 hj h => Nat.find_min hex hj ⟨h0, h⟩
  have step : ∀ k, k < m → ((swap r s * f) ^ k) r = (f ^ k) r := by
    intro k
    induction k with
    | zero => simp
    | succ k ih =>
      intro hk
      rw [pow_succ', Perm.mul_apply, ih (by omega), Perm.mul_apply, ← Perm.mul_apply (f := f), ← pow_succ']
      apply swap_apply_of_ne_of_ne
      · exact hmin _ (by omega) hk
      · intro h; exact hne ⟨(k + 1 : ℕ), by rw [zpow_natCast]; exact h⟩
  refine ⟨m, ?_⟩
  rw [zpow_natCast]
  obtain ⟨k, hk⟩ : ∃ k, m = k + 1 := ⟨m - 1, by omega⟩
  rw [hk, pow_succ', Perm.mul_apply, step k (by omega), Perm.mul_apply, ← Perm.mul_apply (f := f),
    ← pow_succ', ← hk, hmr, swap_apply_left]

theorem sameCycle_swap_mul_join {f : Perm α} {r s : α} (hfin : FinCycle f r)
    (hne : ¬ SameCycle f r s) {u v : α} :
    SameCycle (swap r s * f) u v ↔ SameCycle f u v ∨
      ((SameCycle f r u ∨ SameCycle f s u) ∧ (SameCycle f r v ∨ SameCycle f s v)) := by
  have hrs := swap_mul_reach hfin hne
  have fwd : ∀ {u v}, SameCycle f u v → SameCycle (swap r s * f) u v := by
    intro u v h
    refine sameCycle_le (R := SameCycle (swap r s * f))
      ⟨SameCycle.refl _, fun h => h.symm, fun h g => h.trans g⟩ (fun y => ?_) h
    have hy : SameCycle (swap r s * f) y ((swap r s * f) y) :=
      sameCycle_apply_right.mpr (SameCycle.refl _ _)
    by_cases h1 : f y = r
    · have e : (swap r s * f) y = s := by simp [h1]
      rw [e] at hy
      rw [h1]; exact hy.trans hrs.symm
    · by_cases h2 : f y = s
      · have e : (swap r s * f) y = r := by simp [h2]
        rw [e] at hy
        rw [h2]; exact hy.trans hrs
      · have e : (swap r s * f) y = f y := by simp [swap_apply_of_ne_of_ne h1 h2]
        rwa [e] at hy
  constructor
  · intro h
    refine sameCycle_le (R := fun u v => SameCycle f u v ∨
      ((SameCycle f r u ∨ SameCycle f s u) ∧ (SameCycle f r v ∨ SameCycle f s v))) ⟨?_, ?_, ?_⟩ ?_ h
    · intro x; exact Or.inl (SameCycle.refl _ _)
    · rintro x y (h | ⟨h1, h2⟩)
      · exact Or.inl h.symm
      · exact Or.inr ⟨h2, h1⟩
    · rintro x y z (h | ⟨h1, h2⟩) (g | ⟨g1, g2⟩)
      · exact Or.inl (h.trans g)
      · refine Or.inr ⟨?_, g2⟩
        rcases g1 with g1 | g1
        · exact Or.inl (g1.trans h.symm)
        · exact Or.inr (g1.trans h.symm)
      · refine Or.inr ⟨h1, ?_⟩
        rcases h2 with h2 | h2
        · exact Or.inl (h2.trans g)
        · exact Or.inr (h2.trans g)
      · exact Or.inr ⟨h1, g2⟩
    · intro y
      have hy : SameCycle f y (f y) := sameCycle_apply_right.mpr (SameCycle.refl _ _)
      by_cases h1 : f y = r
      · right
        rw [h1] at hy
        refine ⟨Or.inl hy.symm, Or.inr ?_⟩
        simp [h1, SameCycle.refl]
      · by_cases h2 : f y = s
        · right
          rw [h2] at hy
          refine ⟨Or.inr hy.symm, Or.inl ?_⟩
          simp [h2, SameCycle.refl]
        · left
          rw [Perm.mul_apply, swap_apply_of_ne_of_ne h1 h2]; exact hy
  · rintro (h | ⟨h1, h2⟩)
    · exact fwd h
    · have a1 : SameCycle (swap r s * f) r u := by
        rcases h1 with h | h
        · exact fwd h
        · exact hrs.trans (fwd h)
      have a2 : SameCycle (swap r s * f) r v := by
        rcases h2 with h | h
        · exact fwd h
        · exact hrs.trans (fwd h)
      exact a1.symm.trans a2

/-- Multiplying with a transposition of two points of one cycle only refines the cycles. -/
theorem sameCycle_of_swap_mul_split {f : Perm α} {r s : α} (hrs : SameCycle f r s) {u v : α}
    (h : SameCycle (swap r s * f) u v) : SameCycle f u v := by
  refine sameCycle_le (R := SameCycle f)
    ⟨SameCycle.refl _, fun h => h.symm, fun h g => h.trans g⟩ (fun y => ?_) h
  have hy : SameCycle f y (f y) := sameCycle_apply_right.mpr (SameCycle.refl _ _)
  by_cases h1 : f y = r
  · rw [h1] at hy
    have e : (swap r s * f) y = s := by simp [h1]
    rw [e]; exact hy.trans hrs
  · by_cases h2 : f y = s
    · rw [h2] at hy
      have e : (swap r s * f) y = r := by simp [h2]
      rw [e]; exact hy.trans hrs.symm
    · rw [Perm.mul_apply, swap_apply_of_ne_of_ne h1 h2]; exact hy

/-- ... and the cycle falls into (at most) the cycles of the two points. -/
theorem swap_mul_split_cover {f : Perm α} {r s u : α} (h : SameCycle f r u) :
    SameCycle (swap r s * f) r u ∨ SameCycle (swap r s * f) s u := by
  refine (sameCycle_iff_of_inv (f := f)
    (P := fun u => SameCycle (swap r s * f) r u ∨ SameCycle (swap r s * f) s u)
    (fun y => ?_) h).mp (Or.inl (SameCycle.refl _ _))
  have hy : SameCycle (swap r s * f) y ((swap r s * f) y) :=
    sameCycle_apply_right.mpr (SameCycle.refl _ _)
  by_cases h1 : f y = r
  · have e : (swap r s * f) y = s := by simp [h1]
    rw [e] at hy
    rw [h1]
    exact ⟨fun _ => Or.inl (SameCycle.refl _ _), fun _ => Or.inr hy.symm⟩
  · by_cases h2 : f y = s
    · have e : (swap r s * f) y = r := by simp [h2]
      rw [e] at hy
      rw [h2]
      exact ⟨fun _ => Or.inr (SameCycle.refl _ _), fun _ => Or.inl hy.symm⟩
    · have e : (swap r s * f) y = f y := by simp [swap_apply_of_ne_of_ne h1 h2]
      rw [e] at hy
      constructor
      · rintro (h | h)
        · exact Or.inl (h.trans hy)
        · exact Or.inr (h.trans hy)
      · rintro (h | h)
        · exact Or.inl (h.trans hy.symm)
        · exact Or.inr (h.trans hy.symm)

/-- Cycles that contain neither point are unchanged. -/
theorem sameCycle_swap_mul_other {f : Perm α} {r s u v : α} (hr : ¬ SameCycle f u r)
    (hs : ¬ SameCycle f u s) : SameCycle (swap r s * f) u v ↔ SameCycle f u v := by
  have key : ∀ w, SameCycle f u w → (swap r s * f) w = f w := by
    intro w hw
    have := sameCycle_apply_right.mpr hw
    rw [Perm.mul_apply, swap_apply_of_ne_of_ne]
    · rintro h; rw [h] at this; exact hr this
    · rintro h; rw [h] at this; exact hs this
  constructor
  · intro h
    refine (sameCycle_iff_of_inv (f := swap r s * f) (P := fun w => SameCycle f u w)
      (fun y => ?_) h).mp (SameCycle.refl _ _)
    constructor
    · intro hy; rw [key y hy]; exact sameCycle_apply_right.mpr hy
    · intro hy
      -- (swap * f) y in cycle of u; so its f-preimage is y
      have h1 : (swap r s * f) y ≠ r := fun h => hr (h ▸ hy)
      have h2 : (swap r s * f) y ≠ s := fun h => hs (h ▸ hy)
      have : f y = (swap r s * f) y := by
        rw [Perm.mul_apply] at h1 h2 ⊢
        by_cases e1 : f y = r
        · simp [e1] at h2
        · by_cases e2 : f y = s
          · simp [e2] at h1
          · rw [swap_apply_of_ne_of_ne e1 e2]
      rw [← this] at hy
      exact sameCycle_apply_right.mp hy
  · intro h
    refine (sameCycle_iff_of_inv (f := f) (P := fun w => SameCycle (swap r s * f) u w ∧ SameCycle f u w ∨
        (¬ SameCycle f u w))
      (fun y => ?_) h).mp (Or.inl ⟨SameCycle.refl _ _, SameCycle.refl _ _⟩) |>.elim (·.1) (fun h' => absurd h h')
    have e : SameCycle f u (f y) ↔ SameCycle f u y := sameCycle_apply_right
    by_cases hy : SameCycle f u y
    · have e' : SameCycle (swap r s * f) u (f y) ↔ SameCycle (swap r s * f) u y := by
        rw [← key y hy]; exact sameCycle_apply_right
      rw [e, e']
    · simp [hy]

/-- after splitting a cycle at `r`, `s`, the two points are in different cycles -/
theorem not_sameCycle_swap_mul_split {f : Perm α} {r s : α} (hfin : FinCycle f s) (hrs : SameCycle f s r)
    (hne : r ≠ s) : ¬ SameCycle (swap r s * f) s r := by
  classical
  obtain ⟨n, hn, hns⟩ := hfin
  obtain ⟨j, -, hj⟩ := (sameCycle_iff_pow hn hns).mp hrs
  have hex : ∃ k, (f ^ k) s = r := ⟨j, hj⟩
  let k := Nat.find hex
  have hk : (f ^ k) s = r := Nat.find_spec hex
  have hmin : ∀ i < k, (f ^ i) s ≠ r := fun i hi => Nat.find_min hex hi
  have hk0 : 0 < k := by
    rcases Nat.eq_zero_or_pos k with h | h
    · rw [h] at hk; exact absurd hk.symm hne
    · exact h
  have hs : ∀ i, 0 < i → i < k → (f ^ i) s ≠ s := by
    intro i h0 hi e
    apply hmin (k - i) (by omega)
    have : (f ^ (k - i)) ((f ^ i) s) = r := by
      rw [← Perm.mul_apply, ← pow_add, Nat.sub_add_cancel (by omega)]; exact hk
    rwa [e] at this
  have hsucc : ∀ i, f ((f ^ i) s) = (f ^ (i + 1)) s := fun i => by rw [pow_succ', Perm.mul_apply]
  intro hc
  have := (sameCycle_iff_of_inv (f := swap r s * f) (P := fun x => ∃ i, i < k ∧ x = (f ^ i) s) (fun x => ?_) hc).mp
    ⟨0, hk0, rfl⟩
  · obtain ⟨i, hi, e⟩ := this
    exact hmin i hi e.symm
  · rw [Perm.mul_apply]
    constructor
    · rintro ⟨i, hi, rfl⟩
      rw [hsucc]
      by_cases h1 : i + 1 = k
      · exact ⟨0, hk0, by rw [h1, hk, swap_apply_left]; rfl⟩
      · exact ⟨i + 1, by omega, by rw [swap_apply_of_ne_of_ne (hmin _ (by omega)) (hs _ (by omega) (by omega))]⟩
    · rintro ⟨i, hi, e⟩
      have e' : f x = swap r s ((f ^ i) s) := by rw [← e, swap_apply_self]
      rcases Nat.eq_zero_or_pos i with rfl | h0
      · rw [pow_zero, Perm.one_apply, swap_apply_right, ← hk, ← Nat.sub_add_cancel hk0, ← hsucc] at e'
        exact ⟨k - 1, by omega, f.injective e'⟩
      · rw [swap_apply_of_ne_of_ne (hmin _ hi) (hs _ h0 hi), ← Nat.sub_add_cancel h0, ← hsucc] at e'
        exact ⟨i - 1, by omega, f.injective e'⟩

end Verif.PermLemmas
