
import Verif.PermLemmas
import Mathlib.Dynamics.PeriodicPts.Defs
import Mathlib.Order.Interval.Finset.Basic
import Mathlib.Data.Int.Interval
import Mathlib.Algebra.Group.End

/-! # Representing the dart functions by permutations -/

namespace Verif.GeoMap
open Equiv Equiv.Perm Verif.PermLemmas

/-- On the finite set `L` the functions `f`, `finv` are the permutation `π` and its inverse;
`π` fixes everything else. -/
structure Rep (L : Finset Int) (f finv : Int → Int) (π : Perm Int) : Prop where
  eq : ∀ d ∈ L, f d = π d
  eqi : ∀ d ∈ L, finv d = π⁻¹ d
  fix : ∀ d, d ∉ L → π d = d

namespace Rep
variable {L : Finset Int} {f finv : Int → Int} {π : Perm Int}

theorem mem (h : Rep L f finv π) {d : Int} (hd : d ∈ L) : π d ∈ L := by
  by_contra hn
  have := π.injective (h.fix _ hn)
  exact hn (this.symm ▸ hd)

theorem fixi (h : Rep L f finv π) {d : Int} (hd : d ∉ L) : π⁻¹ d = d := by
  rw [Perm.inv_eq_iff_eq]; exact (h.fix d hd).symm

theorem memi (h : Rep L f finv π) {d : Int} (hd : d ∈ L) : π⁻¹ d ∈ L := by
  by_contra hn
  have e := h.fix _ hn
  rw [show π (π⁻¹ d) = d by simp] at e
  exact hn (e ▸ hd)

theorem mem_iff (h : Rep L f finv π) {d : Int} : π d ∈ L ↔ d ∈ L := by
  constructor
  · intro hd; have := h.memi hd; simpa using this
  · exact h.mem

theorem memi_iff (h : Rep L f finv π) {d : Int} : π⁻¹ d ∈ L ↔ d ∈ L := by
  constructor
  · intro hd; have := h.mem hd; simpa using this
  · exact h.memi

theorem exists_of_closed (h1 : ∀ d ∈ L, f d ∈ L ∧ finv (f d) = d)
    (h2 : ∀ d ∈ L, finv d ∈ L ∧ f (finv d) = d) : ∃ π, Rep L f finv π := by
  classical
  refine ⟨⟨fun d => if d ∈ L then f d else d, fun d => if d ∈ L then finv d else d, ?_, ?_⟩, ?_, ?_, ?_⟩
  · intro d
    by_cases hd : d ∈ L
    · simp [hd, h1 d hd]
    · simp [hd]
  · intro d
    by_cases hd : d ∈ L
    · simp [hd, h2 d hd]
    · simp [hd]
  · intro d hd; simp [hd]
  · intro d hd; rw [Perm.inv_def]; simp [Equiv.symm, hd]
  · intro d hd; simp [hd]

theorem f_mem (h : Rep L f finv π) {d : Int} (hd : d ∈ L) : f d ∈ L := by rw [h.eq d hd]; exact h.mem hd
theorem finv_mem (h : Rep L f finv π) {d : Int} (hd : d ∈ L) : finv d ∈ L := by
  rw [h.eqi d hd]; exact h.memi hd
theorem finv_f (h : Rep L f finv π) {d : Int} (hd : d ∈ L) : finv (f d) = d := by
  rw [h.eq d hd, h.eqi _ (h.mem hd)]; simp
theorem f_finv (h : Rep L f finv π) {d : Int} (hd : d ∈ L) : f (finv d) = d := by
  rw [h.eqi d hd, h.eq _ (h.memi hd)]; simp

theorem iterate_mem (h : Rep L f finv π) {d : Int} (hd : d ∈ L) (k : ℕ) :
    f^[k] d = (π ^ k) d ∧ f^[k] d ∈ L := by
  induction k with
  | zero => exact ⟨rfl, hd⟩
  | succ k ih =>
    rw [Function.iterate_succ_apply', pow_succ', Perm.mul_apply, ← ih.1]
    exact ⟨h.eq _ ih.2, h.f_mem ih.2⟩

theorem pow_mem (h : Rep L f finv π) {d : Int} (hd : d ∈ L) (k : ℕ) : (π ^ k) d ∈ L := by
  rw [← (h.iterate_mem hd k).1]; exact (h.iterate_mem hd k).2

/-- every dart returns -/
theorem exists_period (h : Rep L f finv π) {d : Int} (hd : d ∈ L) :
    ∃ n, 0 < n ∧ n ≤ L.card ∧ (π ^ n) d = d := by
  obtain ⟨i, hi, j, hj, hij, e⟩ := Finset.exists_ne_map_eq_of_card_lt_of_maps_to
    (s := Finset.range (L.card + 1)) (t := L) (by simp) (f := fun n => (π ^ n) d)
    (fun n _ => h.pow_mem hd n)
  simp only [Finset.mem_range] at hi hj
  have aux : ∀ i j : ℕ, i < j → j < L.card + 1 → (π ^ i) d = (π ^ j) d →
      ∃ n, 0 < n ∧ n ≤ L.card ∧ (π ^ n) d = d := by
    intro i j hlt hj e
    refine ⟨j - i, by omega, by omega, ?_⟩
    apply (π ^ i).injective
    rw [← Perm.mul_apply, ← pow_add, e]
    congr 2; omega
  rcases Nat.lt_or_gt_of_ne hij with h | h
  · exact aux i j h hj e
  · exact aux j i h hi e.symm

theorem finCycle (h : Rep L f finv π) {d : Int} (hd : d ∈ L) : FinCycle π d := by
  obtain ⟨n, h0, -, h1⟩ := h.exists_period hd
  exact ⟨n, h0, h1⟩

theorem sameCycle_iff (h : Rep L f finv π) {d d' : Int} (hd : d ∈ L) :
    SameCycle π d d' ↔ ∃ k, f^[k] d = d' := by
  obtain ⟨n, h0, -, h1⟩ := h.exists_period hd
  rw [sameCycle_iff_pow h0 h1]
  constructor
  · rintro ⟨k, -, hk⟩; exact ⟨k, by rw [(h.iterate_mem hd k).1, hk]⟩
  · rintro ⟨k, hk⟩
    rw [(h.iterate_mem hd k).1] at hk
    exact (sameCycle_iff_pow h0 h1).mp ⟨k, by rw [zpow_natCast]; exact hk⟩

theorem mem_of_sameCycle (h : Rep L f finv π) {d d' : Int} (hd : d ∈ L) (hc : SameCycle π d d') :
    d' ∈ L := by
  obtain ⟨k, hk⟩ := (h.sameCycle_iff hd).mp hc
  rw [← hk]; exact (h.iterate_mem hd k).2

theorem not_mem_of_sameCycle (h : Rep L f finv π) {d d' : Int} (hd : d ∉ L) (hc : SameCycle π d d') :
    d' = d := ((sameCycle_fixed (h.fix d hd)).mp hc).symm

theorem isPeriodicPt (h : Rep L f finv π) {d : Int} (hd : d ∈ L) :
    0 < Function.minimalPeriod f d ∧ Function.minimalPeriod f d ≤ L.card := by
  obtain ⟨n, h0, h1, h2⟩ := h.exists_period hd
  rw [← (h.iterate_mem hd n).1] at h2
  have hp : Function.IsPeriodicPt f n d := h2
  exact ⟨hp.minimalPeriod_pos h0, (hp.minimalPeriod_le h0).trans h1⟩

theorem iterate_ne (_h : Rep L f finv π) {d : Int} {k : ℕ} (hk : 0 < k)
    (hk' : k < Function.minimalPeriod f d) : f^[k] d ≠ d := by
  intro e
  have hp : Function.IsPeriodicPt f k d := e
  exact absurd (hp.minimalPeriod_le hk) (by omega)

theorem iterate_lt (h : Rep L f finv π) {d d' : Int} (hd : d ∈ L) (hc : SameCycle π d d') :
    ∃ k, k < Function.minimalPeriod f d ∧ f^[k] d = d' := by
  have hp := (h.isPeriodicPt hd).1
  have e : (π ^ Function.minimalPeriod f d) d = d := by
    rw [← (h.iterate_mem hd _).1]; exact Function.iterate_minimalPeriod
  obtain ⟨k, hk, hk'⟩ := (sameCycle_iff_pow hp e).mp hc
  exact ⟨k, hk, by rw [(h.iterate_mem hd k).1]; exact hk'⟩

/-- two representations of the same function agree -/
theorem unique (h : Rep L f finv π) {π' : Perm Int} (h' : Rep L f finv π') : π = π' := by
  ext d
  by_cases hd : d ∈ L
  · rw [← h.eq d hd, ← h'.eq d hd]
  · rw [h.fix d hd, h'.fix d hd]

end Rep

/-! the three kinds of change of the sigma arrays -/

/-- `detachDart` -/
theorem Rep.detach {L : Finset Int} {f finv : Int → Int} {π : Perm Int} (h : Rep L f finv π) {d : Int}
    (hd : d ∈ L) :
    Rep (L.erase d) (Function.update f (finv d) (f d)) (Function.update finv (f d) (finv d)) (skip π d) := by
  have e1 := h.eq d hd
  have e2 := h.eqi d hd
  refine ⟨?_, ?_, ?_⟩
  · intro x hx
    rw [Finset.mem_erase] at hx
    by_cases hxd : π x = d
    · have : x = finv d := by rw [e2, ← hxd]; simp
      rw [skip_of_eq π hxd, this, Function.update_self, e1]
    · rw [skip_of_ne π hxd hx.1, Function.update_of_ne, h.eq x hx.2]
      rintro rfl; rw [e2] at hxd; simp at hxd
  · intro x hx
    rw [Finset.mem_erase] at hx
    symm
    rw [Perm.inv_eq_iff_eq]
    by_cases hxd : x = π d
    · subst hxd
      rw [e1, Function.update_self, e2, skip_of_eq]
      simp
    · rw [e1, Function.update_of_ne hxd, h.eqi x hx.2, skip_of_ne]
      · simp
      · simpa using hx.1
      · rintro e; apply hxd; rw [← e]; simp
  · intro x hx
    rw [Finset.mem_erase] at hx
    by_cases hxd : x = d
    · subst hxd; exact skip_self π x
    · have hxL : x ∉ L := fun h => hx ⟨hxd, h⟩
      have := h.fix x hxL
      rw [skip_of_ne π _ hxd, this]
      rw [this]; exact hxd

theorem sameCycle_detach {L : Finset Int} {f finv : Int → Int} {π : Perm Int} (_h : Rep L f finv π) {d u v : Int}
    (hu : u ≠ d) (hv : v ≠ d) : SameCycle (skip π d) u v ↔ SameCycle π u v :=
  sameCycle_skip π hu hv

end Verif.GeoMap
