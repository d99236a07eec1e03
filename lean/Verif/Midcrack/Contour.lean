import Verif.Midcrack.Spec
import Verif.GeoMap.Walk
import Verif.GeoMap.PropLemmas
import Verif.Utils.Lemmas

/-! # Walks around a contour: marks and lengths -/

namespace Verif.Midcrack
open Verif Verif.GeoMap Equiv Equiv.Perm Verif.PermLemmas

variable {K : Type}

theorem exists_phi {s : GMap K} (hs : MapOK s) : ∃ ψ, Rep s.darts s.phi s.phiInv ψ ∧ (∀ d ∈ s.darts, s.liveD d) ∧ s.darts.card ≤ 2 * s.nEdges := by
  obtain ⟨π, hg⟩ := hs.graph.exists_rep
  obtain ⟨ψ, h⟩ := hg.rep.exists_phi hg.symm
  exact ⟨ψ, h, fun d hd => (hg.live d).1 hd, hg.card_le⟩

theorem mem_darts' {s : GMap K} (hs : MapOK s) {d : Int} (h : s.liveD d) : d ∈ s.darts := (mem_darts hs.graph.edge_lt d).2 h

theorem derefEdge_live {s : GMap K} (hs : MapOK s) {d : Int} {e : Edge K} (he : s.edge d.natAbs = some e) : s.derefEdge d.natAbs = .ok e := by
  have := hs.graph.edge_lt d.natAbs (by rw [he]; rfl)
  unfold GMap.derefEdge
  rw [if_pos this, he]

section Len
variable [Field K]

/-- the length of the edge of a dart -/
def dartLen (len : List (Pt K) → K) (s : GMap K) (d : Int) : K :=
  match s.edge d.natAbs with
  | some e => len e.pts
  | none => 0

theorem contourLengthLoop_eq {s : GMap K} (hs : MapOK s) {L : Finset Int} {ψ : Perm Int} (hr : Rep L s.phi s.phiInv ψ) (hl : ∀ d ∈ L, s.liveD d) {d : Int} (hd : d ∈ L)
    (len : List (Pt K) → K) (n k : Nat) (hk : k < Function.minimalPeriod s.phi d) (hn : Function.minimalPeriod s.phi d - k ≤ n) (acc : K) :
    contourLengthLoop len s d n (s.phi^[k] d) acc = .ok (acc + ∑ i ∈ Finset.Ico k (Function.minimalPeriod s.phi d), dartLen len s (s.phi^[i] d)) := by
  induction n generalizing k acc with
  | zero => omega
  | succ n ih =>
    unfold contourLengthLoop
    obtain ⟨e, he⟩ := liveD_exists (hl _ (hr.iterate_mem hd k).2)
    rw [derefEdge_live hs he, Outcome.bind_ok]
    have hterm : len e.pts = dartLen len s (s.phi^[k] d) := by unfold dartLen; rw [he]
    rw [hterm, ← Function.iterate_succ_apply' s.phi k d, Finset.sum_eq_sum_Ico_succ_bot hk, ← add_assoc]
    by_cases hk1 : k + 1 = Function.minimalPeriod s.phi d
    · have : s.phi^[k + 1] d = d := by rw [hk1]; exact Function.iterate_minimalPeriod
      rw [if_pos this, hk1]; simp
    · rw [if_neg (hr.iterate_ne (by omega) (by omega))]
      exact ih (k + 1) (by omega) (by omega) _

theorem isoLoop_eq {s : GMap K} (hs : MapOK s) {L : Finset Int} {ψ : Perm Int} (hr : Rep L s.phi s.phiInv ψ) (hl : ∀ d ∈ L, s.liveD d) {d : Int} (hd : d ∈ L)
    (len : List (Pt K) → K) (n k : Nat) (hk : k < Function.minimalPeriod s.phi d) (hn : Function.minimalPeriod s.phi d - k ≤ n) (acc a : K) :
    isoLoop len s d n (s.phi^[k] d) a acc = .ok (a + ∑ i ∈ Finset.Ico k (Function.minimalPeriod s.phi d), s.areaTerm (s.phi^[i] d),
      acc + ∑ i ∈ Finset.Ico k (Function.minimalPeriod s.phi d), dartLen len s (s.phi^[i] d)) := by
  induction n generalizing k acc a with
  | zero => omega
  | succ n ih =>
    unfold isoLoop
    obtain ⟨e, he⟩ := liveD_exists (hl _ (hr.iterate_mem hd k).2)
    rw [derefEdge_live hs he, Outcome.bind_ok]
    dsimp only
    have hterm : len e.pts = dartLen len s (s.phi^[k] d) := by unfold dartLen; rw [he]
    have harea : (if e.leftF ≠ e.rightF then a + e.areaOf (s.phi^[k] d) else a) = a + s.areaTerm (s.phi^[k] d) := by
      unfold GMap.areaTerm
      rw [he]
      by_cases hc : e.leftF = e.rightF <;> simp [hc]
    rw [hterm, harea, ← Function.iterate_succ_apply' s.phi k d, Finset.sum_eq_sum_Ico_succ_bot hk, Finset.sum_eq_sum_Ico_succ_bot hk, ← add_assoc, ← add_assoc]
    by_cases hk1 : k + 1 = Function.minimalPeriod s.phi d
    · have : s.phi^[k + 1] d = d := by rw [hk1]; exact Function.iterate_minimalPeriod
      rw [if_pos this, hk1]; simp
    · rw [if_neg (hr.iterate_ne (by omega) (by omega))]
      exact ih (k + 1) (by omega) (by omega) _ _

end Len

theorem setFlag_twice (e : Edge K) (w : Nat) : (e.setFlag w true).setFlag w true = e.setFlag w true := by
  unfold Edge.setFlag
  simp only [if_true]
  congr 1
  rw [Nat.or_assoc, Nat.or_self]

open Classical in
/-- the map with the flag set at the edges with `P` -/
noncomputable def withFlag (s : GMap K) (w : Nat) (P : Nat → Prop) : GMap K :=
  { s with edge := fun l => (s.edge l).map fun e => if P l then e.setFlag w true else e }

theorem withFlag_congr {s : GMap K} {w : Nat} {P Q : Nat → Prop} (h : ∀ l, (s.edge l).isSome = true → (P l ↔ Q l)) : withFlag s w P = withFlag s w Q := by
  unfold withFlag
  congr 1
  funext l
  cases he : s.edge l with
  | none => rfl
  | some e =>
    rw [Option.map_some, Option.map_some]
    have := h l (by rw [he]; rfl)
    by_cases hp : P l
    · rw [if_pos hp, if_pos (this.1 hp)]
    · rw [if_neg hp, if_neg (fun hq => hp (this.2 hq))]

theorem withFlag_none (s : GMap K) (w : Nat) : withFlag s w (fun _ => False) = s := by
  unfold withFlag
  simp

theorem withFlag_step {s : GMap K} {w : Nat} {P : Nat → Prop} {l : Nat} {e : Edge K} (he : (withFlag s w P).edge l = some e) :
    (withFlag s w P).setEdge l (some (e.setFlag w true)) = withFlag s w (fun m => P m ∨ m = l) := by
  unfold withFlag GMap.setEdge
  dsimp only
  congr 1
  funext m
  by_cases hm : m = l
  · subst hm
    rw [Function.update_self]
    unfold withFlag at he
    dsimp only at he
    obtain ⟨e0, h0, rfl⟩ := Option.map_eq_some_iff.1 he
    rw [h0, Option.map_some, if_pos (Or.inr rfl)]
    by_cases hp : P m
    · rw [if_pos hp, setFlag_twice]
    · rw [if_neg hp]
  · rw [Function.update_of_ne hm]
    cases s.edge m with
    | none => rfl
    | some e0 =>
      rw [Option.map_some, Option.map_some]
      by_cases hp : P m
      · rw [if_pos hp, if_pos (Or.inl hp)]
      · rw [if_neg hp, if_neg (by rintro (h | h); exacts [hp h, hm h])]

theorem markLoop_eq [Field K] {s : GMap K} (hs : MapOK s) {L : Finset Int} {ψ : Perm Int} (hr : Rep L s.phi s.phiInv ψ) (hl : ∀ d ∈ L, s.liveD d) {a : Int} (ha : a ∈ L)
    (n k : Nat) (hk : k < Function.minimalPeriod s.phi a) (hn : Function.minimalPeriod s.phi a - k ≤ n) :
    markLoop a n (s.phi^[k] a) (withFlag s borderProtection fun l => ∃ i, i < k ∧ (s.phi^[i] a).natAbs = l) =
      .ok (withFlag s borderProtection fun l => ∃ i, i < Function.minimalPeriod s.phi a ∧ (s.phi^[i] a).natAbs = l) := by
  induction n generalizing k with
  | zero => omega
  | succ n ih =>
    unfold markLoop
    obtain ⟨e0, he0⟩ := liveD_exists (hl _ (hr.iterate_mem ha k).2)
    obtain ⟨e, he⟩ : ∃ e, (withFlag s borderProtection fun l => ∃ i, i < k ∧ (s.phi^[i] a).natAbs = l).edge (s.phi^[k] a).natAbs = some e := by
      unfold withFlag; dsimp only; rw [he0]; exact ⟨_, rfl⟩
    have hde : (withFlag s borderProtection fun l => ∃ i, i < k ∧ (s.phi^[i] a).natAbs = l).derefEdge (s.phi^[k] a).natAbs = .ok e := by
      have := hs.graph.edge_lt _ (by rw [he0]; rfl)
      unfold GMap.derefEdge
      rw [he]
      exact if_pos this
    rw [hde, Outcome.bind_ok]
    dsimp only
    rw [withFlag_step he]
    have e1 : (withFlag s borderProtection fun m => (∃ i, i < k ∧ (s.phi^[i] a).natAbs = m) ∨ m = (s.phi^[k] a).natAbs) =
        withFlag s borderProtection fun l => ∃ i, i < k + 1 ∧ (s.phi^[i] a).natAbs = l := by
      apply withFlag_congr
      intro l _
      constructor
      · rintro (⟨i, h1, h2⟩ | h)
        · exact ⟨i, by omega, h2⟩
        · exact ⟨k, by omega, h.symm⟩
      · rintro ⟨i, h1, h2⟩
        by_cases h : i = k
        · subst h; exact Or.inr h2.symm
        · exact Or.inl ⟨i, by omega, h2⟩
    rw [e1]
    have hphi : (withFlag s borderProtection fun l => ∃ i, i < k + 1 ∧ (s.phi^[i] a).natAbs = l).phi (s.phi^[k] a) = s.phi^[k + 1] a := by
      rw [Function.iterate_succ_apply']; rfl
    rw [hphi]
    by_cases hk1 : k + 1 = Function.minimalPeriod s.phi a
    · have : s.phi^[k + 1] a = a := by rw [hk1]; exact Function.iterate_minimalPeriod
      rw [if_pos this, hk1]
    · rw [if_neg (hr.iterate_ne (by omega) (by omega))]
      exact ih (k + 1) (by omega) (by omega)

end Verif.Midcrack
