import Verif.FaceStats.Lemmas

/-! # The invariant of the statistics -/

set_option linter.unusedSectionVars false

namespace Verif.FaceStats
open Verif Verif.GeoMap Verif.LabelImage

variable {K V : Type} [Field K] [LinearOrder K] [IsStrictOrderedRing K] [FloorRing K]

/-- The number of marked faces. -/
def markCount (g : GMap K) (t : Nat → Nat) : Nat :=
  ((Finset.range g.nFaces).filter fun f => (g.face f).isSome = true ∧ t f ≠ 0).card

/-- `superSampledCount_` is the number of marked faces. -/
def CountOK (g : GMap K) (st : Stats V) : Prop :=
  match st.ss with
  | none => st.count = 0
  | some t => st.count = markCount g t

structure SInv (env : Env K V) (m : LMap K) (st : Stats V) : Prop where
  reach : LReach m
  size : st.size = m.g.nFaces
  fn : ∀ f, (st.fn f).isSome = (m.g.face f).isSome
  count : CountOK m.g st
  values : ∀ f, (m.g.face f).isSome = true → ¬ st.marked f → st.fn f = some (faceValues env.orig m f)

theorem not_marked_none {st : Stats V} (h : st.ss = none) (f : Nat) : ¬ st.marked f := by
  rintro ⟨t, ht, -⟩
  rw [h] at ht; cases ht

theorem marked_some {st : Stats V} {t : Nat → Nat} (h : st.ss = some t) (f : Nat) : st.marked f ↔ t f ≠ 0 := by
  constructor
  · rintro ⟨t', ht, h1⟩
    rw [h] at ht; cases ht
    exact h1
  · intro h1; exact ⟨t, h, h1⟩

theorem face_lt {m : LMap K} (hm : LReach m) {f : Nat} (hf : (m.g.face f).isSome = true) : f < m.g.nFaces := by
  obtain ⟨im, hI⟩ := hm.inv
  exact hI.good.map.graph.labels.face_lt f hf

theorem SInv.functor {env : Env K V} {m : LMap K} {st : Stats V} (hS : SInv env m st) {f : Nat} (hf : (m.g.face f).isSome = true) :
    ∃ a, st.fn f = some a ∧ st.functor f = .ok a := by
  have h1 := hS.fn f
  rw [hf] at h1
  obtain ⟨a, ha⟩ := Option.isSome_iff_exists.mp h1
  refine ⟨a, ha, ?_⟩
  unfold Stats.functor
  rw [if_pos (by rw [hS.size]; exact face_lt hS.reach hf), ha]

/-! ## Counting marks -/

theorem markCount_sum (g : GMap K) (t : Nat → Nat) :
    markCount g t = ∑ f ∈ Finset.range g.nFaces, if (g.face f).isSome = true ∧ t f ≠ 0 then 1 else 0 := by
  unfold markCount
  rw [Finset.card_filter]

/-- One mark changes. -/
theorem markCount_one {g : GMap K} {t : Nat → Nat} {f s : Nat} (hf : (g.face f).isSome = true) (hlt : f < g.nFaces) :
    markCount g t + (if s = 0 then 0 else 1) = markCount g (Function.update t f s) + if t f = 0 then 0 else 1 := by
  rw [markCount_sum, markCount_sum, ← Finset.sum_erase_add _ _ (Finset.mem_range.mpr hlt),
    ← Finset.sum_erase_add (a := f) (f := fun k => if (g.face k).isSome = true ∧ Function.update t f s k ≠ 0 then 1 else 0) _
      (Finset.mem_range.mpr hlt)]
  have : (∑ k ∈ (Finset.range g.nFaces).erase f, if (g.face k).isSome = true ∧ Function.update t f s k ≠ 0 then 1 else 0) =
      ∑ k ∈ (Finset.range g.nFaces).erase f, if (g.face k).isSome = true ∧ t k ≠ 0 then 1 else 0 :=
    Finset.sum_congr rfl fun k hk => by rw [Function.update_of_ne (Finset.mem_erase.mp hk).1]
  rw [this]
  simp only [hf, true_and, Function.update_self]
  by_cases h1 : s = 0 <;> by_cases h2 : t f = 0 <;> simp [h1, h2]

/-- One face disappears. -/
theorem markCount_gone {g g' : GMap K} {t : Nat → Nat} {ml : Nat} (hml : (g.face ml).isSome = true) (hlt : ml < g.nFaces)
    (hn : g'.nFaces = g.nFaces) (hf : ∀ f, (g'.face f).isSome = true ↔ (g.face f).isSome = true ∧ f ≠ ml) :
    markCount g t = markCount g' t + if t ml = 0 then 0 else 1 := by
  rw [markCount_sum, markCount_sum, hn, ← Finset.sum_erase_add _ _ (Finset.mem_range.mpr hlt),
    ← Finset.sum_erase_add (a := ml) (f := fun k => if (g'.face k).isSome = true ∧ t k ≠ 0 then 1 else 0) _ (Finset.mem_range.mpr hlt)]
  have : (∑ k ∈ (Finset.range g.nFaces).erase ml, if (g'.face k).isSome = true ∧ t k ≠ 0 then 1 else 0) =
      ∑ k ∈ (Finset.range g.nFaces).erase ml, if (g.face k).isSome = true ∧ t k ≠ 0 then 1 else 0 :=
    Finset.sum_congr rfl fun k hk => if_congr (by rw [hf]; simp [(Finset.mem_erase.mp hk).1]) rfl rfl
  rw [this]
  have h2 : ¬ (g'.face ml).isSome = true := by rw [hf]; simp
  simp only [hml, true_and, h2]
  by_cases h2 : t ml = 0 <;> simp [h2]

theorem markCount_pos {g : GMap K} {t : Nat → Nat} {f : Nat} (hf : (g.face f).isSome = true) (hlt : f < g.nFaces) (h : t f ≠ 0) :
    0 < markCount g t := by
  unfold markCount
  rw [Finset.card_pos]
  exact ⟨f, Finset.mem_filter.mpr ⟨Finset.mem_range.mpr hlt, hf, h⟩⟩

theorem dec_succ {n : Nat} (h : 0 < n) : dec n = n - 1 := by
  unfold dec
  rw [if_neg (by omega)]

/-! ## Checks -/

theorem check_ok {st : Stats V} {f area : Nat} {a : Multiset V} (ha : st.functor f = .ok a) (h : ¬ st.marked f → area = a.card) :
    check st f area = .ok st := by
  unfold check
  simp only [ha, bind, Outcome.bind_ok]
  rw [if_neg]
  rintro ⟨h1, h2⟩
  refine h2 (h ?_)
  cases hs : st.ss with
  | none => exact not_marked_none hs f
  | some t =>
    rw [marked_some hs]
    rw [hs] at h1
    simpa using h1

/-! ## Associated pixels -/

theorem associated_spec {env : Env K V} (hb : BoxesCover env) {n : LMap K} (hn : LReach n) {sl : Nat} (hsl : (n.g.face sl).isSome = true)
    {px : List (Int × Int)} {st : Stats V} (hsize : st.size = n.g.nFaces) (hfn : ∀ f, (st.fn f).isSome = (n.g.face f).isSome)
    (hc : CountOK n.g st) (hv : ∀ f, f ≠ sl → (n.g.face f).isSome = true → ¬ st.marked f → st.fn f = some (faceValues env.orig n f))
    {W : Multiset V} (hW : faceValues env.orig n sl = W + (px.map env.orig : List V)) (hs : ¬ st.marked sl → st.fn sl = some W) :
    ∃ st', associated env n st sl px = .ok st' ∧ SInv env n st' := by
  have hlt := face_lt hn hsl
  obtain ⟨a, ha⟩ := Option.isSome_iff_exists.mp ((hfn sl).trans hsl)
  have hfun : st.functor sl = .ok a := by
    unfold Stats.functor
    rw [if_pos (by omega), ha]
  have hcard := values_card hn env.orig hsl
  unfold associated
  by_cases hpx : px = []
  · rw [if_pos hpx]
    refine ⟨st, rfl, hn, hsize, hfn, hc, fun f hf hm => ?_⟩
    by_cases hfs : f = sl
    · subst hfs
      rw [hs hm, hW, hpx]
      simp
    · exact hv f hfs hf hm
  rw [if_neg hpx]
  -- the final loop
  have hadd : ∀ (st1 : Stats V) (x : Multiset V), st1.size = st.size → st1.fn = st.fn → CountOK n.g st1 →
      (∀ f, f ≠ sl → (st1.marked f ↔ st.marked f)) → (¬ st1.marked sl → x = W) →
      ∃ st', addPixels env n st1 sl x px = .ok st' ∧ SInv env n st' := by
    intro st1 x h1 h2 h3 h4 h5
    have hx : ¬ st1.marked sl → x + ((px.map env.orig : List V) : Multiset V) = faceValues env.orig n sl := fun hm => by rw [h5 hm, hW]
    refine ⟨{ st1 with fn := Function.update st1.fn sl (some (x + (px.map env.orig : List V))) }, ?_, hn, h1.trans hsize, ?_, h3, ?_⟩
    · unfold addPixels
      refine check_ok (a := x + (px.map env.orig : List V)) ?_ fun hm => ?_
      · unfold Stats.functor
        simp only [Function.update_self]
        rw [if_pos (by rw [h1, hsize]; exact hlt)]
      · rw [hx hm, hcard]
    · intro f
      simp only
      by_cases hf : f = sl
      · subst hf; rw [Function.update_self, hsl]; rfl
      · rw [Function.update_of_ne hf, h2, hfn]
    · intro f hf hm
      simp only
      have hm : ¬ st1.marked f := hm
      by_cases hfs : f = sl
      · subst hfs
        rw [Function.update_self, hx hm]
      · rw [Function.update_of_ne hfs, h2]
        exact hv f hfs hf (by rw [← h4 f hfs]; exact hm)
  unfold associate
  simp only [hfun, bind, Outcome.bind_ok]
  cases ht : st.ss with
  | none =>
    exact hadd st a rfl rfl hc (fun _ _ => Iff.rfl) (fun hm => by
      have := hs hm
      rw [ha] at this
      exact Option.some.inj this)
  | some t =>
    simp only
    by_cases hcond : t sl ≠ 0 ∧ st.minCount ≤ pixelArea n.g sl
    · rw [if_pos hcond]
      have hc' := hc
      unfold CountOK at hc'
      rw [ht] at hc'
      simp only at hc'
      have hpos := markCount_pos hsl hlt hcond.1
      have hone := markCount_one (t := t) (s := 0) hsl hlt
      rw [if_pos rfl, if_neg hcond.1] at hone
      have hc2 : CountOK n.g ({ st with ss := some (Function.update t sl 0), count := dec st.count } : Stats V) := by
        show dec st.count = markCount n.g (Function.update t sl 0)
        rw [dec_succ (by omega)]
        omega
      have hm2 : ∀ f, f ≠ sl → (({ st with ss := some (Function.update t sl 0), count := dec st.count } : Stats V).marked f ↔ st.marked f) := by
        intro f hf
        rw [marked_some rfl, marked_some ht, Function.update_of_ne hf]
      by_cases hp : pixelArea n.g sl ≠ px.length
      · rw [if_pos hp]
        refine ⟨_, rfl, hn, hsize, ?_, hc2, ?_⟩
        · intro f
          simp only
          by_cases hf : f = sl
          · subst hf; rw [Function.update_self, hsl]; rfl
          · rw [Function.update_of_ne hf, hfn]
        · intro f hf hm
          simp only
          by_cases hfs : f = sl
          · subst hfs
            rw [Function.update_self, rescan_values hb hn]
          · rw [Function.update_of_ne hfs]
            exact hv f hfs hf (by rw [← hm2 f hfs]; exact hm)
      · rw [if_neg hp]
        refine hadd { st with ss := some (Function.update t sl 0), count := dec st.count } 0 rfl rfl hc2 hm2 (fun _ => ?_)
        push Not at hp
        rw [hW, Multiset.card_add, Multiset.coe_card, List.length_map] at hcard
        exact (Multiset.card_eq_zero.mp (by omega)).symm
    · rw [if_neg hcond]
      exact hadd st a rfl rfl hc (fun _ _ => Iff.rfl) (fun hm => by
        have := hs hm
        rw [ha] at this
        exact Option.some.inj this)

/-! ## Merged faces -/

theorem preMerge_spec {env : Env K V} (hb : BoxesCover env) {m : LMap K} {st : Stats V} (hS : SInv env m st) {l r : Nat}
    (hl : (m.g.face l).isSome = true) (hr : (m.g.face r).isSome = true) :
    ∃ x s, preMerge env m st l r = .ok { st with label1 := l, label2 := r, merged := x, mergedSS := s } ∧
      (st.ss = none → x = faceValues env.orig m l + faceValues env.orig m r) ∧
      ∀ t, st.ss = some t → (s = 0 → x = faceValues env.orig m l + faceValues env.orig m r) ∧ (s ≠ 0 → t l ≠ 0 ∧ t r ≠ 0) ∧
        (t l = 0 ∨ t r = 0 → s = 0) := by
  obtain ⟨a, ha, hfa⟩ := hS.functor hl
  obtain ⟨b, hb', hfb⟩ := hS.functor hr
  have va : ¬ st.marked l → a = faceValues env.orig m l := fun h => by
    have := hS.values l hl h; rw [ha] at this; exact Option.some.inj this
  have vb : ¬ st.marked r → b = faceValues env.orig m r := fun h => by
    have := hS.values r hr h; rw [hb'] at this; exact Option.some.inj this
  have hz : ∀ f, (m.g.face f).isSome = true → ¬ pixelArea m.g f ≠ 0 → faceValues env.orig m f = 0 := by
    intro f hf h0
    push Not at h0
    rw [← values_card hS.reach env.orig hf] at h0
    exact Multiset.card_eq_zero.mp h0
  unfold preMerge
  simp only [hfa, hfb, bind, Outcome.bind_ok]
  cases ht : st.ss with
  | none =>
    refine ⟨a + b, st.mergedSS, by simp, fun _ => ?_, fun t h => (by cases h)⟩
    rw [va (not_marked_none ht l), vb (not_marked_none ht r)]
  | some t =>
    simp only
    by_cases hlr : t l ≠ t r
    · simp only [if_pos hlr]
      by_cases hlt : t l < t r
      · simp only [if_pos hlt]
        refine ⟨_, _, rfl, fun h => (by cases h), fun t' h => ?_⟩
        cases h
        refine ⟨fun h0 => ?_, fun h0 => ⟨h0, by omega⟩, fun h0 => by omega⟩
        rw [va (by rw [marked_some ht]; omega)]
        split_ifs with hp
        · rw [rescan_values hb hS.reach]
        · rw [hz r hr hp, add_zero]
      · simp only [if_neg hlt]
        refine ⟨_, _, rfl, fun h => (by cases h), fun t' h => ?_⟩
        cases h
        refine ⟨fun h0 => ?_, fun h0 => ⟨by omega, h0⟩, fun h0 => by omega⟩
        rw [vb (by rw [marked_some ht]; omega), add_comm]
        split_ifs with hp
        · rw [rescan_values hb hS.reach, add_comm]
        · rw [hz l hl hp, zero_add]
    · simp only [if_neg hlr]
      push Not at hlr
      by_cases h0 : t l ≠ 0
      · simp only [if_pos h0]
        split_ifs with hc
        · refine ⟨_, _, rfl, fun h => (by cases h), fun t' h => ?_⟩
          cases h
          refine ⟨fun _ => ?_, fun h => absurd rfl h, fun h => by omega⟩
          rw [rescan_values hb hS.reach, rescan_values hb hS.reach]
        · refine ⟨_, _, rfl, fun h => (by cases h), fun t' h => ?_⟩
          cases h
          exact ⟨fun h => absurd h h0, fun _ => ⟨h0, by omega⟩, fun h => by omega⟩
      · simp only [if_neg h0]
        push Not at h0
        refine ⟨_, _, rfl, fun h => (by cases h), fun t' h => ?_⟩
        cases h
        refine ⟨fun _ => ?_, fun h => absurd rfl h, fun _ => rfl⟩
        rw [va (by rw [marked_some ht]; omega), vb (by rw [marked_some ht]; omega)]

theorem postMarks_spec {g g' : GMap K} {t : Nat → Nat} {f ml s : Nat} (hf : (g.face f).isSome = true) (hflt : f < g.nFaces)
    (hml : (g.face ml).isSome = true) (hmlt : ml < g.nFaces) (hne : f ≠ ml) (hn : g'.nFaces = g.nFaces)
    (hg : ∀ k, (g'.face k).isSome = true ↔ (g.face k).isSome = true ∧ k ≠ ml)
    (h1 : s ≠ 0 → t f ≠ 0 ∧ t ml ≠ 0) (h2 : t f = 0 ∨ t ml = 0 → s = 0) :
    (t f ≠ 0 ∧ t ml = 0 ∧ markCount g t = 1 ∧ postMarks t (markCount g t) f ml s = .ub) ∨
    (¬ (t f ≠ 0 ∧ t ml = 0 ∧ markCount g t = 1) ∧ ∃ ss, postMarks t (markCount g t) f ml s = .ok (ss, markCount g' (Function.update t f s)) ∧
      (ss = none ∧ markCount g' (Function.update t f s) = 0 ∨ ss = some (Function.update t f s))) := by
  have c1 := markCount_one (t := t) (s := s) hf hflt
  have c2 := markCount_gone (t := Function.update t f s) hml hmlt hn hg
  rw [Function.update_of_ne hne.symm] at c2
  set A := markCount g t
  set B := markCount g (Function.update t f s)
  set C := markCount g' (Function.update t f s)
  unfold postMarks
  simp only [Function.update_of_ne hne.symm]
  by_cases hs : s = 0
  · rw [if_pos hs] at c1
    by_cases ht : t f = 0
    · rw [if_pos ht] at c1
      right
      refine ⟨fun h => h.1 ht, ?_⟩
      have hrel : ¬ (t f ≠ 0 ∧ s = 0) := fun h => h.1 ht
      simp only [hrel, if_false, false_and]
      by_cases hm : t ml = 0
      · rw [if_pos hm] at c2
        rw [if_neg (by simpa using hm)]
        exact ⟨_, by rw [show C = A by omega], Or.inr rfl⟩
      · rw [if_neg hm] at c2
        rw [if_pos hm, dec_succ (by omega), show A - 1 = C by omega]
        refine ⟨_, rfl, ?_⟩
        by_cases h0 : C = 0
        · exact Or.inl ⟨if_pos h0, h0⟩
        · exact Or.inr (if_neg h0)
    · rw [if_neg ht] at c1
      have hrel : t f ≠ 0 ∧ s = 0 := ⟨ht, hs⟩
      simp only [hrel.1, hrel.2, ne_eq, not_false_eq_true, and_self, if_true, true_and]
      rw [dec_succ (show 0 < A by omega)]
      subst hs
      by_cases hm : t ml = 0
      · rw [if_pos hm] at c2
        by_cases hA : A = 1
        · left
          exact ⟨hm, hA, if_pos (by omega)⟩
        · right
          refine ⟨fun h => hA h.2, ?_⟩
          rw [if_neg (by omega), if_neg (by simpa using hm)]
          exact ⟨_, by rw [show A - 1 = C by omega], Or.inr rfl⟩
      · right
        rw [if_neg hm] at c2
        refine ⟨fun h => hm h.1, ?_⟩
        rw [if_neg (by omega), if_pos hm, dec_succ (by omega), show A - 1 - 1 = C by omega]
        refine ⟨_, rfl, ?_⟩
        by_cases h0 : C = 0
        · exact Or.inl ⟨if_pos h0, h0⟩
        · exact Or.inr (if_neg h0)
  · right
    have h3 := h1 hs
    rw [if_neg hs, if_neg h3.1] at c1
    rw [if_neg h3.2] at c2
    refine ⟨fun h => h3.2 h.2.1, ?_⟩
    have hrel : ¬ (t f ≠ 0 ∧ s = 0) := fun h => hs h.2
    simp only [hrel, if_false, false_and]
    rw [if_pos h3.2, dec_succ (by omega), show A - 1 = C by omega]
    refine ⟨_, rfl, ?_⟩
    by_cases h0 : C = 0
    · exact Or.inl ⟨if_pos h0, h0⟩
    · exact Or.inr (if_neg h0)

end Verif.FaceStats
