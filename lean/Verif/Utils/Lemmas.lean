import Verif.Utils.Model
import Verif.GeoMap.Props2
import Mathlib.Data.Nat.Bitwise

/-! # Lemmas about the bulk functions: single steps -/

namespace Verif.GeoMap
open Verif Equiv Equiv.Perm Verif.PermLemmas

variable {K : Type} [Field K] [LinearOrder K]

theorem Later.trans {s t u : GMap K} (h : Later s t) (g : Later t u) : Later s u := by
  induction g with
  | refl => exact h
  | call hk op _ hl hr hp ih => exact .call hk op ih hl hr hp

/-- one more call that keeps the number of faces cells -/
theorem Later.one {s t : GMap K} (h : Hooks K) (op : Op K) (hl : op.legal s) (hr : op.run h s = .ok t) (hn : t.nFaces = s.nFaces) : Later s t :=
  .call h op (.refl s) hl hr (fun h1 h2 => absurd (by unfold GMap.initialized at h2 ⊢; omega) h1)

omit [Field K] [LinearOrder K] in
theorem bridge_not_loop {s : GMap K} (hs : Good s) (hi : s.initialized) {d : Int} (hd : s.liveD d) (hb : s.left? d = s.left? (-d)) :
    s.startN? d ≠ s.startN? (-d) := by
  intro hl
  obtain ⟨π, hg⟩ := hs.map.graph.exists_rep
  have hdL : d ∈ s.darts := (hg.live d).mpr hd
  have hmL : -d ∈ s.darts := hg.symm d hdL
  have h0 := hg.ne_zero hdL
  obtain ⟨c, hc⟩ := hs.planar hi (fun l => if l = d.natAbs then 1 else 0) (fun n => by
    rw [bd_eraseEdge hdL hmL h0, bd]
    have : ∀ x ∈ (eraseEdge s.darts d).filter (fun x => s.startN? x = some n), (if x.natAbs = d.natAbs then (1 : ZMod 2) else 0) = 0 := by
      intro x hx
      rw [Finset.mem_filter, mem_eraseEdge] at hx
      rw [if_neg]
      intro h
      rcases Int.natAbs_eq_natAbs_iff.mp h with h | h
      · exact hx.1.2.1 h
      · exact hx.1.1 h
    rw [Finset.sum_eq_zero this, hl]
    have t : (1 : ZMod 2) + 1 = 0 := by decide
    split_ifs <;> simp_all)
  have h1 := hc d hdL
  rw [if_pos rfl, ← hb] at h1
  have t : ∀ a : ZMod 2, (1 : ZMod 2) ≠ a + a := by decide
  exact t _ h1

/-- `removeBridge` on a bridge: removed, or vetoed and unchanged -/
theorem removeBridge_cases {s : GMap K} (hs : Reach s) (hi : s.initialized) (h : Hooks K) {d : Int} (hd : s.liveD d) (hb : s.left? d = s.left? (-d)) :
    (∃ f t, s.removeBridge h d = .ok (some f, t) ∧ Later s t ∧ t.initialized ∧ RemoveBridgeEffect s t d f) ∨
    (s.removeBridge h d = .ok (none, s) ∧ h.preRemoveBridge s d = false) := by
  have hG := hs.good
  obtain ⟨f, F, e, s2, t, gl, hF, he, heq, hR⟩ := removeBridge_spec hG.map hi h hd hb (bridge_not_loop hG hi hd hb)
    ((hG.planar hi).bridges hG.map hi d hd hb)
  by_cases hv : h.preRemoveBridge s d = true
  · rw [if_pos hv] at heq
    have hE := removeBridge_effect hG heq
    refine Or.inl ⟨f, t, heq, Later.one h (.removeBridge d) trivial (by show Outcome.map _ _ = _; rw [heq]; rfl) hE.sizes.2.2, ?_, hE⟩
    unfold GMap.initialized at hi ⊢; rw [hE.sizes.2.2]; exact hi
  · rw [if_neg hv] at heq
    exact Or.inr ⟨heq, by simpa using hv⟩

/-- `mergeFaces` on a dart between two faces: merged, or vetoed -/
theorem mergeFaces_cases {s : GMap K} (hs : Reach s) (hi : s.initialized) (h : Hooks K) {d : Int} (hd : s.liveD d) (hb : s.left? d ≠ s.left? (-d)) :
    (∃ sl ml t, s.mergeFaces h d = .ok (some sl, t) ∧ Later s t ∧ t.initialized ∧ MergeFacesEffect s t d sl ml) ∨
    (∃ t r, s.mergeFaces h d = .ok (none, t) ∧ Later s t ∧ AreasCached s t ∧ (r = d ∨ r = -d) ∧ h.preMergeFaces t r = false) := by
  have hG := hs.good
  obtain ⟨r, sl, ml, S, M, a, b, ed, s0, s2, t, hr, gl, gr, hml, -, he, hS, hMf, hSa, hMa, hc0, hfr, heq, hR⟩ := mergeFaces_spec hG.map hi h hd hb
  by_cases hv : h.preMergeFaces s0 r = true
  · rw [if_pos hv] at heq
    obtain ⟨ml, hE⟩ := mergeFaces_effect hG heq
    refine Or.inl ⟨sl, ml, t, heq, Later.one h (.mergeFaces d) trivial (by show Outcome.map _ _ = _; rw [heq]; rfl) hE.sizes.2.2, ?_, hE⟩
    unfold GMap.initialized at hi ⊢; rw [hE.sizes.2.2]; exact hi
  · rw [if_neg hv] at heq
    refine Or.inr ⟨s0, r, heq, Later.one h (.mergeFaces d) trivial (by show Outcome.map _ _ = _; rw [heq]; rfl) ?_, hc0, hr, by simpa using hv⟩
    obtain ⟨f, e⟩ := hc0.eq
    rw [e]

theorem derefEdge_of {s : GMap K} (hs : Reach s) {l : Nat} {e : Edge K} (he : s.edge l = some e) : s.derefEdge l = .ok e := by
  unfold GMap.derefEdge
  rw [if_pos (hs.good.map.graph.edge_lt l (by simp [he])), he]

/-- changing flags -/
theorem setFlags_later {s : GMap K} {l : Nat} {e : Edge K} (he : s.edge l = some e) (fl : Nat) :
    Later s (s.setEdge l (some { e with flags := fl })) := by
  refine Later.one Hooks.none (.setFlags l fl) trivial ?_ rfl
  show s.setFlags l fl = _
  unfold GMap.setFlags
  rw [guaranteedEdge_of (d := (l : Int)) (e := e) (by simpa using he)]
  rfl

theorem setFlag_later {s : GMap K} {l : Nat} {e : Edge K} (he : s.edge l = some e) (fl : Nat) (b : Bool) :
    Later s (s.setEdge l (some (e.setFlag fl b))) := setFlags_later he _

/-- equal except for one flag bit -/
def SameButBit (i : Nat) (e e' : Edge K) : Prop :=
  e'.startN = e.startN ∧ e'.endN = e.endN ∧ e'.leftF = e.leftF ∧ e'.rightF = e.rightF ∧ e'.pts = e.pts ∧
    ∀ j, j ≠ i → e'.flags.testBit j = e.flags.testBit j

omit [Field K] [LinearOrder K] in
theorem SameButBit.refl (i : Nat) (e : Edge K) : SameButBit i e e := ⟨rfl, rfl, rfl, rfl, rfl, fun _ _ => rfl⟩

omit [Field K] [LinearOrder K] in
theorem SameButBit.trans {i : Nat} {e e' e'' : Edge K} (h : SameButBit i e e') (g : SameButBit i e' e'') : SameButBit i e e'' :=
  ⟨g.1.trans h.1, g.2.1.trans h.2.1, g.2.2.1.trans h.2.2.1, g.2.2.2.1.trans h.2.2.2.1, g.2.2.2.2.1.trans h.2.2.2.2.1,
    fun j hj => (g.2.2.2.2.2 j hj).trans (h.2.2.2.2.2 j hj)⟩

omit [Field K] [LinearOrder K] in
theorem flag_bit (e : Edge K) (i : Nat) : e.flag (2 ^ i) = e.flags.testBit i := by
  unfold Edge.flag
  rw [Nat.and_two_pow]
  cases h : e.flags.testBit i <;> simp

omit [Field K] [LinearOrder K] in
theorem setFlag_testBit (e : Edge K) (i : Nat) (b : Bool) (j : Nat) :
    (e.setFlag (2 ^ i) b).flags.testBit j = if j = i then b else e.flags.testBit j := by
  unfold Edge.setFlag
  cases b <;> by_cases h : j = i
  · subst h; simp
  · have : i ≠ j := fun h' => h h'.symm
    simp [h, this, Nat.testBit_two_pow_of_ne]
  · subst h; simp
  · have : i ≠ j := fun h' => h h'.symm
    simp [h, this, Nat.testBit_two_pow_of_ne]

omit [Field K] [LinearOrder K] in
theorem setFlag_same (e : Edge K) (i : Nat) (b : Bool) : SameButBit i e (e.setFlag (2 ^ i) b) :=
  ⟨rfl, rfl, rfl, rfl, rfl, fun j hj => by rw [setFlag_testBit, if_neg hj]⟩

theorem unremovable_eq : unremovable = 2 ^ 19 := by decide
theorem removeBridgeFlag_eq : removeBridgeFlag = 2 ^ 31 := by decide

end Verif.GeoMap
