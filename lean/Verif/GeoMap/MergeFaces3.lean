import Verif.GeoMap.MergeFaces2

/-! # `mergeFaces`: the whole operation -/

namespace Verif.GeoMap
open Equiv Equiv.Perm Verif.PermLemmas

variable {K : Type}

section
variable [Field K]

/-- sum of the `areaTerm`s of all darts left of which `f` lies -/
def GMap.trueArea (s : GMap K) (f : Nat) : K := ∑ d ∈ s.leftDarts f, s.areaTerm d

/-- `t` is `s` with some face areas cached -/
structure AreasCached (s t : GMap K) : Prop where
  eq : ∃ face', t = { s with face := face' }
  faces : ∀ f, t.face f = s.face f ∨
    ∃ F, s.face f = some F ∧ F.area = none ∧ t.face f = some { F with area := some (s.trueArea f) }

theorem AreasCached.refl (s : GMap K) : AreasCached s s := ⟨⟨s.face, rfl⟩, fun _ => Or.inl rfl⟩

theorem trueArea_congr {s : GMap K} {face' : Nat → Option (Face K)} (f : Nat) :
    ({ s with face := face' } : GMap K).trueArea f = s.trueArea f := rfl

theorem AreasCached.trueArea {s t : GMap K} (h : AreasCached s t) (f : Nat) : t.trueArea f = s.trueArea f := by
  obtain ⟨face', rfl⟩ := h.eq; rfl

theorem AreasCached.trans {s t u : GMap K} (h1 : AreasCached s t) (h2 : AreasCached t u) : AreasCached s u := by
  refine ⟨?_, fun f => ?_⟩
  · obtain ⟨f1, e1⟩ := h1.eq
    obtain ⟨f2, e2⟩ := h2.eq
    exact ⟨f2, by rw [e2, e1]⟩
  · rcases h1.faces f with g1 | ⟨F, a1, a2, a3⟩
    · rcases h2.faces f with k1 | ⟨G, b1, b2, b3⟩
      · exact Or.inl (by rw [k1, g1])
      · exact Or.inr ⟨G, by rw [← g1, b1], b2, by rw [b3, h1.trueArea]⟩
    · rcases h2.faces f with k1 | ⟨G, b1, b2, b3⟩
      · exact Or.inr ⟨F, a1, a2, by rw [k1, a3]⟩
      · rw [a3] at b1; cases b1; cases b2

theorem AreasCached.isSome {s t : GMap K} (h : AreasCached s t) (f : Nat) : (t.face f).isSome = (s.face f).isSome := by
  rcases h.faces f with g | ⟨F, a1, a2, a3⟩
  · rw [g]
  · rw [a1, a3]; rfl

theorem AreasCached.anchors {s t : GMap K} (h : AreasCached s t) (f : Nat) :
    (t.face f).map (·.anchors) = (s.face f).map (·.anchors) := by
  rcases h.faces f with g | ⟨F, a1, a2, a3⟩
  · rw [g]
  · rw [a1, a3]; rfl

theorem AreasCached.graphRep {s t : GMap K} (h : AreasCached s t) {L : Finset Int} {π : Perm Int} (hg : GraphRep s L π) :
    GraphRep t L π := by
  obtain ⟨f', e⟩ := h.eq
  have := h.isSome
  subst e
  exact hg.congr_face this

theorem AreasCached.contoursRep {s t : GMap K} (h : AreasCached s t) {L : Finset Int} {ψ : Perm Int} (hc : ContoursRep s L ψ) :
    ContoursRep t L ψ := by
  obtain ⟨f', e⟩ := h.eq
  have his := h.isSome
  have han := h.anchors
  subst e
  refine ⟨hc.rep, ?_, ?_, ?_⟩
  · intro d hd
    obtain ⟨f, a, b, c⟩ := hc.lefts d hd
    exact ⟨f, a, by rw [his]; exact b, c⟩
  · intro f F hF
    have := han f
    rw [hF] at this
    cases h1 : s.face f with
    | none => simp [h1] at this
    | some G =>
      rw [h1] at this
      simp only [Option.map_some, Option.some.injEq] at this
      rw [this]; exact hc.faces f G h1
  · rw [his]; exact hc.face_zero

theorem AreasCached.mapOK {s t : GMap K} (h : AreasCached s t) (hM : MapOK s) : MapOK t := by
  obtain ⟨π, hg⟩ := hM.graph.exists_rep
  refine MapOK.of_reps (h.graphRep hg) (fun hi => ?_)
  have : s.initialized := by
    obtain ⟨f', e⟩ := h.eq
    subst e; exact hi
  obtain ⟨ψ, hc⟩ := (hM.contours this).exists_rep hg
  exact ⟨ψ, h.contoursRep hc⟩

/-- `Face::area()`: the value returned and the state afterwards -/
theorem faceArea_spec {s : GMap K} {π ψ : Perm Int} (hg : GraphRep s s.darts π) (hc : ContoursRep s s.darts ψ)
    {f : Nat} {F : Face K} (hF : s.face f = some F) :
    ∃ x t, s.faceArea (some f) = .ok (x, t) ∧ AreasCached s t ∧ t.face f = some { F with area := some x } ∧
      (∀ g, g ≠ f → t.face g = s.face g) ∧ (F.area = some x ∨ (F.area = none ∧ x = s.trueArea f)) := by
  obtain ⟨x, h1, h2⟩ := faceArea_eq hg hc hF
  have h2' : F.area = some x ∨ (F.area = none ∧ x = s.trueArea f) := by
    rcases h2 with h2 | ⟨h2, h3⟩
    · exact Or.inl h2
    · refine Or.inr ⟨h2, ?_⟩
      rw [h3]; unfold GMap.trueArea GMap.leftDarts
      congr 1
  refine ⟨x, _, h1, ⟨⟨_, rfl⟩, fun g => ?_⟩, by simp [GMap.setFace], fun g hg => by simp [GMap.setFace, Function.update_of_ne hg], h2'⟩
  by_cases hgf : g = f
  · subst hgf
    rcases h2' with h2 | ⟨h2, h3⟩
    · left
      simp only [GMap.setFace, Function.update_self, hF]
      rw [← h2]
    · right
      exact ⟨F, hF, h2, by simp [GMap.setFace, h3]⟩
  · left; simp [GMap.setFace, Function.update_of_ne hgf]

end

section
variable [Field K] [LinearOrder K]

omit [Field K] in
theorem chooseDart_cases (d : Int) (l r : Option Nat) (a b : K) :
    GMap.chooseDart d l r a b = d ∨ GMap.chooseDart d l r a b = -d := by
  unfold GMap.chooseDart
  by_cases h1 : a < b <;> by_cases h2 : l = some 0 <;> by_cases h3 : r = some 0 <;> simp [h1, h2, h3]

omit [Field K] in
/-- Which face survives: never face 0 as merged face, otherwise the one that is not smaller. -/
theorem chooseDart_spec (d : Int) {l r : Nat} (hne : l ≠ r) (a b : K) :
    (GMap.chooseDart d (some l) (some r) a b = d ∧ r ≠ 0 ∧ (l = 0 ∨ ¬ a < b)) ∨
    (GMap.chooseDart d (some l) (some r) a b = -d ∧ l ≠ 0 ∧ (r = 0 ∨ a < b)) := by
  unfold GMap.chooseDart
  by_cases h1 : a < b
  · by_cases h2 : l = 0
    · subst h2; left; refine ⟨by simp [h1], Ne.symm hne, Or.inl rfl⟩
    · right; refine ⟨by simp [h1, h2], h2, Or.inr h1⟩
  · by_cases h2 : r = 0
    · subst h2; right; refine ⟨by simp [h1], hne, Or.inl rfl⟩
    · left; refine ⟨by simp [h1, h2], h2, Or.inr h1⟩

/-- The result of a successful or cancelled `mergeFaces`. -/
theorem mergeFaces_spec {s : GMap K} (hM : MapOK s) (hi : s.initialized) (h : Hooks K) {d : Int} (hd : s.liveD d)
    (hne : s.left? d ≠ s.left? (-d)) :
    ∃ r sl ml S M a b e s0 s2 t, (r = d ∨ r = -d) ∧ s.left? r = some sl ∧ s.left? (-r) = some ml ∧ ml ≠ 0 ∧
      (sl = 0 ∨ b ≤ a) ∧ s.edge r.natAbs = some e ∧
      s.face sl = some S ∧ s.face ml = some M ∧
      (S.area = some a ∨ (S.area = none ∧ a = s.trueArea sl)) ∧
      (M.area = some b ∨ (M.area = none ∧ b = s.trueArea ml)) ∧
      AreasCached s s0 ∧ ((∀ g, g ≠ sl → g ≠ ml → s0.face g = s.face g) ∧ s0.face sl = some { S with area := some a } ∧ s0.face ml = some { M with area := some b }) ∧
      s.mergeFaces h d = (if h.preMergeFaces s0 r then .ok (some sl, t) else .ok (none, s0)) ∧
      MergeResult h s0 r sl ml { S with area := some a } { M with area := some b } e s2 t := by
  obtain ⟨π, hg⟩ := hM.graph.exists_rep
  obtain ⟨ψ, hc⟩ := (hM.contours hi).exists_rep hg
  have hdL : d ∈ s.darts := (hg.live d).mpr hd
  have h0 := hg.ne_zero hdL
  obtain ⟨e, he⟩ := liveD_exists hd
  have he' : s.edge (-d).natAbs = some e := by simpa using he
  obtain ⟨l, gl, hFl, -⟩ := hc.lefts d hdL
  obtain ⟨Fl, hFl⟩ := Option.isSome_iff_exists.mp hFl
  obtain ⟨r, gr, hFr, -⟩ := hc.lefts (-d) (hg.symm d hdL)
  obtain ⟨Fr, hFr⟩ := Option.isSome_iff_exists.mp hFr
  have hlr : l ≠ r := by rintro rfl; exact hne (by rw [gl, gr])
  have el : e.leftOf d = some l := by rw [← gl]; exact (left?_of he).symm
  have er : e.rightOf d = some r := by rw [← e.leftOf_neg h0, ← gr]; exact (left?_of he').symm
  obtain ⟨a, s1, f1, A1, k1, k1', v1⟩ := faceArea_spec hg hc hFl
  have dd1 : s1.darts = s.darts := by obtain ⟨_, rfl⟩ := A1.eq; rfl
  have hg1 : GraphRep s1 s1.darts π := by rw [dd1]; exact A1.graphRep hg
  have hc1 : ContoursRep s1 s1.darts ψ := by rw [dd1]; exact A1.contoursRep hc
  obtain ⟨b, s0, f2, A2, k2, k2', v2⟩ := faceArea_spec hg1 hc1 (f := r) (F := Fr) (by rw [k1' r (Ne.symm hlr)]; exact hFr)
  have A := A1.trans A2
  have dd0 : s0.darts = s.darts := by obtain ⟨_, rfl⟩ := A.eq; rfl
  have hg0 : GraphRep s0 s0.darts π := by rw [dd0]; exact A.graphRep hg
  have hc0 : ContoursRep s0 s0.darts ψ := by rw [dd0]; exact A.contoursRep hc
  have q : s0.edge = s.edge ∧ s0.left? = s.left? ∧ s0.node = s.node := by obtain ⟨_, rfl⟩ := A.eq; exact ⟨rfl, rfl, rfl⟩
  have kl : s0.face l = some { Fl with area := some a } := by rw [k2' l hlr, k1]
  have hmerge : ∀ (x : Int) (sl ml : Nat) (S M : Face K), x = GMap.chooseDart d (some l) (some r) a b → x ∈ s.darts →
      s.edge x.natAbs = some e →
      e.leftOf x = some sl → e.rightOf x = some ml → s0.face sl = some S → s0.face ml = some M → sl ≠ ml →
      s.mergeFaces h d = (if h.preMergeFaces s0 x then (s0.mergeFacesApply h x S M (e.startOf x) sl ml).map (fun s => (some sl, s))
        else .ok (none, s0)) := by
    intro x sl ml S M hx hxL hxe hxl hxr hS hMM hsm
    obtain ⟨n, m1, m2, -⟩ := hg0.starts x (by rw [dd0]; exact hxL)
    rw [startN?_of (by rw [q.1]; exact hxe)] at m1; cases m1
    obtain ⟨nd, hnd⟩ := Option.isSome_iff_exists.mp m2
    unfold GMap.mergeFaces
    rw [guaranteedEdge_of he]
    simp only [bind, Outcome.bind_ok, el, er, f1, f2, ← hx, hxl, hxr, derefFace_of hg0.labels hS, derefFace_of hg0.labels hMM,
      derefNode_of hg0.labels hnd, if_neg hsm]
    cases h.preMergeFaces s0 x <;> rfl
  rcases chooseDart_spec d hlr a b with ⟨hch, hz, hw⟩ | ⟨hch, hz, hw⟩
  · have C : MergeCtx s0 π ψ d l r { Fl with area := some a } { Fr with area := some b } e :=
      ⟨hg0, hc0, by rw [dd0]; exact hdL, by rw [q.1]; exact he, by rw [q.2.1]; exact gl, by rw [q.2.1]; exact gr, kl, k2, hlr, hz⟩
    obtain ⟨s2, t, ht, hres⟩ := mergeFacesApply_spec C (b := b) rfl h
    refine ⟨d, l, r, Fl, Fr, a, b, e, s0, s2, t, Or.inl rfl, gl, gr, hz, ?_, he, hFl, hFr, v1, ?_, A, ?_, ?_, hres⟩
    · rcases hw with hw | hw
      · exact Or.inl hw
      · exact Or.inr (not_lt.mp hw)
    · rw [A1.trueArea] at v2; exact v2
    · exact ⟨fun g g1 g2 => by rw [k2' g g2, k1' g g1], kl, k2⟩
    · rw [hmerge d l r _ _ hch.symm hdL he el er kl k2 hlr, ht]; rfl
  · have C : MergeCtx s0 π ψ (-d) r l { Fr with area := some b } { Fl with area := some a } e :=
      ⟨hg0, hc0, by rw [dd0]; exact hg.symm d hdL, by rw [q.1]; exact he', by rw [q.2.1]; exact gr,
        by rw [q.2.1, neg_neg]; exact gl, k2, kl, Ne.symm hlr, hz⟩
    obtain ⟨s2, t, ht, hres⟩ := mergeFacesApply_spec C (b := a) rfl h
    refine ⟨-d, r, l, Fr, Fl, b, a, e, s0, s2, t, Or.inr rfl, gr, by rw [neg_neg]; exact gl, hz, ?_, he', hFr, hFl, ?_, v1, A, ?_, ?_, hres⟩
    · rcases hw with hw | hw
      · exact Or.inl hw
      · exact Or.inr hw.le
    · rw [A1.trueArea] at v2; exact v2
    · exact ⟨fun g g1 g2 => by rw [k2' g g1, k1' g g2], k2, kl⟩
    · rw [hmerge (-d) r l _ _ hch.symm (hg.symm d hdL) he' (by rw [e.leftOf_neg h0, er]) (by rw [e.rightOf_neg h0, el]) k2 kl (Ne.symm hlr), ht]; rfl

/-- `mergeFaces` on a removed dart or a bridge: precondition violation. -/
theorem mergeFaces_precond {s : GMap K} (hM : MapOK s) (hi : s.initialized) (h : Hooks K) {d : Int}
    (hbad : ¬ s.liveD d ∨ s.left? d = s.left? (-d)) : s.mergeFaces h d = .precond := by
  obtain ⟨π, hg⟩ := hM.graph.exists_rep
  obtain ⟨ψ, hc⟩ := (hM.contours hi).exists_rep hg
  by_cases hd : s.liveD d
  · have hb : s.left? d = s.left? (-d) := by rcases hbad with h | h; exact absurd hd h; exact h
    have hdL : d ∈ s.darts := (hg.live d).mpr hd
    have h0 := hg.ne_zero hdL
    obtain ⟨e, he⟩ := liveD_exists hd
    have he' : s.edge (-d).natAbs = some e := by simpa using he
    obtain ⟨l, gl, hFl, -⟩ := hc.lefts d hdL
    obtain ⟨Fl, hFl⟩ := Option.isSome_iff_exists.mp hFl
    have el : e.leftOf d = some l := by rw [← gl]; exact (left?_of he).symm
    have er : e.rightOf d = some l := by rw [← e.leftOf_neg h0, ← gl, hb]; exact (left?_of he').symm
    obtain ⟨a, s1, f1, A1, k1, k1', v1⟩ := faceArea_spec hg hc hFl
    have dd1 : s1.darts = s.darts := by obtain ⟨_, rfl⟩ := A1.eq; rfl
    have hg1 : GraphRep s1 s1.darts π := by rw [dd1]; exact A1.graphRep hg
    have hc1 : ContoursRep s1 s1.darts ψ := by rw [dd1]; exact A1.contoursRep hc
    obtain ⟨b, s0, f2, A2, k2, k2', v2⟩ := faceArea_spec hg1 hc1 k1
    have A := A1.trans A2
    have dd0 : s0.darts = s.darts := by obtain ⟨_, rfl⟩ := A.eq; rfl
    have hg0 : GraphRep s0 s0.darts π := by rw [dd0]; exact A.graphRep hg
    have qe : s0.edge = s.edge := by obtain ⟨_, rfl⟩ := A.eq; rfl
    have fin : ∀ x : Int, x ∈ s.darts → s.edge x.natAbs = some e → e.leftOf x = some l → e.rightOf x = some l →
        x = GMap.chooseDart d (some l) (some l) a b → s.mergeFaces h d = .precond := by
      intro x hxL hxe hxl hxr hx
      obtain ⟨n, m1, m2, -⟩ := hg0.starts x (by rw [dd0]; exact hxL)
      rw [startN?_of (by rw [qe]; exact hxe)] at m1; cases m1
      obtain ⟨nd, hnd⟩ := Option.isSome_iff_exists.mp m2
      unfold GMap.mergeFaces
      rw [guaranteedEdge_of he]
      simp only [bind, Outcome.bind_ok, el, er, f1, f2, ← hx, hxl, hxr, derefFace_of hg0.labels k2, derefNode_of hg0.labels hnd, if_true]
    rcases chooseDart_cases d (some l) (some l) a b with h1 | h1
    · exact fin d hdL he el er h1.symm
    · exact fin (-d) (hg.symm d hdL) he' (by rw [e.leftOf_neg h0, er]) (by rw [e.rightOf_neg h0, el]) h1.symm
  · unfold GMap.mergeFaces
    rw [guaranteedEdge_dead hd]; rfl

end

end Verif.GeoMap
