import Verif.Outer.First

/-! # Which operations keep the outer contour first -/

set_option linter.unusedSectionVars false

namespace Verif.Outer
open Verif Verif.GeoMap Verif.Polygon Verif.Scan Verif.Locate Equiv Equiv.Perm Verif.PermLemmas Verif.LabelImage

variable {K : Type} [Field K] [LinearOrder K] [IsStrictOrderedRing K]

theorem first_congr {s t : GMap K} (ho : ∀ a, t.orbitArea a = s.orbitArea a)
    (hf : ∀ g F', t.face g = some F' → ∃ F, s.face g = some F ∧ F.anchors = F'.anchors) (h : FirstPositive s) : FirstPositive t := by
  intro g F' hF' h0
  obtain ⟨F, hF, e⟩ := hf g F' hF'
  obtain ⟨a, as, e', hpos⟩ := h g F hF h0
  exact ⟨a, as, by rw [← e, e'], by rw [ho]; exact hpos⟩

theorem AreasCached.anchors' {s t : GMap K} (h : AreasCached s t) {g : Nat} {F' : Face K} (hF : t.face g = some F') :
    ∃ F, s.face g = some F ∧ F.anchors = F'.anchors := by
  rcases h.faces g with h1 | ⟨F, h1, -, h3⟩
  · exact ⟨F', by rw [← h1, hF], rfl⟩
  · rw [h3] at hF; cases hF; exact ⟨F, h1, rfl⟩

theorem AreasCached.anchors_back {s t : GMap K} (h : AreasCached s t) {g : Nat} {F : Face K} (hF : s.face g = some F) :
    ∃ F', t.face g = some F' ∧ F.anchors = F'.anchors := by
  rcases h.faces g with h1 | ⟨F', h1, -, h3⟩
  · exact ⟨F, by rw [h1, hF], rfl⟩
  · rw [h1] at hF; cases hF; exact ⟨_, h3, rfl⟩

theorem AreasCached.first {s t : GMap K} (h : AreasCached s t) (h1 : FirstPositive s) : FirstPositive t := by
  refine first_congr (fun a => ?_) (fun g F' hF' => AreasCached.anchors' h hF') h1
  obtain ⟨face', rfl⟩ := h.eq; rfl

theorem AreasCached.signed {s t : GMap K} (h : AreasCached s t) (h1 : ContoursSigned s) : ContoursSigned t := by
  have ho : ∀ a, t.orbitArea a = s.orbitArea a := fun a => by obtain ⟨face', rfl⟩ := h.eq; rfl
  refine ⟨fun f F' hF' h0 => ?_, fun F' hF' => ?_⟩ <;> obtain ⟨F, hF, e⟩ := AreasCached.anchors' h hF' <;> rw [← e]
  · simp only [ho]; exact h1.outer f F hF h0
  · simp only [ho]; exact h1.infinite F hF

theorem AreasCached.onFirst {s t : GMap K} (h : AreasCached s t) {f : Nat} {d : Int} : OnFirst t f d ↔ OnFirst s f d := by
  have hp : t.phi = s.phi := by obtain ⟨face', rfl⟩ := h.eq; rfl
  unfold OnFirst GMap.phiReach
  rw [hp]
  constructor
  · rintro ⟨F', a, as, hF', e', h1⟩
    obtain ⟨F, hF, e⟩ := AreasCached.anchors' h hF'
    exact ⟨F, a, as, hF, by rw [e, e'], h1⟩
  · rintro ⟨F, a, as, hF, e', h1⟩
    obtain ⟨F', hF', e⟩ := AreasCached.anchors_back h hF
    exact ⟨F', a, as, hF', by rw [← e, e'], h1⟩

theorem AreasCached.disc {s t : GMap K} (h : AreasCached s t) {f : Nat} {d : Int} : Disc t f d ↔ Disc s f d := by
  have hp : t.phi = s.phi := by obtain ⟨face', rfl⟩ := h.eq; rfl
  unfold Disc
  rw [hp]
  refine and_congr Iff.rfl (and_congr Iff.rfl ?_)
  constructor
  · rintro ⟨F', a, hF', e'⟩
    obtain ⟨F, hF, e⟩ := AreasCached.anchors' h hF'
    exact ⟨F, a, hF, by rw [e, e']⟩
  · rintro ⟨F, a, hF, e'⟩
    obtain ⟨F', hF', e⟩ := AreasCached.anchors_back h hF
    exact ⟨F', a, hF', by rw [← e, e']⟩

theorem mergeFaces_first {s t : GMap K} (hs : Reach s) (hp : Placed s) (ht : Reach t) (hpt : Placed t) (h1 : FirstPositive s) {h : Hooks K} {d : Int} {o : Option Nat}
    (e : s.mergeFaces h d = .ok (o, t)) : FirstPositive t ↔ KeepsOuter s t d := by
  have hM := hp.good.map
  by_cases hpr : ¬ s.liveD d ∨ ¬ s.initialized ∨ s.left? d = s.left? (-d)
  · rw [mergeFaces_precond_all hM h d hpr] at e; cases e
  push Not at hpr
  obtain ⟨hd, hi, hb⟩ := hpr
  obtain ⟨r, sl, ml, S, M, a, b, ed, s0, s2, t', hr, gl, gr, hml, -, he, hS, hMf, -, -, hc0, hfr, heq, hR⟩ := mergeFaces_spec hM hi h hd hb
  rw [heq] at e
  have hne : sl ≠ ml := by
    rintro rfl
    rcases hr with rfl | rfl
    · exact hb (by rw [gl, gr])
    · rw [neg_neg] at gr; exact hb (by rw [gl, gr])
  have gl0 : s0.left? r = some sl := by obtain ⟨face', rfl⟩ := hc0.eq; exact gl
  have gr0 : s0.left? (-r) = some ml := by obtain ⟨face', rfl⟩ := hc0.eq; exact gr
  split_ifs at e
  · cases e
    have hi0 : s0.initialized := by obtain ⟨face', rfl⟩ := hc0.eq; exact hi
    have hF := merge_first hR (hc0.mapOK hM) hi0 (liveD_of_left gl0) gl0 gr0 hne hfr.2.1 hfr.2.2 hml
      (AreasCached.signed hc0 (h1.signed hs hp)) ht hpt
    rw [hF, AreasCached.onFirst hc0, AreasCached.onFirst hc0, AreasCached.disc hc0]
    have hmt : t.face ml = none := by
      obtain ⟨as, hface⟩ := hR.face ml
      rw [hface, if_pos rfl]
    have hst : t.face sl ≠ none := by
      obtain ⟨π, hg⟩ := (hc0.mapOK hM).graph.exists_rep
      obtain ⟨ψ, hc⟩ := ((hc0.mapOK hM).contours hi0).exists_rep hg
      obtain ⟨_, _, _, _, F, -, -, -, -, hF, -⟩ := hR.list π ψ hg hc
      rw [hF]; simp
    constructor
    · intro hk r' sl' ml' hr' gl' gr' hmt' h0 hon
      have : r' = r := by
        rcases (by rcases hr with rfl | rfl <;> rcases hr' with rfl | rfl <;> simp : r' = r ∨ r' = -r) with h | h
        · exact h
        · subst h
          rw [neg_neg, gl] at gr'
          cases gr'
          exact absurd hmt' hst
      subst this
      rw [gl] at gl'; rw [gr] at gr'
      cases gl'; cases gr'
      exact hk h0 hon
    · intro hk h0 hon
      exact hk r sl ml (by tauto) gl gr hmt h0 hon
  · cases e
    refine ⟨fun _ r' sl' ml' hr' gl' gr' hmt' => ?_, fun _ => AreasCached.first hc0 h1⟩
    exfalso
    obtain ⟨π, hg⟩ := hM.graph.exists_rep
    obtain ⟨ψ, hc⟩ := (hM.contours hi).exists_rep hg
    obtain ⟨f, k1, k2, -⟩ := hc.lefts (-r') ((hg.live _).mpr (liveD_of_left gr'))
    rw [gr'] at k1; cases k1
    obtain ⟨F, hF⟩ := Option.isSome_iff_exists.mp k2
    obtain ⟨F', hF', -⟩ := AreasCached.anchors_back hc0 hF
    rw [hF'] at hmt'; cases hmt'

theorem removeBridge_first {s t : GMap K} (hs : Reach s) (hp : Placed s) (ht : Reach t) (hpt : Placed t) (h1 : FirstPositive s) {h : Hooks K} {d : Int} {o : Option Nat}
    (e : s.removeBridge h d = .ok (o, t)) : FirstPositive t := by
  have hM := hp.good.map
  by_cases hpr : ¬ s.liveD d ∨ ¬ s.initialized ∨ s.left? d ≠ s.left? (-d) ∨ s.startN? d = s.startN? (-d)
  · rw [removeBridge_precond_all hM h d hpr] at e; cases e
  push Not at hpr
  obtain ⟨hd, hi, hb, hn⟩ := hpr
  obtain ⟨f, F, e', s2, t', gl, hF, he, heq, hR⟩ := removeBridge_spec hM hi h hd hb hn ((hp.good.planar hi).bridges hM hi d hd hb)
  rw [heq] at e
  split_ifs at e
  · cases e
    exact bridge_first hR hs hp ht hpt hd hb gl hF h1
  · cases e; exact h1

theorem mergeEdges_first {s t : GMap K} (hp : Placed s) (h1 : FirstPositive s) {h : Hooks K} {d : Int} {o : Option Nat}
    (e : s.mergeEdges h d = .ok (o, t)) : FirstPositive t := by
  have hM := hp.good.map
  have hi := hp.init
  by_cases hpr : ¬ s.liveD d ∨ (s.sigma d).natAbs = d.natAbs ∨ s.sigma (s.sigma d) ≠ d
  · rw [mergeEdges_precond h s d hpr] at e; cases e
  push Not at hpr
  obtain ⟨d1, d2, e1, e2, m, n2, nd, s1, -, hs1, hM1, hD, hoff, hreps, heq, -⟩ := mergeEdges_spec hM h hpr.1 hpr.2.1 hpr.2.2
  obtain ⟨⟨face', h1e⟩, hsame⟩ := moveAnchors_same hoff.2.1
  obtain ⟨π, hg⟩ := hM.graph.exists_rep
  obtain ⟨ψ, hc⟩ := (hM.contours hi).exists_rep hg
  obtain ⟨hg1, hc1⟩ := hreps hi π ψ hg hc
  have hd1 : s1.darts = s.darts := by rw [h1e]; rfl
  have hi1 : s1.initialized := by rw [h1e]; exact hi
  have first1 : FirstPositive s1 := by
    intro g F' hF' h0
    have hsc := hsame g
    rw [hF'] at hsc
    cases hF : s.face g with
    | none => rw [hF] at hsc; exact hsc.elim
    | some F =>
      rw [hF] at hsc
      obtain ⟨h2, -, -⟩ := hsc
      obtain ⟨a, as, ea, hpos⟩ := h1 g F hF h0
      rw [ea] at h2
      rcases hb : F'.anchors with _ | ⟨b, bs⟩
      · rw [hb] at h2; cases h2
      · rw [hb] at h2
        rw [List.forall₂_cons] at h2
        refine ⟨b, bs, rfl, ?_⟩
        have : s1.orbitArea b = s.orbitArea b := by rw [h1e]; rfl
        rw [this, orbitArea_reach hM hi ((hg.live a).mp ((hc.faces g F hF).left a (by rw [ea]; simp)).1) h2.1]
        exact hpos
  rw [heq] at e
  split_ifs at e
  · cases e
    have hG1 : GeomOK s1 := by
      have := hp.geom.geom
      rw [h1e]
      exact this
    intro g F' hF' h0
    have hF1 : s1.face g = some F' := hF'
    obtain ⟨a, as, ea, hpos⟩ := first1 g F' hF1 h0
    refine ⟨a, as, ea, ?_⟩
    have hoff' := hoff.1 hi1
    have := merge_orbit (a := a) (by rw [hd1]; exact hg1) (by rw [hd1]; exact hc1) hG1 hD hoff'
      (by rw [hd1]; exact ((hc1.faces g F' hF1).left a (by rw [ea]; simp)).1) (hoff' g F' hF1 a (by rw [ea]; simp))
    rw [this]
    exact hpos
  · cases e; exact first1

theorem splitEdge_first {s t : GMap K} (hp : Placed s) (h1 : FirstPositive s) {l i : Nat} {np : Option (Pt K)} {r : Nat}
    (hfit : ∀ p, np = some p → ∀ e a b, s.edge l = some e → e.pts[i]? = some a → e.pts[i + 1]? = some b → GeoMap.OnLine a b p)
    (e : s.splitEdge l i np = .ok (r, t)) : FirstPositive t := by
  have hM := hp.good.map
  have hi := hp.init
  cases he : s.edge l with
  | none =>
    unfold GMap.splitEdge GMap.guaranteedEdge at e
    simp [he, bind] at e
  | some ed =>
    have hpts := hM.graph.pts_ne l ed he
    by_cases hil : i < ed.pts.length - 1
    · obtain ⟨cnd, p, hpp, hC, heq, hMt⟩ := splitEdge_spec hM he np hil
      rw [heq] at e
      cases e
      obtain ⟨π, hg⟩ := hM.graph.exists_rep
      obtain ⟨ψ, hc⟩ := (hM.contours hi).exists_rep hg
      have ha : area2 (splitPts ed.pts i np) = area2 ed.pts := by
        cases np with
        | none => rfl
        | some q =>
          exact area2_insert (List.getElem?_eq_getElem (by omega)) (List.getElem?_eq_getElem (by omega))
            (hfit q rfl ed _ _ he (List.getElem?_eq_getElem (by omega)) (List.getElem?_eq_getElem (by omega)))
      intro g F hF h0
      have hF1 : s.face g = some F := hF
      obtain ⟨a, as, ea, hpos⟩ := h1 g F hF1 h0
      refine ⟨a, as, ea, ?_⟩
      rw [split_orbit hg hc hC hil hpp ha ((hc.faces g F hF1).left a (by rw [ea]; simp)).1]
      exact hpos
    · unfold GMap.splitEdge GMap.guaranteedEdge at e
      simp only [Int.natAbs_natCast, he, bind, Outcome.bind_ok, if_neg hpts, hil, not_false_eq_true, if_true] at e
      cases e

theorem rename_first {s t : GMap K} (h1 : FirstPositive s) {new : List Nat} {size : Nat} (h0 : new[0]? = some 0) (hR : RenamedBy new size s t) : FirstPositive t := by
  have hD : ∀ d, t.dartArea d = s.dartArea d := by
    intro d
    unfold GMap.dartArea
    rw [hR.edges]
    cases s.edge d.natAbs <;> rfl
  have ho : ∀ a, t.orbitArea a = s.orbitArea a := by
    intro a
    have hd : t.darts = s.darts := by
      unfold GMap.darts
      have hn : t.nEdges = s.nEdges := by obtain ⟨_, _, h⟩ := hR.eq; rw [h]
      rw [hn]
      refine Finset.filter_congr fun d _ => ?_
      rw [hR.edges]; simp
    have hph : t.phiReach = s.phiReach := by obtain ⟨_, _, h⟩ := hR.eq; rw [h]; rfl
    unfold GMap.orbitArea
    rw [hd, hph]
    exact Finset.sum_congr rfl fun x _ => hD x
  intro g F hF hg0
  obtain ⟨l, hl, hn⟩ := (hR.faces g F).mp hF
  have hl0 : l ≠ 0 := by
    rintro rfl
    rw [h0] at hn; exact hg0 (Option.some.inj hn).symm
  obtain ⟨a, as, ea, hpos⟩ := h1 l F hl hl0
  exact ⟨a, as, ea, by rw [ho]; exact hpos⟩

/-- Every call except a merging of faces keeps the outer contours first, and a merging of faces does so exactly if it meets `KeepsOuter`. -/
theorem call_first {s t : GMap K} (hs : Reach s) (hp : Placed s) (ht : Reach t) (hpt : Placed t) (h1 : FirstPositive s) {h : Hooks K} {op : LOp K}
    (hl : op.op.legal s) (hf : op.fits s) (e : op.op.run h s = .ok t) :
    FirstPositive t ↔ ∀ d, op = .mergeFaces d ∨ op = .removeEdge d → KeepsOuter s t d := by
  have triv : FirstPositive t → (∀ d, op ≠ .mergeFaces d) → (∀ d, op ≠ .removeEdge d) →
      (FirstPositive t ↔ ∀ d, op = .mergeFaces d ∨ op = .removeEdge d → KeepsOuter s t d) := by
    intro h2 h3 h4
    refine ⟨fun _ d hd => ?_, fun _ => h2⟩
    rcases hd with hd | hd
    · exact absurd hd (h3 d)
    · exact absurd hd (h4 d)
  cases op with
  | addNode p label =>
    cases e
    exact triv (first_congr (s := s) (fun _ => rfl) (fun _ F hF => ⟨F, hF, rfl⟩) h1) (by simp) (by simp)
  | removeIsolatedNode n =>
    obtain ⟨⟨r, t'⟩, e2, rfl⟩ := map_ok (show (s.removeIsolatedNode h n).map (·.2) = .ok t from e)
    refine triv ?_ (by simp) (by simp)
    unfold GMap.removeIsolatedNode at e2
    obtain ⟨_, -, e2⟩ := Outcome.bind_eq_ok.mp e2
    split_ifs at e2 <;> cases e2
    · exact first_congr (s := s) (fun _ => rfl) (fun _ F hF => ⟨F, hF, rfl⟩) h1
    · exact h1
  | area f =>
    obtain ⟨x, t', e2, -, hA⟩ := area_step hp.good.map (f := f) hl
    have e : (s.faceArea (some f)).map (·.2) = .ok t := e
    rw [e2] at e
    cases e
    exact triv (AreasCached.first hA h1) (by simp) (by simp)
  | setFlags l flags =>
    have e : s.setFlags l flags = .ok t := e
    unfold GMap.setFlags GMap.guaranteedEdge at e
    rw [Int.natAbs_natCast] at e
    cases he : s.edge l with
    | none => rw [he] at e; cases e
    | some a =>
      rw [he] at e
      cases e
      refine triv ?_ (by simp) (by simp)
      have hk : ∀ k, ((s.setEdge l (some { a with flags := flags })).edge k) = if k = l then some { a with flags := flags } else s.edge k := by
        intro k; simp only [GMap.setEdge, Function.update_apply]
      refine first_congr (s := s) (fun x => ?_) (fun _ F hF => ⟨F, hF, rfl⟩) h1
      have hd : (s.setEdge l (some { a with flags := flags })).darts = s.darts := by
        unfold GMap.darts
        refine Finset.filter_congr fun d _ => ?_
        rw [hk]
        split_ifs with h2
        · rw [h2, he]; simp
        · rfl
      unfold GMap.orbitArea
      rw [hd]
      refine Finset.sum_congr rfl fun d _ => ?_
      unfold GMap.dartArea
      rw [hk]
      split_ifs with h2
      · rw [h2, he]; rfl
      · rfl
  | mergeEdges d =>
    obtain ⟨⟨r, t'⟩, e2, rfl⟩ := map_ok (show (s.mergeEdges h d).map (·.2) = .ok t from e)
    exact triv (mergeEdges_first hp h1 e2) (by simp) (by simp)
  | splitEdge l i np =>
    obtain ⟨⟨r, t'⟩, e2, rfl⟩ := map_ok (show (s.splitEdge l i np).map (·.2) = .ok t from e)
    refine triv (splitEdge_first hp h1 ?_ e2) (by simp) (by simp)
    intro p hp
    subst hp
    exact LOp.fits_op hf
  | removeBridge d =>
    obtain ⟨⟨r, t'⟩, e2, rfl⟩ := map_ok (show (s.removeBridge h d).map (·.2) = .ok t from e)
    exact triv (removeBridge_first hs hp ht hpt h1 e2) (by simp) (by simp)
  | mergeFaces d =>
    obtain ⟨⟨r, t'⟩, e2, rfl⟩ := map_ok (show (s.mergeFaces h d).map (·.2) = .ok t from e)
    rw [mergeFaces_first hs hp ht hpt h1 e2]
    simp
  | removeEdge d =>
    have e : (s.removeEdge h d).map (·.2) = .ok t := e
    unfold GMap.removeEdge at e
    rw [if_pos hp.init] at e
    cases he : s.edge d.natAbs with
    | none => simp [GMap.guaranteedEdge, he, bind, Outcome.map, Outcome.bind] at e
    | some a =>
      simp only [guaranteedEdge_of he, bind, Outcome.bind_ok] at e
      split_ifs at e
      · obtain ⟨⟨r, t'⟩, e2, rfl⟩ := map_ok e
        have hk : KeepsOuter s t' d := by
          intro r' sl ml hr' gl gr hmt
          exfalso
          by_cases hpr : ¬ s.liveD d ∨ ¬ s.initialized ∨ s.left? d ≠ s.left? (-d) ∨ s.startN? d = s.startN? (-d)
          · rw [removeBridge_precond_all hp.good.map h d hpr] at e2; cases e2
          push Not at hpr
          obtain ⟨hd, hi, hb, hn⟩ := hpr
          obtain ⟨f, F, e', s2, t'', gl', hF, -, heq, hR⟩ := removeBridge_spec hp.good.map hi h hd hb hn ((hp.good.planar hi).bridges hp.good.map hi d hd hb)
          have hmf : ml = f := by
            rcases hr' with rfl | rfl
            · rw [← hb, gl'] at gr; exact (Option.some.inj gr).symm
            · rw [neg_neg, gl'] at gr; exact (Option.some.inj gr).symm
          subst hmf
          rw [heq] at e2
          split_ifs at e2
          · cases e2
            obtain ⟨π, hg⟩ := hp.good.map.graph.exists_rep
            obtain ⟨ψ, hc⟩ := (hp.good.map.contours hi).exists_rep hg
            obtain ⟨_, _, as, -, -, hface, -⟩ := hR.list π ψ hg hc
            rw [hface, Function.update_self] at hmt
            cases hmt
          · cases e2; rw [hF] at hmt; cases hmt
        have := removeBridge_first hs hp ht hpt h1 e2
        simp [this, hk]
      · obtain ⟨⟨r, t'⟩, e2, rfl⟩ := map_ok e
        rw [mergeFaces_first hs hp ht hpt h1 e2]
        simp

end Verif.Outer
