import Verif.GeoMap.Effects

/-! # `mergeEdges` undoes `splitEdge` -/

namespace Verif.GeoMap
open Equiv Equiv.Perm Verif.PermLemmas

variable {K : Type} [Field K] [LinearOrder K]

omit [Field K] [LinearOrder K] in
theorem moveAnchorOff_id (s : GMap K) {l : Nat} {as : List Int} (h : ∀ a ∈ as, a.natAbs ≠ l) : s.moveAnchorOff l as = as := by
  induction as with
  | nil => rfl
  | cons a as ih =>
    rw [GMap.moveAnchorOff, if_neg (h a (by simp)), ih (fun b hb => h b (by simp [hb]))]

omit [Field K] [LinearOrder K] in
theorem moveFaceAnchor_id {s t : GMap K} {l : Nat} {f : Option Nat} (h : ∀ f F, s.face f = some F → ∀ a ∈ F.anchors, a.natAbs ≠ l)
    (e : s.moveFaceAnchor l f = .ok t) : t = s := by
  unfold GMap.moveFaceAnchor at e
  cases f with
  | none => simp [GMap.derefFace, bind] at e
  | some f =>
    simp only [GMap.derefFace, bind] at e
    split_ifs at e
    · cases hF : s.face f with
      | none => rw [hF] at e; cases e
      | some F =>
        rw [hF] at e
        simp only [Outcome.bind_ok] at e
        cases e
        rw [moveAnchorOff_id s (h f F hF)]
        unfold GMap.setFace
        have : Function.update s.face f (some { F with anchors := F.anchors }) = s.face := by
          rw [Function.update_eq_self_iff, hF]
        rw [this]
    · cases e

omit [Field K] [LinearOrder K] in
theorem moveAnchors_id {s t : GMap K} {d : Int} {e2 : Edge K} (h : ∀ f F, s.face f = some F → ∀ a ∈ F.anchors, a.natAbs ≠ d.natAbs)
    (e : s.moveAnchors d e2 = .ok t) : t = s := by
  unfold GMap.moveAnchors at e
  split_ifs at e
  · simp only [bind, Outcome.bind_eq_ok] at e
    obtain ⟨u, h1, h2⟩ := e
    have := moveFaceAnchor_id h h1
    subst this
    exact moveFaceAnchor_id h h2
  · cases e; rfl

/-- `splitEdge` followed by `mergeEdges` at the new node gives back the same map; only the (unused)
labels of the temporary node and edge are gone, the point inserted into the edge stays, and the node
at the end of the edge may have another anchor. -/
theorem merge_undoes_split {s : GMap K} (hs : MapOK s) {l i : Nat} {np : Option (Pt K)} {r : Nat} {t : GMap K}
    (e : s.splitEdge l i np = .ok (r, t)) {h : Hooks K} (h1 : ∀ s d, h.preMergeEdges s d = true) (h2 : ∀ s n, h.removeNode s n = true) :
    ∃ u, t.mergeEdges h r = .ok (some l, u) ∧
      (∀ k, k ≠ l → u.edge k = s.edge k) ∧
      (∃ e, s.edge l = some e ∧ u.edge l = some { e with pts := splitPts e.pts i np }) ∧
      (∀ n, (u.node n).map (·.pos) = (s.node n).map (·.pos)) ∧
      (∀ d, s.liveD d → u.nextSigma d = s.nextSigma d ∧ u.prevSigma d = s.prevSigma d) ∧
      u.face = s.face ∧
      u.nodeCount = s.nodeCount ∧ u.edgeCount = s.edgeCount ∧ u.faceCount = s.faceCount := by
  cases he : s.edge l with
  | none =>
    unfold GMap.splitEdge GMap.guaranteedEdge at e
    simp [he, bind] at e
  | some ed =>
    have hpts := hs.graph.pts_ne l ed he
    by_cases hi : i < ed.pts.length - 1
    swap
    · unfold GMap.splitEdge GMap.guaranteedEdge at e
      simp only [Int.natAbs_natCast, he, bind, Outcome.bind_ok, if_neg hpts, hi, not_false_eq_true, if_true] at e
      cases e
    obtain ⟨cnd, p, hp, hC, heq, hMt⟩ := splitEdge_spec hs he np hi
    rw [heq] at e
    cases e
    obtain ⟨π, hg⟩ := hs.graph.exists_rep
    obtain ⟨h0, hlt, hn, hm, hr, hq, s1, s2⟩ := hC.facts hg
    obtain ⟨ptsL, hL⟩ : ∃ x, x = (splitPts ed.pts i np).take (splitIdx i np + 1) := ⟨_, rfl⟩
    obtain ⟨ptsR, hR⟩ : ∃ x, x = (splitPts ed.pts i np).drop (splitIdx i np) := ⟨_, rfl⟩
    rw [← hL, ← hR] at hMt ⊢
    have hL' : ptsL ≠ [] := by
      intro h
      rw [hL, List.take_eq_nil_iff] at h
      rcases h with h | h
      · omega
      · rw [h] at hp; simp at hp
    have hR' : ptsR ≠ [] := by
      intro h
      rw [hR, List.drop_eq_nil_iff] at h
      rw [List.getElem?_eq_none h] at hp; cases hp
    have G := splitState_graph (p := p) hg hC hL' hR'
    obtain ⟨t, ht⟩ : ∃ t, t = splitState s l ed ptsL ptsR p cnd := ⟨_, rfl⟩
    rw [← ht] at hMt G ⊢
    have hgr : t.sigma s.nEdges = -(l : Int) ∧ t.sigma (-(l : Int)) = s.nEdges := by
      rw [G.rep.eq _ (by simp), G.rep.eq _ (by simp [hm]), split_apply (hg.rep.fix _ hr) (hg.rep.fix _ hq) (by omega) (by omega) (by omega),
        split_apply (hg.rep.fix _ hr) (hg.rep.fix _ hq) (by omega) (by omega) (by omega)]
      rw [if_neg (by omega), if_pos rfl, if_pos rfl]; exact ⟨rfl, rfl⟩
    have hd : t.liveD (s.nEdges : Int) := (G.live _).mp (by simp)
    obtain ⟨d1, d2, e1, e2, m, n2, nd, t1, hor, hs1, hM1, hD, ⟨-, hmv, hd1⟩, -, heq', hMu⟩ :=
      mergeEdges_spec hMt h hd (by rw [hgr.1]; omega) (by rw [hgr.1, hgr.2])
    rw [hgr.1, if_pos (by omega)] at hd1
    have hd2 : d2 = s.nEdges := by rw [hgr.1] at hor; omega
    subst hd1 hd2
    have ht1 : t1 = t := by
      refine moveAnchors_id ?_ hmv
      intro f F hF a ha
      have hF : s.face f = some F := by rw [ht] at hF; exact hF
      have hi : s.initialized := by
        have := hg.labels.face_lt f (by simp [hF]); show 0 < s.nFaces; omega
      have := (hs.contours hi).anchor_left f F a hF ha
      have := hg.labels.edge_lt _ (liveD_of_left this)
      simp only [Int.natAbs_natCast]
      omega
    subst ht1
    rw [if_pos ⟨h1 _ _, h2 _ _⟩] at heq'
    refine ⟨mergedState t1 (-(l : Int)) s.nEdges e1 e2 m n2 nd, by rw [heq']; simp, ?_⟩
    have q1 := hD.he1
    have q2 := hD.he2
    have hln : l ≠ s.nEdges := by omega
    have k1 : e1 = { ed with pts := ptsL, endN := s.nNodes } := by
      have : (some e1 : Option (Edge K)) = some { ed with pts := ptsL, endN := s.nNodes } := by
        rw [← q1, ht]; simp [splitState]
      exact Option.some.inj this
    have k2 : e2 = ⟨s.nNodes, ed.endN, ed.leftF, ed.rightF, ptsR, ed.flags⟩ := by
      have : (some e2 : Option (Edge K)) = some ⟨s.nNodes, ed.endN, ed.leftF, ed.rightF, ptsR, ed.flags⟩ := by
        rw [← q2, ht]; simp only [splitState, Int.natAbs_natCast]; rw [Function.update_of_ne (Ne.symm hln), Function.update_self]
      exact Option.some.inj this
    have hpos := hg.labels.edges_pos
    have k3 : m = s.nNodes := by
      have := hD.hm
      rw [k2, Edge.startOf, if_pos (by omega)] at this
      exact this.symm
    have k4 : n2 = ed.endN := by
      have := hD.hn2
      rw [k2, Edge.endOf, if_pos (by omega)] at this
      exact this.symm
    have hsn : ed.startN ≠ s.nNodes := by
      have : s.startN? (l : Int) = some ed.startN := by
        rw [startN?_of (s := s) (d := (l : Int)) (e := ed) (by simpa using he), Edge.startOf, if_pos (by omega)]
      have := hs.graph.start_live _ _ this
      have := hg.labels.node_lt _ this
      omega
    have hen : ed.endN ≠ s.nNodes := by
      have := hg.labels.node_lt ed.endN (by simp [hC.hcn]); omega
    have hgeo : GMap.mergedGeometry e1 e2 m n2 = { ed with pts := splitPts ed.pts i np } := by
      unfold GMap.mergedGeometry
      rw [if_pos (by rw [k1, k3]; exact hsn), k2, k3, k4, k1]
      simp only [ne_eq, not_true_eq_false, decide_false, concatPts]
      rw [hL, hR, List.drop_drop, List.take_append_drop]
    refine ⟨?_, ⟨ed, rfl, ?_⟩, ?_, ?_, ?_, ?_⟩
    · intro k hk
      simp only [mergedState, Int.natAbs_neg, Int.natAbs_natCast]
      by_cases hkn : k = s.nEdges
      · rw [hkn, Function.update_self]
        cases hh : s.edge s.nEdges with
        | none => rfl
        | some x => have := hg.labels.edge_lt s.nEdges (by simp [hh]); omega
      · rw [Function.update_of_ne hkn, Function.update_of_ne hk, ht]
        simp only [splitState]; rw [Function.update_of_ne hk, Function.update_of_ne hkn]
    · simp only [mergedState, Int.natAbs_neg, Int.natAbs_natCast]
      rw [Function.update_of_ne hln, Function.update_self, hgeo]
    · intro n
      simp only [mergedState]
      by_cases hnn : n = m
      · rw [hnn, Function.update_self, k3]
        cases hh : s.node s.nNodes with
        | none => rfl
        | some x => have := hg.labels.node_lt s.nNodes (by simp [hh]); omega
      · rw [Function.update_of_ne hnn]
        have hnode : ∀ n, n ≠ s.nNodes → (t1.node n).map (·.pos) = (s.node n).map (·.pos) := by
          intro n hn
          rw [ht]
          simp only [splitState]
          by_cases h2 : n = ed.endN
          · rw [h2, Function.update_self, hC.hcn]; rfl
          · rw [Function.update_of_ne h2, Function.update_of_ne hn]
        by_cases hn2 : n = n2
        · rw [hn2, Function.update_self, ← hnode n2 (by rw [k4]; exact hen), hD.hnd]; rfl
        · rw [Function.update_of_ne hn2, hnode n (by rw [← k3]; exact hnn)]
    · intro d hd
      have hdL := (hg.live d).mpr hd
      have hdlt := hg.labels.edge_lt _ hd
      have Gt := G
      rw [← G.darts_eq] at Gt
      have Gu := mergedState_graph Gt hD
      obtain ⟨n12, n1m, n2m, hm2, p1, p2, st1, st2, sm, only, nm, ndm, hndm⟩ := hD.facts Gt
      have hsig : ∀ x, s.liveD x → (mergedState t1 (-(l : Int)) s.nEdges e1 e2 m n2 nd).sigma x = s.sigma x := by
        intro x hx
        have hxL := (hg.live x).mpr hx
        have hxlt := hg.labels.edge_lt _ hx
        have hmem : x ∈ (t1.darts.erase (s.nEdges : Int)).erase (-(s.nEdges : Int)) := by
          rw [G.darts_eq]
          simp only [Finset.mem_erase, Finset.mem_insert]
          exact ⟨by omega, by omega, Or.inr (Or.inr hxL)⟩
        rw [Gu.rep.eq x hmem, replace_apply p1 p2 n12 n1m n2m (by omega) (by omega)]
        have hq1 : s.sigma x = π x := hg.rep.eq x hxL
        have hlive : ∀ y, y ∈ s.darts → y.natAbs < s.nEdges := fun y hy => hg.labels.edge_lt _ ((hg.live y).mp hy)
        have hpx := hlive _ (hg.rep.mem hxL)
        have hpl := hlive _ (hg.rep.mem hm)
        have inj : ∀ a b, π a = π b ↔ a = b := fun a b => π.injective.eq_iff
        have i1 := inj x (-(l : Int))
        rw [split_apply (hg.rep.fix _ hr) (hg.rep.fix _ hq) (by omega) (by omega) (by omega),
          split_apply (hg.rep.fix _ hr) (hg.rep.fix _ hq) (by omega) (by omega) (by omega), hq1]
        clear heq' heq hMu hMt hC hD Gu Gt G hs1 hgeo k1 k2
        split_ifs <;> first | omega | (simp_all; done) | grind
      refine ⟨hsig d hd, ?_⟩
      have hpd : s.liveD (s.sigmaInv d) := (hs.graph.sigmaInv_live d hd).1
      have h3 := hsig _ hpd
      have h4 : s.sigma (s.sigmaInv d) = d := (hs.graph.sigmaInv_live d hd).2
      rw [h4] at h3
      have hM' : MapOK (mergedState t1 (-(l : Int)) s.nEdges e1 e2 m n2 nd) := hMu
      have hmem : ∀ x, s.liveD x → (mergedState t1 (-(l : Int)) s.nEdges e1 e2 m n2 nd).liveD x := by
        intro x hx
        have hxL := (hg.live x).mpr hx
        have hxlt := hg.labels.edge_lt _ hx
        refine (Gu.live x).mp ?_
        rw [G.darts_eq]
        simp only [Finset.mem_erase, Finset.mem_insert]
        exact ⟨by omega, by omega, Or.inr (Or.inr hxL)⟩
      have h5 := (hM'.graph.sigma_live _ (hmem _ hpd)).2
      simp only [GMap.nextSigma, GMap.prevSigma] at h5 ⊢
      rw [h3] at h5
      exact h5
    · rw [mergedState, ht]; rfl
    · rw [mergedState, ht]; exact ⟨rfl, rfl, rfl⟩

end Verif.GeoMap
