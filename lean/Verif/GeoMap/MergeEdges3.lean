import Verif.GeoMap.MergeEdges2

/-! # `mergeEdges`: complete behaviour -/

namespace Verif.GeoMap
open Equiv Equiv.Perm Verif.PermLemmas

variable {K : Type}

theorem GraphRep.congr_face {s : GMap K} {L : Finset Int} {π : Perm Int} (h : GraphRep s L π)
    {face1 : Nat → Option (Face K)} (hf : ∀ f, (face1 f).isSome = (s.face f).isSome) :
    GraphRep { s with face := face1 } L π where
  labels :=
    { edges_pos := h.labels.edges_pos
      edge_zero := h.labels.edge_zero
      node_lt := h.labels.node_lt
      edge_lt := h.labels.edge_lt
      face_lt := fun n hn => h.labels.face_lt n (by rw [← hf]; exact hn)
      node_count := h.labels.node_count
      edge_count := h.labels.edge_count
      face_count := by
        rw [liveFaces_congr (t := { s with face := face1 }) (s := s) rfl hf]; exact h.labels.face_count
      pts_ne := h.labels.pts_ne }
  live := h.live
  rep := h.rep
  starts := h.starts
  nodes := h.nodes

theorem MapOK.of_reps {s : GMap K} {L : Finset Int} {π : Perm Int} (h : GraphRep s L π)
    (hc : s.initialized → ∃ ψ, ContoursRep s L ψ) : MapOK s :=
  ⟨h.graphOK, fun hi => by obtain ⟨ψ, hψ⟩ := hc hi; exact hψ.contoursOK h⟩

/-- state equality up to anchors of faces -/
structure SameButAnchors (s t : GMap K) : Prop where
  eq : ∃ face1, t = { s with face := face1 }
  face : ∀ f, (t.face f).map (fun F => (F.area, F.pixelArea)) = (s.face f).map (fun F => (F.area, F.pixelArea))

/-- Precondition violations of `mergeEdges`. -/
theorem mergeEdges_precond (h : Hooks K) (s : GMap K) (d : Int)
    (hp : ¬ s.liveD d ∨ (s.sigma d).natAbs = d.natAbs ∨ s.sigma (s.sigma d) ≠ d) :
    s.mergeEdges h d = .precond := by
  unfold GMap.mergeEdges
  by_cases hl : s.liveD d
  · obtain ⟨e, he⟩ := liveD_exists hl
    rw [guaranteedEdge_of he]
    simp only [bind, Outcome.bind_ok]
    rcases hp with hp | hp | hp
    · exact absurd hl hp
    · rw [if_pos hp]
    · split_ifs
      · rfl
      · rfl
  · rw [guaranteedEdge_dead hl]; rfl

/-- The complete behaviour of `mergeEdges` on a consistent map when its preconditions hold. -/
theorem mergeEdges_spec {s : GMap K} (hM : MapOK s) (h : Hooks K) {d : Int} (hd : s.liveD d)
    (hne : (s.sigma d).natAbs ≠ d.natAbs) (hdeg : s.sigma (s.sigma d) = d) :
    ∃ d1 d2 e1 e2 m n2 nd s1,
      ((d1 = d ∧ d2 = s.sigma d) ∨ (d1 = s.sigma d ∧ d2 = d)) ∧
      SameButAnchors s s1 ∧ MapOK s1 ∧ Deg2 s1 s1.darts d1 d2 e1 e2 m n2 nd ∧
      ((s1.initialized → ∀ f F, s1.face f = some F → ∀ a ∈ F.anchors, a.natAbs ≠ d2.natAbs) ∧
        s.moveAnchors d2 e2 = .ok s1 ∧ d1 = if 0 < d ∧ s.sigma d < 0 then s.sigma d else d) ∧
      (s.initialized → ∀ π ψ, GraphRep s s.darts π → ContoursRep s s.darts ψ →
        GraphRep s1 s.darts π ∧ ContoursRep s1 s.darts ψ) ∧
      s.mergeEdges h d =
        (if h.preMergeEdges s1 d1 = true ∧ h.removeNode s1 m = true then
          .ok (some d1.natAbs, mergedState s1 d1 d2 e1 e2 m n2 nd)
        else .ok (none, s1)) ∧
      MapOK (mergedState s1 d1 d2 e1 e2 m n2 nd) := by
  obtain ⟨π, hg⟩ := hM.graph.exists_rep
  have hdL : d ∈ s.darts := (hg.live d).mpr hd
  obtain ⟨d1, d2, hor, hd1, hd2⟩ : ∃ d1 d2, ((d1 = d ∧ d2 = s.sigma d) ∨ (d1 = s.sigma d ∧ d2 = d)) ∧
      (if 0 < d ∧ s.sigma d < 0 then s.sigma d else d) = d1 ∧ (if 0 < d ∧ s.sigma d < 0 then d else s.sigma d) = d2 := by
    by_cases hsw : 0 < d ∧ s.sigma d < 0
    · exact ⟨s.sigma d, d, Or.inr ⟨rfl, rfl⟩, by rw [if_pos hsw], by rw [if_pos hsw]⟩
    · exact ⟨d, s.sigma d, Or.inl ⟨rfl, rfl⟩, by rw [if_neg hsw], by rw [if_neg hsw]⟩
  have h1 : d1 ∈ s.darts := by
    rcases hor with ⟨rfl, -⟩ | ⟨rfl, -⟩
    · exact hdL
    · exact hg.rep.f_mem hdL
  have h12 : s.sigma d1 = d2 := by
    rcases hor with ⟨rfl, rfl⟩ | ⟨rfl, rfl⟩
    · rfl
    · exact hdeg
  have h21 : s.sigma d2 = d1 := by
    rcases hor with ⟨rfl, rfl⟩ | ⟨rfl, rfl⟩
    · exact hdeg
    · rfl
  have hn : d1.natAbs ≠ d2.natAbs := by
    rcases hor with ⟨rfl, rfl⟩ | ⟨rfl, rfl⟩
    · exact fun e => hne e.symm
    · exact hne
  obtain ⟨e1, e2, m, n2, nd, D⟩ := Deg2.exists hg h1 h12 h21 hn
  obtain ⟨n12, n1m, n2m, hm2, p1, p2, s1, s2, sm, only, nm, ndm, hndm⟩ := D.facts hg
  -- the anchor part
  obtain ⟨face1, hmove, hfs, hfa, hfc, hfo⟩ : ∃ face1 : Nat → Option (Face K),
      s.moveAnchors d2 e2 = .ok { s with face := face1 } ∧
      (∀ f, (face1 f).isSome = (s.face f).isSome) ∧
      (∀ f, (face1 f).map (fun F => (F.area, F.pixelArea)) = (s.face f).map (fun F => (F.area, F.pixelArea))) ∧
      (s.initialized → ∀ ψ, ContoursRep s s.darts ψ → ContoursRep { s with face := face1 } s.darts ψ) ∧
      (s.initialized → ∀ f F1, face1 f = some F1 → ∀ a ∈ F1.anchors, a.natAbs ≠ d2.natAbs) := by
    by_cases hi : s.initialized
    · obtain ⟨ψ, hc⟩ := (hM.contours hi).exists_rep hg
      obtain ⟨face1, a1, a2, a3, a4, a5⟩ := moveFaceAnchors hg hc h1 D.h2 h12 h21 hn D.he2
      refine ⟨face1, by unfold GMap.moveAnchors; rw [if_pos hi]; exact a1, a3, a4, fun _ ψ' hc' => ?_, fun _ => a5⟩
      have : ψ' = ψ := hc'.rep.unique hc.rep
      subst this
      refine ⟨hc.rep, ?_, a2, by show (face1 0).isSome = true; rw [a3]; exact hc.face_zero⟩
      intro x hx
      obtain ⟨f, g1, g2, g3⟩ := hc.lefts x hx
      exact ⟨f, g1, by show (face1 f).isSome = true; rw [a3]; exact g2, g3⟩
    · exact ⟨s.face, by unfold GMap.moveAnchors; rw [if_neg hi], fun _ => rfl, fun _ => rfl, fun h => absurd h hi, fun h => absurd h hi⟩
  set t : GMap K := { s with face := face1 } with ht
  have hgt : GraphRep t s.darts π := hg.congr_face hfs
  have hMt : MapOK t := MapOK.of_reps hgt fun hi => by
    obtain ⟨ψ, hc⟩ := (hM.contours hi).exists_rep hg
    exact ⟨ψ, hfc hi ψ hc⟩
  have Dt : Deg2 t s.darts d1 d2 e1 e2 m n2 nd := ⟨D.h1, D.h2, D.h12, D.h21, D.hn, D.he1, D.he2, D.hm, D.hn2, D.hnd⟩
  refine ⟨d1, d2, e1, e2, m, n2, nd, t, hor, ⟨⟨face1, rfl⟩, hfa⟩, hMt, Dt, ⟨fun hi => hfo hi, hmove, hd1.symm⟩,
    fun hi π' ψ hg' hc' => ⟨hg'.congr_face hfs, hfc hi ψ hc'⟩, ?_, ?_⟩
  · unfold GMap.mergeEdges
    obtain ⟨e, he⟩ := liveD_exists hd
    rw [guaranteedEdge_of he]
    simp only [bind, Outcome.bind_ok]
    rw [if_neg hne, if_neg (by simpa using hdeg)]
    simp only [hdeg, hd1, hd2]
    simp only [GMap.startLabel, guaranteedEdge_of D.he2, Outcome.map, Outcome.bind_ok, D.hm]
    rw [derefNode_of hg.labels hndm]
    simp only [Outcome.bind_ok]
    rw [hmove, Outcome.bind_ok]
    by_cases c1 : h.preMergeEdges t d1 = true
    · by_cases c2 : h.removeNode t m = true
      · have hpts := hg.labels.pts_ne _ _ D.he2
        simp only [c1, c2, not_true, if_false, and_self, if_true, guaranteedEdge_of Dt.he1, Outcome.bind_ok, D.hn2, hpts]
        have hdn : ((t.setEdge d1.natAbs (some (GMap.mergedGeometry e1 e2 m n2))).replaceInOrbit d1 d2).derefNode n2 = .ok nd := by
          have hlt : n2 < s.nNodes := hg.labels.node_lt _ (by simp [D.hnd])
          have k1 : ((t.setEdge d1.natAbs (some (GMap.mergedGeometry e1 e2 m n2))).replaceInOrbit d1 d2).nNodes = s.nNodes := by
            unfold GMap.replaceInOrbit; simp only; split_ifs <;> rfl
          have k2 : ((t.setEdge d1.natAbs (some (GMap.mergedGeometry e1 e2 m n2))).replaceInOrbit d1 d2).node = s.node := by
            unfold GMap.replaceInOrbit; simp only; split_ifs <;> rfl
          simp [GMap.derefNode, k1, k2, hlt, D.hnd]
        rw [hdn, Outcome.bind_ok]
        congr 2
        unfold mergedState GMap.replaceInOrbit
        by_cases hsu : t.sigma (-d2) = -d2
        · simp only [GMap.uninitEdge, GMap.uninitNode, GMap.setEdge, GMap.setNode, GMap.setSigma, GMap.setSigmaInv, hsu, if_true]
        · simp only [GMap.uninitEdge, GMap.uninitNode, GMap.setEdge, GMap.setNode, GMap.setSigma, GMap.setSigmaInv, hsu, if_false]
      · simp [c1, c2]
    · simp [c1]
  · refine MapOK.of_reps (mergedState_graph hgt Dt) fun hi => ?_
    have hi' : s.initialized := hi
    obtain ⟨ψ, hc⟩ := (hM.contours hi').exists_rep hg
    exact ⟨_, mergedState_contours hgt (hfc hi' ψ hc) Dt (hfo hi')⟩

end Verif.GeoMap
