import Verif.GeoMap.Walk

/-! # Removing an edge: common part of `removeBridge`, `mergeFaces` and `removeEdge` -/

namespace Verif.GeoMap
open Equiv Equiv.Perm Verif.PermLemmas

variable {K : Type}

/-- what is left of the darts when an edge goes -/
abbrev eraseEdge (L : Finset Int) (r : Int) : Finset Int := (L.erase r).erase (-r)

theorem mem_eraseEdge {L : Finset Int} {r x : Int} : x ∈ eraseEdge L r ↔ x ≠ -r ∧ x ≠ r ∧ x ∈ L := by
  simp [eraseEdge, Finset.mem_erase]

theorem GraphRep.uninitNode {s : GMap K} {L : Finset Int} {π : Perm Int} (h : GraphRep s L π) {n : Nat} {nd : Node K}
    (hn : s.node n = some nd) (ha : nd.anchor = 0) : GraphRep (s.uninitNode n) L π := by
  have hno : ∀ d ∈ L, s.startN? d ≠ some n := by
    rcases h.nodes n nd hn with ⟨-, g⟩ | ⟨g, -⟩
    · exact g
    · exact absurd ha (h.ne_zero g)
  have hlt := h.labels.node_lt n (by simp [hn])
  refine ⟨⟨h.labels.edges_pos, h.labels.edge_zero, ?_, h.labels.edge_lt, h.labels.face_lt, ?_, h.labels.edge_count,
    h.labels.face_count, h.labels.pts_ne⟩, h.live, h.rep, ?_, ?_⟩
  · intro m hm
    simp only [GMap.uninitNode, GMap.setNode] at hm
    by_cases hmn : m = n
    · subst hmn; simp at hm
    · rw [Function.update_of_ne hmn] at hm; exact h.labels.node_lt m hm
  · obtain ⟨-, e, -⟩ := card_liveNodes_update_none (s := s) (t := s.uninitNode n) (n := n) rfl rfl hlt (by simp [hn])
    rw [e, ← h.labels.node_count]; rfl
  · intro d hd
    obtain ⟨m, g1, g2, g3⟩ := h.starts d hd
    refine ⟨m, g1, ?_, g3⟩
    have : m ≠ n := by rintro rfl; exact hno d hd g1
    simp only [GMap.uninitNode, GMap.setNode]
    rw [Function.update_of_ne this]; exact g2
  · intro m md hm
    simp only [GMap.uninitNode, GMap.setNode] at hm
    by_cases hmn : m = n
    · subst hmn; simp at hm
    · rw [Function.update_of_ne hmn] at hm; exact h.nodes m md hm

theorem GraphRep.setFace {s : GMap K} {L : Finset Int} {π : Perm Int} (h : GraphRep s L π) {f : Nat} {F : Face K}
    (hf : (s.face f).isSome = true) : GraphRep (s.setFace f (some F)) L π := by
  refine h.congr_face fun g => ?_
  by_cases hg : g = f
  · subst hg; simp [hf]
  · simp [Function.update_of_ne hg]

/-- detaching both darts and deleting the edge -/
theorem GraphRep.remove {s : GMap K} {L : Finset Int} {π : Perm Int} (h : GraphRep s L π) {r : Int} (hr : r ∈ L)
    {e : Edge K} (he : s.edge r.natAbs = some e) :
    ∃ s1 s2, s.detachDart r = .ok s1 ∧ s1.detachDart (-r) = .ok s2 ∧
      (∃ node' sg sgi, s2 = { s with node := node', sigma := sg, sigmaInv := sgi }) ∧
      GraphRep (s2.uninitEdge r.natAbs) (eraseEdge L r) (skip (skip π r) (-r)) ∧
      (∀ d ∈ eraseEdge L r, (s2.uninitEdge r.natAbs).startN? d = s.startN? d ∧
        (s2.uninitEdge r.natAbs).left? d = s.left? d) ∧
      (∀ m, (s2.node m).map (·.pos) = (s.node m).map (·.pos)) ∧
      (∀ m, m ≠ e.startOf r → m ≠ e.endOf r → s2.node m = s.node m) := by
  obtain ⟨s1, s2, d1, d2, ⟨node', sg, sgi, rfl⟩, R, S, N, P, O⟩ := detach_both h hr he
  have hlt := h.labels.edge_lt _ ((h.live r).mp hr)
  have hsm : ∀ m, (node' m).isSome = (s.node m).isSome := by
    intro m
    have := P m
    simp only at this
    cases h1 : node' m <;> cases h2 : s.node m <;> simp [h1, h2] at this ⊢
  have hneE : ∀ d ∈ eraseEdge L r, d.natAbs ≠ r.natAbs := by
    intro d hd
    rw [mem_eraseEdge] at hd
    omega
  have hst : ∀ d ∈ eraseEdge L r, (({ s with node := node', sigma := sg, sigmaInv := sgi } : GMap K).uninitEdge r.natAbs).startN? d = s.startN? d ∧
        (({ s with node := node', sigma := sg, sigmaInv := sgi } : GMap K).uninitEdge r.natAbs).left? d = s.left? d := by
    intro d hd
    simp only [GMap.startN?, GMap.left?, GMap.uninitEdge, GMap.setEdge, Function.update_of_ne (hneE d hd), and_self]
  refine ⟨_, _, d1, d2, ⟨_, _, _, rfl⟩, ⟨⟨h.labels.edges_pos, ?_, ?_, ?_, h.labels.face_lt, ?_, ?_, h.labels.face_count, ?_⟩, ?_, R, ?_, ?_⟩,
    hst, P, O⟩
  · simp only [GMap.uninitEdge, GMap.setEdge]
    by_cases h0 : 0 = r.natAbs
    · rw [h0]; simp
    · rw [Function.update_of_ne h0]; exact h.labels.edge_zero
  · intro m hm; exact h.labels.node_lt m (by rw [← hsm]; exact hm)
  · intro m hm
    simp only [GMap.uninitEdge, GMap.setEdge] at hm
    by_cases hmn : m = r.natAbs
    · subst hmn; simp at hm
    · rw [Function.update_of_ne hmn] at hm; exact h.labels.edge_lt m hm
  · exact (h.labels.node_count).trans (by rw [← liveNodes_congr (s := s)]; rfl; exact hsm)
  · obtain ⟨-, e1, -⟩ := card_liveEdges_update_none (s := s)
      (t := ({ s with node := node', sigma := sg, sigmaInv := sgi } : GMap K).uninitEdge r.natAbs) (n := r.natAbs) rfl rfl hlt (by simp [he])
    rw [e1, ← h.labels.edge_count]; rfl
  · intro l el hl
    simp only [GMap.uninitEdge, GMap.setEdge] at hl
    by_cases hmn : l = r.natAbs
    · subst hmn; simp at hl
    · rw [Function.update_of_ne hmn] at hl; exact h.labels.pts_ne l el hl
  · intro d
    rw [mem_eraseEdge, h.live]
    simp only [GMap.liveD, GMap.uninitEdge, GMap.setEdge]
    by_cases hd : d.natAbs = r.natAbs
    · rw [hd]
      have : d = r ∨ d = -r := by omega
      simp; tauto
    · rw [Function.update_of_ne hd]
      constructor
      · exact fun h => h.2.2
      · intro h'
        exact ⟨by rintro rfl; simp at hd, by rintro rfl; simp at hd, h'⟩
  · intro d hd
    obtain ⟨n, g1, g2, g3⟩ := S d hd
    refine ⟨n, by rw [(hst d hd).1, g1], g2, ?_⟩
    rw [(hst _ (R.mem hd)).1, g3]
  · intro n nd hn
    rcases N n nd hn with ⟨g1, g2⟩ | ⟨g1, g2, g3⟩
    · exact Or.inl ⟨g1, fun d hd => by rw [(hst d hd).1]; exact g2 d hd⟩
    · exact Or.inr ⟨g1, by rw [(hst _ g1).1, g2], fun d hd hds => g3 d hd (by rw [← (hst d hd).1, hds])⟩

/-- An end node of the removed edge is isolated afterwards iff the dart was alone in its orbit. -/
theorem anchor_zero_iff {s t : GMap K} {L : Finset Int} {π : Perm Int} (h : GraphRep s L π) {r : Int} (hr : r ∈ L)
    {n : Nat} {nd : Node K} (hst : s.startN? r = some n) (hne : s.startN? (-r) ≠ some n)
    (ht : GraphRep t (eraseEdge L r) (skip (skip π r) (-r))) (hs : ∀ d ∈ eraseEdge L r, t.startN? d = s.startN? d)
    (hnd : t.node n = some nd) : nd.anchor = 0 ↔ π r = r := by
  have h0 := h.ne_zero hr
  rcases ht.nodes n nd hnd with ⟨g1, g2⟩ | ⟨g1, g2, g3⟩
  · simp only [g1, true_iff]
    by_contra hp
    have hm := h.rep.mem hr
    have hst' : s.startN? (π r) = some n := by
      obtain ⟨n', k1, -, k3⟩ := h.starts r hr
      rw [hst] at k1; cases k1; exact k3
    have hm' : π r ∈ eraseEdge L r := by
      rw [mem_eraseEdge]
      refine ⟨?_, hp, hm⟩
      intro e; rw [e] at hst'; exact hne hst'
    exact g2 _ hm' (by rw [hs _ hm', hst'])
  · have hane := ht.ne_zero g1
    simp only [hane, false_iff]
    intro hp
    rw [hs _ g1] at g2
    have ga := (mem_eraseEdge.mp g1)
    have := (same_start_iff h.rep h.starts h.nodes hr ga.2.2).mp (by rw [hst, g2])
    rw [sameCycle_fixed hp] at this
    exact ga.2.1 this.symm

end Verif.GeoMap
