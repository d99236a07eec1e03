import Verif.Utils.Lemmas

/-! # Lemmas about `removeIsolatedNodes` and `mergeDegree2Nodes` -/

namespace Verif.GeoMap
open Verif Equiv Equiv.Perm Verif.PermLemmas

variable {K : Type} [Field K] [LinearOrder K]

/-- no dart starts at the (existing) node -/
def GMap.Isolated (s : GMap K) (n : Nat) : Prop := (s.node n).isSome = true ∧ ∀ d, s.startN? d ≠ some n

/-- a callback refused to remove node `n` at some moment after state `s` -/
def RefusedNode (h : Hooks K) (s : GMap K) (n : Nat) : Prop :=
  ∃ u, Later s u ∧ (u.node n).isSome = true ∧ h.removeNode u n = false

/-- Only isolated nodes disappear, `k` of them; nothing else changes. -/
structure NodesRemoved (s t : GMap K) (k : Nat) : Prop where
  later : Later s t
  eq : ∃ node' c, t = { s with node := node', nodeCount := c }
  nodes : ∀ n, t.node n = s.node n ∨ (t.node n = none ∧ s.Isolated n)
  count : t.nodeCount + k = s.nodeCount

theorem NodesRemoved.refl (s : GMap K) : NodesRemoved s s 0 := ⟨.refl s, ⟨_, _, rfl⟩, fun _ => Or.inl rfl, rfl⟩

theorem NodesRemoved.trans {s t u : GMap K} {j k : Nat} (h : NodesRemoved s t j) (g : NodesRemoved t u k) : NodesRemoved s u (j + k) where
  later := h.later.trans g.later
  eq := by
    obtain ⟨n1, c1, rfl⟩ := h.eq
    obtain ⟨n2, c2, rfl⟩ := g.eq
    exact ⟨n2, c2, rfl⟩
  nodes := fun n => by
    rcases g.nodes n with g1 | ⟨g1, g2, g3⟩
    · rcases h.nodes n with h1 | ⟨h1, h2⟩
      · exact Or.inl (g1.trans h1)
      · exact Or.inr ⟨g1.trans h1, h2⟩
    · refine Or.inr ⟨g1, ?_, ?_⟩
      · rcases h.nodes n with h1 | ⟨h1, h2⟩
        · rw [← h1]; exact g2
        · exact h2.1
      · intro d
        have : t.startN? d = s.startN? d := by
          obtain ⟨n1, c1, rfl⟩ := h.eq
          rfl
        rw [← this]; exact g3 d
  count := by rw [← h.count, ← g.count]; omega

theorem NodesRemoved.isolated {s t : GMap K} {k n : Nat} (h : NodesRemoved s t k) (ht : t.Isolated n) : s.Isolated n := by
  rcases h.nodes n with h1 | ⟨h1, h2⟩
  · refine ⟨by rw [← h1]; exact ht.1, fun d => ?_⟩
    have : t.startN? d = s.startN? d := by
      obtain ⟨n1, c1, rfl⟩ := h.eq
      rfl
    rw [← this]; exact ht.2 d
  · exact h2

theorem isolated_iff_anchor {s : GMap K} (hs : Reach s) {n : Nat} {nd : Node K} (hn : s.node n = some nd) : s.Isolated n ↔ nd.anchor = 0 := by
  have hG := hs.good.map.graph
  constructor
  · intro h
    by_contra ha
    exact h.2 _ (hG.anchor_start n nd hn ha)
  · intro h
    exact ⟨by simp [hn], hG.anchor_zero n nd hn h⟩

theorem isolatedStep_spec (h : Hooks K) {s : GMap K} (hs : Reach s) (n c : Nat) :
    ∃ k t, GMap.isolatedStep h n c s = .ok (c + k, t) ∧ NodesRemoved s t k ∧ (t.Isolated n → RefusedNode h s n) := by
  unfold GMap.isolatedStep
  cases hn : s.node n with
  | none =>
    refine ⟨0, s, rfl, NodesRemoved.refl s, fun hI => ?_⟩
    rw [GMap.Isolated, hn] at hI
    simp at hI
  | some nd =>
    by_cases ha : nd.anchor = 0
    swap
    · refine ⟨0, s, by simp only [if_neg ha]; rfl, NodesRemoved.refl s, fun hI => absurd ((isolated_iff_anchor hs hn).mp hI) ha⟩
    have hI := (isolated_iff_anchor hs hn).mpr ha
    have hlt := hs.good.map.graph.node_lt n (by simp [hn])
    have e := removeIsolatedNode_of (h := h) hlt hn
    simp only [if_pos ha, bind, e, Outcome.bind_ok]
    obtain ⟨r, u, e', hE⟩ := removeIsolatedNode_step hs.good.map h hI.1 hI.2
    by_cases hv : h.removeNode s n = true
    · simp only [hv, if_true] at e ⊢
      refine ⟨1, s.uninitNode n, rfl, ⟨Later.one h (.removeIsolatedNode n) hI (by show Outcome.map _ _ = _; rw [e]; rfl) rfl, ⟨_, _, rfl⟩, ?_, ?_⟩, ?_⟩
      · intro m
        by_cases hm : m = n
        · subst hm
          exact Or.inr ⟨by simp [GMap.uninitNode, GMap.setNode], hI⟩
        · exact Or.inl (by simp [GMap.uninitNode, GMap.setNode, hm])
      · show s.nodeCount - 1 + 1 = s.nodeCount
        have : 0 < s.nodeCount := by
          rw [hs.good.map.graph.node_count, Finset.card_pos]
          exact ⟨n, by rw [GMap.liveNodes, Finset.mem_filter, Finset.mem_range]; exact ⟨hlt, hI.1⟩⟩
        omega
      · rintro ⟨h1, -⟩
        simp [GMap.uninitNode, GMap.setNode] at h1
    · have hv : h.removeNode s n = false := by simpa using hv
      simp only [hv] at e ⊢
      refine ⟨0, s, rfl, NodesRemoved.refl s, fun _ => ⟨s, .refl s, hI.1, hv⟩⟩

theorem isolatedLoop_spec (h : Hooks K) : ∀ (ns : List Nat) {s : GMap K} (_ : Reach s) (c : Nat),
    ∃ k t, GMap.isolatedLoop h ns c s = .ok (c + k, t) ∧ NodesRemoved s t k ∧ ∀ n ∈ ns, t.Isolated n → RefusedNode h s n := by
  intro ns
  induction ns with
  | nil => intro s hs c; exact ⟨0, s, rfl, NodesRemoved.refl s, by simp⟩
  | cons n ns ih =>
    intro s hs c
    obtain ⟨k, t, g1, g2, g3⟩ := isolatedStep_spec h hs n c
    obtain ⟨j, u, i1, i2, i3⟩ := ih (g2.later.reach hs) (c + k)
    refine ⟨k + j, u, ?_, g2.trans i2, ?_⟩
    · unfold GMap.isolatedLoop
      simp only [bind, g1, Outcome.bind_ok, i1, add_assoc]
    · intro m hm hI
      rcases List.mem_cons.mp hm with rfl | hm
      · exact g3 (i2.isolated hI)
      · obtain ⟨v, h1, h2⟩ := i3 m hm hI
        exact ⟨v, g2.later.trans h1, h2⟩

/-! ## degree 2 -/

/-- an edge begins and ends at `n` -/
def GMap.HasLoop (s : GMap K) (n : Nat) : Prop := ∃ d, s.startN? d = some n ∧ s.startN? (-d) = some n

/-- a callback refused to merge the edges at node `n` at some moment after state `s` -/
def RefusedMerge (h : Hooks K) (s : GMap K) (n : Nat) : Prop :=
  ∃ u d, Later s u ∧ u.startN? d = some n ∧ (h.preMergeEdges u d = false ∨ h.removeNode u n = false)

/-- `k` nodes of degree 2 and as many edges disappear; the degrees of the other nodes and the faces
stay as they are. -/
structure NodesMerged (s t : GMap K) (k : Nat) : Prop where
  later : Later s t
  sizes : t.nNodes = s.nNodes ∧ t.nEdges = s.nEdges ∧ t.nFaces = s.nFaces
  counts : t.nodeCount + k = s.nodeCount ∧ t.edgeCount + k = s.edgeCount ∧ t.faceCount = s.faceCount
  nodes : ∀ n nd, t.node n = some nd → ∃ nd', s.node n = some nd' ∧ nd.pos = nd'.pos
  degrees : ∀ n, (t.node n).isSome = true → (t.star n).card = (s.star n).card
  gone : ∀ n, (s.node n).isSome = true → t.node n = none → (s.star n).card = 2
  loops : ∀ n, (t.node n).isSome = true → s.HasLoop n → t.HasLoop n
  edges : ∀ l, (t.edge l).isSome = true → (s.edge l).isSome = true
  lefts : ∀ x, t.liveD x → t.left? x = s.left? x
  faces : ∀ f, (t.face f).map (fun F => (F.area, F.pixelArea)) = (s.face f).map (fun F => (F.area, F.pixelArea))

theorem NodesMerged.refl (s : GMap K) : NodesMerged s s 0 :=
  ⟨.refl s, ⟨rfl, rfl, rfl⟩, ⟨rfl, rfl, rfl⟩, fun _ nd h => ⟨nd, h, rfl⟩, fun _ _ => rfl, fun _ h1 h2 => (by rw [h2] at h1; cases h1), fun _ _ => id, fun _ => id,
    fun _ _ => rfl, fun _ => rfl⟩

theorem NodesMerged.trans {s t u : GMap K} {j k : Nat} (h : NodesMerged s t j) (g : NodesMerged t u k) : NodesMerged s u (j + k) where
  later := h.later.trans g.later
  sizes := ⟨g.sizes.1.trans h.sizes.1, g.sizes.2.1.trans h.sizes.2.1, g.sizes.2.2.trans h.sizes.2.2⟩
  counts := ⟨by have := h.counts; have := g.counts; omega, by have := h.counts; have := g.counts; omega, g.counts.2.2.trans h.counts.2.2⟩
  nodes := fun n nd hn => by
    obtain ⟨n1, h1, h2⟩ := g.nodes n nd hn
    obtain ⟨n2, h3, h4⟩ := h.nodes n n1 h1
    exact ⟨n2, h3, h2.trans h4⟩
  degrees := fun n hn => by
    obtain ⟨nd, hn'⟩ := Option.isSome_iff_exists.mp hn
    obtain ⟨n1, h1, -⟩ := g.nodes n nd hn'
    exact (g.degrees n hn).trans (h.degrees n (by simp [h1]))
  gone := fun n h1 h2 => by
    cases ht : t.node n with
    | none => exact h.gone n h1 ht
    | some nd =>
      have := g.gone n (by simp [ht]) h2
      rw [h.degrees n (by simp [ht])] at this
      exact this
  loops := fun n hn hl => by
    obtain ⟨nd, hn'⟩ := Option.isSome_iff_exists.mp hn
    obtain ⟨n1, h1, -⟩ := g.nodes n nd hn'
    exact g.loops n hn (h.loops n (by simp [h1]) hl)
  edges := fun l hl => h.edges l (g.edges l hl)
  lefts := fun x hx => (g.lefts x hx).trans (h.lefts x (g.edges _ hx))
  faces := fun f => (g.faces f).trans (h.faces f)

omit [Field K] [LinearOrder K] in
theorem MergeEdgesEffect.startN {s t : GMap K} {d1 d2 : Int} {m : Nat} (h : MergeEdgesEffect s t d1 d2 m) (x : Int) :
    t.startN? x = if x = d1 then s.startN? (-d2) else if x.natAbs = d2.natAbs then none else s.startN? x := by
  split_ifs with h1 h2
  · subst h1; exact h.start.1
  · have : ¬ t.liveD x := by
      intro hx
      refine h.edge_gone.2 ?_
      unfold GMap.liveD at hx ⊢
      rw [← h2]; exact hx
    unfold GMap.startN?
    cases he : t.edge x.natAbs with
    | none => rfl
    | some e => exact absurd (liveD_edge he) this
  · by_cases h3 : x = -d1
    · subst h3; exact h.start.2
    · have : x.natAbs ≠ d1.natAbs := by
        intro h4
        rcases Int.natAbs_eq_natAbs_iff.mp h4 with h4 | h4
        · exact h1 h4
        · exact h3 h4
      unfold GMap.startN?
      rw [h.edges _ this h2]

/-- the darts at the merged node -/
theorem MergeEdgesEffect.star_m {s t : GMap K} (hs : Reach s) (ht : Reach t) {d1 d2 : Int} {m : Nat} (h : MergeEdgesEffect s t d1 d2 m) (x : Int) :
    s.startN? x = some m ↔ x = d1 ∨ x = d2 := by
  constructor
  · intro hx
    by_contra hn
    push Not at hn
    have hnode : t.node m = none := h.node_gone.2
    have hdead : ∀ y, t.startN? y ≠ some m := by
      intro y hy
      have := ht.good.map.graph.start_live y m hy
      rw [hnode] at this; cases this
    by_cases h2 : x = -d2
    · subst h2
      refine hdead d1 ?_
      rw [h.startN, if_pos rfl]; exact hx
    · refine hdead x ?_
      rw [h.startN, if_neg hn.1, if_neg, hx]
      intro h4
      rcases Int.natAbs_eq_natAbs_iff.mp h4 with h4 | h4
      · exact hn.2 h4
      · exact h2 h4
  · rintro (rfl | rfl)
    · exact h.at_m.1
    · exact h.at_m.2.1

theorem NodesMerged.ofEffect {s t : GMap K} (hs : Reach s) (hl : Later s t) {d1 d2 : Int} {m : Nat} (h : MergeEdgesEffect s t d1 d2 m) : NodesMerged s t 1 := by
  have ht := hl.reach hs
  have hne : d1 ≠ d2 := by rintro rfl; exact h.at_m.2.2 rfl
  have hd2 : d2 ≠ 0 := by
    rintro rfl
    have := h.edge_gone.1
    unfold GMap.liveD at this
    simp [hs.good.map.graph.edge_zero] at this
  have hm2 : s.startN? (-d2) ≠ some m := by
    intro hx
    rcases (h.star_m hs ht _).mp hx with h1 | h1
    · exact h.at_m.2.2 (by rw [← h1]; simp)
    · omega
  have hnm : ∀ n, (t.node n).isSome = true → n ≠ m := by
    rintro n hn rfl
    rw [h.node_gone.2] at hn; cases hn
  refine ⟨hl, h.sizes, ⟨h.counts.1, h.counts.2.1, h.counts.2.2⟩, ?_, ?_, ?_, ?_, ?_, h.lefts, h.faces⟩
  · intro n nd hn
    have := h.nodes n (hnm n (by simp [hn]))
    rw [hn] at this
    cases hs' : s.node n with
    | none => rw [hs'] at this; cases this
    | some nd' => rw [hs'] at this; exact ⟨nd', rfl, by simpa using this⟩
  · intro n hn
    have hnm := hnm n hn
    have h1n : d1 ∉ s.star n := by
      rw [Props.mem_star hs, h.at_m.1]
      intro hh; exact hnm (Option.some.inj hh).symm
    have h2n : d2 ∉ s.star n := by
      rw [Props.mem_star hs, h.at_m.2.1]
      intro hh; exact hnm (Option.some.inj hh).symm
    by_cases hx : -d2 ∈ s.star n
    · have : t.star n = insert d1 ((s.star n).erase (-d2)) := by
        ext x
        rw [Finset.mem_insert, Finset.mem_erase, Props.mem_star ht, Props.mem_star hs, h.startN]
        rw [Props.mem_star hs] at hx h2n
        split_ifs with c1 c2
        · subst c1; simp [hx]
        · constructor
          · intro hh; cases hh
          · rintro (hh | ⟨h3, h4⟩)
            · exact absurd hh c1
            · rcases Int.natAbs_eq_natAbs_iff.mp c2 with h5 | h5
              · subst h5; exact absurd h4 h2n
              · exact absurd h5 h3
        · constructor
          · intro hh
            exact Or.inr ⟨by rintro rfl; simp at c2, hh⟩
          · rintro (hh | ⟨h3, h4⟩)
            · exact absurd hh c1
            · exact h4
      rw [this, Finset.card_insert_of_notMem (fun hh => h1n (Finset.mem_of_mem_erase hh)), Finset.card_erase_of_mem hx]
      have := Finset.card_pos.mpr ⟨_, hx⟩
      omega
    · have : t.star n = s.star n := by
        ext x
        rw [Props.mem_star ht, Props.mem_star hs, h.startN]
        rw [Props.mem_star hs] at hx h2n h1n
        split_ifs with c1 c2
        · subst c1; exact ⟨fun hh => absurd hh hx, fun hh => absurd hh h1n⟩
        · constructor
          · intro hh; cases hh
          · intro h4
            rcases Int.natAbs_eq_natAbs_iff.mp c2 with h5 | h5
            · subst h5; exact absurd h4 h2n
            · subst h5; exact absurd h4 hx
        · exact Iff.rfl
      rw [this]
  · intro n h1 h2
    have : n = m := by
      by_contra hne
      have := h.nodes n hne
      rw [h2] at this
      obtain ⟨nd, hnd⟩ := Option.isSome_iff_exists.mp h1
      rw [hnd] at this; cases this
    subst this
    have : s.star n = {d1, d2} := by
      ext x
      rw [Props.mem_star hs, h.star_m hs ht]; simp
    rw [this, Finset.card_pair hne]
  · rintro n hn ⟨d, h1, h2⟩
    have hnm := hnm n hn
    have a1 : d ≠ d1 := by rintro rfl; rw [h.at_m.1] at h1; exact hnm (Option.some.inj h1).symm
    have a2 : d ≠ d2 := by rintro rfl; rw [h.at_m.2.1] at h1; exact hnm (Option.some.inj h1).symm
    have a3 : -d ≠ d1 := by rintro rfl; rw [h.at_m.1] at h2; exact hnm (Option.some.inj h2).symm
    have a4 : -d ≠ d2 := by rintro rfl; rw [h.at_m.2.1] at h2; exact hnm (Option.some.inj h2).symm
    have a5 : d.natAbs ≠ d2.natAbs := by omega
    refine ⟨d, ?_, ?_⟩
    · rw [h.startN, if_neg a1, if_neg a5]; exact h1
    · rw [h.startN, if_neg a3, if_neg (by simpa using a5)]; exact h2
  · intro l hl
    by_cases h1 : l = d1.natAbs
    · subst h1
      exact liveD_of_start h.at_m.1
    · by_cases h2 : l = d2.natAbs
      · subst h2; exact h.edge_gone.1
      · rw [← h.edges l h1 h2]; exact hl

theorem NodesMerged.ofAnchors {s t : GMap K} (hl : Later s t) (h : SameButAnchors s t) : NodesMerged s t 0 := by
  obtain ⟨f, hf⟩ := h.eq
  have := h.face
  subst hf
  exact ⟨hl, ⟨rfl, rfl, rfl⟩, ⟨rfl, rfl, rfl⟩, fun _ nd h => ⟨nd, h, rfl⟩, fun _ _ => rfl, fun _ h1 h2 => (by rw [show s.node _ = none from h2] at h1; cases h1), fun _ _ => id, fun _ => id,
    fun _ _ => rfl, this⟩

/-- at a node of degree 2 that is not a loop, `mergeEdges` merges, or is refused -/
theorem degree2_merge (h : Hooks K) {s : GMap K} (hs : Reach s) {n : Nat} {nd : Node K} (hn : s.node n = some nd) (hdeg : (s.star n).card = 2)
    {e : Edge K} (he : s.edge nd.anchor.natAbs = some e) (hloop : e.startN ≠ e.endN) :
    ∃ r k t, s.mergeEdges h nd.anchor = .ok (r, t) ∧ (if r.isSome then 1 else 0) = k ∧ NodesMerged s t k ∧ ((t.node n).isSome = true → RefusedMerge h s n) := by
  have hG := hs.good.map.graph
  have ha : nd.anchor ≠ 0 := by
    intro h0
    have : s.star n = ∅ := by
      ext x
      rw [Props.mem_star hs]
      simp [hG.anchor_zero n nd hn h0 x]
    rw [this] at hdeg; cases hdeg
  have hst := hG.anchor_start n nd hn ha
  have hlv := liveD_of_start hst
  have hsg := hG.start_sigma _ hlv
  have hsl := (hG.sigma_live _ hlv).1
  have hmem : ∀ x, x ∈ s.star n ↔ s.startN? x = some n := Props.mem_star hs n
  have hne0 : (s.sigma nd.anchor) ≠ nd.anchor := by
    intro hfix
    have : s.star n = {nd.anchor} := by
      ext x
      rw [hmem, Finset.mem_singleton]
      constructor
      · intro hx
        obtain ⟨k, rfl⟩ := hG.anchor_cover n nd hn ha x hx
        exact Function.iterate_fixed hfix k
      · rintro rfl; exact hst
    rw [this] at hdeg; simp at hdeg
  have hne1 : s.sigma nd.anchor ≠ -nd.anchor := by
    intro hneg
    have h1 : s.startN? (-nd.anchor) = some n := by rw [← hneg]; exact hsg.trans hst
    rw [startN?_of (d := -nd.anchor) (e := e) (by simpa using he), e.startOf_neg ha] at h1
    rw [startN?_of he] at hst
    unfold Edge.startOf at hst
    unfold Edge.endOf at h1
    split_ifs at hst h1 <;> simp_all
  have hcard : s.star n = {nd.anchor, s.sigma nd.anchor} := by
    symm
    apply Finset.eq_of_subset_of_card_le
    · intro x hx
      rw [Finset.mem_insert, Finset.mem_singleton] at hx
      rw [hmem]
      rcases hx with rfl | rfl
      · exact hst
      · exact hsg.trans hst
    · rw [hdeg, Finset.card_pair (Ne.symm hne0)]
  have hss : s.sigma (s.sigma nd.anchor) = nd.anchor := by
    have h1 : s.sigma (s.sigma nd.anchor) ∈ s.star n := by
      rw [hmem]; exact (hG.start_sigma _ hsl).trans (hsg.trans hst)
    rw [hcard, Finset.mem_insert, Finset.mem_singleton] at h1
    rcases h1 with h1 | h1
    · exact h1
    · exfalso
      have h2 := (hG.sigma_live _ hsl).2
      have h3 := (hG.sigma_live _ hlv).2
      unfold GMap.prevSigma GMap.nextSigma at h2 h3
      rw [h1] at h2
      exact hne0 (h2.symm.trans h3)
  have hna : (s.sigma nd.anchor).natAbs ≠ nd.anchor.natAbs := by
    intro h4
    rcases Int.natAbs_eq_natAbs_iff.mp h4 with h4 | h4
    · exact hne0 h4
    · exact hne1 h4
  obtain ⟨d1, d2, e1, e2, m, n2, nd', s1, hor, hs1, hM1, hD, -, -, heq, hMt⟩ := mergeEdges_spec hs.good.map h hlv hna hss
  by_cases hc : h.preMergeEdges s1 d1 = true ∧ h.removeNode s1 m = true
  · rw [if_pos hc] at heq
    obtain ⟨x1, x2, m', hor', -, hE⟩ := mergeEdges_effect hs.good.map heq
    have hL := Later.one h (.mergeEdges nd.anchor) trivial (by show Outcome.map _ _ = _; rw [heq]; rfl) hE.sizes.2.2
    refine ⟨_, 1, _, heq, rfl, NodesMerged.ofEffect hs hL hE, fun hh => ?_⟩
    have : m' = n := by
      have h1 := hE.at_m.1
      have h2 := hE.at_m.2.1
      rcases hor' with ⟨rfl, -⟩ | ⟨-, rfl⟩
      · rw [hst] at h1; exact (Option.some.inj h1).symm
      · rw [hst] at h2; exact (Option.some.inj h2).symm
    rw [← this, hE.node_gone.2] at hh; cases hh
  · rw [if_neg hc] at heq
    have hnf : s1.nFaces = s.nFaces := by obtain ⟨f, e⟩ := hs1.eq; rw [e]
    have hL := Later.one h (.mergeEdges nd.anchor) trivial (by show Outcome.map _ _ = _; rw [heq]; rfl) hnf
    refine ⟨_, 0, _, heq, rfl, NodesMerged.ofAnchors hL hs1, fun _ => ?_⟩
    have hst1 : ∀ x, s1.startN? x = s.startN? x := by
      intro x; obtain ⟨f, e⟩ := hs1.eq; rw [e]; rfl
    have hd1n : s.startN? d1 = some n := by
      rcases hor with ⟨rfl, -⟩ | ⟨rfl, -⟩
      · exact hst
      · exact hsg.trans hst
    have hd2n : s.startN? d2 = some n := by
      rcases hor with ⟨-, rfl⟩ | ⟨-, rfl⟩
      · exact hsg.trans hst
      · exact hst
    have hmn : m = n := by
      have := startN?_of hD.he2
      rw [hst1, hd2n, hD.hm] at this
      exact (Option.some.inj this).symm
    refine ⟨s1, d1, hL, by rw [hst1]; exact hd1n, ?_⟩
    rw [← hmn]
    cases h1 : h.preMergeEdges s1 d1
    · exact Or.inl rfl
    · cases h2 : h.removeNode s1 m
      · exact Or.inr rfl
      · exact absurd ⟨h1, h2⟩ hc

/-- nothing left to do at node `n` -/
def Settled (h : Hooks K) (s t : GMap K) (n : Nat) : Prop :=
  (t.node n).isSome = true → (t.star n).card = 2 → t.HasLoop n ∨ RefusedMerge h s n

omit [Field K] [LinearOrder K] in
theorem hasLoop_of {s : GMap K} {n : Nat} {d : Int} {e : Edge K} (he : s.edge d.natAbs = some e) (hn : s.startN? d = some n) (hl : e.startN = e.endN) :
    s.HasLoop n := by
  refine ⟨d, hn, ?_⟩
  rw [startN?_of he] at hn
  rw [startN?_of (d := -d) (e := e) (by simpa using he), ← hn]
  unfold Edge.startOf
  rw [hl]; simp

theorem degree2Step_spec (h : Hooks K) {s : GMap K} (hs : Reach s) (n c : Nat) :
    ∃ k t, GMap.degree2Step h n c s = .ok (c + k, t) ∧ NodesMerged s t k ∧ Settled h s t n := by
  unfold GMap.degree2Step
  cases hn : s.node n with
  | none => exact ⟨0, s, rfl, NodesMerged.refl s, fun hh => by rw [hn] at hh; cases hh⟩
  | some nd =>
    have hq := (Props.degree_counts_darts hs (n := n) (by simp [hn])).2.1 2
    simp only [bind, hq, Outcome.bind_ok]
    by_cases hdeg : (s.star n).card = 2
    swap
    · exact ⟨0, s, by simp [hdeg], NodesMerged.refl s, fun _ hh => absurd hh hdeg⟩
    simp only [hdeg, decide_true, if_true]
    have hG := hs.good.map.graph
    have ha : nd.anchor ≠ 0 := by
      intro h0
      have : s.star n = ∅ := by
        ext x
        rw [Props.mem_star hs]
        simp [hG.anchor_zero n nd hn h0 x]
      rw [this] at hdeg; cases hdeg
    have hst := hG.anchor_start n nd hn ha
    obtain ⟨e, he⟩ := liveD_exists (liveD_of_start hst)
    unfold GMap.mergeAtAnchor
    simp only [bind, derefEdge_of hs he, Outcome.bind_ok]
    by_cases hl : e.startN = e.endN
    · exact ⟨0, s, by rw [if_pos hl]; rfl, NodesMerged.refl s, fun _ _ => Or.inl (hasLoop_of he hst hl)⟩
    · obtain ⟨r, k, t, g1, g2, g3, g4⟩ := degree2_merge h hs hn hdeg he hl
      refine ⟨k, t, ?_, g3, fun hh _ => Or.inr (g4 hh)⟩
      rw [if_neg hl, g1]
      simp only [Outcome.bind_ok]
      rw [← g2]
      cases r <;> rfl

theorem degree2Loop_spec (h : Hooks K) : ∀ (ns : List Nat) {s : GMap K} (_ : Reach s) (c : Nat),
    ∃ k t, GMap.degree2Loop h ns c s = .ok (c + k, t) ∧ NodesMerged s t k ∧ ∀ n ∈ ns, Settled h s t n := by
  intro ns
  induction ns with
  | nil => intro s hs c; exact ⟨0, s, rfl, NodesMerged.refl s, by simp⟩
  | cons n ns ih =>
    intro s hs c
    obtain ⟨k, t, g1, g2, g3⟩ := degree2Step_spec h hs n c
    obtain ⟨j, u, i1, i2, i3⟩ := ih (g2.later.reach hs) (c + k)
    refine ⟨k + j, u, ?_, g2.trans i2, ?_⟩
    · unfold GMap.degree2Loop
      simp only [bind, g1, Outcome.bind_ok, i1, add_assoc]
    · intro m hm hl hdeg
      rcases List.mem_cons.mp hm with rfl | hm
      · obtain ⟨nd, hnd⟩ := Option.isSome_iff_exists.mp hl
        obtain ⟨nd', hnd', -⟩ := i2.nodes m nd hnd
        have hl' : (t.node m).isSome = true := by simp [hnd']
        rcases g3 hl' (by rw [← i2.degrees m hl]; exact hdeg) with h1 | h1
        · exact Or.inl (i2.loops m hl h1)
        · exact Or.inr h1
      · rcases i3 m hm hl hdeg with h1 | ⟨v, d, h1, h2⟩
        · exact Or.inl h1
        · exact Or.inr ⟨v, d, g2.later.trans h1, h2⟩

end Verif.GeoMap
