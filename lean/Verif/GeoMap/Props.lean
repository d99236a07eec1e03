import Verif.GeoMap.PropLemmas2
import Verif.GeoMap.Example

/-!
# The property theorems about `GeoMap`

The statements use `Spec.lean` (live darts, start nodes, left faces, orbits), `Planar2.lean` (connected
components, Euler number), `Effects.lean` (effects of single operations) and `Machine.lean` /
`Machine2.lean` (which histories of calls there are: `Reach`, `ReachG`).
Each theorem is followed by an instance on the concrete map of `Example.lean`.
-/

namespace Verif.GeoMap
open Equiv Equiv.Perm Verif.PermLemmas

variable {K : Type} [Field K] [LinearOrder K]

/-- `t` comes from `s` by further calls. -/
inductive Later : GMap K → GMap K → Prop
  | refl (s : GMap K) : Later s s
  | call {s t u : GMap K} (h : Hooks K) (op : Op K) : Later s t → op.legal t → op.run h t = .ok u →
      (planar : ¬ t.initialized → u.initialized → PlanarOK u) → Later s u

theorem Later.reach {s t : GMap K} (h : Later s t) (hs : Reach s) : Reach t := by
  induction h with
  | refl => exact hs
  | call h op _ hl hr hp ih => exact .call h op ih hl hr hp

namespace Props

/-- the example map is reachable -/
theorem ex_reach : Reach Example.map := Example.reach_map.reach
theorem ex_init : Example.map.initialized := by decide +kernel
/-- the example graph is reachable and not initialized -/
theorem ex_graph : Reach Example.graph := Example.reach_graph.reach

/-! ## C49: no call misbehaves -/

/-- On a reachable map every call either returns normally or reports a violated precondition: no
undefined behaviour, no endless loop. -/
theorem calls_are_safe {s : GMap K} (hs : Reach s) (h : Hooks K) (op : Op K) (hl : op.legal s) :
    op.run h s = .precond ∨ ∃ t, op.run h s = .ok t := by
  rcases call_safe hs.good h op hl with e | ⟨t, e, -⟩
  · exact Or.inl e
  · exact Or.inr ⟨t, e⟩

example : ∃ t, (Op.mergeFaces (2 : Int)).run Hooks.none Example.map = .ok t :=
  ⟨_, Example.ok_val (a := GMap.empty) (by decide +kernel)⟩
example : (Op.mergeFaces (4 : Int)).run Hooks.none Example.map = .precond := by
  rcases calls_are_safe ex_reach Hooks.none (.mergeFaces 4) trivial with h | ⟨t, h⟩
  · exact h
  · have : Example.isOk ((Op.mergeFaces (4 : Int)).run Hooks.none Example.map) = false := by decide +kernel
    rw [h] at this; cases this

/-- The queries are safe as well: `degree`, `hasDegree`, `hasMinDegree` on an existing node return. -/
theorem degree_queries_are_safe {s : GMap K} (hs : Reach s) {n : Nat} (hn : (s.node n).isSome = true) (k : Nat) :
    (∃ x, s.degree n = .ok x) ∧ (∃ b, s.hasDegree n k = .ok b) ∧ (∃ b, s.hasMinDegree n k = .ok b) := by
  obtain ⟨π, hg⟩ := hs.good.map.graph.exists_rep
  obtain ⟨nd, hnd⟩ := Option.isSome_iff_exists.mp hn
  have := degree_eq hg hnd
  exact ⟨⟨_, this.1⟩, ⟨_, (this.2 k).2⟩, ⟨_, (this.2 k).1⟩⟩

/-! ## C04: dart navigation -/

/-- `nextAlpha`, `nextSigma`/`prevSigma` and `nextPhi`/`prevPhi` stay on existing darts and undo each
other; alpha has no fixed point. -/
theorem dart_navigation {s : GMap K} (hs : Reach s) {d : Int} (hd : s.liveD d) :
    (s.liveD (-d) ∧ -d ≠ d) ∧
    (s.liveD (s.nextSigma d) ∧ s.prevSigma (s.nextSigma d) = d) ∧ (s.liveD (s.prevSigma d) ∧ s.nextSigma (s.prevSigma d) = d) ∧
    (s.liveD (s.phi d) ∧ s.phiInv (s.phi d) = d) ∧ (s.liveD (s.phiInv d) ∧ s.phi (s.phiInv d) = d) := by
  have hG := hs.good.map.graph
  have hl : ∀ x, s.liveD x → s.liveD (-x) := fun x hx => by unfold GMap.liveD at hx ⊢; simpa using hx
  have hn : d ≠ 0 := by
    rintro rfl
    unfold GMap.liveD at hd
    simp [hG.edge_zero] at hd
  have h1 := hG.sigma_live d hd
  have h2 := hG.sigmaInv_live d hd
  have h3 := hG.sigmaInv_live (-d) (hl d hd)
  refine ⟨⟨hl d hd, by omega⟩, h1, h2, ⟨h3.1, ?_⟩, ⟨hl _ h1.1, ?_⟩⟩
  · show -(s.sigma (s.sigmaInv (-d))) = d
    have : s.sigma (s.sigmaInv (-d)) = -d := h3.2
    rw [this, neg_neg]
  · show s.sigmaInv (- -(s.sigma d)) = d
    rw [neg_neg]; exact h1.2

/-- Walking with any of the four successor functions comes back to the start after finitely many steps,
and meets no dart twice before that. -/
theorem dart_orbits_return {s : GMap K} (hs : Reach s) {d : Int} (hd : s.liveD d) :
    (∃ n, ReturnsAfter s.nextSigma d n) ∧ (∃ n, ReturnsAfter s.prevSigma d n) ∧
    (∃ n, ReturnsAfter s.phi d n) ∧ (∃ n, ReturnsAfter s.phiInv d n) := by
  obtain ⟨π, hg⟩ := hs.good.map.graph.exists_rep
  have hdL := (hg.live d).mpr hd
  obtain ⟨ψ, hψ⟩ := hg.rep.exists_phi hg.symm
  have hψ : Rep s.darts s.phi s.phiInv ψ := hψ
  exact ⟨⟨_, hg.rep.returns hdL⟩, ⟨_, hg.rep.symmRep.returns hdL⟩, ⟨_, hψ.returns hdL⟩, ⟨_, hψ.symmRep.returns hdL⟩⟩

example : Example.map.liveD (-3) := by decide +kernel
example : ∃ n, ReturnsAfter Example.map.phi 4 n := (dart_orbits_return ex_reach (by decide +kernel)).2.2.1

/-! ## C05: the darts around a node -/

/-- The sigma orbit of a dart consists of the darts with the same start node. -/
theorem sigma_orbit_is_star {s : GMap K} (hs : Reach s) {d : Int} (hd : s.liveD d) (d' : Int) :
    s.sigmaReach d d' ↔ s.startN? d' = s.startN? d := by
  have hG := hs.good.map.graph
  obtain ⟨π, hg⟩ := hG.exists_rep
  have hdL := (hg.live d).mpr hd
  constructor
  · rintro ⟨k, rfl⟩
    have : ∀ k, s.liveD (s.nextSigma^[k] d) ∧ s.startN? (s.nextSigma^[k] d) = s.startN? d := by
      intro k
      induction k with
      | zero => exact ⟨hd, rfl⟩
      | succ k ih =>
        rw [Function.iterate_succ_apply']
        exact ⟨(hG.sigma_live _ ih.1).1, (hG.start_sigma _ ih.1).trans ih.2⟩
    exact (this k).2
  · intro h
    obtain ⟨e, he⟩ := liveD_exists hd
    rw [startN?_of he] at h
    have hd' := (hg.live d').mpr (liveD_of_start h)
    rw [GMap.sigmaReach, show s.nextSigma = s.sigma from rfl, ← hg.rep.sameCycle_iff hdL]
    exact (same_start_iff hg.rep hg.starts hg.nodes hdL hd').mp (by rw [h, startN?_of he])

/-- A node has no anchor exactly if no dart starts there. -/
theorem isolated_iff_no_darts {s : GMap K} (hs : Reach s) {n : Nat} {nd : Node K} (hn : s.node n = some nd) :
    nd.anchor = 0 ↔ ∀ d, s.startN? d ≠ some n := by
  have hG := hs.good.map.graph
  constructor
  · exact hG.anchor_zero n nd hn
  · intro h
    by_contra hne
    exact h _ (hG.anchor_start n nd hn hne)

/-- the existing darts that start at node `n` -/
def _root_.Verif.GeoMap.GMap.star (s : GMap K) (n : Nat) : Finset Int := s.darts.filter fun d => s.startN? d = some n

/-- `star` really contains all darts of the node -/
theorem mem_star {s : GMap K} (hs : Reach s) (n : Nat) (d : Int) : d ∈ s.star n ↔ s.startN? d = some n := by
  unfold GMap.star
  rw [Finset.mem_filter, mem_darts hs.good.map.graph.edge_lt]
  exact ⟨fun h => h.2, fun h => ⟨liveD_of_start h, h⟩⟩

/-- `degree`, `hasDegree` and `hasMinDegree` count the darts of the node. -/
theorem degree_counts_darts {s : GMap K} (hs : Reach s) {n : Nat} (hn : (s.node n).isSome = true) :
    s.degree n = .ok (s.star n).card ∧
    (∀ k, s.hasDegree n k = .ok (decide ((s.star n).card = k))) ∧ ∀ k, s.hasMinDegree n k = .ok (decide (k ≤ (s.star n).card)) := by
  obtain ⟨π, hg⟩ := hs.good.map.graph.exists_rep
  obtain ⟨nd, hnd⟩ := Option.isSome_iff_exists.mp hn
  have := degree_eq hg hnd
  exact ⟨this.1, fun k => (this.2 k).2, fun k => (this.2 k).1⟩

example : Example.map.degree 1 = .ok 4 := by decide +kernel
example : (Example.map.node 1).isSome = true ∧ (Example.map.star 1).card = 4 := by decide +kernel
example : Example.map.sigmaReach 4 (-3) := (sigma_orbit_is_star ex_reach (by decide +kernel) _).mpr (by decide +kernel)

/-! ## C06: contours -/

/-- Every dart has an existing left face, the same as its phi successor, and its contour is listed
exactly once among all contours of all faces: as contour `i` of that face. -/
theorem contours_exact {s : GMap K} (hs : Reach s) (hi : s.initialized) {d : Int} (hd : s.liveD d) :
    s.left? (s.phi d) = s.left? d ∧
    ∃ f F i, s.left? d = some f ∧ s.face f = some F ∧ i < F.anchors.length ∧
      ∀ (g : Nat) (G : Face K) (j : Nat) (b : Int), s.face g = some G → G.anchors[j]? = some b → (s.phiReach b d ↔ g = f ∧ j = i) := by
  have hM := hs.good.map
  have hC := hM.contours hi
  obtain ⟨π, hg⟩ := hM.graph.exists_rep
  obtain ⟨ψ, hc⟩ := hC.exists_rep hg
  refine ⟨hC.left_phi d hd, ?_⟩
  obtain ⟨f, F, h1, h2⟩ := hC.face_live d hd
  obtain ⟨a, ha, hr⟩ := hC.anchor_cover f F d h2 h1
  obtain ⟨i, hi', hai⟩ := List.getElem_of_mem ha
  refine ⟨f, F, i, h1, h2, hi', fun g G j b hG hb => ?_⟩
  have hbm : b ∈ G.anchors := List.mem_of_getElem? hb
  have hbl : s.left? b = some g := hC.anchor_left g G b hG hbm
  have hconst : ∀ k, s.liveD (s.phi^[k] b) ∧ s.left? (s.phi^[k] b) = some g := by
    intro k
    induction k with
    | zero => exact ⟨liveD_of_left hbl, hbl⟩
    | succ k ih =>
      rw [Function.iterate_succ_apply']
      exact ⟨(dart_navigation hs ih.1).2.2.2.1.1, (hC.left_phi _ ih.1).trans ih.2⟩
  constructor
  · intro hr'
    obtain ⟨k, hk⟩ := hr'
    have hgf : g = f := by
      have := (hconst k).2
      rw [hk, h1] at this; exact (Option.some.inj this).symm
    subst hgf
    have hFG : G = F := by rw [hG] at h2; exact Option.some.inj h2
    subst hFG
    refine ⟨rfl, ?_⟩
    have hu := hC.anchor_unique g G hG
    have haL : a ∈ s.darts := (hg.live a).mpr (liveD_of_left (hC.anchor_left g G a hG ha))
    have hbL : b ∈ s.darts := (hg.live b).mpr (liveD_of_left hbl)
    have sab : SameCycle ψ a b := ((hc.rep.sameCycle_iff haL).mpr hr).trans ((hc.rep.sameCycle_iff hbL).mpr ⟨k, hk⟩).symm
    obtain ⟨hj, hbj⟩ := List.getElem?_eq_some_iff.mp hb
    rw [List.pairwise_iff_getElem] at hu
    rcases lt_trichotomy j i with hlt | rfl | hlt
    · exfalso
      refine hu j i hj hi' hlt ?_
      rw [hbj, hai]
      exact (hc.rep.sameCycle_iff hbL).mp sab.symm
    · rfl
    · exfalso
      refine hu i j hi' hj hlt ?_
      rw [hbj, hai]
      exact (hc.rep.sameCycle_iff haL).mp sab
  · rintro ⟨rfl, rfl⟩
    rw [hG] at h2; cases h2
    obtain ⟨hj, hbj⟩ := List.getElem?_eq_some_iff.mp hb
    rw [← hbj, hai]; exact hr

/-- Every listed contour anchor is an existing dart of that face, and the infinite face exists. -/
theorem anchors_valid {s : GMap K} (hs : Reach s) (hi : s.initialized) :
    (∀ f F a, s.face f = some F → a ∈ F.anchors → s.liveD a ∧ s.left? a = some f) ∧ (s.face 0).isSome = true := by
  have hC := hs.good.map.contours hi
  exact ⟨fun f F a h1 h2 => ⟨liveD_of_left (hC.anchor_left f F a h1 h2), hC.anchor_left f F a h1 h2⟩, hC.face_zero⟩

example : Example.map.left? (-2) = some 1 ∧ (Example.map.face 1).map (·.anchors) = some [1] := by decide +kernel

/-! ## C07: counts and labels -/

/-- `nodeCount`, `edgeCount`, `faceCount` are the numbers of existing cells. -/
theorem counts_exact {s : GMap K} (hs : Reach s) :
    s.nodeCount = s.liveNodes.card ∧ s.edgeCount = s.liveEdges.card ∧ s.faceCount = s.liveFaces.card ∧
    (∀ n, (s.node n).isSome = true ↔ n ∈ s.liveNodes) ∧ (∀ l, (s.edge l).isSome = true ↔ l ∈ s.liveEdges) ∧
    (∀ f, (s.face f).isSome = true ↔ f ∈ s.liveFaces) := by
  have h := hs.good.map.graph
  refine ⟨h.node_count, h.edge_count, h.face_count, fun n => ?_, fun n => ?_, fun n => ?_⟩
  · unfold GMap.liveNodes; rw [Finset.mem_filter, Finset.mem_range]; exact ⟨fun g => ⟨h.node_lt n g, g⟩, fun g => g.2⟩
  · unfold GMap.liveEdges; rw [Finset.mem_filter, Finset.mem_range]; exact ⟨fun g => ⟨h.edge_lt n g, g⟩, fun g => g.2⟩
  · unfold GMap.liveFaces; rw [Finset.mem_filter, Finset.mem_range]; exact ⟨fun g => ⟨h.face_lt n g, g⟩, fun g => g.2⟩

example : Example.map.nodeCount = 3 ∧ Example.map.edgeCount = 4 ∧ Example.map.faceCount = 3 := by decide +kernel

/-- The counts change by the documented amounts.  (`removeBridge` and `mergeFaces` may also remove end
nodes of the edge that became isolated; see `removeBridge_local`, `mergeFaces_local`.) -/
theorem count_changes {s t : GMap K} (hs : Reach s) {h : Hooks K} :
    (∀ d l, s.mergeEdges h d = .ok (some l, t) → t.nodeCount + 1 = s.nodeCount ∧ t.edgeCount + 1 = s.edgeCount ∧ t.faceCount = s.faceCount) ∧
    (∀ l i np r, s.splitEdge l i np = .ok (r, t) → t.nodeCount = s.nodeCount + 1 ∧ t.edgeCount = s.edgeCount + 1 ∧ t.faceCount = s.faceCount) ∧
    (∀ d f, s.removeBridge h d = .ok (some f, t) → t.nodeCount ≤ s.nodeCount ∧ s.nodeCount ≤ t.nodeCount + 2 ∧ t.edgeCount + 1 = s.edgeCount ∧ t.faceCount = s.faceCount) ∧
    (∀ d f, s.mergeFaces h d = .ok (some f, t) → t.nodeCount ≤ s.nodeCount ∧ s.nodeCount ≤ t.nodeCount + 1 ∧ t.edgeCount + 1 = s.edgeCount ∧ t.faceCount + 1 = s.faceCount) ∧
    (∀ n, (s.node n).isSome = true → (∀ d, s.startN? d ≠ some n) → s.removeIsolatedNode h n = .ok (true, t) →
      t.nodeCount + 1 = s.nodeCount ∧ t.edgeCount = s.edgeCount ∧ t.faceCount = s.faceCount) := by
  refine ⟨fun d l e => ?_, fun l i np r e => (splitEdge_effect hs.good.map e).counts, fun d f e => (removeBridge_effect hs.good e).counts,
    fun d f e => ?_, fun n hn hd e => ?_⟩
  · obtain ⟨d1, d2, m, -, -, E⟩ := mergeEdges_effect hs.good.map e; exact E.counts
  · obtain ⟨ml, E⟩ := mergeFaces_effect hs.good e; exact E.counts
  · obtain ⟨nd, hnd⟩ := Option.isSome_iff_exists.mp hn
    rw [removeIsolatedNode_of (hs.good.map.graph.node_lt n hn) hnd] at e
    have hpos : 0 < s.nodeCount := by
      rw [hs.good.map.graph.node_count, Finset.card_pos]
      exact ⟨n, by unfold GMap.liveNodes; rw [Finset.mem_filter, Finset.mem_range]; exact ⟨hs.good.map.graph.node_lt n hn, hn⟩⟩
    cases hv : h.removeNode s n with
    | false => rw [hv] at e; simp at e
    | true =>
      rw [hv] at e
      simp only [if_true, Outcome.ok.injEq, Prod.mk.injEq, true_and] at e
      subst e
      exact ⟨by show s.nodeCount - 1 + 1 = _; omega, rfl, rfl⟩

example : Example.isOk (Example.map.mergeFaces Hooks.none 2) = true ∧ Example.isOk (Example.map.removeBridge Hooks.none 4) = true ∧
    Example.isOk (Example.map.splitEdge 1 1 none) = true := by decide +kernel

/-- Labels are never reused: along every history the label ranges only grow, and a label that was
handed out and names no cell any more never names one again. -/
theorem labels_never_reused {s t : GMap K} (hs : Reach s) (h : Later s t) : NoReuse s t := by
  induction h with
  | refl => exact NoReuse.refl s
  | @call t u hk op h' hl hr hp ih => exact ih.trans (call_noReuse (h'.reach hs).good hk op hl hr)

/-- A new node or edge gets a label that no cell ever had. -/
theorem new_labels_fresh {s : GMap K} (hs : Reach s) :
    (∀ p label, let r := s.addNodeAt p label; s.nNodes ≤ r.1 ∧ s.node r.1 = none ∧ ((r.2).node r.1).map (·.pos) = some p) ∧
    (∀ a b pts label r t, (Op.addEdge a b pts label).legal s → s.addEdge a b pts label = .ok (r, t) → s.nEdges ≤ r ∧ s.edge r = none ∧ (t.edge r).map (·.pts) = some pts) := by
  refine ⟨fun p label => ?_, fun a b pts label r t hl e => ?_⟩
  · refine ⟨le_max_left _ _, ?_, ?_⟩
    · by_contra hne
      have := hs.good.map.graph.node_lt (max s.nNodes label) (by
        rw [Option.isSome_iff_ne_none]; exact hne)
      omega
    · simp [GMap.addNodeAt, GMap.addNode]
  · have hr : r = max s.nEdges label := by
      unfold GMap.addEdge at e
      split_ifs at e
      simp only [bind, Outcome.bind_eq_ok] at e
      obtain ⟨A, -, B, -, u, -, v, -, e⟩ := e
      cases e
      rfl
    have hge : s.nEdges ≤ r := by omega
    refine ⟨hge, ?_, ?_⟩
    · by_contra hne
      have := hs.good.map.graph.edge_lt r (by rw [Option.isSome_iff_ne_none]; exact hne)
      omega
    · unfold GMap.addEdge at e
      split_ifs at e
      simp only [bind, Outcome.bind_eq_ok] at e
      obtain ⟨A, -, B, -, u, hu, v, hv, e⟩ := e
      have ins : ∀ (w : GMap K) x y, (w.insertSigmaPredecessor x y).edge = w.edge := by
        intro w x y; unfold GMap.insertSigmaPredecessor; split_ifs <;> rfl
      have att : ∀ {w w' : GMap K} {A : GMap.SigmaAnchor} {n : Nat} {x : Int}, w.attach A n x = .ok w' → w'.edge = w.edge := by
        intro w w' A n x h
        unfold GMap.attach at h
        split_ifs at h
        · simp only [bind, Outcome.bind_eq_ok] at h
          obtain ⟨nd, -, h⟩ := h
          cases h
          exact ins _ _ _
        · cases h; exact ins _ _ _
      have e1 := att hu
      have e2 : v.edge = u.edge := by
        unfold GMap.attachEnd at hv
        split_ifs at hv
        · cases hv; exact ins _ _ _
        · exact att hv
      cases e
      rw [e2, e1]
      simp [GMap.newEdge]

example : Later Example.graph Example.map :=
  .call Hooks.none (.initializeMap fun _ _ => none) (.refl _) trivial (Example.ok_val (by decide +kernel)) fun _ _ => Example.map_planar

/-! ## C08: the Euler number -/

/-- Nodes − edges + faces − components is not changed by any call on an initialized map. -/
theorem euler_preserved {s t : GMap K} (hs : Reach s) (hi : s.initialized) (h : Hooks K) (op : Op K) (hl : op.legal s)
    (e : op.run h s = .ok t) :
    t.initialized ∧ t.euler = s.euler := by
  have hg := hs.good
  have hP := hg.planar hi
  have fin : ∀ {t' : GMap K}, EulerStep s t' → t' = t → t.initialized ∧ t.euler = s.euler := by
    rintro t' E rfl
    exact ⟨by show 0 < t'.nFaces; rw [E.init]; exact hi, E.euler hP⟩
  have mp : ∀ {A : Type} {o : Outcome (A × GMap K)}, o.map (·.2) = .ok t → (o = .precond ∨ ∃ r t, o = .ok (r, t) ∧ EulerStep s t) →
      t.initialized ∧ t.euler = s.euler := by
    intro A o e h
    rcases h with h | ⟨r, t', h, E⟩
    · rw [h] at e; cases e
    · rw [h] at e; cases e; exact fin E rfl
  cases op with
  | addNode p label => cases e; exact fin (addNodeAt_step hg.map p label) rfl
  | addEdge a b pts label =>
    exfalso
    have : s.addEdge a b pts label = .precond := by unfold GMap.addEdge; rw [if_pos hi]
    unfold Op.run at e; simp only [this] at e; cases e
  | sortEdgesDirectly =>
    exfalso
    have : s.sortEdgesDirectly = .precond := by unfold GMap.sortEdgesDirectly; rw [if_pos hi]
    unfold Op.run at e; simp only [this] at e; cases e
  | initializeMap pick =>
    exfalso
    have : s.initializeMap pick = .precond := by unfold GMap.initializeMap; rw [if_pos hi]
    unfold Op.run at e; simp only [this] at e; cases e
  | removeIsolatedNode n => exact mp e (Or.inr (removeIsolatedNode_step hg.map h hl.1 hl.2))
  | mergeEdges d => exact mp e (mergeEdges_step hg.map h d)
  | splitEdge l i np => exact mp e (splitEdge_step hg.map l i np)
  | removeBridge d => exact mp e (removeBridge_step hg.map hg.planar h d)
  | mergeFaces d => exact mp e (mergeFaces_step hg.map hg.planar h d)
  | removeEdge d =>
    rcases removeEdge_step hg.map hg.planar h d with e' | ⟨r, t', e', -, -, -, -, E⟩
    · exact mp e (Or.inl e')
    · exact mp e (Or.inr ⟨r, t', e', E hi⟩)
  | area f =>
    obtain ⟨x, t', h1, h2, -⟩ := area_step hg.map (f := f) hl
    exact mp e (Or.inr ⟨x, t', h1, h2⟩)
  | setFlags l flags =>
    rcases setFlags_step hg.map l flags with e' | ⟨t', e', E⟩
    · unfold Op.run at e; simp only [e'] at e; cases e
    · unfold Op.run at e; simp only [e'] at e; cases e; exact fin E rfl

example : (Op.removeEdge (4 : Int)).legal Example.map ∧ Example.isOk ((Op.removeEdge (4 : Int)).run Hooks.none Example.map) = true :=
  ⟨trivial, by decide +kernel⟩

end Props
end Verif.GeoMap
