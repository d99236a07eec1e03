import Verif.Utils.Complete

/-!
# C21, C22, C23: the composed operations

`Isolated`, `HasLoop`, `star` (the darts that start at a node): see `Utils/Nodes.lean` and `GeoMap/Spec.lean`.
`RefusedNode h s n` etc.: at some moment after `s` the connected callback answered no for this cell.
-/

namespace Verif.GeoMap.Props
open Verif Verif.GeoMap

variable {K : Type} [Field K] [LinearOrder K]

theorem none_accepts {s : GMap K} : (∀ n, ¬ RefusedNode Hooks.none s n) ∧ (∀ n, ¬ RefusedMerge Hooks.none s n) ∧
    (∀ l, ¬ RefusedBridge Hooks.none s l) ∧ (∀ l, ¬ RefusedFaces Hooks.none s l) := by
  refine ⟨?_, ?_, ?_, ?_⟩
  · rintro n ⟨u, -, -, h⟩; cases h
  · rintro n ⟨u, d, -, -, h | h⟩ <;> cases h
  · rintro n ⟨u, d, -, -, -, h⟩; cases h
  · rintro n ⟨u, d, -, -, -, h⟩; cases h

/-- a map with a bridge (4) both of whose end nodes have other edges -/
def exSplit : GMap ℚ := Example.next Example.map (.splitEdge 4 0 (some (5/2, 0)))

theorem exSplit_reach : ReachG exSplit := by
  refine Example.reach_next Example.reach_map trivial ?_ (by decide +kernel) (fun h => absurd (by decide +kernel) h)
  intro e a b he ha hb
  have h1 : (Example.map.edge 4).map (·.pts) = some [(2, 0), (3, 0)] := by decide +kernel
  rw [he] at h1
  simp only [Option.map_some, Option.some.injEq] at h1
  rw [h1] at ha hb
  cases ha; cases hb
  norm_num [OnLine]

/-! ## C21 -/

/-- **C21 (a)** `removeIsolatedNodes` returns normally, whatever the callbacks answer.  It removes nodes
without darts only, changes nothing else, leaves no such node unless a callback refused, and returns the number
of nodes removed. -/
theorem removeIsolatedNodes_spec {s : GMap K} (hs : Reach s) (h : Hooks K) :
    ∃ k t, s.removeIsolatedNodes h = .ok (k, t) ∧ Reach t ∧
      (∀ n, t.Isolated n → RefusedNode h s n) ∧
      (∀ n, t.node n = s.node n ∨ (t.node n = none ∧ s.Isolated n)) ∧
      t.edge = s.edge ∧ t.face = s.face ∧ t.sigma = s.sigma ∧
      t.nodeCount + k = s.nodeCount ∧ t.edgeCount = s.edgeCount ∧ t.faceCount = s.faceCount := by
  obtain ⟨k, t, g1, g2, g3⟩ := isolatedLoop_spec h (List.range s.nNodes) hs 0
  rw [zero_add] at g1
  have hlt : ∀ n, t.Isolated n → n ∈ List.range s.nNodes := fun n hn =>
    List.mem_range.mpr (hs.good.map.graph.node_lt n (g2.isolated hn).1)
  have hn := g2.nodes
  have hr := g2.later.reach hs
  have hc := g2.count
  refine ⟨k, t, g1, hr, fun n hI => g3 n (hlt n hI) hI, hn, ?_⟩
  obtain ⟨n1, c1, e⟩ := g2.eq
  rw [e] at hc ⊢
  exact ⟨rfl, rfl, rfl, hc, rfl, rfl⟩

/-- without callbacks no isolated node is left -/
theorem removeIsolatedNodes_all {s : GMap K} (hs : Reach s) :
    ∃ k t, s.removeIsolatedNodes Hooks.none = .ok (k, t) ∧ Reach t ∧ (∀ n, ¬ t.Isolated n) ∧
      (∀ n, (s.node n).isSome = true → ¬ s.Isolated n → t.node n = s.node n) ∧ t.nodeCount + k = s.nodeCount := by
  obtain ⟨k, t, g1, g2, g3, g4, -, -, -, g8, -⟩ := removeIsolatedNodes_spec hs Hooks.none
  refine ⟨k, t, g1, g2, fun n hI => none_accepts.1 n (g3 n hI), fun n _ h2 => ?_, g8⟩
  rcases g4 n with h3 | ⟨-, h4⟩
  · exact h3
  · exact absurd h4 h2

/-- the graph of the example with an additional node that has no edges -/
def exLonely : GMap ℚ := Example.next Example.g3 Example.op4
example : exLonely.Isolated 2 ∧ Reach exLonely ∧ (Example.val (0, exLonely) (exLonely.removeIsolatedNodes Hooks.none)).1 = 1 := by
  have hr : ReachG exLonely := Example.reach_edge (na := ⟨(0, 0), 0⟩) (nb := ⟨(2, 0), 0⟩) Example.reach_g3 (by decide +kernel) (by decide +kernel)
    (by decide +kernel) (by decide +kernel) (by decide +kernel) (by decide +kernel)
  refine ⟨?_, hr.reach, by decide +kernel⟩
  have hn : exLonely.node 2 = some ⟨(3, 0), 0⟩ := by decide +kernel
  exact (isolated_iff_anchor hr.reach hn).mpr rfl

/-- **C21 (b)** `mergeDegree2Nodes` returns normally, whatever the callbacks answer.  It removes nodes of degree 2
only; each removal joins two edges.  Afterwards every node of degree 2 is the node of a loop or a callback
refused; the result is the number of nodes removed.  Nodes that stay keep their position and degree, darts that
stay their faces, faces their areas. -/
theorem mergeDegree2Nodes_spec {s : GMap K} (hs : Reach s) (h : Hooks K) :
    ∃ k t, s.mergeDegree2Nodes h = .ok (k, t) ∧ Reach t ∧
      (∀ n, (t.node n).isSome = true → (t.star n).card = 2 → t.HasLoop n ∨ RefusedMerge h s n) ∧
      (∀ n, (s.node n).isSome = true → t.node n = none → (s.star n).card = 2) ∧
      (∀ n nd, t.node n = some nd → ∃ nd', s.node n = some nd' ∧ nd.pos = nd'.pos ∧ (t.star n).card = (s.star n).card) ∧
      (∀ d, t.liveD d → s.liveD d ∧ t.left? d = s.left? d) ∧
      (∀ f, (t.face f).map (fun F => (F.area, F.pixelArea)) = (s.face f).map (fun F => (F.area, F.pixelArea))) ∧
      t.nodeCount + k = s.nodeCount ∧ t.edgeCount + k = s.edgeCount ∧ t.faceCount = s.faceCount := by
  obtain ⟨k, t, g1, g2, g3⟩ := degree2Loop_spec h (List.range s.nNodes) hs 0
  rw [zero_add] at g1
  refine ⟨k, t, g1, g2.later.reach hs, fun n hl hd => g3 n ?_ hl hd, g2.gone, ?_, fun d hd => ⟨g2.edges _ hd, g2.lefts d hd⟩, g2.faces, g2.counts⟩
  · obtain ⟨nd, hnd⟩ := Option.isSome_iff_exists.mp hl
    obtain ⟨nd', hnd', -⟩ := g2.nodes n nd hnd
    exact List.mem_range.mpr (hs.good.map.graph.node_lt n (by simp [hnd']))
  · intro n nd hnd
    obtain ⟨nd', h1, h2⟩ := g2.nodes n nd hnd
    exact ⟨nd', h1, h2, g2.degrees n (by simp [hnd])⟩

/-- without callbacks only nodes of loops keep degree 2 -/
theorem mergeDegree2Nodes_all {s : GMap K} (hs : Reach s) :
    ∃ k t, s.mergeDegree2Nodes Hooks.none = .ok (k, t) ∧ Reach t ∧
      (∀ n, (t.node n).isSome = true → (t.star n).card = 2 → t.HasLoop n) ∧ t.nodeCount + k = s.nodeCount := by
  obtain ⟨k, t, g1, g2, g3, -, -, -, -, g8, -⟩ := mergeDegree2Nodes_spec hs Hooks.none
  exact ⟨k, t, g1, g2, fun n h1 h2 => (g3 n h1 h2).resolve_right (none_accepts.2.1 n), g8⟩

example : Reach exSplit ∧ (exSplit.star 3).card = 2 ∧ (Example.val (0, exSplit) (exSplit.mergeDegree2Nodes Hooks.none)).1 = 1 := by
  refine ⟨exSplit_reach.reach, ?_, ?_⟩ <;> decide +kernel

/-! ## C22 -/

/-- the flag `UNREMOVABLE_BRIDGE` that `removeBridges` uses internally is not set on this edge -/
def GMap.unflagged (s : GMap K) (l : Nat) : Prop := ∀ e, s.edge l = some e → e.flags.testBit 19 = false

/-- **C22 (a)** `removeBridges(map, bridges)` with a list of distinct bridges returns normally, whatever the
callbacks answer.  Afterwards each edge of the list is gone unless a callback refused; no other edge is gone,
except edges already carrying the flag `REMOVE_BRIDGE` before the call.  The result is the number of edges
removed; faces, and the sides and ends of the remaining edges, are unchanged. -/
theorem removeBridges_spec {s : GMap K} (hs : Reach s) (hi : s.initialized) (h : Hooks K) {bridges : List Nat}
    (hnd : bridges.Nodup) (hb : ∀ l ∈ bridges, ∃ e, s.edge l = some e ∧ e.leftF = e.rightF) (hf : ∀ l ∈ bridges, GMap.unflagged s l) :
    ∃ k t, s.removeBridges h bridges = .ok (k, t) ∧ Reach t ∧
      (∀ l ∈ bridges, (t.edge l).isSome = true → RefusedBridge h s l) ∧
      (∀ l, (s.edge l).isSome = true → t.edge l = none → l ∈ bridges ∨ Marked s l) ∧
      (∀ d, t.liveD d → s.liveD d ∧ t.left? d = s.left? d ∧ t.startN? d = s.startN? d) ∧
      (∀ f, (t.face f).map (fun F => (F.area, F.pixelArea)) = (s.face f).map (fun F => (F.area, F.pixelArea))) ∧
      t.edgeCount + k = s.edgeCount ∧ t.faceCount = s.faceCount := by
  obtain ⟨k, t, g1, g2, g3⟩ := removeBridgesLoop_spec h bridges.length bridges hs hi 0 hnd
    (fun l hl => by obtain ⟨e, h1, h2⟩ := hb l hl; exact ⟨e, h1, h2, hf l hl e h1⟩) le_rfl
  rw [zero_add] at g1
  exact ⟨k, t, g1, g2.later.reach hs, g3, g2.gone, fun d hd => ⟨(g2.left hd).2.2, (g2.left hd).1, (g2.left hd).2.1⟩, g2.faces, g2.count, g2.faceCount⟩

example : Reach exSplit ∧ exSplit.initialized ∧ (∀ l ∈ [4, 5], (∃ e, exSplit.edge l = some e ∧ e.leftF = e.rightF) ∧ GMap.unflagged exSplit l) ∧
    (Example.val (0, exSplit) (exSplit.removeBridges Hooks.none [4, 5])).1 = 2 := by
  refine ⟨exSplit_reach.reach, by decide +kernel, fun l hl => ?_, by decide +kernel⟩
  have h4 : ∃ e, exSplit.edge 4 = some e ∧ e.leftF = e.rightF ∧ e.flags.testBit 19 = false := by
    have : (exSplit.edge 4).any (fun e => decide (e.leftF = e.rightF ∧ e.flags.testBit 19 = false)) = true := by decide +kernel
    obtain ⟨e, h1, h2⟩ := (Option.any_eq_true _ _).mp this
    exact ⟨e, h1, of_decide_eq_true h2⟩
  have h5 : ∃ e, exSplit.edge 5 = some e ∧ e.leftF = e.rightF ∧ e.flags.testBit 19 = false := by
    have : (exSplit.edge 5).any (fun e => decide (e.leftF = e.rightF ∧ e.flags.testBit 19 = false)) = true := by decide +kernel
    obtain ⟨e, h1, h2⟩ := (Option.any_eq_true _ _).mp this
    exact ⟨e, h1, of_decide_eq_true h2⟩
  simp only [List.mem_cons, List.not_mem_nil, or_false] at hl
  rcases hl with rfl | rfl
  · obtain ⟨e, h1, h2, h3⟩ := h4
    exact ⟨⟨e, h1, h2⟩, fun e' he' => by rw [h1] at he'; cases he'; exact h3⟩
  · obtain ⟨e, h1, h2, h3⟩ := h5
    exact ⟨⟨e, h1, h2⟩, fun e' he' => by rw [h1] at he'; cases he'; exact h3⟩

theorem markBridges_spec : ∀ (ls : List Nat) {s : GMap K} (_ : Reach s) (_ : ls.Nodup),
    ∃ bs t, GMap.markBridges ls s = (bs, t) ∧ Removed 31 (fun _ => False) s t 0 ∧ bs.Nodup ∧
      (∀ l, l ∈ bs ↔ l ∈ ls ∧ ∃ e, s.edge l = some e ∧ e.leftF = e.rightF) := by
  intro ls
  induction ls with
  | nil => intro s hs _; exact ⟨[], s, rfl, Removed.refl _ _ s, by simp, by simp⟩
  | cons l ls ih =>
    intro s hs hnd
    obtain ⟨hnl, hnd'⟩ := List.nodup_cons.mp hnd
    unfold GMap.markBridges
    cases he : s.edge l with
    | none =>
      obtain ⟨bs, t, g1, g2, g3, g4⟩ := ih hs hnd'
      refine ⟨bs, t, g1, g2, g3, fun m => ?_⟩
      rw [g4]
      constructor
      · rintro ⟨h1, h2⟩; exact ⟨List.mem_cons_of_mem _ h1, h2⟩
      · rintro ⟨h1, e, h2, h3⟩
        rcases List.mem_cons.mp h1 with rfl | h1
        · rw [he] at h2; cases h2
        · exact ⟨h1, e, h2, h3⟩
    | some e =>
      dsimp only
      by_cases hb : e.leftF = e.rightF
      · rw [if_pos hb, removeBridgeFlag_eq]
        have hR := Removed.ofFlag (i := 31) (P := fun _ => False) he true
        obtain ⟨bs, t, g1, g2, g3, g4⟩ := ih (hR.later.reach hs) hnd'
        rw [g1]
        have heo : ∀ m, m ≠ l → (s.setEdge l (some (e.setFlag (2 ^ 31) true))).edge m = s.edge m := by
          intro m hm; simp [GMap.setEdge, hm]
        refine ⟨l :: bs, t, rfl, hR.trans g2 (fun _ _ _ => id), List.nodup_cons.mpr ⟨fun hh => hnl ((g4 l).mp hh).1, g3⟩, fun m => ?_⟩
        rw [List.mem_cons, List.mem_cons, g4]
        constructor
        · rintro (rfl | ⟨h1, e', h2, h3⟩)
          · exact ⟨Or.inl rfl, e, he, hb⟩
          · rw [heo m (by rintro rfl; exact hnl h1)] at h2
            exact ⟨Or.inr h1, e', h2, h3⟩
        · rintro ⟨rfl | h1, e', h2, h3⟩
          · exact Or.inl rfl
          · exact Or.inr ⟨h1, e', by rw [heo m (by rintro rfl; exact hnl h1)]; exact h2, h3⟩
      · rw [if_neg hb]
        obtain ⟨bs, t, g1, g2, g3, g4⟩ := ih hs hnd'
        refine ⟨bs, t, g1, g2, g3, fun m => ?_⟩
        rw [g4]
        constructor
        · rintro ⟨h1, h2⟩; exact ⟨List.mem_cons_of_mem _ h1, h2⟩
        · rintro ⟨h1, e', h2, h3⟩
          rcases List.mem_cons.mp h1 with rfl | h1
          · rw [he] at h2; cases h2; exact absurd h3 hb
          · exact ⟨h1, e', h2, h3⟩

/-- **C22 (b)** `removeBridges(map)`: afterwards no edge has the same face on both sides, unless a callback
refused to remove it.  The result is the number of edges removed. -/
theorem removeAllBridges_spec {s : GMap K} (hs : Reach s) (hi : s.initialized) (h : Hooks K) (hf : ∀ l, GMap.unflagged s l) :
    ∃ k t, s.removeAllBridges h = .ok (k, t) ∧ Reach t ∧
      (∀ d, t.liveD d → t.left? d = t.left? (-d) → RefusedBridge h s d.natAbs) ∧
      (∀ d, t.liveD d → s.liveD d ∧ t.left? d = s.left? d ∧ t.startN? d = s.startN? d) ∧
      t.edgeCount + k = s.edgeCount ∧ t.faceCount = s.faceCount := by
  obtain ⟨bs, m, g1, g2, g3, g4⟩ := markBridges_spec (List.range s.nEdges) hs List.nodup_range
  have hrm := g2.later.reach hs
  have hm : ∀ l ∈ bs, ∃ e, m.edge l = some e ∧ e.leftF = e.rightF ∧ e.flags.testBit 19 = false := by
    intro l hl
    obtain ⟨h1, e, h2, h3⟩ := (g4 l).mp hl
    cases hml : m.edge l with
    | none => exact (g2.gone l (by simp [h2]) hml).elim
    | some e' =>
      obtain ⟨e0, q1, q2⟩ := g2.edges l e' hml
      rw [h2] at q1; cases q1
      refine ⟨e', rfl, by rw [q2.2.2.1, q2.2.2.2.1]; exact h3, ?_⟩
      rw [q2.2.2.2.2.2 19 (by decide)]; exact hf l e h2
  obtain ⟨k, t, i1, i2, i3⟩ := removeBridgesLoop_spec h bs.length bs hrm (g2.init hi) 0 g3 hm le_rfl
  rw [zero_add] at i1
  refine ⟨k, t, ?_, i2.later.reach hrm, ?_, ?_, ?_, ?_⟩
  · unfold GMap.removeAllBridges
    rw [g1]; exact i1
  · intro d hd hb
    have hmd : t.liveD (-d) := by unfold GMap.liveD at hd ⊢; simpa using hd
    obtain ⟨a1, a2, a3⟩ := i2.left hd
    obtain ⟨b1, b2, b3⟩ := i2.left hmd
    obtain ⟨c1, c2, c3⟩ := g2.left a3
    obtain ⟨d1, d2, d3⟩ := g2.left b3
    obtain ⟨e, he⟩ := liveD_exists c3
    have hlr : e.leftF = e.rightF := by
      have hpos := edge_pos hs he
      have h5 : s.left? d = s.left? (-d) := by rw [← c1, ← d1, ← a1, ← b1]; exact hb
      refine (isBridge_iff hs he).mpr ?_
      rcases (by omega : (d.natAbs : Int) = d ∨ (d.natAbs : Int) = -d) with h6 | h6
      · rw [h6]; exact h5
      · rw [h6, neg_neg]; exact h5.symm
    have hmem : d.natAbs ∈ bs := (g4 _).mpr ⟨List.mem_range.mpr (hs.good.map.graph.edge_lt _ (by simp [he])), e, he, hlr⟩
    exact (i3 _ hmem hd).mono g2.later
  · intro d hd
    obtain ⟨a1, a2, a3⟩ := i2.left hd
    obtain ⟨c1, c2, c3⟩ := g2.left a3
    exact ⟨c3, a1.trans c1, a2.trans c2⟩
  · rw [← g2.count, add_zero]; exact i2.count
  · exact i2.faceCount.trans g2.faceCount

example : (Example.val (0, exSplit) (exSplit.removeAllBridges Hooks.none)).1 = 2 := by decide +kernel

/-- **C22 (c)** `removeEdges(map, labels)` with distinct labels of existing edges returns normally, whatever the
callbacks answer.  In a first phase it removes edges (state `m`): each requested edge is gone unless a callback
refused, no other edge is gone except those already flagged `REMOVE_BRIDGE`.  Then nodes without edges and nodes of
degree 2 are removed (state `t`).  The result is the number of removed edges plus the number of removed nodes. -/
theorem removeEdges_spec {s : GMap K} (hs : Reach s) (hi : s.initialized) (h : Hooks K) {labels : List Nat}
    (hnd : labels.Nodup) (hl : ∀ l ∈ labels, (s.edge l).isSome = true) (hf : ∀ l ∈ labels, GMap.unflagged s l) :
    ∃ k j i m t, s.removeEdges h labels = .ok (k + j + i, t) ∧ Reach m ∧ Reach t ∧
      -- removed edges
      (∀ l ∈ labels, (m.edge l).isSome = true → RefusedFaces h s l ∨ RefusedBridge h s l) ∧
      (∀ l, (s.edge l).isSome = true → m.edge l = none → l ∈ labels ∨ Marked s l) ∧
      (∀ l e', m.edge l = some e' → ∃ e, s.edge l = some e ∧ e'.startN = e.startN ∧ e'.endN = e.endN ∧ e'.pts = e.pts) ∧
      m.edgeCount + k = s.edgeCount ∧
      -- removed nodes
      Tidied m t j i ∧
      (∀ n, t.Isolated n → RefusedNode h s n) ∧
      (∀ n, (t.node n).isSome = true → (t.star n).card = 2 → t.HasLoop n ∨ RefusedMerge h s n) := by
  obtain ⟨k, u, bs, g1, g2, g3, g4, g5, g6, g7⟩ := removeEdgesLoop_spec h labels hs hi 0 [] hnd hl
  rw [zero_add, List.nil_append] at g1
  have hru := g2.later.reach hs
  obtain ⟨k', m, i1, i2, i3⟩ := removeBridgesLoop_spec h bs.length bs hru (g2.init hi) 0 g3 (by
    intro l hlb
    obtain ⟨h1, h2⟩ := g5 l hlb
    obtain ⟨e, he⟩ := Option.isSome_iff_exists.mp h1
    obtain ⟨e0, q1, q2, -⟩ := g7 l e he
    exact ⟨e, he, (isBridge_iff hru he).mpr h2, by rw [q2]; exact hf l (g4 l hlb) e0 q1⟩) le_rfl
  rw [zero_add] at i1
  have hrm := i2.later.reach hru
  have hT : Thinned (fun l => l ∈ labels ∨ Marked s l) s m (k + k') := by
    refine (g2.weaken (fun l _ hh => Or.inl hh)).trans (i2.thinned (Or.inl rfl)) (fun l e he hh => ?_)
    rcases hh with h1 | ⟨e', h1, h2⟩
    · exact Or.inl (g4 l h1)
    · obtain ⟨e0, q1, -, q3⟩ := g7 l e' h1
      rcases q3 h2 with h3 | h3
      · exact Or.inr ⟨e0, q1, h3⟩
      · exact Or.inl (g4 l h3)
  obtain ⟨j, v, j1, j2, j3⟩ := isolatedLoop_spec h (List.range m.nNodes) hrm 0
  rw [zero_add] at j1
  have hrv := j2.later.reach hrm
  obtain ⟨i, t, t1, t2, t3⟩ := degree2Loop_spec h (List.range v.nNodes) hrv 0
  rw [zero_add] at t1
  have hrt := t2.later.reach hrv
  have hTd : Tidied m t j i := by
    have := (j2.tidied hrm).trans t2.tidied
    rwa [add_zero, zero_add] at this
  refine ⟨k + k', j, i, m, t, ?_, hrm, hrt, ?_, hT.gone, ?_, hT.count, hTd, ?_, ?_⟩
  · unfold GMap.removeEdges
    simp only [bind, g1, Outcome.bind_ok]
    unfold GMap.removeBridges
    rw [i1]
    simp only [Outcome.bind_ok]
    unfold GMap.removeIsolatedNodes GMap.mergeDegree2Nodes
    rw [j1]
    simp only [Outcome.bind_ok]
    rw [t1]
    rfl
  · intro l hll hlm
    by_cases hb : l ∈ bs
    · exact Or.inr ((i3 l hb hlm).mono g2.later)
    · refine Or.inl (g6 l hll hb ?_)
      obtain ⟨e, he⟩ := Option.isSome_iff_exists.mp hlm
      obtain ⟨e0, q1, -⟩ := i2.edges l e he
      simp [q1]
  · intro l e' he'
    obtain ⟨e, h1, h2, h3, h4, -⟩ := hT.edges l e' he'
    exact ⟨e, h1, h2, h3, h4⟩
  · intro n hI
    have h1 := (isolated_iff_card hrt).mp hI
    have h2 : v.Isolated n := (isolated_iff_card hrv).mpr ⟨t2.tidied.live h1.1, by rw [← t2.degrees n h1.1]; exact h1.2⟩
    obtain ⟨w, h3, h4⟩ := j3 n (List.mem_range.mpr (hrm.good.map.graph.node_lt n (j2.isolated h2).1)) h2
    exact ⟨w, hT.later.trans h3, h4⟩
  · intro n h1 h2
    have h3 := t2.tidied.live h1
    rcases t3 n (List.mem_range.mpr (hrv.good.map.graph.node_lt n h3)) h1 h2 with h4 | ⟨w, d, h4, h5⟩
    · exact Or.inl h4
    · exact Or.inr ⟨w, d, hT.later.trans (j2.later.trans h4), h5⟩

/-- **C22 (d)** Without callbacks and without left-over flags exactly the requested edges are removed; the result is
their number plus the number of nodes removed in the clean-up, after which no node is isolated and only nodes of
loops have degree 2. -/
theorem removeEdges_all {s : GMap K} (hs : Reach s) (hi : s.initialized) {labels : List Nat}
    (hnd : labels.Nodup) (hl : ∀ l ∈ labels, (s.edge l).isSome = true) (hf : ∀ l ∈ labels, GMap.unflagged s l) (hm : ∀ l, ¬ Marked s l) :
    ∃ j i m t, s.removeEdges Hooks.none labels = .ok (labels.length + j + i, t) ∧ Reach m ∧ Reach t ∧
      (∀ l, (m.edge l).isSome = true ↔ (s.edge l).isSome = true ∧ l ∉ labels) ∧
      (∀ l e', m.edge l = some e' → ∃ e, s.edge l = some e ∧ e'.startN = e.startN ∧ e'.endN = e.endN ∧ e'.pts = e.pts) ∧
      Tidied m t j i ∧ (∀ n, ¬ t.Isolated n) ∧ (∀ n, (t.node n).isSome = true → (t.star n).card = 2 → t.HasLoop n) := by
  obtain ⟨k, j, i, m, t, g1, g2, g3, g4, g5, g6, g7, g8, g9, g10⟩ := removeEdges_spec hs hi Hooks.none hnd hl hf
  have hiff : ∀ l, (m.edge l).isSome = true ↔ (s.edge l).isSome = true ∧ l ∉ labels := by
    intro l
    constructor
    · intro h1
      refine ⟨?_, fun h2 => ?_⟩
      · obtain ⟨e, he⟩ := Option.isSome_iff_exists.mp h1
        obtain ⟨e0, q1, -⟩ := g6 l e he
        simp [q1]
      · rcases g4 l h2 h1 with h3 | h3
        · exact none_accepts.2.2.2 l h3
        · exact none_accepts.2.2.1 l h3
    · rintro ⟨h1, h2⟩
      cases hml : m.edge l with
      | some _ => rfl
      | none =>
        rcases g5 l h1 hml with h3 | h3
        · exact absurd h3 h2
        · exact absurd h3 (hm l)
  have hk : k = labels.length := by
    have c1 := hs.good.map.graph.edge_count
    have c2 := g2.good.map.graph.edge_count
    have : s.liveEdges = m.liveEdges ∪ labels.toFinset := by
      ext l
      rw [Finset.mem_union, List.mem_toFinset, GMap.liveEdges, GMap.liveEdges, Finset.mem_filter, Finset.mem_filter, Finset.mem_range, Finset.mem_range, hiff]
      constructor
      · rintro ⟨h1, h2⟩
        by_cases h3 : l ∈ labels
        · exact Or.inr h3
        · exact Or.inl ⟨g2.good.map.graph.edge_lt l ((hiff l).mpr ⟨h2, h3⟩), h2, h3⟩
      · rintro (⟨h1, h2, h3⟩ | h1)
        · exact ⟨hs.good.map.graph.edge_lt l h2, h2⟩
        · exact ⟨hs.good.map.graph.edge_lt l (hl l h1), hl l h1⟩
    have hcard : s.liveEdges.card = m.liveEdges.card + labels.length := by
      rw [this, Finset.card_union_of_disjoint, List.toFinset_card_of_nodup hnd]
      rw [Finset.disjoint_left]
      intro l h1 h2
      rw [GMap.liveEdges, Finset.mem_filter, hiff] at h1
      exact h1.2.2 (List.mem_toFinset.mp h2)
    omega
  subst hk
  exact ⟨j, i, m, t, g1, g2, g3, hiff, g6, g8, fun n hI => none_accepts.1 n (g9 n hI), fun n h1 h2 => (g10 n h1 h2).resolve_right (none_accepts.2.1 n)⟩

example : Example.map.initialized ∧ (∀ l ∈ [1, 4], (Example.map.edge l).isSome = true) ∧
    (Example.val (0, Example.map) (Example.map.removeEdges Hooks.none [1, 4])).1 = 3 := by decide +kernel

/-- **C52, proved part**: with distinct labels of existing edges (and the internal flag not set by the client)
`removeEdges` returns normally.  Missing: lists with repeated labels, where it is false (next theorem). -/
theorem removeEdges_safe_partial {s : GMap K} (hs : Reach s) (hi : s.initialized) (h : Hooks K) {labels : List Nat}
    (hnd : labels.Nodup) (hl : ∀ l ∈ labels, (s.edge l).isSome = true) (hf : ∀ l ∈ labels, GMap.unflagged s l) :
    ∃ k t, s.removeEdges h labels = .ok (k, t) := by
  obtain ⟨k, j, i, m, t, g1, -⟩ := removeEdges_spec hs hi h hnd hl hf
  exact ⟨_, t, g1⟩

/-- **C52, violated**: with the label of a bridge occurring twice, `removeEdges` (and `removeBridges`) calls
`front()` on an empty list: undefined behaviour.  The same happens if the client has set the flag bit 0x80000. -/
theorem removeEdges_duplicates_violated :
    ∃ s : GMap ℚ, Reach s ∧ s.initialized ∧ (∀ l ∈ [4, 4], (s.edge l).isSome = true) ∧ s.removeEdges Hooks.none [4, 4] = .ub ∧
      s.removeBridges Hooks.none [4, 4] = .ub := by
  refine ⟨exSplit, exSplit_reach.reach, by decide +kernel, by decide +kernel, ?_, ?_⟩
  · have : (match exSplit.removeEdges Hooks.none [4, 4] with | .ub => true | _ => false) = true := by decide +kernel
    revert this
    cases exSplit.removeEdges Hooks.none [4, 4] <;> simp
  · have : (match exSplit.removeBridges Hooks.none [4, 4] with | .ub => true | _ => false) = true := by decide +kernel
    revert this
    cases exSplit.removeBridges Hooks.none [4, 4] <;> simp

/-- the map with the flag bit 0x80000 set on edge 4 by the client -/
def exFlagged : GMap ℚ := Example.next exSplit (.setFlags 4 0x80000)
theorem removeEdges_flag_violated :
    ∃ s : GMap ℚ, Reach s ∧ s.initialized ∧ (s.edge 4).isSome = true ∧ s.removeEdges Hooks.none [4] = .ub := by
  refine ⟨exFlagged, ?_, by decide +kernel, by decide +kernel, ?_⟩
  · exact (Example.reach_next (op := .setFlags 4 0x80000) exSplit_reach trivial trivial (by decide +kernel) (fun h => absurd (by decide +kernel) h)).reach
  · have : (match exFlagged.removeEdges Hooks.none [4] with | .ub => true | _ => false) = true := by decide +kernel
    revert this
    cases exFlagged.removeEdges Hooks.none [4] <;> simp

/-! ## C23 -/

/-- **C23 (a)** In a map, all edges between the two faces of a (non-bridge) dart lie on the contour of the dart. -/
theorem common_edges_on_contour {s : GMap K} (hs : Reach s) (hi : s.initialized) {d x : Int} (hd : s.liveD d) (hx : s.liveD x)
    (hne : s.left? d ≠ s.left? (-d)) (h1 : s.left? x = s.left? d) (h2 : s.left? (-x) = s.left? (-d)) : s.phiReach d x := by
  have hM := hs.good.map
  obtain ⟨π, hg⟩ := hM.graph.exists_rep
  obtain ⟨ψ, hc⟩ := (hM.contours hi).exists_rep hg
  have hdL := (hg.live d).mpr hd
  have hr := hc.rep
  have hP : Jordan s.darts s.startN? s.left? := hs.good.planar hi
  refine (hr.sameCycle_iff hdL).mp (hP.common hr hg.symm (hg.start_phi hr) ?_ hdL ((hg.live x).mpr hx) h1.symm h2.symm hne)
  intro a ha y hy
  obtain ⟨k, rfl⟩ := (hr.sameCycle_iff ha).mp hy
  induction k with
  | zero => rfl
  | succ k ih =>
    rw [Function.iterate_succ_apply', (hM.contours hi).left_phi _ ((hg.live _).mp (hr.iterate_mem ha k).2)]
    exact ih ((hr.sameCycle_iff ha).mpr ⟨k, rfl⟩)

example : Example.map.phiReach 1 1 := common_edges_on_contour ex_reach ex_init (by decide +kernel) (by decide +kernel) (by decide +kernel) rfl rfl

/-- **C23 (b)** `mergeFacesCompletely(dart)`, whatever the callbacks answer.  If an edge between the two faces is
protected, the result is NULL and the map is unchanged.  Otherwise edges between the two faces are removed (state
`m`), and only such edges.  If the result is NULL, callbacks refused for each of them.  If it is a face `sl`, the
other face `ml` is gone, each edge between the faces is gone unless a callback refused, and all darts of `ml` belong
to `sl`.  Finally some nodes are cleaned up (state `t`). -/
theorem mergeFacesCompletely_spec {s : GMap K} (hs : Reach s) (hi : s.initialized) (h : Hooks K) (merge2 : Bool) {d : Int} (hd : s.liveD d)
    (hne : s.left? d ≠ s.left? (-d)) :
    ((∃ x, s.liveD x ∧ s.left? x = s.left? d ∧ s.left? (-x) = s.left? (-d) ∧ s.guarded x = true) ∧ s.mergeFacesCompletely h d merge2 = .ok (none, s)) ∨
    ((∀ x, s.liveD x → s.left? x = s.left? d → s.left? (-x) = s.left? (-d) → s.guarded x = false) ∧
      ∃ r m t j i, s.mergeFacesCompletely h d merge2 = .ok (r, t) ∧ Reach m ∧ Reach t ∧
        -- edges
        (∀ l, (s.edge l).isSome = true → m.edge l = none → ∃ x, x.natAbs = l ∧ s.left? x = s.left? d ∧ s.left? (-x) = s.left? (-d)) ∧
        (∀ l e', m.edge l = some e' → ∃ e, s.edge l = some e ∧ SameLine e e') ∧
        -- faces
        ((r = none ∧ AreasCached s m ∧ ∀ x, s.liveD x → s.left? x = s.left? d → s.left? (-x) = s.left? (-d) → RefusedFaces h s x.natAbs) ∨
         (∃ sl ml, r = some sl ∧ ((s.left? d = some sl ∧ s.left? (-d) = some ml) ∨ (s.left? d = some ml ∧ s.left? (-d) = some sl)) ∧ MergedInto s m sl ml ∧
          ∀ x, s.liveD x → s.left? x = s.left? d → s.left? (-x) = s.left? (-d) → m.liveD x → RefusedFaces h s x.natAbs ∨ RefusedBridge h s x.natAbs)) ∧
        -- nodes
        Tidied m t j i ∧ (merge2 = false → i = 0) ∧
        (∀ x n, s.liveD x → s.left? x = s.left? d → s.left? (-x) = s.left? (-d) → s.startN? x = some n ∨ s.startN? (-x) = some n →
          (t.Isolated n → RefusedNode h s n) ∧
          (merge2 = true → (t.node n).isSome = true → (t.star n).card = 2 → t.HasLoop n ∨ RefusedMerge h s n))) := by
  have hM := hs.good.map
  obtain ⟨e, he⟩ := liveD_exists hd
  have h0 : d ≠ 0 := by
    rintro rfl
    rw [Int.natAbs_zero, hM.graph.edge_zero] at he; cases he
  have hbr : e.leftF ≠ e.rightF := by
    intro hh
    apply hne
    rw [left?_of he, left?_of (d := -d) (e := e) (by simpa using he)]
    unfold Edge.leftOf
    rw [hh]; simp
  unfold GMap.mergeFacesCompletely
  simp only [bind, derefEdge_of hs he, Outcome.bind_ok]
  rw [if_neg hbr, rightOf_left? h0 he]
  rcases common_spec hs hi hd hne with ⟨h1, h2⟩ | ⟨h1, ds, h2, h3, h4⟩
  · refine Or.inl ⟨h1, ?_⟩
    rw [h2, Outcome.bind_ok]
  · refine Or.inr ⟨h1, ?_⟩
    rw [h2, Outcome.bind_ok]
    obtain ⟨r, k, m, g1, g2, g3⟩ := mergeCommon_spec h hne ds hs hi [] h3 (fun x hx => (h4 x).mp hx)
    rw [List.nil_append] at g1
    have hrm := g2.later.reach hs
    obtain ⟨j, i, t, i1, i2, i3, i4⟩ := cleanNodes_spec h merge2 (endsOf s ds) hrm (by
      intro n hn
      obtain ⟨x, -, hx⟩ := mem_endsOf.mp hn
      rw [g2.sizes.1]
      rcases hx with hx | hx
      · exact hM.graph.node_lt n (hM.graph.start_live _ n hx)
      · exact hM.graph.node_lt n (hM.graph.start_live _ n hx))
    refine ⟨r, m, t, j, i, ?_, hrm, i2.later.reach hrm, ?_, g2.edges, ?_, i2, i3, ?_⟩
    · simp only [g1, Outcome.bind_ok, i1]
    · intro l hl hl'
      obtain ⟨x, hx, rfl⟩ := List.mem_map.mp (g2.gone l hl hl')
      exact ⟨x, rfl, ((h4 x).mp hx).2⟩
    · rcases g3 with ⟨q1, q2, q3⟩ | ⟨sl, ml, q1, q2, q3, q4⟩
      · exact Or.inl ⟨q1, q2, fun x a b c => q3 x ((h4 x).mpr ⟨a, b, c⟩)⟩
      · exact Or.inr ⟨sl, ml, q1, q2, q3, fun x a b c => q4 x ((h4 x).mpr ⟨a, b, c⟩)⟩
    · intro x n a b c hn
      obtain ⟨q1, q2⟩ := i4 n (mem_endsOf.mpr ⟨x, (h4 x).mpr ⟨a, b, c⟩, hn⟩)
      refine ⟨fun hI => ?_, fun hm2 hl hdeg => ?_⟩
      · obtain ⟨w, h5, h6⟩ := q1 hI
        exact ⟨w, g2.later.trans h5, h6⟩
      · rcases q2 hm2 hl hdeg with h5 | ⟨w, y, h5, h6⟩
        · exact Or.inl h5
        · exact Or.inr ⟨w, y, g2.later.trans h5, h6⟩

/-- **C23 (c)** Without callbacks and protection flags: afterwards one of the two faces is gone, the other one has all
darts of both; no remaining dart runs between the two faces; every other edge is still there if nodes of degree
2 are not merged; the number of faces is one less and the pixel areas add up. -/
theorem mergeFacesCompletely_all {s : GMap K} (hs : Reach s) (hi : s.initialized) (merge2 : Bool) {d : Int} (hd : s.liveD d)
    (hne : s.left? d ≠ s.left? (-d))
    (hp : ∀ x, s.liveD x → s.left? x = s.left? d → s.left? (-x) = s.left? (-d) → s.guarded x = false) :
    ∃ sl ml t, s.mergeFacesCompletely Hooks.none d merge2 = .ok (some sl, t) ∧ Reach t ∧
      ((s.left? d = some sl ∧ s.left? (-d) = some ml) ∨ (s.left? d = some ml ∧ s.left? (-d) = some sl)) ∧
      t.face ml = none ∧ t.faceCount + 1 = s.faceCount ∧
      (∃ S M T, s.face sl = some S ∧ s.face ml = some M ∧ t.face sl = some T ∧ T.pixelArea = S.pixelArea + M.pixelArea) ∧
      (∀ g, g ≠ sl → g ≠ ml → (t.face g).map (·.pixelArea) = (s.face g).map (·.pixelArea)) ∧
      (∀ x, t.liveD x → s.liveD x ∧ t.left? x = if s.left? x = some ml then some sl else s.left? x) ∧
      (∀ x, t.liveD x → ¬ (s.left? x = s.left? d ∧ s.left? (-x) = s.left? (-d))) ∧
      (merge2 = false → ∀ x, s.liveD x → ¬ (s.left? x = s.left? d ∧ s.left? (-x) = s.left? (-d)) → ¬ (s.left? (-x) = s.left? d ∧ s.left? x = s.left? (-d)) → t.liveD x) := by
  rcases mergeFacesCompletely_spec hs hi Hooks.none merge2 hd hne with ⟨⟨x, h1, h2, h3, h4⟩, -⟩ | ⟨-, r, m, t, j, i, g1, g2, g3, g4, g5, g6, g7, g8, -⟩
  · rw [hp x h1 h2 h3] at h4; cases h4
  rcases g6 with ⟨-, -, q⟩ | ⟨sl, ml, rfl, q2, q3, q4⟩
  · exact absurd (q d hd rfl rfl) (none_accepts.2.2.2 _)
  have hpix : ∀ g, (t.face g).map (·.pixelArea) = (m.face g).map (·.pixelArea) := fun g => by
    have := congrArg (Option.map Prod.snd) (g7.faces g)
    simpa [Option.map_map, Function.comp_def] using this
  have hml : ∀ x, t.liveD x → m.liveD x := fun x hx => g7.edges _ hx
  have hsl : ∀ x, m.liveD x → s.liveD x := fun x hx => by
    obtain ⟨e', he'⟩ := liveD_exists hx
    obtain ⟨e, he, -⟩ := g5 _ _ he'
    exact liveD_edge he
  refine ⟨sl, ml, t, g1, g3, q2, ?_, by rw [g7.counts.2.2]; exact q3.count, ?_, ?_, ?_, ?_, ?_⟩
  · have := hpix ml
    rw [q3.gone.2] at this
    simpa using this
  · obtain ⟨S, M, T, p1, p2, p3, p4⟩ := q3.areas
    have := hpix sl
    rw [p3] at this
    cases ht : t.face sl with
    | none => rw [ht] at this; cases this
    | some T' =>
      rw [ht] at this
      simp only [Option.map_some, Option.some.injEq] at this
      exact ⟨S, M, T', p1, p2, rfl, this.trans p4⟩
  · intro g h1 h2
    rw [hpix g]; exact (q3.others g h1 h2).2
  · intro x hx
    exact ⟨hsl x (hml x hx), by rw [g7.lefts x hx, q3.lefts x (hml x hx)]⟩
  · rintro x hx ⟨h1, h2⟩
    rcases q4 x (hsl x (hml x hx)) h1 h2 (hml x hx) with h3 | h3
    · exact none_accepts.2.2.2 _ h3
    · exact none_accepts.2.2.1 _ h3
  · intro hm2 x hx h1 h2
    have hm : m.liveD x := by
      unfold GMap.liveD at hx ⊢
      cases hmx : m.edge x.natAbs with
      | some _ => rfl
      | none =>
        obtain ⟨y, y1, y2, y3⟩ := g4 _ hx hmx
        rcases Int.natAbs_eq_natAbs_iff.mp y1 with rfl | rfl
        · exact absurd ⟨y2, y3⟩ h1
        · rw [neg_neg] at y3
          exact absurd ⟨y2, y3⟩ h2
    -- no edge disappears without merging nodes of degree 2
    have hcard := g7.counts.2.1
    rw [g8 hm2, add_zero, g3.good.map.graph.edge_count, g2.good.map.graph.edge_count] at hcard
    have hsub : t.liveEdges ⊆ m.liveEdges := by
      intro l hl
      rw [GMap.liveEdges, Finset.mem_filter, Finset.mem_range] at hl ⊢
      exact ⟨by rw [← g7.sizes.2.1]; exact hl.1, g7.edges l hl.2⟩
    have heq := Finset.eq_of_subset_of_card_le hsub hcard.ge
    have : x.natAbs ∈ m.liveEdges := by
      rw [GMap.liveEdges, Finset.mem_filter, Finset.mem_range]
      exact ⟨g2.good.map.graph.edge_lt _ hm, hm⟩
    rw [← heq, GMap.liveEdges, Finset.mem_filter] at this
    exact this.2

example : Example.map.left? 2 ≠ Example.map.left? (-2) ∧ (Example.val (none, Example.map) (Example.map.mergeFacesCompletely Hooks.none 2 true)).1 = some 3 := by
  decide +kernel

end Verif.GeoMap.Props
