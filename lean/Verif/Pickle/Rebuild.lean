import Verif.Pickle.Init
import Verif.Sigma.Props

/-!
# `createGeoMap` and `setSigmaMapping` rebuild the graph
-/

namespace Verif.Pickle
open Equiv Equiv.Perm Verif Verif.GeoMap Verif.PermLemmas

variable {K : Type}

/-! ## the lists of cells -/

/-- `l` lists the cells with labels below `n` -/
structure Lists {α : Type} (cell : Nat → Option α) (n : Nat) (l : List (Option α)) : Prop where
  get : ∀ i, i < l.length → l[i]? = some (cell i)
  rest : ∀ i, l.length ≤ i → i < n → cell i = none
  le : l.length ≤ n
  last : l ≠ [] → (cell (l.length - 1)).isSome = true

theorem listCells_spec {α : Type} (cell : Nat → Option α) : ∀ (m k : Nat) (acc : List (Option α)), Lists cell k acc →
    Lists cell (k + m) (listCells cell (List.range' k m) acc) := by
  intro m
  induction m with
  | zero => intro k acc h; exact h
  | succ m ih =>
    intro k acc h
    rw [List.range'_succ, listCells, show k + (m + 1) = k + 1 + m by omega]
    cases hc : cell k with
    | none =>
      simp only
      refine ih (k + 1) acc ⟨h.get, fun i h1 h2 => ?_, by have := h.le; omega, h.last⟩
      by_cases hik : i = k
      · rw [hik]; exact hc
      · exact h.rest i h1 (by omega)
    | some a =>
      simp only
      have hle := h.le
      have hlen : (acc ++ List.replicate (k - acc.length) none ++ [some a]).length = k + 1 := by simp; omega
      refine ih (k + 1) _ ⟨fun i hi => ?_, fun i h1 h2 => ?_, by rw [hlen], fun _ => ?_⟩
      · rw [hlen] at hi
        by_cases h1 : i = k
        · subst h1
          rw [List.getElem?_append_right (by simp; omega)]
          have : i - (acc ++ List.replicate (i - acc.length) (none : Option α)).length = 0 := by simp; omega
          rw [this, hc]; rfl
        · rw [List.getElem?_append_left (by simp; omega)]
          by_cases h2 : i < acc.length
          · rw [List.getElem?_append_left h2, h.get i h2]
          · rw [List.getElem?_append_right (by omega), List.getElem?_replicate, if_pos (by omega), h.rest i (by omega) (by omega)]
      · rw [hlen] at h1; omega
      · rw [hlen]; simp [hc]

theorem listCells_range {α : Type} (cell : Nat → Option α) (n : Nat) : Lists cell n (listCells cell (List.range n) []) := by
  rw [List.range_eq_range']
  have := listCells_spec cell n 0 [] ⟨by simp, by simp, by simp, by simp⟩
  simpa using this

/-- the entry of a label in a list of cells -/
theorem Lists.entry {α : Type} {cell : Nat → Option α} {n : Nat} {l : List (Option α)} (h : Lists cell n l) (hn : ∀ i, (cell i).isSome = true → i < n) (i : Nat) :
    (l[i]?).join = cell i := by
  by_cases hi : i < l.length
  · rw [h.get i hi]; rfl
  · rw [List.getElem?_eq_none (by omega)]
    cases hc : cell i with
    | none => rfl
    | some a => rw [h.rest i (by omega) (hn i (by simp [hc]))] at hc; cases hc

/-! ## nodes -/

theorem addNodes_spec : ∀ (l : List (Option (Pt K))) (i : Nat) {s : GMap K} {L : Finset Int} {π : Perm Int}, GraphRep s L π → s.nNodes ≤ i →
    ∃ node' nN nC, addNodes l i s = { s with node := node', nNodes := nN, nodeCount := nC } ∧ GraphRep (addNodes l i s) L π ∧
      ∀ j, (node' j).map (·.pos) = if j < i then (s.node j).map (·.pos) else (l[j - i]?).join := by
  intro l
  induction l with
  | nil =>
    intro i s L π hg hi
    refine ⟨s.node, s.nNodes, s.nodeCount, rfl, hg, fun j => ?_⟩
    by_cases hj : j < i
    · rw [if_pos hj]
    · rw [if_neg hj]
      cases hn : s.node j with
      | none => rfl
      | some x => have := hg.labels.node_lt j (by simp [hn]); omega
  | cons x l ih =>
    intro i s L π hg hi
    cases x with
    | none =>
      obtain ⟨node', nN, nC, h1, h2, h3⟩ := ih (i + 1) hg (by omega)
      refine ⟨node', nN, nC, h1, h2, fun j => ?_⟩
      rw [h3]
      by_cases hj : j < i
      · rw [if_pos hj, if_pos (by omega)]
      · rw [if_neg hj]
        by_cases hji : j = i
        · subst hji
          rw [if_pos (by omega)]
          simp only [Nat.sub_self, List.getElem?_cons_zero, Option.join_some]
          cases hn : s.node j with
          | none => rfl
          | some x => have := hg.labels.node_lt j (by simp [hn]); omega
        · rw [if_neg (by omega), show j - i = (j - (i + 1)) + 1 by omega, List.getElem?_cons_succ]
    | some p =>
      have hs := (addNodeAt_spec hg p i).2
      have ht : (s.addNodeAt p i).2 = { s with nNodes := i + 1, node := Function.update s.node i (some ⟨p, 0⟩), nodeCount := s.nodeCount + 1 } := by
        have : max s.nNodes i = i := by omega
        unfold GMap.addNodeAt GMap.addNode
        simp only [this]
      obtain ⟨node', nN, nC, h1, h2, h3⟩ := ih (i + 1) hs (by rw [ht])
      rw [ht] at h3
      refine ⟨node', nN, nC, ?_, h2, fun j => ?_⟩
      · rw [addNodes, h1, ht]
      · rw [h3]
        simp only [Function.update_apply]
        by_cases hji : j = i
        · subst hji
          rw [if_pos (by omega), if_pos rfl, if_neg (by omega)]
          simp
        · by_cases hj : j < i
          · rw [if_pos (by omega), if_neg hji, if_pos hj]
          · rw [if_neg (by omega), if_neg hj, show j - i = (j - (i + 1)) + 1 by omega, List.getElem?_cons_succ]

/-! ## edges -/

section
variable [Field K] [LinearOrder K]

/-- what an entry of the list of edges means -/
def edgeOf (x : Nat × Nat × List (Pt K)) : Edge K := ⟨x.1, x.2.1, none, none, x.2.2, 0⟩

omit [Field K] [LinearOrder K] in
theorem sigmaAnchor_node_ok {s : GMap K} (hl : LabelsOK s) (hs : s.edgesSorted = false) {n : Nat} (hn : (s.node n).isSome = true) :
    ∃ A, s.sigmaAnchor (.node n) = .ok A ∧ A.node = n := by
  obtain ⟨nd, hnd⟩ := Option.isSome_iff_exists.mp hn
  simp only [GMap.sigmaAnchor, bind, derefNode_of hl hnd, Outcome.bind_ok, hs]
  by_cases h0 : nd.anchor = 0
  · exact ⟨_, by rw [if_pos h0], rfl⟩
  · exact ⟨⟨false, nd.anchor, n⟩, by rw [if_neg h0]; rfl, rfl⟩

theorem addEdges_spec : ∀ (l : List (Option (Nat × Nat × List (Pt K)))) (i : Nat) {s : GMap K} {π : Perm Int}, GraphRep s s.darts π → s.nFaces = 0 →
    s.edgesSorted = false → s.nEdges ≤ i → (∀ x, some x ∈ l → (s.node x.1).isSome = true ∧ (s.node x.2.1).isSome = true ∧ x.2.2 ≠ []) →
    ∃ t π', addEdges l i s = .ok t ∧ GraphRep t t.darts π' ∧
      (∃ sg sgi node' edge' nE eC, t = { s with sigma := sg, sigmaInv := sgi, node := node', edge := edge', nEdges := nE, edgeCount := eC } ∧
        (∀ m, (node' m).map (·.pos) = (s.node m).map (·.pos)) ∧
        (∀ j, edge' j = if j < i then s.edge j else ((l[j - i]?).join).map edgeOf) ∧
        (nE ≤ i + l.length ∨ nE = s.nEdges) ∧ s.nEdges ≤ nE ∧ (s.nEdges = nE ∨ (edge' (nE - 1)).isSome = true)) := by
  intro l
  induction l with
  | nil =>
    intro i s π hg hi hs hle _
    refine ⟨s, π, rfl, hg, s.sigma, s.sigmaInv, s.node, s.edge, s.nEdges, s.edgeCount, rfl, fun _ => rfl, fun j => ?_, Or.inr rfl, le_rfl, Or.inl rfl⟩
    by_cases hj : j < i
    · rw [if_pos hj]
    · rw [if_neg hj]
      cases hn : s.edge j with
      | none => rfl
      | some x => have := hg.labels.edge_lt j (by simp [hn]); omega
  | cons x l ih =>
    intro i s π hg hi hs hle hnodes
    cases x with
    | none =>
      obtain ⟨t, π', h1, h2, sg, sgi, node', edge', nE, eC, h3, h4, h5, h6, h7, h8⟩ := ih (i + 1) hg hi hs (by omega) (fun x hx => hnodes x (by simp [hx]))
      refine ⟨t, π', h1, h2, sg, sgi, node', edge', nE, eC, h3, h4, fun j => ?_, ?_, h7, h8⟩
      · rw [h5]
        by_cases hj : j < i
        · rw [if_pos hj, if_pos (by omega)]
        · rw [if_neg hj]
          by_cases hji : j = i
          · subst hji
            rw [if_pos (by omega)]
            simp only [Nat.sub_self, List.getElem?_cons_zero, Option.join_some, Option.map_none]
            cases hn : s.edge j with
            | none => rfl
            | some x => have := hg.labels.edge_lt j (by simp [hn]); omega
          · rw [if_neg (by omega), show j - i = (j - (i + 1)) + 1 by omega, List.getElem?_cons_succ]
      · rcases h6 with h6 | h6
        · left; simp only [List.length_cons]; omega
        · exact Or.inr h6
    | some x =>
      obtain ⟨a, b, pts⟩ := x
      obtain ⟨ha, hb, hp⟩ := hnodes (a, b, pts) (by simp)
      simp only at ha hb hp
      obtain ⟨A, hA, hAn⟩ := sigmaAnchor_node_ok hg.labels hs ha
      obtain ⟨B, hB, hBn⟩ := sigmaAnchor_node_ok hg.labels hs hb
      have hni : ¬ s.initialized := by unfold GMap.initialized; omega
      obtain ⟨s1, π1, e1, e2, sg1, sgi1, node1, e3, e4⟩ := addEdge_spec hg hni hA hB hp i
      have hmax : max s.nEdges i = i := by omega
      rw [hmax] at e1 e2 e3
      have hd1 : s1.darts = insert (-(i : Int)) (insert (i : Int) s.darts) := by
        ext d
        rw [mem_darts e2.labels.edge_lt, e2.live]
      rw [← hd1] at e2
      have hnode1 : ∀ m, (s1.node m).isSome = (s.node m).isSome := by
        intro m
        have := congrArg Option.isSome (e4 m)
        simp only [Option.isSome_map] at this
        rw [e3]; exact this
      obtain ⟨t, π', h1, h2, sg, sgi, node', edge', nE, eC, h3, h4, h5, h6, h7, h8⟩ := ih (i + 1) e2 (by rw [e3]; exact hi) (by rw [e3]; exact hs)
        (by rw [e3]) (fun x hx => by
          rw [hnode1, hnode1]
          exact hnodes x (by simp [hx]))
      have hnE1 : s1.nEdges = i + 1 := by rw [e3]
      have hed : ∀ j, edge' j = if j < i then s.edge j else (((some (a, b, pts) :: l)[j - i]?).join).map edgeOf := by
        intro j
        rw [h5, e3]
        simp only [Function.update_apply]
        by_cases hji : j = i
        · subst hji
          rw [if_pos (by omega), if_pos rfl, if_neg (by omega)]
          simp [edgeOf, hAn, hBn]
        · by_cases hj : j < i
          · rw [if_pos (by omega), if_neg hji, if_pos hj]
          · rw [if_neg (by omega), if_neg hj, show j - i = (j - (i + 1)) + 1 by omega, List.getElem?_cons_succ]
      refine ⟨t, π', ?_, h2, sg, sgi, node', edge', nE, eC, ?_, fun m => ?_, hed, ?_, ?_, ?_⟩
      · rw [addEdges, if_pos ⟨ha, hb⟩]
        simp only [bind, e1, Outcome.bind_ok]
        exact h1
      · rw [h3, e3]
      · rw [h4, e3]; exact e4 m
      · left
        rw [hnE1] at h6
        simp only [List.length_cons]; omega
      · omega
      · right
        rcases h8 with h8 | h8
        · rw [← h8, hnE1, hed]
          simp
        · exact h8

/-- the edge without faces and flags -/
def bare (e : Edge K) : Edge K := ⟨e.startN, e.endN, none, none, e.pts, 0⟩

/-- `g` has the nodes, the edges and (with `π`) the order around the nodes of `s`, but no faces and flags -/
structure Rebuilt (s g : GMap K) (π : Perm Int) : Prop where
  graph : GraphRep g s.darts π
  nodes : ∀ n, (g.node n).map (·.pos) = (s.node n).map (·.pos)
  edges : ∀ l, g.edge l = (s.edge l).map bare
  nFaces : g.nFaces = 0
  faceCount : g.faceCount = 0
  sorted : g.edgesSorted = s.edgesSorted
  le : g.nEdges ≤ s.nEdges

omit [Field K] [LinearOrder K] in
theorem liveD_bare {s g : GMap K} (h : ∀ l, g.edge l = (s.edge l).map bare) (d : Int) : g.liveD d ↔ s.liveD d := by
  unfold GMap.liveD; rw [h]; simp

omit [Field K] [LinearOrder K] in
theorem startN_bare {s g : GMap K} (h : ∀ l, g.edge l = (s.edge l).map bare) (d : Int) : g.startN? d = s.startN? d := by
  unfold GMap.startN?; rw [h]
  cases s.edge d.natAbs <;> rfl

omit [Field K] [LinearOrder K] in
theorem empty_darts {d : Int} {P : Prop} (hd : d ∈ (GMap.empty : GMap K).darts) : P := by
  have := (mem_darts (s := (GMap.empty : GMap K)) (fun n h => by cases h) d).mp hd
  cases this

omit [Field K] [LinearOrder K] in
theorem empty_graphRep : GraphRep (GMap.empty : GMap K) (GMap.empty : GMap K).darts 1 where
  labels := {
    edges_pos := Nat.one_pos
    edge_zero := rfl
    node_lt := fun n h => by cases h
    edge_lt := fun n h => by cases h
    face_lt := fun n h => by cases h
    node_count := rfl
    edge_count := by simp [GMap.liveEdges, GMap.empty]
    face_count := rfl
    pts_ne := fun l e h => by cases h }
  live := mem_darts (fun n h => by cases h)
  rep := ⟨fun d hd => empty_darts hd, fun d hd => empty_darts hd, fun d _ => rfl⟩
  starts := fun d hd => empty_darts hd
  nodes := fun n nd h => by cases h

/-- the constructor rebuilds nodes and edges -/
theorem createGeoMap_spec {s : GMap K} (hs : GraphOK s) :
    ∃ g π', createGeoMap (listCells (fun n => (s.node n).map (·.pos)) (List.range s.nNodes) [])
        (listCells (fun l => (s.edge l).map fun e => (e.startN, e.endN, e.pts)) (List.range s.nEdges) []) = .ok g ∧
      GraphRep g g.darts π' ∧ (∀ n, (g.node n).map (·.pos) = (s.node n).map (·.pos)) ∧ (∀ l, g.edge l = (s.edge l).map bare) ∧
      g.nFaces = 0 ∧ g.faceCount = 0 ∧ g.edgesSorted = false ∧ (g.nEdges = 1 ∨ (g.edge (g.nEdges - 1)).isSome = true) := by
  have hN := listCells_range (fun n => (s.node n).map (·.pos)) s.nNodes
  have hE := listCells_range (fun l => (s.edge l).map fun e => (e.startN, e.endN, e.pts)) s.nEdges
  set ns := listCells (fun n => (s.node n).map (·.pos)) (List.range s.nNodes) []
  set es := listCells (fun l => (s.edge l).map fun e => (e.startN, e.endN, e.pts)) (List.range s.nEdges) []
  have hN' := hN.entry fun i hi => hs.node_lt i (by simpa using hi)
  have hE' := hE.entry fun i hi => hs.edge_lt i (by simpa using hi)
  obtain ⟨node1, nN, nC, a1, a2, a3⟩ := addNodes_spec ns 0 (empty_graphRep (K := K)) le_rfl
  have hnode1 : ∀ n, (node1 n).map (·.pos) = (s.node n).map (·.pos) := by
    intro n
    rw [a3, if_neg (by omega), Nat.sub_zero, hN']
  cases hes : es with
  | nil =>
    refine ⟨addNodes ns 0 GMap.empty, 1, rfl, ?_, ?_, ?_, by rw [a1]; rfl, by rw [a1]; rfl, by rw [a1]; rfl, Or.inl (by rw [a1]; rfl)⟩
    · have hd : (addNodes ns 0 (GMap.empty : GMap K)).darts = (GMap.empty : GMap K).darts := by rw [a1]; rfl
      rw [hd]; exact a2
    · intro n; rw [a1]; exact hnode1 n
    · intro l
      have := hE' l
      rw [hes] at this
      rw [a1]
      cases he : s.edge l with
      | none => rfl
      | some e => rw [he] at this; simp at this
  | cons x es' =>
    have h0 := hE' 0
    rw [hes, hs.edge_zero] at h0
    simp only [List.getElem?_cons_zero, Option.join_some, Option.map_none] at h0
    subst h0
    have hd : (addNodes ns 0 (GMap.empty : GMap K)).darts = (GMap.empty : GMap K).darts := by rw [a1]; rfl
    have hmem : ∀ x, some x ∈ es' → ((addNodes ns 0 (GMap.empty : GMap K)).node x.1).isSome = true ∧ ((addNodes ns 0 (GMap.empty : GMap K)).node x.2.1).isSome = true ∧ x.2.2 ≠ [] := by
      intro x hx
      obtain ⟨i, hi⟩ := List.getElem?_of_mem hx
      have := hE' (i + 1)
      rw [hes, List.getElem?_cons_succ, hi, Option.join_some] at this
      cases he : s.edge (i + 1) with
      | none => rw [he] at this; cases this
      | some e =>
        rw [he, Option.map_some, Option.some.injEq] at this
        rw [this, a1]
        have hlive : s.liveD ((i + 1 : Nat) : Int) := by unfold GMap.liveD; simp only [Int.natAbs_natCast]; simp [he]
        have key : ∀ n, (s.node n).isSome = true → (node1 n).isSome = true := by
          intro n hn
          have := congrArg Option.isSome (hnode1 n)
          simp only [Option.isSome_map] at this
          rw [this]; exact hn
        refine ⟨key _ (hs.start_live ((i + 1 : Nat) : Int) _ ?_), key _ (hs.start_live (-((i + 1 : Nat) : Int)) _ ?_), hs.pts_ne _ _ he⟩
        · rw [startN?_of (d := ((i + 1 : Nat) : Int)) (e := e) (by rw [Int.natAbs_natCast]; exact he)]
          simp only [Edge.startOf]
          rw [if_pos (by omega)]
        · rw [startN?_of (d := (-((i + 1 : Nat) : Int))) (e := e) (by rw [Int.natAbs_neg, Int.natAbs_natCast]; exact he)]
          simp only [Edge.startOf]
          rw [if_neg (by omega)]
    obtain ⟨g, π', b1, b2, sg, sgi, node', edge', nE, eC, b3, b4, b5, b6, b7, b8⟩ := addEdges_spec es' 1 (s := addNodes ns 0 (GMap.empty : GMap K)) (π := 1)
      (by rw [hd]; exact a2) (by rw [a1]; rfl) (by rw [a1]; rfl) (by rw [a1]; exact le_rfl) hmem
    rw [a1] at b4 b5 b7 b8
    refine ⟨g, π', b1, b2, ?_, ?_, by rw [b3, a1]; rfl, by rw [b3, a1]; rfl, by rw [b3, a1]; rfl, ?_⟩
    · intro n; rw [b3]; exact (b4 n).trans (hnode1 n)
    · intro l
      rw [b3]
      show edge' l = _
      rw [b5]
      by_cases hl : l < 1
      · rw [if_pos hl]
        have : l = 0 := by omega
        subst this
        rw [hs.edge_zero]; rfl
      · rw [if_neg hl]
        have := hE' l
        rw [hes, show l = (l - 1) + 1 by omega, List.getElem?_cons_succ, show (l - 1) + 1 = l by omega] at this
        rw [this]
        cases s.edge l <;> rfl
    · rw [b3]
      rcases b8 with h | h
      · exact Or.inl h.symm
      · exact Or.inr h

/-- constructor and `setSigmaMapping` rebuild the graph -/
theorem rebuild {s : GMap K} (hs : GraphOK s) {π : Perm Int} (hπ : GraphRep s s.darts π) {a : Sigma.Arrays} (ha : Sigma.Holds a s) :
    ∃ g g', createGeoMap (listCells (fun n => (s.node n).map (·.pos)) (List.range s.nNodes) [])
        (listCells (fun l => (s.edge l).map fun e => (e.startN, e.endN, e.pts)) (List.range s.nEdges) []) = .ok g ∧
      setSigmaMapping g (a.pyExport fun l => (s.edge l).isSome) s.edgesSorted = .ok g' ∧ Rebuilt s g' π := by
  obtain ⟨g, π', c1, c2, c3, c4, c5, c6, c7, c8⟩ := createGeoMap_spec hs
  have hlt : ∀ l, (s.edge l).isSome = true → l < g.nEdges := by
    intro l hl
    apply c2.labels.edge_lt
    rw [c4]; simpa using hl
  have hpos := c2.labels.edges_pos
  have hlast : g.nEdges = 1 ∨ (s.edge (g.nEdges - 1)).isSome = true := by
    rcases c8 with h | h
    · exact Or.inl h
    · right; rw [c4] at h; simpa using h
  have hle : g.nEdges ≤ s.nEdges := by
    rcases hlast with h | h
    · have := hs.edges_pos; omega
    · have := hs.edge_lt _ h; omega
  obtain ⟨k, hk, e1, e2, e3⟩ := Sigma.pyExport_spec ha.agree (fun l => (s.edge l).isSome)
  set given := a.pyExport fun l => (s.edge l).isSome with hgiven
  have hmid : given.length / 2 = k := by omega
  have hn : g.nEdges - 1 ≤ k := by
    rcases hlast with h | h
    · omega
    · by_contra hlt'
      have hl : s.liveD ((g.nEdges - 1 : Nat) : Int) := by unfold GMap.liveD; simpa using h
      have h1 : s.sigma ((g.nEdges - 1 : Nat) : Int) = 0 := e3 _ (by omega)
      have h2 : s.liveD (s.sigma ((g.nEdges - 1 : Nat) : Int)) := (hs.sigma_live _ hl).1
      rw [h1] at h2
      unfold GMap.liveD at h2
      simp [hs.edge_zero] at h2
  have hlive : ∀ d : Int, s.liveD d → given[((given.length / 2 : Nat) + d).toNat]?.getD 0 = s.sigma d := by
    intro d hd
    have h1 : (s.edge (s.sigma d).natAbs).isSome = true := (hs.sigma_live d hd).1
    rw [hmid, e2 d (by have := hlt _ hd; omega)]
    show (if (s.edge (s.sigma d).natAbs).isSome = true then s.sigma d else 0) = _
    rw [if_pos h1]
  set edges := (List.range g.nEdges).filter fun l => (g.edge l).isSome
  have hedges : ∀ l, l ∈ edges ↔ (s.edge l).isSome = true := by
    intro l
    simp only [edges, List.mem_filter, List.mem_range, c4, Option.isSome_map]
    exact ⟨fun h => h.2, fun h => ⟨hlt l h, h⟩⟩
  set f := (Sigma.Call.setMapping edges given).apply (Sigma.Fn.of g) with hf
  have hsig : ∀ d, s.liveD d → f.sigma d = s.sigma d := by
    intro d hd
    have := hlt _ hd
    show (Sigma.Fn.invertEdges _ _).sigma d = _
    rw [Sigma.invertEdges_sigma, Sigma.copyEntries_sigma, if_pos (by show -((g.nEdges : Int) - 1) ≤ d ∧ d < -((g.nEdges : Int) - 1) + ((2 * g.nEdges - 1 : Nat) : Int); omega), hlive d hd]
  have hinv : ∀ d, s.liveD d → f.inv d = s.sigmaInv d := by
    intro d hd
    have hi := hs.sigmaInv_live d hd
    have hc : ∀ x : Int, s.liveD x → (Sigma.Fn.copyEntries given (2 * g.nEdges - 1) (-((g.nEdges : Int) - 1)) (Sigma.Fn.of g)).sigma x = s.sigma x := by
      intro x hx
      have := hlt _ hx
      rw [Sigma.copyEntries_sigma, if_pos (by omega), hlive x hx]
    have key := Sigma.invertEdges_inv edges (Sigma.Fn.copyEntries given (2 * g.nEdges - 1) (-((g.nEdges : Int) - 1)) (Sigma.Fn.of g))
      (fun x y hx hy h => by
        have hx' : s.liveD x := (hedges _).mp hx
        have hy' : s.liveD y := (hedges _).mp hy
        rw [hc x hx', hc y hy'] at h
        rw [← (hs.sigma_live x hx').2, ← (hs.sigma_live y hy').2]
        show s.sigmaInv (s.sigma x) = s.sigmaInv (s.sigma y)
        rw [h]) (s.sigmaInv d) ((hedges _).mpr hi.1)
    rw [hc (s.sigmaInv d) hi.1, show s.sigma (s.sigmaInv d) = d from hi.2] at key
    exact key
  have hst := startN_bare c4
  have hdarts : g.darts = s.darts := by
    ext d
    rw [c2.live, hπ.live, liveD_bare c4]
  refine ⟨g, { g with sigma := f.sigma, sigmaInv := f.inv, edgesSorted := s.edgesSorted }, c1, ?_, ⟨?_, c3, c4, c5, c6, rfl, hle⟩⟩
  · unfold setSigmaMapping
    rw [if_neg (by unfold GMap.initialized; omega), if_neg (by omega)]
  · refine ⟨?_, fun d => ?_, ⟨fun d hd => ?_, fun d hd => ?_, hπ.rep.fix⟩, fun d hd => ?_, fun n nd hnd => ?_⟩
    · exact ⟨c2.labels.edges_pos, c2.labels.edge_zero, c2.labels.node_lt, c2.labels.edge_lt, c2.labels.face_lt, c2.labels.node_count, c2.labels.edge_count, c2.labels.face_count, c2.labels.pts_ne⟩
    · rw [hπ.live]; exact (liveD_bare c4 d).symm
    · rw [← hπ.rep.eq d hd]; exact hsig d ((hπ.live d).mp hd)
    · rw [← hπ.rep.eqi d hd]; exact hinv d ((hπ.live d).mp hd)
    · obtain ⟨n, h1, h2, h3⟩ := hπ.starts d hd
      refine ⟨n, (hst d).trans h1, ?_, (hst _).trans h3⟩
      have := congrArg Option.isSome (c3 n)
      simp only [Option.isSome_map] at this
      show (g.node n).isSome = true
      rw [this]; exact h2
    · rcases c2.nodes n nd hnd with h | ⟨h1, h2, h3⟩
      · left; rw [hdarts] at h; exact h
      · right
        rw [hdarts] at h1
        refine ⟨h1, h2, fun d hd h => ?_⟩
        refine (same_start_iff hπ.rep hπ.starts hπ.nodes h1 hd).mp ?_
        have h' : g.startN? d = some n := h
        rw [hst] at h2 h'
        rw [h2, h']

end

end Verif.Pickle
