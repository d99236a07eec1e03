import Verif.Crack.Follow
import Verif.GeoMap.Machine2

/-! # The map built so far -/

set_option linter.unusedSectionVars false

namespace Verif.Crack
open Verif Verif.GeoMap

/-- an edge: its directed cracks and its end nodes -/
structure Path where
  first : Dart
  rest : List Dart
  a : Nat
  b : Nat

/-- the directed cracks of an edge in order -/
def Path.darts (P : Path) : List Dart := P.first :: P.rest

section
variable {K : Type} [Field K] [LinearOrder K]

/-- the points of an edge -/
def Path.pts (P : Path) : List (Pt K) := vec P.first.1 :: P.darts.map fun ε => vec (al ε).1

/-- The map has the nodes `ns` (by label) and the edges `es` (by label, from 1). -/
structure Built (m : GMap K) (ns : List Pos) (es : List Path) : Prop where
  reach : ReachG m
  fresh : ¬ m.initialized
  unsorted : m.edgesSorted = false
  nNodes : m.nNodes = ns.length
  node : ∀ i, (m.node i).map (·.pos) = (ns[i]?).map vec
  nEdges : m.nEdges = es.length + 1
  edge0 : m.edge 0 = none
  edge : ∀ i, m.edge (i + 1) = (es[i]?).map fun P => ⟨P.a, P.b, none, none, P.pts, 0⟩

theorem built_empty : Built (GMap.empty : GMap K) [] [] :=
  ⟨.empty, by simp [GMap.initialized, GMap.empty], rfl, rfl, fun _ => rfl, rfl, rfl, fun _ => rfl⟩

theorem Built.addNode {m : GMap K} {ns : List Pos} {es : List Path} (B : Built m ns es) (p : Pos) :
    (m.addNodeAt (vec p) 0).1 = ns.length ∧ Built (m.addNodeAt (vec p) 0).2 (ns ++ [p]) es := by
  have e : (m.addNodeAt (vec p) 0).2 = { m with
      nNodes := m.nNodes + 1, node := Function.update m.node m.nNodes (some ⟨vec p, 0⟩),
      nodeCount := m.nodeCount + 1 } := by
    simp [GMap.addNodeAt, GMap.addNode]
  refine ⟨by simp [GMap.addNodeAt, GMap.addNode, B.nNodes], ?_⟩
  have hr : ReachG (m.addNodeAt (vec p) 0).2 :=
    .call Hooks.none (.addNode (vec p) 0) B.reach trivial trivial rfl fun h1 h2 => absurd (by rw [e] at h2; exact h2) h1
  rw [e] at hr ⊢
  refine ⟨hr, B.fresh, B.unsorted, ?_, ?_, B.nEdges, B.edge0, B.edge⟩
  · simp [B.nNodes]
  · intro i
    simp only [Function.update_apply, B.nNodes]
    by_cases hi : i = ns.length
    · subst hi
      simp
    · rw [if_neg hi, B.node]
      by_cases h2 : i < ns.length
      · rw [List.getElem?_append_left h2]
      · rw [List.getElem?_eq_none (by omega), List.getElem?_eq_none (by simp; omega)]

theorem Built.node_of {m : GMap K} {ns : List Pos} {es : List Path} (B : Built m ns es) {i : Nat} {p : Pos} (h : ns[i]? = some p) :
    ∃ nd, m.node i = some nd ∧ nd.pos = vec p := by
  have := B.node i
  rw [h] at this
  cases hn : m.node i with
  | none => rw [hn] at this; cases this
  | some nd =>
    rw [hn] at this
    simp only [Option.map_some, Option.some.injEq] at this
    exact ⟨nd, rfl, this⟩

theorem Built.addEdge {m : GMap K} {ns : List Pos} {es : List Path} (B : Built m ns es) (P : Path) {z : Dart}
    (ha : ns[P.a]? = some P.first.1) (hz : P.darts.getLast? = some z) (hb : ns[P.b]? = some (al z).1) :
    ∃ t, m.addEdge (.node P.a) (.node P.b) P.pts 0 = .ok (es.length + 1, t) ∧ Built t ns (es ++ [P]) := by
  obtain ⟨na, hna, hna'⟩ := B.node_of ha
  obtain ⟨nb, hnb, hnb'⟩ := B.node_of hb
  obtain ⟨π, hg⟩ := B.reach.reach.good.map.graph.exists_rep
  have hlt : ∀ {i q}, ns[i]? = some q → i < m.nNodes := by
    intro i q h
    rw [B.nNodes]
    exact (List.getElem?_eq_some_iff.mp h).1
  have hA : ∃ A, m.sigmaAnchor (.node P.a) = .ok A ∧ A.node = P.a := by
    unfold GMap.sigmaAnchor GMap.derefNode
    simp only [if_pos (hlt ha), hna, bind, Outcome.bind_ok, B.unsorted, Bool.false_eq_true, if_false]
    split_ifs <;> exact ⟨_, rfl, rfl⟩
  have hB : ∃ A, m.sigmaAnchor (.node P.b) = .ok A ∧ A.node = P.b := by
    unfold GMap.sigmaAnchor GMap.derefNode
    simp only [if_pos (hlt hb), hnb, bind, Outcome.bind_ok, B.unsorted, Bool.false_eq_true, if_false]
    split_ifs <;> exact ⟨_, rfl, rfl⟩
  obtain ⟨A, hA, eA⟩ := hA
  obtain ⟨C, hC, eC⟩ := hB
  obtain ⟨t, π', h1, h2, sg, sgi, node', h3, h4⟩ := addEdge_spec hg B.fresh hA hC (pts := P.pts) (by simp [Path.pts]) 0
  have hmax : max m.nEdges 0 = es.length + 1 := by rw [B.nEdges]; simp
  rw [hmax] at h1 h3
  refine ⟨t, h1, ?_⟩
  have hinit : t.initialized → m.initialized := by rw [h3]; exact id
  have hr : ReachG t := by
    refine .call Hooks.none (.addEdge (.node P.a) (.node P.b) P.pts 0) B.reach ?_ ?_ ?_ fun h5 h6 => absurd (hinit h6) h5
    · refine ⟨by simp [Path.pts], ?_, ?_⟩
      · intro n hn
        cases hn
        rw [hna]
        rfl
      · intro n hn
        cases hn
        rw [hnb]
        rfl
    · refine ⟨⟨P.a, na, rfl, hna, ?_⟩, P.b, nb, rfl, hnb, ?_⟩
      · rw [hna']
        rfl
      · rw [hnb']
        unfold Path.pts
        rw [List.getLast?_cons, List.getLast?_map, hz]
        rfl
    · simp only [Op.run, h1]
      rfl
  refine ⟨hr, fun h => B.fresh (hinit h), by rw [h3]; exact B.unsorted, by rw [h3]; exact B.nNodes, ?_, ?_, ?_, ?_⟩
  · intro i
    rw [h3]
    exact (h4 i).trans (B.node i)
  · rw [h3]
    simp
  · rw [h3]
    simp only
    rw [Function.update_of_ne (by omega)]
    exact B.edge0
  · intro i
    rw [h3]
    simp only [Function.update_apply]
    by_cases hi : i = es.length
    · subst hi
      simp [eA, eC]
    · rw [if_neg (by omega), B.edge]
      by_cases h2 : i < es.length
      · rw [List.getElem?_append_left h2]
      · rw [List.getElem?_eq_none (by omega), List.getElem?_eq_none (by simp; omega)]

end
end Verif.Crack
