import Verif.EdgeCache.Lemmas
import Verif.GeoMap.Example

/-! # Cached geometry of edges (C60)

Specification: `Reach` (the histories) and `Exact` in `Spec.lean`, `trueLength`, `trueArea` and `IsBoundingBox` in
`Verif/Polygon/Spec.lean`. -/

namespace Verif.EdgeCache
open Verif Verif.GeoMap Verif.Polygon

variable {K : Type} [Field K] [LinearOrder K] {dist : Pt K → Pt K → K}

/-- After any history of operations and queries, `length()`, `partialArea()` and `boundingBox()` of every edge are those of
its current points. -/
theorem edge_geometry_exact (hs : ∀ p q, dist q p = dist p q) {c : State K} (hc : Reach dist c) {l : Nat} {e : Edge K}
    (he : c.map.edge l = some e) : Exact dist c l e := by
  obtain ⟨h1, h2⟩ := (hc.inv hs).edges l e he
  exact ⟨h1, by rw [h2.len.length, h1, trueLength_eq], by rw [h2.area.partialArea, h1, Polygon.trueArea_eq], by rw [← h1]; exact h2.box.boundingBox⟩

/-- The caches are invisible: the operations return exactly in the cases, and with the map, of the model without caches. -/
theorem caches_invisible (hs : ∀ p q, dist q p = dist p q) {c : State K} (hc : Reach dist c) (h : Hooks K) {op : Op K}
    (hl : op.legal c.map) (t : GMap K) : (∃ c', c.run dist h op = .ok c' ∧ c'.map = t) ↔ op.run h c.map = .ok t := by
  constructor
  · rintro ⟨c', h1, rfl⟩; exact run_map h1
  · intro e
    obtain ⟨c', h1, h2, -⟩ := run_ok hs (hc.inv hs) h hl e
    exact ⟨c', h1, h2⟩

/-- Every map that can be built is the map of such a history, with any sequence of queries in between. -/
theorem exists_history (hs : ∀ p q, dist q p = dist p q) {s : GMap K} (h : ReachG s) : ∃ c, Reach dist c ∧ c.map = s := by
  induction h with
  | empty => exact ⟨_, .empty, rfl⟩
  | call h op _ hl hf e hp ih =>
    obtain ⟨c, hc, rfl⟩ := ih
    obtain ⟨c', h1, h2, -⟩ := run_ok hs (hc.inv hs) h hl e
    exact ⟨c', .call h op hc hl hf h1 (by rw [h2]; exact hp), h2⟩
  | rename new size _ h0 e ih =>
    obtain ⟨c, hc, rfl⟩ := ih
    exact ⟨_, .rename new size hc h0 e, rfl⟩

/-- Merging two edges adds their lengths. -/
theorem mergeEdges_adds_lengths (hs : ∀ p q, dist q p = dist p q) {c c' : State K} (hc : Reach dist c) {h : Hooks K} {d : Int} {l : Nat}
    (e : c.run dist h (.mergeEdges d) = .ok c') (hm : c.map.mergeEdges h d = .ok (some l, c'.map)) :
    ((c'.poly l).length dist).1 = ((c.poly d.natAbs).length dist).1 + ((c.poly (c.map.nextSigma d).natAbs).length dist).1 := by
  have hI := hc.inv hs
  have hM := hI.reach.reach.good.map
  have hG := hI.reach.geom.geom
  obtain ⟨d1, d2, m, hor, rfl, E⟩ := mergeEdges_effect hM hm
  obtain ⟨e1, e2, x, h1, h2, h3, h4, -⟩ := E.survivor
  have hc' : Reach dist c' := .call h (.mergeEdges d) hc trivial trivial e fun hi hi' => by
    unfold GMap.initialized at hi hi'; rw [E.sizes.2.2] at hi'; exact absurd hi' hi
  have L : ∀ (y : Edge K) (b : Int), pathSum dist (y.dartPts b) = pathSum dist y.pts := by
    intro y b
    unfold Edge.dartPts
    split_ifs
    · rfl
    · exact pathSum_reverse dist hs _
  have q1 := (edge_geometry_exact hs hc h1).length
  have q2 := (edge_geometry_exact hs hc h2).length
  have q3 := (edge_geometry_exact hs hc' h3).length
  have key : pathSum dist x.pts = pathSum dist e2.pts + pathSum dist e1.pts := by
    rw [← L x d1, h4, pathSum_dropLast dist, L, L]
    · have := hM.graph.pts_ne _ _ h1
      unfold Edge.dartPts
      split_ifs <;> simpa
    · obtain ⟨m1, m2, -⟩ := E.at_m
      have g1 := hG _ _ h1
      have g2 := hG _ _ h2
      have k1 : e1.startOf d1 = m := by rw [startN?_of h1] at m1; exact Option.some.inj m1
      have k2 : e2.startOf d2 = m := by rw [startN?_of h2] at m2; exact Option.some.inj m2
      have hd2 : d2 ≠ 0 := by rintro rfl; exact absurd h2 (by rw [show (0 : Int).natAbs = 0 from rfl, hM.graph.edge_zero]; simp)
      have w1 : (e1.dartPts d1).head? = (c.map.node m).map (·.pos) := by
        unfold Edge.startOf at k1
        unfold Edge.dartPts
        split_ifs at k1 ⊢
        · rw [g1.1, k1]
        · rw [List.head?_reverse, g1.2, k1]
      have w2 : (e2.dartPts (-d2)).getLast? = (c.map.node m).map (·.pos) := by
        unfold Edge.startOf at k2
        unfold Edge.dartPts
        by_cases hd : 0 < d2
        · rw [if_pos hd] at k2
          rw [if_neg (by omega), List.getLast?_reverse, g2.1, k2]
        · rw [if_neg hd] at k2
          rw [if_pos (by omega), g2.2, k2]
      rw [w1, w2]
  rw [q3, trueLength_eq, key, ← trueLength_eq, ← trueLength_eq, ← q1, ← q2]
  rcases hor with ⟨rfl, rfl⟩ | ⟨rfl, rfl⟩
  · rw [add_comm]
  · rfl

omit [Field K] [LinearOrder K] in
theorem pathSum_split {M : Type} [AddCommGroup M] (g : Pt K → Pt K → M) (l : List (Pt K)) (i : Nat) (hi : i < l.length) :
    pathSum g l = pathSum g (l.take (i + 1)) + pathSum g (l.drop i) := by
  have h := pathSum_glue g (A := l.take (i + 1)) (B := l.drop i) (by
    intro h
    have := congrArg List.length h
    rw [List.length_take, List.length_nil] at this
    omega) (by rw [List.getLast?_take]; simp [List.head?_drop, hi])
  rw [← h, List.drop_drop, List.take_append_drop]

/-- Splitting an edge at one of its points divides its length and its partial area. -/
theorem splitEdge_divides (hs : ∀ p q, dist q p = dist p q) {c c' : State K} (hc : Reach dist c) {h : Hooks K} {l i r : Nat}
    (e : c.run dist h (.splitEdge l i none) = .ok c') (hm : c.map.splitEdge l i none = .ok (r, c'.map)) :
    ((c'.poly l).length dist).1 + ((c'.poly r).length dist).1 = ((c.poly l).length dist).1 ∧
    (c'.poly l).partialArea.1 + (c'.poly r).partialArea.1 = (c.poly l).partialArea.1 := by
  have hM := (hc.inv hs).reach.reach.good.map
  have E := splitEdge_effect hM hm
  obtain ⟨x, x1, x2, h1, h2, h3, h4, h5, -⟩ := E.halves
  have hc' : Reach dist c' := .call h (.splitEdge l i none) hc trivial trivial e fun hi hi' => by
    unfold GMap.initialized at hi hi'; rw [E.sizes.2.2] at hi'; exact absurd hi' hi
  have q := edge_geometry_exact hs hc h1
  have q1 := edge_geometry_exact hs hc' h2
  have q2 := edge_geometry_exact hs hc' h3
  have hi : i < x.pts.length := by
    obtain ⟨y, nd, g1, -⟩ := E.node_new
    rw [h1] at g1
    exact (List.getElem?_eq_some_iff.mp g1).1
  have h4 : x1.pts = x.pts.take (i + 1) := h4
  have h5 : x2.pts = x.pts.drop i := h5
  constructor
  · rw [q.length, q1.length, q2.length, trueLength_eq, trueLength_eq, trueLength_eq, h4, h5, ← pathSum_split dist _ _ hi]
  · rw [q.area, q1.area, q2.area, Polygon.trueArea_eq, Polygon.trueArea_eq, Polygon.trueArea_eq, h4, h5, ← add_div, ← pathSum_split cross _ _ hi]

/-! ## `setPosition` -/

/-- distance used in the examples -/
def dist1 (p q : Pt ℚ) : ℚ := |p.1 - q.1| + |p.2 - q.2|

theorem dist1_symm (p q : Pt ℚ) : dist1 q p = dist1 p q := by
  unfold dist1; rw [abs_sub_comm q.1, abs_sub_comm q.2]

/-- the hypotheses can be met: the map of the example with all edges queried; edge 1 can be split at its inner point -/
example : ∃ c c' : State ℚ, Reach dist1 c ∧ c.map = Example.map ∧ (c.map.edge 1).isSome ∧ c.run dist1 Hooks.none (.splitEdge 1 1 none) = .ok c' := by
  obtain ⟨c, hc, h⟩ := exists_history dist1_symm Example.reach_map
  have e : (Op.splitEdge 1 1 none).run Hooks.none c.map = .ok (Example.next Example.map (.splitEdge 1 1 none)) := by
    rw [h]; exact Example.ok_val (by decide +kernel)
  obtain ⟨c', h1, -⟩ := (caches_invisible dist1_symm ((hc.query 1 .length).query 1 .boundingBox) Hooks.none (op := .splitEdge 1 1 none) trivial _).mpr e
  exact ⟨_, c', (hc.query 1 .length).query 1 .boundingBox, h, by show (c.map.edge 1).isSome; rw [h]; decide +kernel, h1⟩

set_option linter.unusedSimpArgs false in
/-- Full property: the three queries are exact after every history of calls of the public API.  With `Node::setPosition` they
are not: if the length, the area and the box of an edge have been asked for before one of its ends is moved, the old values
are returned from then on. -/
theorem setPosition_geometry_violated : ∃ (c c' : State ℚ) (e : Edge ℚ), Reach dist1 c ∧ c.setPosition 0 (-1, 3) = .ok c' ∧
    c'.map.edge 1 = some e ∧ ((c'.poly 1).length dist1).1 ≠ trueLength dist1 e.pts ∧ (c'.poly 1).partialArea.1 ≠ trueArea e.pts ∧
    ¬ IsBoundingBox (c'.poly 1).boundingBox.1 e.pts := by
  obtain ⟨c, hc, h⟩ := exists_history dist1_symm Example.reach_map
  have hq := ((hc.query 1 .length).query 1 .partialArea).query 1 .boundingBox
  generalize hcq : ((c.query dist1 1 .length).query dist1 1 .partialArea).query dist1 1 .boundingBox = cq at hq
  have hmap : cq.map = Example.map := by rw [← hcq]; exact h
  have c1 : ∃ x, (cq.poly 1).len = some x := by
    rw [← hcq]
    simp only [State.query, Query.run, Function.update_self, Poly.length, Poly.partialArea, Poly.boundingBox]
    cases h1 : (c.poly 1).len <;> cases h2 : (c.poly 1).area <;> cases h3 : (c.poly 1).box <;> simp [h1, h2, h3]
  have c2 : ∃ x, (cq.poly 1).area = some x := by
    rw [← hcq]
    simp only [State.query, Query.run, Function.update_self, Poly.length, Poly.partialArea, Poly.boundingBox]
    cases h1 : (c.poly 1).len <;> cases h2 : (c.poly 1).area <;> cases h3 : (c.poly 1).box <;> simp [h1, h2, h3]
  have c3 : ∃ x, (cq.poly 1).box = some x := by
    rw [← hcq]
    simp only [State.query, Query.run, Function.update_self, Poly.length, Poly.partialArea, Poly.boundingBox]
    cases h1 : (c.poly 1).len <;> cases h2 : (c.poly 1).area <;> cases h3 : (c.poly 1).box <;> simp [h1, h2, h3]
  obtain ⟨x, hx⟩ := c1
  obtain ⟨a, ha⟩ := c2
  obtain ⟨b, hb⟩ := c3
  have he0 : cq.map.edge 1 = some ((Example.map.edge 1).getD ⟨0, 0, none, none, [], 0⟩) := by rw [hmap]; decide +kernel
  have hp0 : ((Example.map.edge 1).getD ⟨0, 0, none, none, [], 0⟩).pts = [(0, 0), (1, 1), (2, 0)] := by decide +kernel
  have X := edge_geometry_exact dist1_symm hq he0
  have hx' : x = 4 := by
    have := X.length
    rw [hp0] at this
    simp only [Poly.length, hx] at this
    rw [this]; decide +kernel
  have ha' : a = 1 := by
    have := X.area
    rw [hp0] at this
    simp only [Poly.partialArea, ha] at this
    rw [this]; decide +kernel
  have hb' : IsBoundingBox b [(0, 0), (1, 1), (2, 0)] := by
    have := X.box
    rw [hp0] at this
    simp only [Poly.boundingBox, hb] at this
    exact this
  have hset : SetPosition.setPosition cq.map 0 (-1, 3) = .ok (Example.val .empty (SetPosition.setPosition Example.map 0 (-1, 3))) := by
    rw [hmap]; exact Example.ok_val (by decide +kernel)
  generalize ht : Example.val .empty (SetPosition.setPosition Example.map 0 (-1, 3)) = t at hset
  have he1 : t.edge 1 = some ((t.edge 1).getD ⟨0, 0, none, none, [], 0⟩) := by rw [← ht]; decide +kernel
  have hp1 : ((t.edge 1).getD ⟨0, 0, none, none, [], 0⟩).pts = [(-1, 3), (1, 1), (2, 0)] := by rw [← ht]; decide +kernel
  generalize (t.edge 1).getD ⟨0, 0, none, none, [], 0⟩ = e1 at he1 hp1
  refine ⟨cq, _, e1, hq, by unfold State.setPosition; rw [hset]; rfl, he1, ?_, ?_, ?_⟩
  · simp only [he1, Poly.length, hx, hx', hp1]; decide +kernel
  · simp only [he1, Poly.partialArea, ha, ha', hp1]; decide +kernel
  · simp only [he1, Poly.boundingBox, hb, hp1]
    intro hb1
    cases b with
    | none => cases hb'
    | some b =>
      obtain ⟨lo, hi⟩ := b
      have h1 := (hb1.1 (-1, 3) (by simp)).1
      obtain ⟨p, h2, h3⟩ := hb'.2.1
      simp only [List.mem_cons, List.not_mem_nil, or_false] at h2
      rcases h2 with rfl | rfl | rfl <;> · rw [← h3] at h1; norm_num at h1

end Verif.EdgeCache
