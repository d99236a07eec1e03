import Verif.FourEight.PyrProps

/-!
# What a recorded operation does to the numbers of cells (C95)
-/

namespace Verif.FourEight.Props
open Verif Verif.CellImage Verif.Outcome Verif.FourEight

/-- numbers of existing nodes, edges and faces -/
def cellNumbers (m : Map) : Nat × Nat × Nat := (m.nodes.countP (·.live), m.edges.countP (·.live), m.faces.countP (·.live))

/-- the effect of an operation, called with dart `d` of `m`, on the numbers of nodes, edges and faces before and after it -/
def Effect (m : Map) (op : PyrOp) (d : Dart) : Nat × Nat × Nat → Nat × Nat × Nat → Prop
  | (a, b, c), (a', b', c') =>
    match op with
    | .removeIsolatedNode => a' + 1 = a ∧ b' = b ∧ c' = c
    | .mergeFaces => a' = a ∧ b' + 1 = b ∧ c' + 1 = c ∧ leftFace m d ≠ rightFace m d
    | .removeBridge => a' = a ∧ b' + 1 = b ∧ c' = c ∧ leftFace m d = rightFace m d
    | .mergeEdges => a' + 1 = a ∧ b' + 1 = b ∧ c' = c
    | .removeEdge => a' = a ∧ b' + 1 = b ∧ (leftFace m d = rightFace m d ∧ c' = c ∨ leftFace m d ≠ rightFace m d ∧ c' + 1 = c)
    | .removeEdgeWithEnds => a' ≤ a ∧ a ≤ a' + 2 ∧ b' + 1 = b ∧
        (leftFace m d = rightFace m d ∧ c' = c ∨ leftFace m d ≠ rightFace m d ∧ c' + 1 = c)

section
variable {m m' : Map}

theorem isolated_numbers (hm : Consistent m) {d : Dart} {l : Nat} (h : removeIsolatedNode m d = .ok (m', l)) :
    cellNumbers m = ((cellNumbers m').1 + 1, (cellNumbers m').2) := by
  obtain ⟨-, n, N, -, -, res⟩ := removeIsolatedNode_result hm h
  have hn : m.nodes.countP (·.live) = m'.nodes.countP (·.live) + 1 := by
    rw [res.nodes]
    exact countP_modify_kill (·.live) (fun N : Node => { N with live := false }) _ _ _ res.node.1 res.node.2 rfl
  have hf : m'.faces.countP (·.live) = m.faces.countP (·.live) := by
    have h1 : ∀ l : List Face, l.countP (·.live) = (l.map Face.info).countP (·.live) := fun l => by rw [List.countP_map]; rfl
    rw [h1, h1, res.faces]
    exact countP_modify_same _ _ (by intro a; rfl) _ _
  unfold cellNumbers
  rw [hn, hf, res.edges]

theorem mergeFaces_numbers (hm : Consistent m) {d : Dart} {l : Nat} (h : mergeFaces m d = .ok (m', l)) :
    cellNumbers m = ((cellNumbers m').1, (cellNumbers m').2.1 + 1, (cellNumbers m').2.2 + 1) := by
  obtain ⟨_, _, _, _, _, _, _, _, _, _, _, _, _, _, _, _, _, res⟩ := mergeFaces_result hm h
  unfold cellNumbers
  rw [← res.facesLive, res.nodesLive, res.edges]
  exact congrArg (fun e => (_, e, _)) (countP_modify_kill (·.live) (fun E : Edge => { E with live := false }) _ _ _ res.edge.1 res.edge.2 rfl)

theorem removeBridge_numbers (hm : Consistent m) {d : Dart} {l : Nat} (h : removeBridge m d = .ok (m', l)) :
    cellNumbers m = ((cellNumbers m').1, (cellNumbers m').2.1 + 1, (cellNumbers m').2.2) := by
  obtain ⟨_, _, _, _, _, _, res⟩ := removeBridge_result hm h
  unfold cellNumbers
  rw [res.facesLive, res.nodesLive, res.edges]
  exact congrArg (fun e => (_, e, _)) (countP_modify_kill (·.live) (fun E : Edge => { E with live := false }) _ _ _ res.edge.1 res.edge.2 rfl)

theorem mergeEdges_numbers (hm : Consistent m) {d : Dart} {l : Nat} (h : mergeEdges m d = .ok (m', l)) :
    cellNumbers m = ((cellNumbers m').1 + 1, (cellNumbers m').2.1 + 1, (cellNumbers m').2.2) := by
  obtain ⟨_, _, _, _, _, _, _, _, _, _, _, _, _, _, res, _⟩ := mergeEdges_full hm h
  unfold cellNumbers
  rw [res.facesLive, ← res.edgesLive, res.nodes]
  exact congrArg (fun n => (n, _)) (countP_modify_kill (·.live) (fun N : Node => { N with live := false }) _ _ _ res.node.1 res.node.2 rfl)

theorem removeEdge_numbers (hm : Consistent m) {d : Dart} {l : Nat} (h : removeEdge m d = .ok (m', l)) :
    ∃ a b, leftFace m d = .ok a ∧ rightFace m d = .ok b ∧
      cellNumbers m = ((cellNumbers m').1, (cellNumbers m').2.1 + 1, (cellNumbers m').2.2 + if a = b then 0 else 1) := by
  unfold removeEdge at h
  obtain ⟨a, ha, h⟩ := bind_eq_ok.1 h
  obtain ⟨b, hb, h⟩ := bind_eq_ok.1 h
  refine ⟨a, b, ha, hb, ?_⟩
  split at h
  · rename_i hab
    rw [if_pos hab]
    exact removeBridge_numbers hm h
  · rename_i hab
    rw [if_neg hab]
    exact mergeFaces_numbers hm h

theorem dropNode_numbers (hm : Consistent m) {n : Nat} (h : dropNode m n = .ok m') :
    ∃ N, m.nodes[n]? = some N ∧ N.live = true ∧ cellNumbers m = ((cellNumbers m').1 + (if N.degree = 0 then 1 else 0), (cellNumbers m').2) := by
  unfold dropNode at h
  obtain ⟨N, hN, h⟩ := bind_eq_ok.1 h
  obtain ⟨hN1, hN2⟩ := node_ok hN
  refine ⟨N, hN1, hN2, ?_⟩
  split at h
  · rename_i h0
    obtain ⟨⟨m1, l⟩, h1, h2⟩ := map_ok h
    cases h2
    rw [if_pos h0]
    exact isolated_numbers hm h1
  · rename_i h0
    cases h
    rw [if_neg h0]; rfl

/-- what is left of a node after `removeEdge` -/
theorem removeEdgeWithEnds_numbers (hm : Whole m) (ha : Anchors m) {d : Dart} {l : Nat} (hd : IsDart m d)
    (h : removeEdgeWithEnds m d = .ok (m', l)) : ∃ a b m1, leftFace m d = .ok a ∧ rightFace m d = .ok b ∧ removeEdge m d = .ok (m1, l) ∧
      (cellNumbers m').2.1 + 1 = (cellNumbers m).2.1 ∧ (cellNumbers m').2.2 + (if a = b then 0 else 1) = (cellNumbers m).2.2 ∧
      (cellNumbers m').1 ≤ (cellNumbers m).1 ∧ (cellNumbers m).1 ≤ (cellNumbers m').1 + 2 := by
  unfold removeEdgeWithEnds at h
  obtain ⟨e, he, h⟩ := bind_eq_ok.1 h
  obtain ⟨E, hE, h⟩ := bind_eq_ok.1 h
  obtain ⟨n1, hn1, h⟩ := bind_eq_ok.1 h
  obtain ⟨N1, hN1, h⟩ := bind_eq_ok.1 h
  obtain ⟨n2, hn2, h⟩ := bind_eq_ok.1 h
  obtain ⟨N2, hN2, h⟩ := bind_eq_ok.1 h
  obtain ⟨⟨m1, f⟩, h1, h⟩ := bind_eq_ok.1 h
  obtain ⟨m2, h2, h⟩ := bind_eq_ok.1 h
  obtain ⟨m3, h3, h⟩ := bind_eq_ok.1 h
  cases h
  dsimp only at h2
  obtain ⟨st1, e', g, E', hrem, hE'⟩ := removeEdge_step hm hd h1
  have hm1 := hm.step st1
  have hch1 := hm.removeEdge_change hrem.w hrem.h hrem.px
  obtain ⟨ha1, hanch⟩ := ha.removeEdge hm hm1 hrem
  obtain ⟨b1, -, -, -, -⟩ := hm.ends e' E' hrem.edge hrem.live
  obtain ⟨a, b, k1, k2, k3⟩ := removeEdge_numbers hm.cons h1
  obtain ⟨B, -, -, k4⟩ := dropNode_numbers hm1.cons h2
  have hee : e' = e := by
    have hdl : m.look d.x d.y d.dir = (.line, e') := by
      obtain ⟨-, -, -, b4, b5⟩ := hm.ends e' E' hrem.edge hrem.live
      rcases hE' with rfl | rfl <;> assumption
    unfold edgeLabel at he
    rw [hm.nb hd, add_zero, hdl] at he
    exact Outcome.ok.inj he
  subst hee
  obtain rfl : E' = E := by
    have := (edge_ok hE).1
    rw [hrem.edge] at this
    exact Option.some.inj this
  have p1 : E'.start ∈ dartsAt m n1 := by
    rw [hm.nodeLabel b1] at hn1
    exact ⟨b1, Prod.ext b1.node (Outcome.ok.inj hn1)⟩
  have hiso : ∀ A : Node, m1.nodes[n1]? = some A → A.live = true → ¬(dartsAt m1 n1).Nonempty →
      AtIsolated m1 A.anchor ∧ (m1.px A.anchor.x A.anchor.y).2 = n1 := by
    intro A hA hAl hno
    have hmem := hanch n1 A hA hAl ⟨_, p1⟩
    refine ⟨atIsolated_of hm hm1 hch1 hmem hno, ?_⟩
    rw [(hch1.vertex _ _ n1 hmem.1.inside).2 ⟨hmem.2, trivial⟩]
  obtain ⟨r2, -⟩ := dropNode_settled hm1 ha1 hiso h2
  have hm2 := hm1.reach r2
  refine ⟨a, b, m1, k1, k2, h1, ?_⟩
  have k5 : ∃ c, c ≤ 1 ∧ cellNumbers m2 = ((cellNumbers m').1 + c, (cellNumbers m').2) := by
    split at h3
    · obtain ⟨C, -, -, k⟩ := dropNode_numbers hm2.cons h3
      exact ⟨_, by split <;> omega, k⟩
    · cases h3
      exact ⟨0, by omega, rfl⟩
  obtain ⟨c, hc, k5⟩ := k5
  have hc' : (if B.degree = 0 then 1 else 0) ≤ 1 := by split <;> omega
  generalize (if B.degree = 0 then 1 else 0) = c' at *
  generalize (if a = b then 0 else 1) = c'' at *
  simp only [Prod.ext_iff] at k3 k4 k5
  omega

end

/-- **C95, effect.** What a recorded operation does to the numbers of nodes, edges and faces, in every map reached by a history of recorded
operations: removal of an isolated node takes a node; merging faces takes an edge and a face; removal of a bridge takes an edge; merging
edges takes a node and an edge; removal of an edge takes the edge, and a face if there were different faces at its sides; with ends it takes
up to two nodes more (which: see `pyramid_exact_partial`).  Hypotheses as there. -/
theorem recorded_effect_partial {w h : Nat} (hw : w + 4 ≤ 2 ^ 14) (hh : h + 4 ≤ 2 ^ 14) {src : Int → Int → Bool} {cells : Int → Int → CellType}
    (hi : initCellImage .vertex (w + 4) (h + 4) (contourImage w h src) = .ok cells) {v : Components} (hv : v.Sane (w + 4) (h + 4) cells)
    (hn : NoHoles (typedMap (w + 4) (h + 4) cells v)) {mL : Map} {N n : Nat} (hr : labelCells (w + 4) (h + 4) cells v = .ok (mL, N, n))
    {o : Oracle} (hholes : ∀ l, (mL.cell (.vertex, l)).Nonempty → o.crackArea l = (mL.cell (.vertex, l)).card % 2 ^ 32)
    {m0 : Map} (h0 : initMap .vertex w h src v o = .ok m0)
    (hfew : ∀ l, { d | IsDart m0 d ∧ m0.px d.x d.y = (.vertex, l) }.ncard < 2 ^ 16) {m : Map} (hm : PyrReach m0 m)
    {op : PyrOp} {d : Dart} (hc : PyrCall m op d) {s : Nat} (hs : serialize d = .ok s) {m' : Map} {l : Nat} (hp : perform m op s = .ok (m', l))
    {a b a' b' c c' : Nat} (hb : cellNumbers m = (a, b, c)) (ha : cellNumbers m' = (a', b', c')) :
    Effect m op d (a, b, c) (a', b', c') := by
  have hW := initMap_whole hi hv hn hr hholes h0
  obtain ⟨hA, w1, w2⟩ := initMap_anchors hi hv hn hr hholes h0 hfew
  have hreach := pyrReach_reach hW hA (by omega) (by omega) hm
  have hWm := hW.reach hreach
  have hAm := hA.reach hW hreach
  obtain ⟨e1, e2⟩ := hW.reachSize hreach
  have hin : m.inside d.x d.y := by
    cases op
    case removeIsolatedNode => exact AtIsolated.inside hc
    all_goals exact IsDart.inside hc
  obtain ⟨s', t1, -, -, t2⟩ := serialize_roundtrip (d := d) hin.1 (by have := hin.2.1; omega) hin.2.2.1 (by have := hin.2.2.2; omega)
  rw [hs] at t1
  obtain rfl := Outcome.ok.inj t1
  rw [t2] at hp
  have faces : ∀ x y, leftFace m d = .ok x → rightFace m d = .ok y → (c' + if x = y then 0 else 1) = c →
      (leftFace m d = rightFace m d ∧ c' = c ∨ leftFace m d ≠ rightFace m d ∧ c' + 1 = c) := by
    intro x y h1 h2 h3
    rw [h1, h2]
    by_cases hxy : x = y
    · rw [if_pos hxy] at h3
      exact Or.inl ⟨by rw [hxy], h3⟩
    · rw [if_neg hxy] at h3
      exact Or.inr ⟨fun h => hxy (Outcome.ok.inj h), h3⟩
  cases op with
  | removeIsolatedNode =>
    have k := isolated_numbers hWm.cons hp
    rw [hb, ha] at k
    simp only [Prod.mk.injEq] at k
    exact ⟨k.1.symm, k.2.1.symm, k.2.2.symm⟩
  | mergeFaces =>
    have k := mergeFaces_numbers hWm.cons hp
    rw [hb, ha] at k
    simp only [Prod.mk.injEq] at k
    refine ⟨k.1.symm, k.2.1.symm, k.2.2.symm, ?_⟩
    obtain ⟨x, _, y, _, _, _, _, g, _, hl, _, hr, _, _, _, hs, hg, res⟩ := mergeFaces_result hWm.cons hp
    rw [hl, hr]
    intro hxy
    obtain rfl := Outcome.ok.inj hxy
    have := res.ne
    simp_all
  | removeBridge =>
    have k := removeBridge_numbers hWm.cons hp
    rw [hb, ha] at k
    simp only [Prod.mk.injEq] at k
    obtain ⟨-, -, -, -, hl, hr, -⟩ := removeBridge_result hWm.cons hp
    exact ⟨k.1.symm, k.2.1.symm, k.2.2.symm, by rw [hl, hr]⟩
  | mergeEdges =>
    have k := mergeEdges_numbers hWm.cons hp
    rw [hb, ha] at k
    simp only [Prod.mk.injEq] at k
    exact ⟨k.1.symm, k.2.1.symm, k.2.2.symm⟩
  | removeEdge =>
    obtain ⟨x, y, q1, q2, k⟩ := removeEdge_numbers hWm.cons hp
    rw [hb, ha] at k
    simp only [Prod.mk.injEq] at k
    exact ⟨k.1.symm, k.2.1.symm, faces x y q1 q2 k.2.2.symm⟩
  | removeEdgeWithEnds =>
    obtain ⟨x, y, -, q1, q2, -, k1, k2, k3, k4⟩ := removeEdgeWithEnds_numbers hWm hAm hc hp
    rw [hb, ha] at k1 k2 k3 k4
    exact ⟨k3, k4, k1, faces x y q1 q2 k2⟩

theorem pyr_numbers : (decide (cellNumbers pyr1 = (4, 3, 1)) && decide (cellNumbers pyr2 = (3, 2, 1))) = true := by decide +kernel

/-- The frame meets the hypotheses: the second removal takes the edge and one of its ends, and the same face is at both sides of the edge. -/
theorem pyr_effect : cellNumbers pyr1 = (4, 3, 1) ∧ cellNumbers pyr2 = (3, 2, 1) ∧
    leftFace pyr1 ⟨-1, -1, 6⟩ = rightFace pyr1 ⟨-1, -1, 6⟩ := by
  obtain ⟨k1, k2⟩ := Bool.and_eq_true_iff.1 pyr_numbers
  have k1 := of_decide_eq_true k1
  have k2 := of_decide_eq_true k2
  obtain ⟨hi, hv, hn, N, n, hr, hholes, h0⟩ := frame_meets
  obtain ⟨q1, -⟩ := pyr_history
  have h := pyr_checks
  simp only [Bool.and_eq_true] at h
  obtain ⟨⟨⟨-, b1, b2⟩, -⟩, hs⟩ := h
  have hs := of_decide_eq_true hs
  have e := recorded_effect_partial (by norm_num) (by norm_num) hi hv hn hr hholes h0 (fun l => few_of_small l (by rw [hs.1, hs.2]; norm_num)) q1
    (op := .removeEdgeWithEnds) (d := ⟨-1, -1, 6⟩) (dartCheck_spec b1) (s := 6 * 2 ^ 28 + 16385) (by decide +kernel)
    (theMap_spec (of_decide_eq_true b2)) k1 k2
  clear hi hv hn hr hholes h0 hs b1 b2 q1
  dsimp only [Effect] at e
  refine ⟨k1, k2, ?_⟩
  rcases e.2.2.2 with e | e
  · exact e.1
  · exact absurd e.2 (by decide)

end Verif.FourEight.Props
