import Verif.FourEight.PyrLemmas
import Verif.FourEight.HistProps

/-!
# Operations of the cell pyramid on the pixel based map (C94, C95)
-/

namespace Verif.FourEight.Props
open Verif Verif.CellImage Verif.Outcome Verif.FourEight

/-! ## C94: darts in the history -/

/-- **C94.** A dart comes back from the history as it was, if there are fewer than 2^14 columns and rows up to it (the frame of two pixels
counts): no two darts share a number, and a recorded operation acts as if it had been called with the dart. -/
theorem serialize_roundtrip {d : Dart} (hx : -2 ≤ d.x) (hx' : d.x + 2 < 2 ^ 14) (hy : -2 ≤ d.y) (hy' : d.y + 2 < 2 ^ 14) :
    ∃ s, serialize d = .ok s ∧ s < 2 ^ 31 ∧ deserialize s = .ok d ∧ ∀ m op, perform m op s = performDart m op d := by
  obtain ⟨x, y, δ⟩ := d
  dsimp only at hx hx' hy hy'
  have h1 : (x + 2).toNat < 2 ^ 14 := by omega
  have h2 : (y + 2).toNat < 2 ^ 14 := by omega
  have h3 := deserialize_pack δ.isLt h1 h2
  have e1 : ((x + 2).toNat : Int) - 2 = x := by omega
  have e2 : ((y + 2).toNat : Int) - 2 = y := by omega
  rw [e1, e2] at h3
  refine ⟨_, if_neg ?_, ?_, h3, fun m op => ?_⟩
  · dsimp only
    omega
  · rw [pack_lt h1 h2]
    have := δ.isLt
    omega
  · unfold perform
    rw [h3, Outcome.bind_ok]

/-- **C94, limit.** Positions beyond this limit never come back, from any number: the operation is replayed somewhere else. -/
theorem serialize_violated {d : Dart} {s : Nat} (hd : 2 ^ 14 ≤ d.x + 2 ∨ 2 ^ 14 ≤ d.y + 2) : deserialize s ≠ .ok d := by
  intro h'
  have := deserialize_small h'
  omega

/-- two darts with the same number: the upper right pixel of an image with 16384 columns, looking east, and its upper left pixel, looking
to the north east -/
theorem serialize_collision_violated : serialize ⟨16382, -2, 0⟩ = serialize ⟨-2, -2, 1⟩ ∧ serialize ⟨16382, -2, 0⟩ = .ok (2 ^ 28) := by
  decide +kernel

example : serialize ⟨16381, 16381, 7⟩ = .ok 0x7fffffff ∧ deserialize 0x7fffffff = .ok ⟨16381, 16381, 7⟩ := by decide +kernel

/-! ## C95: histories of the pyramid -/

/-- what a recorded operation is called with -/
def PyrCall (m : Map) : PyrOp → Dart → Prop
  | .removeIsolatedNode, d => AtIsolated m d
  | _, d => IsDart m d

/-- one operation of the pyramid that returns normally: a dart of the map is recorded and the recorded operation is performed -/
def PyrStep (m m' : Map) : Prop := ∃ op d s l, PyrCall m op d ∧ serialize d = .ok s ∧ perform m op s = .ok (m', l)

/-- histories of the pyramid -/
def PyrReach : Map → Map → Prop := Relation.ReflTransGen PyrStep

section
variable {m m' : Map}

/-- no composed operation leaves the histories of C93; ends without darts are removed -/
theorem removeEdgeWithEnds_steps (hm : Whole m) (ha : Anchors m) {d : Dart} {l : Nat} (hd : IsDart m d)
    (h : removeEdgeWithEnds m d = .ok (m', l)) : DartReach m m' ∧ ∃ e E n1 n2, edgeLabel m d = .ok e ∧ m.edge e = .ok E ∧
      nodeLabel m E.start = .ok n1 ∧ nodeLabel m E.stop = .ok n2 ∧ (∀ A, m'.edges[e]? = some A → A.live = false) ∧
      ∀ n, n = n1 ∨ n = n2 → ∀ A : Node, m'.nodes[n]? = some A → A.live = true →
        { d | IsDart m' d ∧ m'.px d.x d.y = (.vertex, n) }.Nonempty := by
  unfold removeEdgeWithEnds at h
  obtain ⟨e, he, h⟩ := bind_eq_ok.1 h
  obtain ⟨E, hE, h⟩ := bind_eq_ok.1 h
  obtain ⟨n1, hn1, h⟩ := bind_eq_ok.1 h
  obtain ⟨N1, hN1, h⟩ := bind_eq_ok.1 h
  obtain ⟨n2, hn2, h⟩ := bind_eq_ok.1 h
  obtain ⟨N2, hN2, h⟩ := bind_eq_ok.1 h
  obtain ⟨⟨m1, f⟩, h1, h⟩ := bind_eq_ok.1 h
  obtain ⟨m2, h2, h⟩ := bind_eq_ok.1 h
  obtain ⟨m3, h3, h⟩ := bind_eq_ok.1 h
  cases h
  dsimp only at h2
  obtain ⟨st1, e', g, E', hrem, hE'⟩ := removeEdge_step hm hd h1
  have hm1 := hm.step st1
  have hch1 := hm.removeEdge_change hrem.w hrem.h hrem.px
  obtain ⟨ha1, hanch⟩ := ha.removeEdge hm hm1 hrem
  obtain ⟨b1, b2, b3, b4, b5⟩ := hm.ends e' E' hrem.edge hrem.live
  have hee : e' = e := by
    have hdl : m.look d.x d.y d.dir = (.line, e') := by rcases hE' with rfl | rfl <;> assumption
    unfold edgeLabel at he
    rw [hm.nb hd, add_zero, hdl] at he
    exact Outcome.ok.inj he
  subst hee
  obtain rfl : E' = E := by
    have := (edge_ok hE).1
    rw [hrem.edge] at this
    exact Option.some.inj this
  have p1 : E'.start ∈ dartsAt m n1 := by
    rw [hm.nodeLabel b1] at hn1
    exact ⟨b1, Prod.ext b1.node (Outcome.ok.inj hn1)⟩
  have p2 : E'.stop ∈ dartsAt m n2 := by
    rw [hm.nodeLabel b2] at hn2
    exact ⟨b2, Prod.ext b2.node (Outcome.ok.inj hn2)⟩
  have hiso : ∀ n, (dartsAt m n).Nonempty → ∀ A : Node, m1.nodes[n]? = some A → A.live = true → ¬(dartsAt m1 n).Nonempty →
      AtIsolated m1 A.anchor ∧ (m1.px A.anchor.x A.anchor.y).2 = n := by
    intro n hne A hA hAl hno
    have hmem := hanch n A hA hAl hne
    refine ⟨atIsolated_of hm hm1 hch1 hmem hno, ?_⟩
    rw [(hch1.vertex _ _ n hmem.1.inside).2 ⟨hmem.2, trivial⟩]
  have hedge1 : ∀ A, m1.edges[e']? = some A → A.live = false := by
    intro A hA
    rw [hrem.edges, List.getElem?_modify_eq, hrem.edge] at hA
    cases hA; rfl
  obtain ⟨r2, ed2, set2, -⟩ := dropNode_settled hm1 ha1 (hiso n1 ⟨_, p1⟩) h2
  have r12 : DartReach m m2 := (Relation.ReflTransGen.single st1).trans r2
  by_cases hn : n1 ≠ n2
  · rw [if_pos hn] at h3
    have hm2 := hm1.reach r2
    have ha2 := ha1.reach hm1 r2
    have hiso2 : ∀ A : Node, m2.nodes[n2]? = some A → A.live = true → ¬(dartsAt m2 n2).Nonempty →
        AtIsolated m2 A.anchor ∧ (m2.px A.anchor.x A.anchor.y).2 = n2 := by
      rcases dropNode_step hm1 ha1 (hiso n1 ⟨_, p1⟩) h2 with ⟨rfl, -⟩ | ⟨-, -, c2, -, f2, hch2, -⟩
      · exact hiso n2 ⟨_, p2⟩
      · intro A hA hAl hno
        rw [c2, modify_ne hn] at hA
        exact isolated_after hm1 hch2 hn (hiso n2 ⟨_, p2⟩ A hA hAl) hno
    obtain ⟨r3, ed3, set3, keep⟩ := dropNode_settled hm2 ha2 hiso2 h3
    refine ⟨r12.trans r3, e', E', n1, n2, he, hE, hn1, hn2, ?_, ?_⟩
    · rw [ed3, ed2]; exact hedge1
    · rintro n (rfl | rfl)
      · exact keep _ hn set2
      · exact set3
  · rw [if_neg hn] at h3
    cases h3
    obtain rfl := not_not.1 hn
    refine ⟨r12, e', E', n1, n1, he, hE, hn1, hn2, ?_, ?_⟩
    · rw [ed2]; exact hedge1
    · rintro n (rfl | rfl) <;> exact set2

/-- **C95, step.** In images of at most 2^14 columns and rows, an operation of the pyramid is a history of C93. -/
theorem pyrStep_reach (hm : Whole m) (ha : Anchors m) (hw : m.w ≤ 2 ^ 14) (hh : m.h ≤ 2 ^ 14) (h : PyrStep m m') : DartReach m m' := by
  obtain ⟨op, d, s, l, hc, hs, hp⟩ := h
  have hin : m.inside d.x d.y := by
    cases op
    case removeIsolatedNode => exact AtIsolated.inside hc
    all_goals exact IsDart.inside hc
  obtain ⟨s', t1, -, -, t2⟩ := serialize_roundtrip (d := d) hin.1 (by have := hin.2.1; omega) hin.2.2.1 (by have := hin.2.2.2; omega)
  rw [hs] at t1
  obtain rfl := Outcome.ok.inj t1
  rw [t2] at hp
  cases op with
  | removeIsolatedNode => exact .single ⟨.removeIsolatedNode d, l, hc, hp⟩
  | mergeFaces => exact .single ⟨.mergeFaces d, l, hc, hp⟩
  | removeBridge => exact .single ⟨.removeBridge d, l, hc, hp⟩
  | mergeEdges => exact .single ⟨.mergeEdges d, l, hc, hp⟩
  | removeEdge => exact .single (removeEdge_step hm hc hp).1
  | removeEdgeWithEnds => exact (removeEdgeWithEnds_steps hm ha hc hp).1

theorem pyrReach_reach (hm : Whole m) (ha : Anchors m) (hw : m.w ≤ 2 ^ 14) (hh : m.h ≤ 2 ^ 14) (h : PyrReach m m') : DartReach m m' := by
  induction h with
  | refl => exact .refl
  | tail _ h2 ih =>
    obtain ⟨e1, e2⟩ := hm.reachSize ih
    exact ih.trans (pyrStep_reach (hm.reach ih) (ha.reach hm ih) (by rw [e1]; exact hw) (by rw [e2]; exact hh) h2)

end

/-- after construction -/
theorem initMap_anchors {w h : Nat} {src : Int → Int → Bool} {cells : Int → Int → CellType}
    (hi : initCellImage .vertex (w + 4) (h + 4) (contourImage w h src) = .ok cells) {v : Components} (hv : v.Sane (w + 4) (h + 4) cells)
    (hn : NoHoles (typedMap (w + 4) (h + 4) cells v)) {mL : Map} {N n : Nat} (hr : labelCells (w + 4) (h + 4) cells v = .ok (mL, N, n))
    {o : Oracle} (hholes : ∀ l, (mL.cell (.vertex, l)).Nonempty → o.crackArea l = (mL.cell (.vertex, l)).card % 2 ^ 32)
    {m0 : Map} (h0 : initMap .vertex w h src v o = .ok m0)
    (hfew : ∀ l, { d | IsDart m0 d ∧ m0.px d.x d.y = (.vertex, l) }.ncard < 2 ^ 16) : Anchors m0 ∧ m0.w = w + 4 ∧ m0.h = h + 4 := by
  have hmap : FromContours .vertex (contourImage w h src) (typedMap (w + 4) (h + 4) cells v) := ⟨cells, hi, fun _ _ _ => rfl⟩
  obtain ⟨hc, ht, hno⟩ := contours_navigable rfl rfl hmap
  have hnl0 : NodesLabelled (typedMap (w + 4) (h + 4) cells v) := by
    intro x y k _ h1 h2
    have hnode0 : ∀ x y, cells x y = .vertex → (typedMap (w + 4) (h + 4) cells v).px x y = (.vertex, v.node x y) := by
      intro x y hx
      unfold typedMap
      dsimp only
      rw [if_pos hx, hx]
    have h1' : cells x y = .vertex := h1
    have h2' : cells (x + dx k) (y + dy k) = .vertex := h2
    show ((typedMap (w + 4) (h + 4) cells v).px _ _).2 = _
    rw [hnode0 _ _ h1', hnode0 _ _ h2']
    exact hv.nodeNext x y k h1' h2'
  obtain ⟨-, -, r3, r4, -, -, -, -, hdeg, -⟩ := initMap_start_partial hi hv (oneRim_of_noHoles hc (hno rfl) hnl0 hn) hr hholes h0
  refine ⟨⟨hfew, fun l A hA hl hne => ?_⟩, r3, r4⟩
  obtain ⟨d, h1, h2⟩ := hne
  exact (hdeg l A hA hl).2 d h1 h2

/-- **C95.** Every history of recorded operations keeps the map exact (the conclusion is that of C93), and nodes know one of their darts.

Partial: hypotheses as in C93 (no node encloses anything, the component labellings are sound, operations are called with darts of the map and
return normally); the image with its frame has at most 2^14 columns and rows (see `serialize_violated`), and no node has 2^16 darts. -/
theorem pyramid_exact_partial {w h : Nat} (hw : w + 4 ≤ 2 ^ 14) (hh : h + 4 ≤ 2 ^ 14) {src : Int → Int → Bool} {cells : Int → Int → CellType}
    (hi : initCellImage .vertex (w + 4) (h + 4) (contourImage w h src) = .ok cells) {v : Components} (hv : v.Sane (w + 4) (h + 4) cells)
    (hn : NoHoles (typedMap (w + 4) (h + 4) cells v)) {mL : Map} {N n : Nat} (hr : labelCells (w + 4) (h + 4) cells v = .ok (mL, N, n))
    {o : Oracle} (hholes : ∀ l, (mL.cell (.vertex, l)).Nonempty → o.crackArea l = (mL.cell (.vertex, l)).card % 2 ^ 32)
    {m0 : Map} (h0 : initMap .vertex w h src v o = .ok m0)
    (hfew : ∀ l, { d | IsDart m0 d ∧ m0.px d.x d.y = (.vertex, l) }.ncard < 2 ^ 16) {m : Map} (hm : PyrReach m0 m) :
    Consistent m ∧ Outer m ∧
    (∀ d, IsDart m d → EndsFit m d ∧ ∃ d', alpha m d = .ok d' ∧ IsDart m d' ∧ d' ≠ d ∧ alpha m d' = .ok d ∧ edgeLabel m d' = edgeLabel m d ∧
      leftFace m d' = rightFace m d ∧ rightFace m d' = leftFace m d) ∧
    (∀ d e, IsDart m d → IsDart m e → edgeLabel m e = edgeLabel m d → e = d ∨ alpha m d = .ok e) ∧
    (∀ d, IsDart m d → ∃ d', sigma m 1 d = .ok d' ∧ IsDart m d' ∧ sigma m 7 d' = .ok d ∧ nodeLabel m d' = nodeLabel m d ∧
      rightFace m d' = leftFace m d) ∧
    (∀ d e, IsDart m d → IsDart m e → nodeLabel m e = nodeLabel m d → ∃ i, sigmas m i d = .ok e) ∧
    (∀ (l : Nat) (A : Node), m.nodes[l]? = some A → A.live = true →
      A.degree = { d | IsDart m d ∧ m.px d.x d.y = (.vertex, l) }.ncard ∧
      (A.degree ≠ 0 → IsDart m A.anchor ∧ m.px A.anchor.x A.anchor.y = (.vertex, l))) ∧
    -- removal of an edge with its ends leaves no end without darts
    (∀ d m' l, IsDart m d → removeEdgeWithEnds m d = .ok (m', l) → PyrReach m0 m' ∧ ∃ e E n1 n2, edgeLabel m d = .ok e ∧ m.edge e = .ok E ∧
      nodeLabel m E.start = .ok n1 ∧ nodeLabel m E.stop = .ok n2 ∧ (∀ A, m'.edges[e]? = some A → A.live = false) ∧
      ∀ k, k = n1 ∨ k = n2 → ∀ A : Node, m'.nodes[k]? = some A → A.live = true →
        ∃ d', IsDart m' d' ∧ m'.px d'.x d'.y = (.vertex, k)) := by
  have hW := initMap_whole hi hv hn hr hholes h0
  obtain ⟨hA, ew, eh⟩ := initMap_anchors hi hv hn hr hholes h0 hfew
  have hreach := pyrReach_reach hW hA (by rw [ew]; exact hw) (by rw [eh]; exact hh) hm
  have hWm := hW.reach hreach
  have hAm := hA.reach hW hreach
  obtain ⟨q1, q2, q3, q4, q5, q6, q7⟩ := whole_exact hWm
  refine ⟨q1, q2, q3, q4, q5, q6, fun l A hAl hl => ?_, fun d m' l hd hr' => ?_⟩
  · have hdeg := q7 l A hAl hl
    have hlt : { d | IsDart m d ∧ m.px d.x d.y = (.vertex, l) }.ncard < 2 ^ 16 := hAm.few l
    rw [Nat.mod_eq_of_lt hlt] at hdeg
    refine ⟨hdeg, fun h => ?_⟩
    refine hAm.anchor l A hAl hl ((Set.ncard_pos (dartsAt_finite m l)).1 ?_)
    show 0 < { d | IsDart m d ∧ m.px d.x d.y = (.vertex, l) }.ncard
    omega
  · obtain ⟨e1, e2⟩ := hW.reachSize hreach
    have hin := hd.inside
    obtain ⟨s', t1, -, -, t2⟩ := serialize_roundtrip (d := d) hin.1 (by have := hin.2.1; omega) hin.2.2.1 (by have := hin.2.2.2; omega)
    exact ⟨hm.tail ⟨.removeEdgeWithEnds, d, s', l, hd, t1, by rw [t2]; exact hr'⟩, (removeEdgeWithEnds_steps hWm hAm hd hr').2⟩

/-! ## A concrete history -/

/-- few darts in small images -/
theorem few_of_small {m : Map} (l : Nat) (h : m.w * m.h * 8 < 2 ^ 16) : { d | IsDart m d ∧ m.px d.x d.y = (.vertex, l) }.ncard < 2 ^ 16 := by
  let S := (Finset.Ico (-2) ((m.w : Int) - 2) ×ˢ Finset.Ico (-2) ((m.h : Int) - 2)) ×ˢ (Finset.univ : Finset (Fin 8))
  have hS : (S : Set ((Int × Int) × Fin 8)).ncard = m.w * m.h * 8 := by
    rw [Set.ncard_coe_finset]
    simp [S, Finset.card_product]
  refine lt_of_le_of_lt (Set.ncard_le_ncard_of_injOn (t := (S : Set ((Int × Int) × Fin 8))) (fun d => ((d.x, d.y), d.dir)) ?_ ?_ S.finite_toSet) (hS ▸ h)
  · rintro d ⟨hd, -⟩
    have h := hd.inside
    unfold Map.inside at h
    simp only [S, Finset.mem_coe, Finset.mem_product, Finset.mem_Ico, Finset.mem_univ, and_true]
    omega
  · rintro ⟨x, y, δ⟩ - ⟨x', y', δ'⟩ - e
    simp only [Prod.mk.injEq] at e
    obtain ⟨⟨rfl, rfl⟩, rfl⟩ := e
    rfl

/-- the frame of `frame_exact` after removal of its upper edge with its ends: both have other darts -/
def pyr1 : Map := theMap (perform frame0 .removeEdgeWithEnds 16385)

/-- and of its left edge: the upper left node is removed, too -/
def pyr2 : Map := theMap (perform pyr1 .removeEdgeWithEnds (6 * 2 ^ 28 + 16385))

theorem pyr_checks : (dartCheck frame0 (-1) (-1) 0 && decide (theLabel (perform frame0 .removeEdgeWithEnds 16385) = some 0) &&
    (dartCheck pyr1 (-1) (-1) 6 && decide (theLabel (perform pyr1 .removeEdgeWithEnds (6 * 2 ^ 28 + 16385)) = some 0)) &&
    (decide (pyr1.nodes.map (fun N => (N.live, N.degree, N.anchor)) = [(false, 0, noDart), (true, 1, ⟨-1, -1, 6⟩), (true, 1, ⟨1, -1, 6⟩),
      (true, 2, ⟨-1, 1, 0⟩), (true, 2, ⟨1, 1, 4⟩)]) &&
    decide (pyr2.nodes.map (fun N => (N.live, N.degree, N.anchor)) = [(false, 0, noDart), (false, 0, ⟨-1, -1, 6⟩), (true, 1, ⟨1, -1, 6⟩),
      (true, 1, ⟨-1, 1, 0⟩), (true, 2, ⟨1, 1, 4⟩)])) &&
    decide (frame0.w = 5 ∧ frame0.h = 5)) = true := by
  decide +kernel

theorem pyr_history : PyrReach frame0 pyr1 ∧ PyrReach pyr1 pyr2 ∧
    pyr1.nodes.map (fun N => (N.live, N.degree, N.anchor)) = [(false, 0, noDart), (true, 1, ⟨-1, -1, 6⟩), (true, 1, ⟨1, -1, 6⟩),
      (true, 2, ⟨-1, 1, 0⟩), (true, 2, ⟨1, 1, 4⟩)] ∧
    pyr2.nodes.map (fun N => (N.live, N.degree, N.anchor)) = [(false, 0, noDart), (false, 0, ⟨-1, -1, 6⟩), (true, 1, ⟨1, -1, 6⟩),
      (true, 1, ⟨-1, 1, 0⟩), (true, 2, ⟨1, 1, 4⟩)] := by
  have h := pyr_checks
  simp only [Bool.and_eq_true] at h
  obtain ⟨⟨⟨⟨a1, a2⟩, b1, b2⟩, c1, c2⟩, -⟩ := h
  exact ⟨.single ⟨.removeEdgeWithEnds, ⟨-1, -1, 0⟩, _, 0, dartCheck_spec a1, by decide +kernel, theMap_spec (of_decide_eq_true a2)⟩,
    .single ⟨.removeEdgeWithEnds, ⟨-1, -1, 6⟩, _, 0, dartCheck_spec b1, by decide +kernel, theMap_spec (of_decide_eq_true b2)⟩,
    of_decide_eq_true c1, of_decide_eq_true c2⟩

/-- The frame meets the hypotheses, and the theorem speaks about the node at the lower left after the history. -/
theorem pyr_exact : Consistent pyr2 ∧ ∃ A, pyr2.nodes[3]? = some A ∧ A.live = true ∧ A.degree = 1 ∧ IsDart pyr2 A.anchor := by
  obtain ⟨hi, hv, hn, N, n, hr, hholes, h0⟩ := frame_meets
  obtain ⟨q1, q2, -, q3⟩ := pyr_history
  have hs := (Bool.and_eq_true_iff.1 pyr_checks).2
  have hs := of_decide_eq_true hs
  obtain ⟨p1, -, -, -, -, -, p2, -⟩ := pyramid_exact_partial (by norm_num) (by norm_num) hi hv hn hr hholes h0
    (fun l => few_of_small l (by rw [hs.1, hs.2]; norm_num)) (q1.trans q2)
  have h3 : (pyr2.nodes.map (fun N => (N.live, N.degree, N.anchor)))[3]? = some (true, 1, ⟨-1, 1, 0⟩) := by rw [q3]; rfl
  rw [List.getElem?_map] at h3
  obtain ⟨A, hA, e⟩ := Option.map_eq_some_iff.1 h3
  simp only [Prod.mk.injEq] at e
  exact ⟨p1, A, hA, e.1, e.2.1, ((p2 3 A hA e.1).2 (by rw [e.2.1]; decide)).1⟩

end Verif.FourEight.Props
