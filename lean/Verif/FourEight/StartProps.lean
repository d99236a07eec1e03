import Verif.FourEight.LabelProps
import Verif.FourEight.StartTotal
import Verif.FourEight.Examples

/-!
# The pixel based map after construction from a source image (C92)
-/

namespace Verif.FourEight.Props
open Verif Verif.CellImage Verif.FourEight

/-- **C92.** What the constructor returns for a source image of any size that is accepted with nodes at corners, with labels as VIGRA
promises them, if no node hides an edge in a hole (see `labelCells_violated`) and the contour around a node encloses nothing but the node
(`mL` is the labelled image): all stored information fits the image, every edge found by the labelling exists, and the stored ends of
every edge are the two darts that are found by following its pixels.  The degree of a node is the number of its darts (as `unsigned short`),
and its anchor is one of them, if there is any.  So `nextAlpha` is the same as before the lists existed, every dart
may be passed to `mergeFaces`, and the information still fits after any history of operations. -/
theorem initMap_start_partial {w h : Nat} {src : Int → Int → Bool} {cells : Int → Int → CellType}
    (hi : initCellImage .vertex (w + 4) (h + 4) (contourImage w h src) = .ok cells) {v : Components} (hv : v.Sane (w + 4) (h + 4) cells)
    (ho : OneRim (typedMap (w + 4) (h + 4) cells v)) {mL : Map} {N n : Nat} (hr : labelCells (w + 4) (h + 4) cells v = .ok (mL, N, n))
    {o : Oracle} (hholes : ∀ l, (mL.cell (.vertex, l)).Nonempty → o.crackArea l = (mL.cell (.vertex, l)).card % 2 ^ 32)
    {m : Map} (hm : initMap .vertex w h src v o = .ok m) :
    Consistent m ∧ Outer m ∧ m.w = w + 4 ∧ m.h = h + 4 ∧ m.px = mL.px ∧ (∀ l, 1 ≤ l → l ≤ n → HasEdge m l) ∧
    (∀ d, IsDart m d → alpha m d = alpha mL d) ∧ (∀ d, IsDart m d → EndsFit m d) ∧
    (∀ (l : Nat) (A : Node), m.nodes[l]? = some A → A.live = true →
      A.degree = { d | IsDart m d ∧ m.px d.x d.y = (.vertex, l) }.ncard % 2 ^ 16 ∧
      ∀ d, IsDart m d → m.px d.x d.y = (.vertex, l) → IsDart m A.anchor ∧ m.px A.anchor.x A.anchor.y = (.vertex, l)) ∧
    m.init = true ∧
    (∀ (l : Nat) (E : Edge), m.edges[l]? = some E → E.live = true →
      IsDart m E.start ∧ m.look E.start.x E.start.y E.start.dir = (.line, l) ∧ alpha mL E.start = .ok E.stop) ∧
    ∀ m', Reach m m' → Consistent m' ∧ Outer m' := by
  obtain ⟨k1, k2, k3, k4, k5, k6, k7, k8, k9, k10, k11, k12, k13, k14, k15, k16⟩ := labelCells_labels_partial hi hv ho hr
  have hmap : FromContours .vertex (contourImage w h src) (typedMap (w + 4) (h + 4) cells v) := ⟨cells, hi, fun _ _ _ => rfl⟩
  obtain ⟨hc, ht, hno⟩ := contours_navigable rfl rfl hmap
  have hno := hno rfl
  have hty0 : ∀ x y, ((typedMap (w + 4) (h + 4) cells v).px x y).1 = cells x y := fun _ _ => rfl
  have hnode0 : ∀ x y, cells x y = .vertex → (typedMap (w + 4) (h + 4) cells v).px x y = (.vertex, v.node x y) := by
    intro x y hx
    unfold typedMap
    dsimp only
    rw [if_pos hx, hx]
  have hnl0 : NodesLabelled (typedMap (w + 4) (h + 4) cells v) := by
    intro x y k _ h1 h2
    rw [hty0] at h1
    have h2' : cells (x + dx k) (y + dy k) = .vertex := by rw [← hty0]; exact h2
    show ((typedMap (w + 4) (h + 4) cells v).px _ _).2 = _
    rw [hnode0 _ _ h1, hnode0 _ _ h2']
    exact hv.nodeNext x y k h1 h2'
  have hins : ∀ x y, mL.inside x y ↔ (typedMap (w + 4) (h + 4) cells v).inside x y := by
    intro x y; unfold Map.inside; rw [k1, k2]; rfl
  have hoL : OneRim mL := by
    refine oneRim_grown (N := v.maxNode) hc hno hnl0 k7 k9 k5 k1 k2 ?_ ?_ ?_ ho
    · intro x y _ h1
      rw [hnode0 _ _ h1]
      exact (hv.node x y h1).2
    · intro x y h1 h2
      rw [hnode0 _ _ h2]
      exact k10 x y ((hins x y).2 h1) h2
    · intro x y h1
      rcases hc.types x y h1 with e | e | e
      · left
        rw [k10 x y ((hins x y).2 h1) e, e]
      · rcases k13 x y ((hins x y).2 h1) e with f | f
        · left; rw [f, e]
        · refine Or.inr ⟨f.1, by rw [e]; decide, f.2.1, fun x' y' g => f.2.2.2.1 x' y' ((hins _ _).2 g)⟩
      · left
        by_cases hI : Inner (w + 4) (h + 4) x y
        · rw [k11 x y hI e, e]
        · rw [k12 x y ((hins x y).2 h1) hI, e]
  have hring : Framed mL := by
    intro x y h1 h2
    refine k12 x y h1 fun hI => ?_
    rw [k1, k2] at h2
    unfold Inner at hI
    omega
  unfold initMap at hm
  rw [hi, Outcome.bind_ok, hr, Outcome.bind_ok] at hm
  obtain ⟨m1, h1, hm⟩ := Outcome.bind_eq_ok.1 hm
  obtain ⟨m2, h2, hm⟩ := Outcome.bind_eq_ok.1 hm
  obtain ⟨m3, h3, hm⟩ := Outcome.bind_eq_ok.1 hm
  cases hm
  dsimp only at h1 h2
  have c1 : mL.nodeCount = 0 := by rw [k16]; rfl
  have c2 : mL.edgeCount = 0 := by rw [k16]; rfl
  have c3 : mL.faceCount = 0 := by rw [k16]; rfl
  have hlab : ∀ p q, mL.isLine p → SameEdge mL p q → mL.label p = mL.label q :=
    fun p q hp hs => (k4.same p q hp (SameEdge.isLine k7 hp hs)).2 hs
  have hlines : ∀ (x y : Int) (l : Nat), mL.inside x y → mL.px x y = (.line, l) → HasEdge m3 l :=
    fun x y l a b => lists_lines k7 k9 k5 hoL hring c1 hholes hlab k15 h1 h2 h3 a b
  have hw1 : 1 ≤ mL.w := by rw [k1]; omega
  have hh1 : 1 ≤ mL.h := by rw [k2]; omega
  obtain ⟨r1, r2, r3, r4⟩ := lists_consistent hw1 hh1 hring c1 c2 c3 h1 h2 h3 hlines
  -- the stored ends
  obtain ⟨p1, p2, p3, p4⟩ := initNodeList_anchors k7 hring c1 hholes h1
  have i1 := initNodeList_done hring c1 h1
  have i2 := initEdgeList_inv (i1.edgeCount.trans c2) h2
  have i3 := initFaceList_inv (by rw [i2.w, i1.w]; exact hw1) (by rw [i2.h, i1.h]; exact hh1) (i2.faceCount.trans (i1.faceCount.trans c3)) i2.fresh h3
  have hpx : m3.px = mL.px := i3.px.trans (i2.px.trans p1)
  have hent : Entries mL m3 := initFaceList_entries h3
    (initEdgeList_entries k7 k9 k8 k3 (sameKinds_px i1.w i1.h p1) p1 (p3.trans k3) p2 h2)
  have hs : SameKinds mL { m3 with init := true } := sameKinds_px r3 r4 hpx
  have hnb : ({ m3 with init := true } : Map).nb = mL.nb := nb_same r3 r4 hpx
  have hed : ∀ d, IsDart mL d → mL.nb d 0 = .ok (.line, mL.label d.front) := by
    intro d hd
    rw [k7.nb hd.inside hd.rim.nonregion, add_zero]
    exact congrArg Outcome.ok (Prod.ext hd.edge rfl)
  have hel : ∀ d, IsDart mL d → edgeLabel mL d = .ok (mL.label d.front) := by
    intro d hd
    unfold edgeLabel; rw [hed d hd]; rfl
  -- the entry of the edge at a dart
  have hend : ∀ d, IsDart mL d → ∃ E, m3.edges[mL.label d.front]? = some E ∧ E.live = true ∧ IsDart mL E.start ∧ IsDart mL E.stop ∧
      mL.label E.start.front = mL.label d.front ∧ mL.label E.stop.front = mL.label d.front ∧ alpha mL E.start = .ok E.stop ∧
      alpha mL E.stop = .ok E.start ∧ (d = E.start ∨ d = E.stop) := by
    intro d hd
    have hfr : mL.isLine d.front := ⟨(hd.link.swap k7).inside, hd.edge⟩
    obtain ⟨E, e1, e2⟩ := hlines _ _ _ hfr.1 (Prod.ext hfr.2 rfl)
    obtain ⟨e3, e4, e5⟩ := hent _ E e1 e2
    obtain ⟨d', a1, a2, a3, -, -⟩ := alpha_involution k7 k8 k3 e3
    rw [e5] at a1
    obtain rfl := Outcome.ok.inj a1
    obtain ⟨b1, b2⟩ := edgeLabel_alpha k7 k8 k3 k4 e3 e5 hd
    rw [hel _ a2, hel _ e3] at b1
    rw [hel _ hd, hel _ e3] at b2
    exact ⟨E, e1, e2, e3, a2, e4, (Outcome.ok.inj b1).trans e4, e5, a3, b2 (congrArg Outcome.ok e4.symm)⟩
  refine ⟨r1, r2, r3.trans k1, r4.trans k2, hpx, ?_, ?_, ?_, ?_, rfl, ?_, fun m' hm' => history_consistent r1 r2 hm'⟩
  · intro l a b
    obtain ⟨p, q1, q2⟩ := k4.used l a b
    exact hlines p.1 p.2 l q1.1 (Prod.ext q1.2 q2)
  · intro d hd
    have hd := hs.isDart_iff.1 hd
    obtain ⟨E, e1, e2, e3, e4, e5, e6, e7, e8, e9⟩ := hend d hd
    have hne : E.stop ≠ E.start := by
      obtain ⟨d', a1, -, -, a4, -⟩ := alpha_involution k7 k8 k3 e3
      rw [e7] at a1
      obtain rfl := Outcome.ok.inj a1
      exact a4
    have halpha : alpha { m3 with init := true } d = .ok (if d = E.start then E.stop else E.start) := by
      unfold alpha dartEq isSingular Map.edge
      simp only [hnb, hed d hd, Outcome.bind_ok, e1, e2, ne_eq, not_true_eq_false, if_false, if_true, decide_false, decide_eq_true_eq,
        Bool.false_eq_true]
    rw [halpha]
    rcases e9 with rfl | rfl
    · rw [if_pos rfl, e7]
    · rw [if_neg hne, e8]
  · intro d hd
    have hd := hs.isDart_iff.1 hd
    obtain ⟨E, e1, e2, e3, e4, e5, e6, e7, e8, e9⟩ := hend d hd
    obtain ⟨⟨l, j, f1, f2⟩, ⟨r, j', f3, f4⟩⟩ := dart_faces k7 k8 e3
    obtain ⟨s1, s2⟩ := alpha_faces k7 k8 k6 k3 e3 e7
    have hcell : ∀ j l, mL.look E.start.x E.start.y j = (.region, l) → (({ m3 with init := true } : Map).cell (.region, l)).Nonempty := by
      intro j l hl
      refine ⟨(E.start.x + dx j, E.start.y + dy j), mem_cell.2 ⟨(hs.inside _ _).2 (k7.near e3.inside e3.rim.nonregion j), ?_⟩⟩
      show m3.px _ _ = _
      rw [hpx]; exact hl
    have hl : ∀ d, leftFace { m3 with init := true } d = leftFace mL d := leftFace_same (m' := { m3 with init := true }) r3 r4 hpx
    have hr' : ∀ d, rightFace { m3 with init := true } d = rightFace mL d := rightFace_same (m' := { m3 with init := true }) r3 r4 hpx
    refine ⟨rfl, _, E, l, r, ?_, e1, e2, e9, ?_, ?_, ?_, ?_, ?_, ?_, hcell _ _ f2, hcell _ _ f4⟩
    · rw [hnb, hed d hd]
    · rw [hnb, hed _ e3, e5]
    · rw [hnb, hed _ e4, e6]
    · exact (hl _).trans f1
    · exact (hr' _).trans f3
    · exact (hl _).trans (s1.trans f3)
    · exact (hr' _).trans (s2.trans f1)
  · intro l A hA hAl
    have hA1 : m1.nodes[l]? = some A := by
      have : m3.nodes[l]? = some A := hA
      rw [i3.nodes, i2.nodes] at this
      exact this
    have hset : { d | IsDart { m3 with init := true } d ∧ m3.px d.x d.y = (.vertex, l) } = dartsAt mL l := by
      ext d
      show _ ∧ m3.px d.x d.y = _ ↔ _ ∧ _
      rw [hs.isDart_iff, hpx]
    obtain ⟨d1, d2⟩ := degree_darts k7 k9 k5 hoL p2 p4 hA1 hAl
    refine ⟨d1.trans (by rw [← hset]; rfl), fun d hd hp => ?_⟩
    have hmem : d ∈ dartsAt mL l := by rw [← hset]; exact ⟨hd, hp⟩
    have := d2 ⟨d, hmem⟩
    rw [← hset] at this
    exact this
  · intro l E e1 e2
    obtain ⟨e3, e4, e5⟩ := hent l E e1 e2
    refine ⟨hs.isDart e3, ?_, e5⟩
    show m3.px _ _ = _
    rw [hpx]
    exact Prod.ext e3.edge e4

/-! ## Example -/

/-- what VIGRA returns for the closed contour in a frame: nodes of one pixel, two components of contours -/
def ringOracle : Oracle :=
  ⟨fun _ => 1, fun _ => [], fun x y => if cellsOf .vertex 5 5 ringSrc x y = .region then 0 else if 0 < x ∧ x < 4 ∧ 0 < y ∧ y < 4 then 2 else 1, 2⟩

/-- the labelled image of an outcome -/
def labelled (r : Outcome (Map × Nat × Nat)) : Map :=
  match r with
  | .ok r => r.1
  | _ => ⟨0, 0, fun _ _ => (.region, 0), [], [], [], 0, 0, 0, false⟩

theorem labelled_spec {r : Outcome (Map × Nat × Nat)} (h : (theLabels r []).isSome = true) : ∃ N n, r = .ok (labelled r, N, n) := by
  cases r with
  | ok r => exact ⟨r.2.1, r.2.2, rfl⟩
  | _ => cases h

def ringLabelled : Map := labelled (labelCells (5 + 4) (5 + 4) (cellsOf .vertex 5 5 ringSrc) ringComponents)

/-- what is stored for the edges, and the counts -/
def theEdges (r : Outcome Map) : Option (List (Bool × Nat × Dart × Dart) × Nat × Nat × Nat) :=
  match r with
  | .ok m => some (m.edges.map fun E => (E.live, E.size, E.start, E.stop), m.nodeCount, m.edgeCount, m.faceCount)
  | _ => none

theorem theEdges_spec {r : Outcome Map} {l : List (Bool × Nat × Dart × Dart) × Nat × Nat × Nat} (h : theEdges r = some l) : ∃ m, r = .ok m := by
  cases r with
  | ok m => exact ⟨m, rfl⟩
  | _ => cases h

/-- positions of its nodes -/
def ringNodes (l : Nat) : List (Int × Int) := ([[], [(-1, -1)], [(5, -1)], [(-1, 5)], [(5, 5)], [(2, 1)]][l]?).getD []

theorem card_one {m : Map} {f : Nat → List (Int × Int)} {w h : Nat} (hw : m.w = w) (hh : m.h = h)
    (hone : everywhere w h (fun x y => decide ((m.px x y).1 = .vertex → [(x, y)] = f (m.px x y).2)) = true) {l : Nat}
    (hne : (m.cell (.vertex, l)).Nonempty) : (m.cell (.vertex, l)).card = 1 := by
  obtain ⟨p, hp⟩ := hne
  refine Finset.card_eq_one.2 ⟨p, Finset.eq_singleton_iff_unique_mem.2 ⟨hp, fun q hq => ?_⟩⟩
  have key : ∀ p ∈ m.cell (.vertex, l), [p] = f l := by
    intro p hp
    obtain ⟨a, b⟩ := mem_cell.1 hp
    unfold Map.inside at a
    rw [hw, hh] at a
    have := everywhere_spec hone p.1 p.2 a
    rw [decide_eq_true_eq, b] at this
    exact this rfl
  exact List.singleton_inj.1 ((key q hq).trans (key p hp).symm)

/-- The closed contour of C91 meets the hypotheses: the constructor returns a map with five nodes, five edges and three faces.  The contour
has become an edge that starts and ends at node 5. -/
example : ∃ m N n, labelCells (5 + 4) (5 + 4) (cellsOf .vertex 5 5 ringSrc) ringComponents = .ok (ringLabelled, N, n) ∧
    (∀ l, (ringLabelled.cell (.vertex, l)).Nonempty → ringOracle.crackArea l = (ringLabelled.cell (.vertex, l)).card % 2 ^ 32) ∧
    initMap .vertex 5 5 ringSrc ringComponents ringOracle = .ok m ∧
    theEdges (initMap .vertex 5 5 ringSrc ringComponents ringOracle) = some
      ([(false, 0, noDart, noDart), (true, 5, ⟨-1, -1, 6⟩, ⟨-1, 5, 2⟩), (true, 5, ⟨-1, -1, 0⟩, ⟨5, -1, 4⟩), (true, 5, ⟨5, -1, 6⟩, ⟨5, 5, 2⟩),
        (true, 5, ⟨-1, 5, 0⟩, ⟨5, 5, 4⟩), (true, 3, ⟨2, 1, 5⟩, ⟨2, 1, 7⟩)], 5, 5, 3) := by
  have hE : theEdges (initMap .vertex 5 5 ringSrc ringComponents ringOracle) = some
      ([(false, 0, noDart, noDart), (true, 5, ⟨-1, -1, 6⟩, ⟨-1, 5, 2⟩), (true, 5, ⟨-1, -1, 0⟩, ⟨5, -1, 4⟩), (true, 5, ⟨5, -1, 6⟩, ⟨5, 5, 2⟩),
        (true, 5, ⟨-1, 5, 0⟩, ⟨5, 5, 4⟩), (true, 3, ⟨2, 1, 5⟩, ⟨2, 1, 7⟩)], 5, 5, 3) := by decide +kernel
  obtain ⟨N, n, hl⟩ := labelled_spec (r := labelCells (5 + 4) (5 + 4) (cellsOf .vertex 5 5 ringSrc) ringComponents) (by decide +kernel)
  obtain ⟨m, hm⟩ := theEdges_spec hE
  refine ⟨m, N, n, hl, fun l hne => ?_, hm, hE⟩
  have hcard := card_one (f := ringNodes) (w := 9) (h := 9) (by decide +kernel) (by decide +kernel) (by decide +kernel) hne
  rw [hcard]
  exact (by norm_num : 1 = 1 % 2 ^ 32)

end Verif.FourEight.Props
