import Verif.FourEight.LabelRim
import Verif.FourEight.InitLemmas

/-!
# The lists of cells of a labelled image
-/

namespace Verif.FourEight
open Verif Verif.CellImage

section
variable {m : Map}

/-- what holds for one turn holds for all darts of the node -/
theorem sigmas_turn {d : Dart} {j : Nat} {P : Dart → Prop} (h2 : sigmas m (j + 1) d = .ok d)
    (h3 : ∀ i, i ≤ j → ∃ e, sigmas m i d = .ok e ∧ P e) (i : Nat) (e : Dart) (he : sigmas m i d = .ok e) : P e := by
  have key : ∀ a b : Nat, sigmas m (a + b) d = (sigmas m b d).bind (sigmas m a) := by
    intro a b
    induction a with
    | zero => rw [Nat.zero_add]; cases sigmas m b d <;> rfl
    | succ a iha =>
      rw [Nat.add_right_comm, sigmas, iha]
      cases sigmas m b d <;> rfl
  have hper : ∀ q r : Nat, sigmas m (q * (j + 1) + r) d = sigmas m r d := by
    intro q r
    induction q with
    | zero => rw [Nat.zero_mul, Nat.zero_add]
    | succ q ih =>
      rw [show (q + 1) * (j + 1) + r = (q * (j + 1) + r) + (j + 1) by ring, key, h2, Outcome.bind_ok]
      exact ih
  have hmod := hper (i / (j + 1)) (i % (j + 1))
  rw [Nat.div_add_mod' i (j + 1)] at hmod
  obtain ⟨e', g1, g2⟩ := h3 (i % (j + 1)) (by have := Nat.mod_lt i (show 0 < j + 1 by omega); omega)
  rw [hmod, g1] at he
  cases he
  exact g2

/-- a pixel that is the first of its node in the order of the scan -/
theorem firstOf_scan (hc : Clean m) {pre post : List (Int × Int)} {p : Int × Int} (hl : innerPixels m.w m.h = pre ++ p :: post)
    (hv : (m.px p.1 p.2).1 = .vertex) (hnot : ∀ q ∈ pre, m.px q.1 q.2 ≠ m.px p.1 p.2) : FirstOf m p.1 p.2 := by
  have hpin : m.inside p.1 p.2 := by
    have := mem_inner (w := m.w) (h := m.h) (p := p) (by rw [hl]; simp)
    unfold Inner at this
    unfold Map.inside
    omega
  refine ⟨hpin, hv, fun x' y' hi' hv' hlab => ?_⟩
  have hmem : (x', y') ∈ innerPixels m.w m.h := inner_mem (hc.frame x' y' hi' (by rw [hv']; decide))
  rw [hl] at hmem
  rcases List.mem_append.1 hmem with hm | hm
  · exact absurd (Prod.ext (hv'.trans hv.symm) hlab) (hnot _ hm)
  · rcases List.mem_cons.1 hm with hm | hm
    · rw [← hm]; exact Or.inr ⟨rfl, le_refl _⟩
    · have hsorted := innerPixels_sorted m.w m.h
      rw [hl, List.pairwise_append] at hsorted
      have := (List.pairwise_cons.1 hsorted.2.1).1 _ hm
      rcases this with hh | hh
      · exact Or.inl hh
      · exact Or.inr ⟨hh.1, le_of_lt hh.2⟩

/-! ## nodes -/

/-- the anchors of the nodes -/
def Anchored (m m' : Map) : Prop := ∀ (l : Nat) (N : Node), m'.nodes[l]? = some N → N.live = true →
  ∃ x y, FirstOf m x y ∧ m.px x y = (.vertex, l) ∧ mkDart m ⟨x, y, 4⟩ = .ok N.anchor

theorem sameKinds_px {m' : Map} (hw : m'.w = m.w) (hh : m'.h = m.h) (hp : m'.px = m.px) : SameKinds m m' :=
  ⟨hw, hh, fun x y => by rw [hp]⟩

theorem initNode_anchor (hc : Clean m) {pre post : List (Int × Int)} {p : Int × Int} (hl : innerPixels m.w m.h = pre ++ p :: post)
    {m1 m2 : Map} (hi : NodesInv m pre m1) (ha : Anchored m m1) (h : initNode m1 p = .ok m2) : Anchored m m2 := by
  unfold initNode at h
  rw [hi.px] at h
  by_cases ht : (m.px p.1 p.2).1 ≠ .vertex
  · rw [if_pos ht] at h; cases h
    exact ha
  rw [if_neg ht] at h
  simp only [ne_eq, not_not] at ht
  dsimp only at h
  cases hN : m1.nodes[(m.px p.1 p.2).2]? with
  | none => rw [hN] at h; cases h
  | some N =>
    rw [hN] at h; dsimp only at h
    obtain ⟨m', h1, h⟩ := Outcome.bind_eq_ok.1 h
    have ha' : Anchored m m' := by
      by_cases hlive : N.live = true
      · rw [if_pos hlive] at h1; cases h1; exact ha
      · rw [if_neg hlive] at h1
        obtain ⟨a, hm, h1⟩ := Outcome.bind_eq_ok.1 h1
        obtain ⟨s, _, h1⟩ := Outcome.bind_eq_ok.1 h1
        obtain ⟨deg, _, h1⟩ := Outcome.bind_eq_ok.1 h1
        cases h1
        intro i M hM hML
        dsimp only at hM
        by_cases hi' : (m.px p.1 p.2).2 = i
        · subst hi'
          rw [modify_eq hN] at hM
          cases hM
          refine ⟨p.1, p.2, firstOf_scan hc hl ht fun q hq e => ?_, Prod.ext ht rfl, ?_⟩
          · obtain ⟨b, hb, hbl⟩ := hi.seen.live q hq (m.px p.1 p.2).2 (by rw [e]; exact Prod.ext ht rfl)
            rw [List.getElem?_map, hN] at hb
            cases hb
            exact hlive hbl
          · rw [← (sameKinds_px hi.w hi.h hi.px).mkDart]
            convert hm using 2
        · rw [modify_ne hi'] at hM
          exact ha i M hM hML
    cases h
    intro i M hM hML
    dsimp only at hM
    by_cases hi' : (m.px p.1 p.2).2 = i
    · subst hi'
      obtain ⟨M', hM', rfl⟩ := modify_inv hM
      exact ha' _ M' hM' hML
    · rw [modify_ne hi'] at hM
      exact ha' i M hM hML

theorem initNode_init {m' : Map} {p : Int × Int} (h : initNode m p = .ok m') : m'.init = m.init := by
  unfold initNode at h
  by_cases ht : (m.px p.1 p.2).1 ≠ .vertex
  · rw [if_pos ht] at h; cases h; rfl
  rw [if_neg ht] at h
  dsimp only at h
  cases hN : m.nodes[(m.px p.1 p.2).2]? with
  | none => rw [hN] at h; cases h
  | some N =>
    rw [hN] at h; dsimp only at h
    obtain ⟨c, g1, g2⟩ := Outcome.bind_eq_ok.1 h
    have : c.init = m.init := by
      split at g1
      · cases g1; rfl
      · obtain ⟨_, -, g1⟩ := Outcome.bind_eq_ok.1 g1
        obtain ⟨_, -, g1⟩ := Outcome.bind_eq_ok.1 g1
        obtain ⟨_, -, g1⟩ := Outcome.bind_eq_ok.1 g1
        cases g1; rfl
    cases g2
    exact this

/-- how the degrees of the nodes were found -/
def Counted (m m' : Map) : Prop := ∀ (l : Nat) (N : Node), m'.nodes[l]? = some N → N.live = true →
  ∃ b s, SameKinds m b ∧ isSingular b N.anchor = .ok s ∧ (if s then .ok 0 else countDegree b N.anchor b.fuel N.anchor 0) = .ok N.degree

theorem initNode_counted {pre : List (Int × Int)} {p : Int × Int} {m1 m2 : Map} (hi : NodesInv m pre m1) (ha : Counted m m1)
    (h : initNode m1 p = .ok m2) : Counted m m2 := by
  unfold initNode at h
  rw [hi.px] at h
  by_cases ht : (m.px p.1 p.2).1 ≠ .vertex
  · rw [if_pos ht] at h; cases h
    exact ha
  rw [if_neg ht] at h
  dsimp only at h
  cases hN : m1.nodes[(m.px p.1 p.2).2]? with
  | none => rw [hN] at h; cases h
  | some N =>
    rw [hN] at h; dsimp only at h
    obtain ⟨m', h1, h⟩ := Outcome.bind_eq_ok.1 h
    have ha' : Counted m m' := by
      by_cases hlive : N.live = true
      · rw [if_pos hlive] at h1; cases h1; exact ha
      · rw [if_neg hlive] at h1
        obtain ⟨a, hm, h1⟩ := Outcome.bind_eq_ok.1 h1
        obtain ⟨s, hs, h1⟩ := Outcome.bind_eq_ok.1 h1
        obtain ⟨deg, hd, h1⟩ := Outcome.bind_eq_ok.1 h1
        cases h1
        intro i M hM hML
        dsimp only at hM
        by_cases hi' : (m.px p.1 p.2).2 = i
        · subst hi'
          rw [modify_eq hN] at hM
          cases hM
          exact ⟨m1, s, sameKinds_px hi.w hi.h hi.px, hs, hd⟩
        · rw [modify_ne hi'] at hM
          exact ha i M hM hML
    cases h
    intro i M hM hML
    dsimp only at hM
    by_cases hi' : (m.px p.1 p.2).2 = i
    · subst hi'
      obtain ⟨M', hM', rfl⟩ := modify_inv hM
      exact ha' _ M' hM' hML
    · rw [modify_ne hi'] at hM
      exact ha' i M hM hML

/-- `initNodeList`, if no node has a hole -/
theorem initNodeList_anchors {o : Oracle} {m' : Map} {k : Nat} (hc : Clean m) (hf : Framed m) (h0 : m.nodeCount = 0)
    (hholes : ∀ l, (m.cell (.vertex, l)).Nonempty → o.crackArea l = (m.cell (.vertex, l)).card % 2 ^ 32)
    (h : initNodeList o m k = .ok m') : m'.px = m.px ∧ Anchored m m' ∧ m'.init = m.init ∧ Counted m m' := by
  have hdone := initNodeList_done hf h0 h
  unfold initNodeList at h
  obtain ⟨m1, h1, h⟩ := Outcome.bind_eq_ok.1 h
  have hstart : NodesInv m [] { m with nodes := List.replicate (k + 1) ⟨false, emptyRect, 0, noDart, 0⟩ } := by
    refine ⟨rfl, rfl, rfl, rfl, rfl, rfl, rfl, ?_, ⟨by simp⟩, ?_⟩
    · intro i a ha _
      simp only [List.map_replicate] at ha
      rw [getElem?_replicate_some ha]
      exact ⟨IsBox.empty, rfl⟩
    · simp [h0, List.countP_replicate]
  obtain ⟨i1, i2, i3⟩ := foldO_prefix (P := fun pre b => NodesInv m pre b ∧ Anchored m b ∧ Counted m b)
    (fun pre a post b b' hl hb hs => ⟨initNode_inv hb.1 hs, initNode_anchor hc hl hb.1 hb.2.1 hs, initNode_counted hb.1 hb.2.2 hs⟩) (innerPixels m.w m.h) [] _ _ rfl
    ⟨hstart, fun l N hN hl => by rw [getElem?_replicate_some hN] at hl; exact absurd hl (by simp),
      fun l N hN hl => by rw [getElem?_replicate_some hN] at hl; exact absurd hl (by simp)⟩ h1
  have hex : Exact m .vertex (m1.nodes.map Node.info) := by
    refine Exact.of_collected hf i1.collected ?_ (by simp)
    intro x y i hxy hp
    refine i1.seen.live (x, y) (inner_mem (hc.frame x y hxy (by rw [hp]; exact (by decide : CellType.vertex ≠ .region)))) i hp
  have hstuff : ∀ l, stuffNode o m1 l = .ok m1 := by
    intro l
    unfold stuffNode
    cases hN : m1.nodes[l]? with
    | none => rfl
    | some N =>
      dsimp only
      by_cases hl : N.live = true
      · have hne : (m.cell (.vertex, l)).Nonempty := by
          obtain ⟨x, y, g1, g2, -⟩ := i2 l N hN hl
          exact ⟨(x, y), mem_cell.2 ⟨g1.inside, g2⟩⟩
        have hs : N.size = (m.cell (.vertex, l)).card % 2 ^ 32 := hex.size l N.info (nodes_get hN) hl (by simp)
        rw [if_neg (by simp [hl]), if_pos (by rw [hs]; exact hholes l hne)]
      · rw [if_pos (by simpa using hl)]
  have hall : ∀ ls : List Nat, foldO (stuffNode o) ls m1 = .ok m1 := by
    intro ls
    induction ls with
    | nil => rfl
    | cons l ls ih => rw [foldO, hstuff, Outcome.bind_ok]; exact ih
  rw [hall] at h
  obtain rfl := Outcome.ok.inj h
  exact ⟨i1.px, i2, foldO_keep (P := fun b : Map => b.init = m.init) _ _ _ (fun _ _ _ _ hb hs => (initNode_init hs).trans hb) h1 rfl, i3⟩

/-! ## edges -/

/-- the edge exists -/
def LiveEdge (m : Map) (l : Nat) : Prop := ∃ E, m.edges[l]? = some E ∧ E.live = true

/-- only the list of edges grows -/
structure EdgesGrow (a b : Map) : Prop where
  w : b.w = a.w
  h : b.h = a.h
  px : b.px = a.px
  nodes : b.nodes = a.nodes
  init : b.init = a.init
  live : ∀ l, LiveEdge a l → LiveEdge b l

theorem EdgesGrow.refl (a : Map) : EdgesGrow a a := ⟨rfl, rfl, rfl, rfl, rfl, fun _ h => h⟩

theorem EdgesGrow.trans {a b c : Map} (h : EdgesGrow a b) (h' : EdgesGrow b c) : EdgesGrow a c :=
  ⟨h'.w.trans h.w, h'.h.trans h.h, h'.px.trans h.px, h'.nodes.trans h.nodes, h'.init.trans h.init, fun l hl => h'.live l (h.live l hl)⟩

theorem EdgesGrow.kinds {a b : Map} (h : EdgesGrow a b) : SameKinds a b := sameKinds_px h.w h.h h.px

/-- following an edge depends on the types only -/
theorem SameKinds.alpha {m' : Map} (h : SameKinds m m') (hc : Clean m) (ht : Traceable m) (hin : m.init = false) (hin' : m'.init = false) {d : Dart}
    (hd : IsDart m d) : alpha m' d = alpha m d := by
  obtain ⟨n, hf, hv, hlk⟩ := edge_ends hc ht hd
  rw [Props.alpha_before hc hin hd, Props.alpha_before (h.clean hc) hin' (h.isDart hd), edgelJump_eq hc ht n hd.link hv hlk m.fuel hf,
    edgelJump_eq (h.clean hc) (h.traceable ht) n (h.link hd.link) (by rw [h.nextD, h.look]; exact hv)
      (fun i hi => by rw [h.nextD, h.look]; exact hlk i hi) m'.fuel (by rw [h.fuel]; exact hf), h.nextD]

/-- the stored ends of the edges -/
def Entries (m b : Map) : Prop := ∀ (l : Nat) (E : Edge), b.edges[l]? = some E → E.live = true →
  IsDart m E.start ∧ m.label E.start.front = l ∧ alpha m E.start = .ok E.stop

theorem initEdge_entries (hc : Clean m) (ht : Traceable m) (hin : m.init = false) {a b : Map} (hs : SameKinds m a) (hp : a.px = m.px)
    (hia : a.init = false) {d : Dart} (hd : IsDart m d) (h : initEdge a d = .ok b) (he : Entries m a) : Entries m b := by
  unfold initEdge edgeLabel at h
  have hda := hs.isDart hd
  rw [(hs.clean hc).nb hda.inside hda.rim.nonregion] at h
  simp only [Outcome.map, Outcome.bind_ok, add_zero] at h
  have hlab : (a.look d.x d.y d.dir).2 = m.label d.front := by
    show (a.px _ _).2 = (m.px _ _).2
    rw [hp]; rfl
  rw [hlab] at h
  cases hE : a.edges[m.label d.front]? with
  | none => rw [hE] at h; cases h
  | some E =>
    rw [hE] at h
    dsimp only at h
    by_cases hl : E.live = true
    · rw [if_pos hl] at h
      cases h
      exact he
    · rw [if_neg hl] at h
      obtain ⟨e, h1, h⟩ := Outcome.bind_eq_ok.1 h
      rw [hs.alpha hc ht hin hia hd] at h1
      cases h
      intro l F hF hFl
      dsimp only at hF
      by_cases hi : m.label d.front = l
      · subst hi
        rw [modify_eq hE] at hF
        cases hF
        exact ⟨hd, rfl, h1⟩
      · rw [modify_ne hi] at hF
        exact he l F hF hFl

theorem initEdge_grow (hc : Clean m) {a b : Map} (hs : SameKinds m a) (hp : a.px = m.px) {d : Dart} (hd : IsDart m d) (h : initEdge a d = .ok b) :
    EdgesGrow a b ∧ LiveEdge b (m.label d.front) := by
  unfold initEdge edgeLabel at h
  have hda := hs.isDart hd
  rw [(hs.clean hc).nb hda.inside hda.rim.nonregion] at h
  simp only [Outcome.map, Outcome.bind_ok, add_zero] at h
  have hlab : (a.look d.x d.y d.dir).2 = m.label d.front := by
    show (a.px _ _).2 = (m.px _ _).2
    rw [hp]; rfl
  rw [hlab] at h
  cases hE : a.edges[m.label d.front]? with
  | none => rw [hE] at h; cases h
  | some E =>
    rw [hE] at h
    dsimp only at h
    by_cases hl : E.live = true
    · rw [if_pos hl] at h
      cases h
      exact ⟨EdgesGrow.refl _, E, hE, hl⟩
    · rw [if_neg hl] at h
      obtain ⟨e, -, h⟩ := Outcome.bind_eq_ok.1 h
      cases h
      refine ⟨⟨rfl, rfl, rfl, rfl, rfl, fun l => ?_⟩, _, modify_eq hE, rfl⟩
      rintro ⟨F, hF, hFl⟩
      by_cases hi : m.label d.front = l
      · subst hi; exact ⟨_, modify_eq hE, rfl⟩
      · exact ⟨F, by dsimp only; rw [modify_ne hi]; exact hF, hFl⟩

theorem initEdges_grow (hc : Clean m) (hno : NoCorner m) (dend : Dart) (n : Nat) {a b : Map}
    (hs : SameKinds m a) (hp : a.px = m.px) {d : Dart} (hd : IsDart m d) (h : initEdges dend n d a = .ok b) :
    EdgesGrow a b ∧ ∃ j, sigmas m (j + 1) d = .ok dend ∧ ∀ i, i ≤ j → ∃ e, sigmas m i d = .ok e ∧ LiveEdge b (m.label e.front) := by
  induction n generalizing a d with
  | zero => simp [initEdges] at h
  | succ n ih =>
    rw [initEdges] at h
    obtain ⟨a1, h1, h⟩ := Outcome.bind_eq_ok.1 h
    obtain ⟨d', h2, h⟩ := Outcome.bind_eq_ok.1 h
    obtain ⟨t, h3, h⟩ := Outcome.bind_eq_ok.1 h
    obtain ⟨p1, p2⟩ := initEdge_grow hc hs hp hd h1
    have hs' := hs.trans p1.kinds
    rw [hs'.sigma hc hno hd (Or.inl rfl)] at h2
    obtain ⟨e, g1, g2, -⟩ := Props.sigma_inverse hc hno hd (k := 1) (Or.inl rfl)
    rw [g1] at h2
    obtain rfl := Outcome.ok.inj h2
    rw [dartEq_dart (hs'.clean hc) (hs'.isDart g2)] at h3
    obtain rfl := Outcome.ok.inj h3
    split at h
    · rename_i hb
      rw [decide_eq_true_eq] at hb
      cases h
      refine ⟨p1, 0, ?_, fun i hi => ?_⟩
      · rw [sigmas_head, g1, Outcome.bind_ok]; exact congrArg _ hb
      · obtain rfl : i = 0 := by omega
        exact ⟨d, rfl, p2⟩
    · obtain ⟨q1, j, q2, q3⟩ := ih hs' (p1.px.trans hp) g2 h
      refine ⟨p1.trans q1, j + 1, ?_, fun i hi => ?_⟩
      · rw [sigmas_head, g1, Outcome.bind_ok]; exact q2
      · cases i with
        | zero => exact ⟨d, rfl, q1.live _ p2⟩
        | succ i =>
          rw [sigmas_head, g1, Outcome.bind_ok]
          exact q3 i (by omega)

theorem initEdges_entries (hc : Clean m) (hno : NoCorner m) (ht : Traceable m) (hin : m.init = false) (dend : Dart) (n : Nat) {a b : Map}
    (hs : SameKinds m a) (hp : a.px = m.px) (hia : a.init = false) {d : Dart} (hd : IsDart m d) (h : initEdges dend n d a = .ok b)
    (he : Entries m a) : Entries m b := by
  induction n generalizing a d with
  | zero => simp [initEdges] at h
  | succ n ih =>
    rw [initEdges] at h
    obtain ⟨a1, h1, h⟩ := Outcome.bind_eq_ok.1 h
    obtain ⟨d', h2, h⟩ := Outcome.bind_eq_ok.1 h
    obtain ⟨t, h3, h⟩ := Outcome.bind_eq_ok.1 h
    obtain ⟨p1, -⟩ := initEdge_grow hc hs hp hd h1
    have hs' := hs.trans p1.kinds
    rw [hs'.sigma hc hno hd (Or.inl rfl)] at h2
    obtain ⟨e, g1, g2, -⟩ := Props.sigma_inverse hc hno hd (k := 1) (Or.inl rfl)
    rw [g1] at h2
    obtain rfl := Outcome.ok.inj h2
    have he1 := initEdge_entries hc ht hin hs hp hia hd h1 he
    split at h
    · cases h; exact he1
    · exact ih hs' (p1.px.trans hp) (p1.init.trans hia) g2 h he1

theorem initNodeEdges_entries (hc : Clean m) (hno : NoCorner m) (ht : Traceable m) (hin : m.init = false) {a b : Map} (hs : SameKinds m a)
    (hp : a.px = m.px) (hia : a.init = false) {l : Nat} (h : initNodeEdges a l = .ok b) (ha : Anchored m a) (he : Entries m a) : Entries m b := by
  unfold initNodeEdges at h
  cases hN : a.nodes[l]? with
  | none => rw [hN] at h; cases h; exact he
  | some N =>
    rw [hN] at h
    dsimp only at h
    by_cases hl : N.live = true
    swap
    · rw [if_pos (by simpa using hl)] at h
      cases h
      exact he
    rw [if_neg (by simp [hl])] at h
    obtain ⟨s, h2, h⟩ := Outcome.bind_eq_ok.1 h
    by_cases hsing : s = true
    · rw [if_pos hsing] at h
      cases h
      exact he
    · rw [if_neg hsing] at h
      obtain ⟨x, y, -, -, hmk⟩ := ha l N hN hl
      obtain ⟨ai, av, ad⟩ := mkDart_west hc hmk
      have hline := isSingular_false (hs.clean hc) ((hs.inside _ _).2 ai) (by rw [hs.px]; exact av) (by rw [h2]; simp at hsing; rw [hsing])
      rw [hs.look] at hline
      exact initEdges_entries hc hno ht hin N.anchor _ hs hp hia (ad hline) h he

theorem initNodeEdges_grow (hc : Clean m) (hno : NoCorner m) {a b : Map} (hs : SameKinds m a) (hp : a.px = m.px) {l : Nat}
    (h : initNodeEdges a l = .ok b) (ha : Anchored m a) :
    EdgesGrow a b ∧ ∀ N, a.nodes[l]? = some N → N.live = true → IsDart m N.anchor → ∀ i e, sigmas m i N.anchor = .ok e →
      LiveEdge b (m.label e.front) := by
  unfold initNodeEdges at h
  cases hN : a.nodes[l]? with
  | none => rw [hN] at h; cases h; exact ⟨EdgesGrow.refl _, fun N h => by cases h⟩
  | some N =>
    rw [hN] at h
    dsimp only at h
    by_cases hl : N.live = true
    swap
    · rw [if_pos (by simpa using hl)] at h
      cases h
      exact ⟨EdgesGrow.refl _, fun N' h hl' => by cases h; exact absurd hl' hl⟩
    rw [if_neg (by simp [hl])] at h
    obtain ⟨s, h2, h⟩ := Outcome.bind_eq_ok.1 h
    by_cases hsing : s = true
    · rw [if_pos hsing] at h
      cases h
      refine ⟨EdgesGrow.refl _, fun N' h hl' had => ?_⟩
      cases h
      exfalso
      unfold isSingular at h2
      rw [(hs.clean hc).nb (hs.isDart had).inside (hs.isDart had).rim.nonregion, Outcome.bind_ok, add_zero] at h2
      have := Outcome.ok.inj h2
      rw [hsing, decide_eq_true_eq] at this
      exact this (hs.isDart had).edge
    · rw [if_neg hsing] at h
      obtain ⟨x, y, -, -, hmk⟩ := ha l N hN hl
      obtain ⟨ai, av, ad⟩ := mkDart_west hc hmk
      have hline := isSingular_false (hs.clean hc) ((hs.inside _ _).2 ai) (by rw [hs.px]; exact av) (by rw [h2]; simp at hsing; rw [hsing])
      rw [hs.look] at hline
      obtain ⟨g1, j, g2, g3⟩ := initEdges_grow hc hno N.anchor _ hs hp (ad hline) h
      refine ⟨g1, fun N' h hl' had => ?_⟩
      cases h
      exact sigmas_turn g2 g3

/-- all edges at nodes get entries -/
theorem initEdgeList_all (hc : Clean m) (hno : NoCorner m) {m1 m2 : Map} {k : Nat} (hs : SameKinds m m1) (hp : m1.px = m.px) (ha : Anchored m m1)
    (h : initEdgeList m1 k = .ok m2) (l : Nat) (N : Node) (hN : m1.nodes[l]? = some N) (hl : N.live = true) (hd : IsDart m N.anchor)
    (i : Nat) (e : Dart) (he : sigmas m i N.anchor = .ok e) : LiveEdge m2 (m.label e.front) := by
  unfold initEdgeList at h
  set a0 : Map := { m1 with edges := List.replicate (k + 1) ⟨false, emptyRect, 0, noDart, noDart⟩ } with ha0
  have hinv := foldO_prefix (l := List.range m1.nodes.length) (P := fun pre b => EdgesGrow a0 b ∧ ∀ l ∈ pre, ∀ N, m1.nodes[l]? = some N → N.live = true →
      IsDart m N.anchor → ∀ i e, sigmas m i N.anchor = .ok e → LiveEdge b (m.label e.front))
    (fun pre a post b b' _ hb hstep => by
      obtain ⟨b1, b2⟩ := hb
      obtain ⟨g1, g2⟩ := initNodeEdges_grow hc hno ((sameKinds_px rfl rfl rfl : SameKinds m1 a0) |> hs.trans |>.trans b1.kinds) (b1.px.trans hp) hstep
        (fun l N hN => ha l N (by rw [b1.nodes] at hN; exact hN))
      refine ⟨b1.trans g1, fun l' hl' N' hN' hlive hdart i e he => ?_⟩
      rcases List.mem_append.1 hl' with hm | hm
      · exact g1.live _ (b2 l' hm N' hN' hlive hdart i e he)
      · rw [List.mem_singleton] at hm
        subst hm
        exact g2 N' (by rw [b1.nodes]; exact hN') hlive hdart i e he) (List.range m1.nodes.length) [] a0 m2 rfl
    ⟨EdgesGrow.refl _, fun l hl => by simp at hl⟩ h
  refine hinv.2 l ?_ N hN hl hd i e he
  rw [List.mem_range]
  by_contra hge
  rw [List.getElem?_eq_none (by omega)] at hN
  cases hN

theorem initEdgeList_entries (hc : Clean m) (hno : NoCorner m) (ht : Traceable m) (hin : m.init = false) {m1 m2 : Map} {k : Nat}
    (hs : SameKinds m m1) (hp : m1.px = m.px) (hi1 : m1.init = false) (ha : Anchored m m1) (h : initEdgeList m1 k = .ok m2) : Entries m m2 := by
  unfold initEdgeList at h
  set a0 : Map := { m1 with edges := List.replicate (k + 1) ⟨false, emptyRect, 0, noDart, noDart⟩ } with ha0
  have hinv := foldO_keep (P := fun b : Map => EdgesGrow a0 b ∧ Entries m b) (List.range m1.nodes.length) a0 m2
    (fun l b b' _ hb hstep => by
      obtain ⟨b1, b2⟩ := hb
      have hk := (hs.trans (sameKinds_px rfl rfl rfl : SameKinds m1 a0)).trans b1.kinds
      have hab : Anchored m b := fun l N hN => ha l N (by rw [b1.nodes] at hN; exact hN)
      exact ⟨b1.trans (initNodeEdges_grow hc hno hk (b1.px.trans hp) hstep hab).1,
        initNodeEdges_entries hc hno ht hin hk (b1.px.trans hp) (b1.init.trans hi1) hstep hab b2⟩) h
    ⟨EdgesGrow.refl _, fun l E hE hl => by rw [getElem?_replicate_some hE] at hl; exact absurd hl (by simp)⟩
  exact hinv.2

/-! ## faces -/

theorem innerContour_edges {o : Oracle} {f : Nat} {p : Int × Int} {st st' : FaceState} {k : Fin 8} (h : innerContour o f p st k = .ok st') :
    st'.1.edges = st.1.edges := by
  unfold innerContour at h
  dsimp only at h
  split at h
  · cases h; rfl
  · split at h
    · cases h
    · cases h; rfl
    · obtain ⟨_, -, h⟩ := Outcome.bind_eq_ok.1 h
      cases h; rfl

theorem initFace_live {o : Oracle} {p : Int × Int} {st st' : FaceState} (h : initFace o st p = .ok st') {l : Nat} (hl : LiveEdge st.1 l) :
    LiveEdge st'.1 l := by
  unfold initFace at h
  dsimp only at h
  split at h
  · split at h
    · split at h
      · cases h
      · rename_i E hE
        cases h
        obtain ⟨F, hF, hFl⟩ := hl
        by_cases hi : (st.1.px p.1 p.2).2 = l
        · subst hi
          exact ⟨_, modify_eq hF, hFl⟩
        · exact ⟨F, by dsimp only; rw [modify_ne hi]; exact hF, hFl⟩
    · cases h; exact hl
  · split at h
    · cases h
    · obtain ⟨st1, h1, h⟩ := Outcome.bind_eq_ok.1 h
      cases h
      have e : st1.1.edges = st.1.edges := by
        split at h1
        · obtain ⟨_, -, h1⟩ := Outcome.bind_eq_ok.1 h1
          cases h1; rfl
        · refine foldO_keep (P := fun s : FaceState => s.1.edges = st.1.edges) _ _ _ (fun a b b' _ hb hs => ?_) h1 rfl
          rw [innerContour_edges hs]; exact hb
      obtain ⟨F, hF, hFl⟩ := hl
      exact ⟨F, by dsimp only; rw [e]; exact hF, hFl⟩

theorem initFace_entries {o : Oracle} {p : Int × Int} {st st' : FaceState} (h : initFace o st p = .ok st') (he : Entries m st.1) :
    Entries m st'.1 := by
  unfold initFace at h
  dsimp only at h
  split at h
  · split at h
    · split at h
      · cases h
      · cases h
        intro l F hF hFl
        dsimp only at hF
        by_cases hi : (st.1.px p.1 p.2).2 = l
        · subst hi
          obtain ⟨E, hE, rfl⟩ := modify_inv hF
          exact he _ E hE hFl
        · rw [modify_ne hi] at hF
          exact he l F hF hFl
    · cases h; exact he
  · split at h
    · cases h
    · obtain ⟨st1, h1, h⟩ := Outcome.bind_eq_ok.1 h
      cases h
      have e : st1.1.edges = st.1.edges := by
        split at h1
        · obtain ⟨_, -, h1⟩ := Outcome.bind_eq_ok.1 h1
          cases h1; rfl
        · refine foldO_keep (P := fun s : FaceState => s.1.edges = st.1.edges) _ _ _ (fun a b b' _ hb hs => ?_) h1 rfl
          rw [innerContour_edges hs]; exact hb
      intro l F hF hFl
      dsimp only at hF
      rw [e] at hF
      exact he l F hF hFl

theorem initFaceList_entries {o : Oracle} {a b : Map} {k : Nat} (h : initFaceList o a k = .ok b) (he : Entries m a) : Entries m b := by
  unfold initFaceList at h
  obtain ⟨c, -, h⟩ := Outcome.bind_eq_ok.1 h
  obtain ⟨c', -, h⟩ := Outcome.bind_eq_ok.1 h
  dsimp only at h
  obtain ⟨st, h4, h'⟩ := Outcome.bind_eq_ok.1 h
  cases h'
  exact foldO_keep (P := fun s : FaceState => Entries m s.1) _ _ _ (fun _ _ _ _ hb hs => initFace_entries hs hb) h4 he

theorem initFaceList_live {o : Oracle} {m' : Map} {k l : Nat} (h : initFaceList o m k = .ok m') (hl : LiveEdge m l) : LiveEdge m' l := by
  unfold initFaceList at h
  obtain ⟨a, -, h⟩ := Outcome.bind_eq_ok.1 h
  obtain ⟨a', -, h⟩ := Outcome.bind_eq_ok.1 h
  dsimp only at h
  obtain ⟨st, h4, h'⟩ := Outcome.bind_eq_ok.1 h
  cases h'
  exact foldO_keep (P := fun s : FaceState => LiveEdge s.1 l) _ _ _ (fun _ _ _ _ hb hs => initFace_live hs hb) h4 hl

/-- every labelled edge gets an entry -/
theorem edges_lines {o : Oracle} {N n : Nat} {m1 m2 : Map} (hc : Clean m) (hno : NoCorner m) (hnl : NodesLabelled m) (ho : OneRim m)
    (hf : Framed m) (h0 : m.nodeCount = 0)
    (hholes : ∀ l, (m.cell (.vertex, l)).Nonempty → o.crackArea l = (m.cell (.vertex, l)).card % 2 ^ 32)
    (hlab : ∀ p q, m.isLine p → SameEdge m p q → m.label p = m.label q)
    (hend : ∀ p, m.isLine p → ∃ d, IsDart m d ∧ SameEdge m d.front p)
    (h1 : initNodeList o m N = .ok m1) (h2 : initEdgeList m1 n = .ok m2) {x y : Int} {l : Nat}
    (hi : m.inside x y) (hp : m.px x y = (.line, l)) : LiveEdge m2 l := by
  obtain ⟨g1, g3, -⟩ := initNodeList_anchors hc hf h0 hholes h1
  have hdone := initNodeList_done hf h0 h1
  obtain ⟨d, hd, hde⟩ := hend (x, y) ⟨hi, by rw [hp]⟩
  have hfr : m.isLine d.front := ⟨(hd.link.swap hc).inside, hd.edge⟩
  have hl : m.label d.front = l := by
    rw [hlab _ _ hfr hde]; unfold Map.label; rw [hp]
  have hin1 : m1.inside d.x d.y := by unfold Map.inside; rw [hdone.w, hdone.h]; exact hd.inside
  obtain ⟨b, hb, hbl⟩ := hdone.nodes.owner d.x d.y (m.px d.x d.y).2 hin1 (by rw [g1]; exact Prod.ext hd.node rfl)
  rw [List.getElem?_map] at hb
  cases hN : m1.nodes[(m.px d.x d.y).2]? with
  | none => rw [hN] at hb; cases hb
  | some A =>
    rw [hN] at hb
    cases hb
    obtain ⟨x0, y0, q1, q2, q3⟩ := g3 _ A hN hbl
    have hsame : (m.px d.x d.y).2 = (m.px x0 y0).2 := by rw [q2]
    have hA := oneRim_dart hc hno hnl ho q1 hd hsame q3
    obtain ⟨a, i, r1, r2⟩ := ho x0 y0 d q1 hd hsame
    rw [q3] at r1
    obtain rfl := Outcome.ok.inj r1
    rw [← hl]
    exact initEdgeList_all hc hno (sameKinds_px hdone.w hdone.h g1) g1 g3 h2 _ A hN hbl hA i d r2

/-- every labelled edge gets an entry -/
theorem lists_lines {o : Oracle} {N n F : Nat} {m1 m2 m3 : Map} (hc : Clean m) (hno : NoCorner m) (hnl : NodesLabelled m) (ho : OneRim m)
    (hf : Framed m) (h0 : m.nodeCount = 0)
    (hholes : ∀ l, (m.cell (.vertex, l)).Nonempty → o.crackArea l = (m.cell (.vertex, l)).card % 2 ^ 32)
    (hlab : ∀ p q, m.isLine p → SameEdge m p q → m.label p = m.label q)
    (hend : ∀ p, m.isLine p → ∃ d, IsDart m d ∧ SameEdge m d.front p)
    (h1 : initNodeList o m N = .ok m1) (h2 : initEdgeList m1 n = .ok m2) (h3 : initFaceList o m2 F = .ok m3) {x y : Int} {l : Nat}
    (hi : m.inside x y) (hp : m.px x y = (.line, l)) : LiveEdge m3 l :=
  initFaceList_live h3 (edges_lines hc hno hnl ho hf h0 hholes hlab hend h1 h2 hi hp)

end

end Verif.FourEight
