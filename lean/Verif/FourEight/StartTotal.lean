import Verif.FourEight.LabelDegree

/-!
# The lists of nodes and edges of a labelled image are always found
-/

namespace Verif.FourEight
open Verif Verif.CellImage

/-- the navigation reads nothing but the image -/
theorem nb_same {m m' : Map} (hw : m'.w = m.w) (hh : m'.h = m.h) (hp : m'.px = m.px) : m'.nb = m.nb := by
  funext d k
  have h : ∀ x y, m'.inside x y ↔ m.inside x y := by intro x y; unfold Map.inside; rw [hw, hh]
  unfold Map.nb Map.get
  by_cases hi : m.inside (d.x + dx (d.dir + k)) (d.y + dy (d.dir + k))
  · rw [if_pos hi, if_pos ((h _ _).2 hi), hp]
  · rw [if_neg hi, if_neg fun g => hi ((h _ _).1 g)]

theorem leftFace_same {m m' : Map} (hw : m'.w = m.w) (hh : m'.h = m.h) (hp : m'.px = m.px) (d : Dart) : leftFace m' d = leftFace m d := by
  unfold leftFace; rw [nb_same hw hh hp]

theorem rightFace_same {m m' : Map} (hw : m'.w = m.w) (hh : m'.h = m.h) (hp : m'.px = m.px) (d : Dart) : rightFace m' d = rightFace m d := by
  unfold rightFace; rw [nb_same hw hh hp]

section
variable {m : Map}

theorem countDegree_total (hc : Clean m) (hno : NoCorner m) {b : Map} (hs : SameKinds m b) (a : Dart) (n : Nat) : ∀ {d : Dart} {deg j : Nat},
    IsDart m d → j < n → sigmas m (j + 1) d = .ok a → ∃ D, countDegree b a n d deg = .ok D := by
  induction n with
  | zero => intro d deg j _ h; omega
  | succ n ih =>
    intro d deg j hd hj he
    obtain ⟨e, g1, g2, -⟩ := Props.sigma_inverse hc hno hd (k := 1) (Or.inl rfl)
    rw [countDegree, hs.sigma hc hno hd (Or.inl rfl), g1, Outcome.bind_ok, dartEq_dart (hs.clean hc) (hs.isDart g2), Outcome.bind_ok]
    by_cases hee : e = a
    · exact ⟨_, by rw [decide_eq_true hee, if_pos rfl]⟩
    · rw [decide_eq_false hee, if_neg (by decide)]
      cases j with
      | zero =>
        exfalso
        rw [sigmas_head, g1, Outcome.bind_ok] at he
        exact hee (Outcome.ok.inj he)
      | succ j =>
        rw [sigmas_head, g1, Outcome.bind_ok] at he
        exact ih g2 (by omega) he

theorem initNode_total (hc : Clean m) (hno : NoCorner m) (hnl : NodesLabelled m) {N : Nat}
    (hlab : ∀ x y, m.inside x y → (m.px x y).1 = .vertex → (m.px x y).2 ≤ N) {pre post : List (Int × Int)} {p : Int × Int}
    (hl : innerPixels m.w m.h = pre ++ p :: post) {m1 : Map} (hi : NodesInv m pre m1) (hlen : m1.nodes.length = N + 1) :
    ∃ m2, initNode m1 p = .ok m2 ∧ m2.nodes.length = N + 1 := by
  have hs : SameKinds m m1 := sameKinds_px hi.w hi.h hi.px
  unfold initNode
  rw [hi.px]
  by_cases ht : (m.px p.1 p.2).1 ≠ .vertex
  · exact ⟨m1, by rw [if_pos ht], hlen⟩
  rw [if_neg ht]
  simp only [ne_eq, not_not] at ht
  have hpin : m.inside p.1 p.2 := by
    have := mem_inner (w := m.w) (h := m.h) (p := p) (by rw [hl]; simp)
    unfold Inner at this
    unfold Map.inside
    omega
  have hlt : (m.px p.1 p.2).2 < m1.nodes.length := by have := hlab _ _ hpin ht; omega
  dsimp only
  cases hN : m1.nodes[(m.px p.1 p.2).2]? with
  | none => rw [List.getElem?_eq_getElem hlt] at hN; cases hN
  | some A =>
    dsimp only
    by_cases hlive : A.live = true
    · rw [if_pos hlive, Outcome.bind_ok]
      exact ⟨_, rfl, by dsimp only; rw [List.length_modify, hlen]⟩
    · rw [if_neg hlive]
      have hfirst : FirstOf m p.1 p.2 := firstOf_scan hc hl ht fun q hq e => by
        obtain ⟨b, hb, hbl⟩ := hi.seen.live q hq (m.px p.1 p.2).2 (by rw [e]; exact Prod.ext ht rfl)
        rw [List.getElem?_map, hN] at hb
        cases hb
        exact hlive hbl
      obtain ⟨a, ha⟩ := mkDart_first hc hno hnl hfirst
      obtain ⟨ai, av, ad⟩ := mkDart_west hc ha
      have ha1 : mkDart m1 ⟨p.1, p.2, 4⟩ = .ok a := by rw [hs.mkDart]; exact ha
      rw [ha1, Outcome.bind_ok]
      unfold isSingular
      rw [(hs.clean hc).nb ((hs.inside _ _).2 ai) (by rw [hs.px, av]; decide), Outcome.bind_ok, Outcome.bind_ok, add_zero, hs.look]
      by_cases hline : (m.look a.x a.y a.dir).1 = .line
      · have had := ad hline
        obtain ⟨j, hj1, hj2⟩ := sigmas_return hc hno had
        obtain ⟨D, hD⟩ := countDegree_total hc hno hs a m1.fuel (deg := 0) had (j := j) (by rw [hs.fuel]; unfold Map.fuel; omega) hj2
        rw [decide_eq_false (by simpa using hline), if_neg (by decide), hD, Outcome.bind_ok, Outcome.bind_ok]
        exact ⟨_, rfl, by dsimp only; rw [List.length_modify, List.length_modify, hlen]⟩
      · rw [decide_eq_true hline, if_pos rfl, Outcome.bind_ok, Outcome.bind_ok]
        exact ⟨_, rfl, by dsimp only; rw [List.length_modify, List.length_modify, hlen]⟩

/-- `initNodeList` returns, if no node has a hole -/
theorem initNodeList_total {o : Oracle} {N : Nat} (hc : Clean m) (hno : NoCorner m) (hnl : NodesLabelled m) (hf : Framed m) (h0 : m.nodeCount = 0)
    (hlab : ∀ x y, m.inside x y → (m.px x y).1 = .vertex → (m.px x y).2 ≤ N)
    (hholes : ∀ l, (m.cell (.vertex, l)).Nonempty → o.crackArea l = (m.cell (.vertex, l)).card % 2 ^ 32) :
    ∃ m', initNodeList o m N = .ok m' := by
  have hstart : NodesInv m [] { m with nodes := List.replicate (N + 1) ⟨false, emptyRect, 0, noDart, 0⟩ } := by
    refine ⟨rfl, rfl, rfl, rfl, rfl, rfl, rfl, ?_, ⟨by simp⟩, ?_⟩
    · intro i a ha _
      simp only [List.map_replicate] at ha
      rw [getElem?_replicate_some ha]
      exact ⟨IsBox.empty, rfl⟩
    · simp [h0, List.countP_replicate]
  obtain ⟨m1, h1, ⟨i1, i2⟩, -⟩ := foldO_total (l := innerPixels m.w m.h) (f := initNode)
    (P := fun pre b => (NodesInv m pre b ∧ Anchored m b) ∧ b.nodes.length = N + 1)
    (fun pre a post b hl hb => by
      obtain ⟨b', g1, g2⟩ := initNode_total hc hno hnl hlab hl hb.1.1 hb.2
      exact ⟨b', g1, ⟨initNode_inv hb.1.1 g1, initNode_anchor hc hl hb.1.1 hb.1.2 g1⟩, g2⟩) (innerPixels m.w m.h) [] _ rfl
    ⟨⟨hstart, fun l N hN hl => by rw [getElem?_replicate_some hN] at hl; exact absurd hl (by simp)⟩, by simp⟩
  unfold initNodeList
  rw [h1, Outcome.bind_ok]
  have hex : Exact m .vertex (m1.nodes.map Node.info) := by
    refine Exact.of_collected hf i1.collected ?_ (by simp)
    intro x y i hxy hp
    refine i1.seen.live (x, y) (inner_mem (hc.frame x y hxy (by rw [hp]; exact (by decide : CellType.vertex ≠ .region)))) i hp
  have hstuff : ∀ l, stuffNode o m1 l = .ok m1 := by
    intro l
    unfold stuffNode
    cases hN : m1.nodes[l]? with
    | none => rfl
    | some N =>
      dsimp only
      by_cases hl : N.live = true
      · have hne : (m.cell (.vertex, l)).Nonempty := by
          obtain ⟨x, y, g1, g2, -⟩ := i2 l N hN hl
          exact ⟨(x, y), mem_cell.2 ⟨g1.inside, g2⟩⟩
        have hs : N.size = (m.cell (.vertex, l)).card % 2 ^ 32 := hex.size l N.info (nodes_get hN) hl (by simp)
        rw [if_neg (by simp [hl]), if_pos (by rw [hs]; exact hholes l hne)]
      · rw [if_pos (by simpa using hl)]
  exact ⟨m1, foldO_skip fun l _ => hstuff l⟩

theorem initEdge_total (hc : Clean m) (ht : Traceable m) (hin : m.init = false) {n : Nat} (hlab : ∀ p, m.isLine p → m.label p ≤ n) {a : Map}
    (hs : SameKinds m a) (hp : a.px = m.px) (hia : a.init = false) (hlen : a.edges.length = n + 1) {d : Dart} (hd : IsDart m d) :
    ∃ b, initEdge a d = .ok b ∧ b.edges.length = n + 1 := by
  unfold initEdge edgeLabel
  have hda := hs.isDart hd
  rw [(hs.clean hc).nb hda.inside hda.rim.nonregion]
  simp only [Outcome.map, Outcome.bind_ok, add_zero]
  have hlab' : (a.look d.x d.y d.dir).2 = m.label d.front := by
    show (a.px _ _).2 = (m.px _ _).2
    rw [hp]; rfl
  rw [hlab']
  have hlt : m.label d.front < a.edges.length := by
    have := hlab d.front ⟨(hd.link.swap hc).inside, hd.edge⟩
    omega
  cases hE : a.edges[m.label d.front]? with
  | none => rw [List.getElem?_eq_getElem hlt] at hE; cases hE
  | some E =>
    dsimp only
    by_cases hl : E.live = true
    · exact ⟨a, by rw [if_pos hl], hlen⟩
    · obtain ⟨e, g1, -⟩ := Props.alpha_involution hc ht hin hd
      rw [if_neg hl, hs.alpha hc ht hin hia hd, g1, Outcome.bind_ok]
      exact ⟨_, rfl, by dsimp only; rw [List.length_modify, hlen]⟩

theorem initEdges_total (hc : Clean m) (ht : Traceable m) (hno : NoCorner m) (hin : m.init = false) {N : Nat}
    (hlab : ∀ p, m.isLine p → m.label p ≤ N) (dend : Dart) (n : Nat) {a : Map}
    (hs : SameKinds m a) (hp : a.px = m.px) (hia : a.init = false) (hlen : a.edges.length = N + 1) {d : Dart} (hd : IsDart m d) {j : Nat} (hj : j < n)
    (he : sigmas m (j + 1) d = .ok dend) : ∃ b, initEdges dend n d a = .ok b ∧ b.edges.length = N + 1 := by
  induction n generalizing a d j with
  | zero => omega
  | succ n ih =>
    obtain ⟨a1, h1, h2⟩ := initEdge_total hc ht hin hlab hs hp hia hlen hd
    obtain ⟨p1, -⟩ := initEdge_grow hc hs hp hd h1
    have hs' := hs.trans p1.kinds
    obtain ⟨e, g1, g2, -⟩ := Props.sigma_inverse hc hno hd (k := 1) (Or.inl rfl)
    rw [initEdges, h1, Outcome.bind_ok, hs'.sigma hc hno hd (Or.inl rfl), g1, Outcome.bind_ok,
      dartEq_dart (hs'.clean hc) (hs'.isDart g2), Outcome.bind_ok]
    by_cases hee : e = dend
    · exact ⟨a1, by rw [decide_eq_true hee, if_pos rfl], h2⟩
    · rw [decide_eq_false hee, if_neg (by decide)]
      cases j with
      | zero =>
        exfalso
        rw [sigmas_head, g1, Outcome.bind_ok] at he
        exact hee (Outcome.ok.inj he)
      | succ j =>
        rw [sigmas_head, g1, Outcome.bind_ok] at he
        exact ih hs' (p1.px.trans hp) (p1.init.trans hia) h2 g2 (by omega) he

theorem initNodeEdges_total (hc : Clean m) (ht : Traceable m) (hno : NoCorner m) (hin : m.init = false) {N : Nat}
    (hlab : ∀ p, m.isLine p → m.label p ≤ N) {a : Map} (hs : SameKinds m a) (hp : a.px = m.px) (hia : a.init = false)
    (hlen : a.edges.length = N + 1) (ha : Anchored m a) (l : Nat) : ∃ b, initNodeEdges a l = .ok b ∧ b.edges.length = N + 1 := by
  unfold initNodeEdges
  cases hN : a.nodes[l]? with
  | none => exact ⟨a, rfl, hlen⟩
  | some A =>
    dsimp only
    by_cases hl : A.live = true
    swap
    · exact ⟨a, by rw [if_pos (by simpa using hl)], hlen⟩
    rw [if_neg (by simp [hl])]
    obtain ⟨x, y, -, -, hmk⟩ := ha l A hN hl
    obtain ⟨ai, av, ad⟩ := mkDart_west hc hmk
    unfold isSingular
    rw [(hs.clean hc).nb ((hs.inside _ _).2 ai) (by rw [hs.px, av]; decide), Outcome.bind_ok, Outcome.bind_ok, add_zero, hs.look]
    by_cases hline : (m.look A.anchor.x A.anchor.y A.anchor.dir).1 = .line
    · obtain ⟨j, hj1, hj2⟩ := sigmas_return hc hno (ad hline)
      rw [decide_eq_false (by simpa using hline), if_neg (by decide)]
      exact initEdges_total hc ht hno hin hlab _ _ hs hp hia hlen (ad hline) (j := j) (by rw [hs.fuel]; unfold Map.fuel; omega) hj2
    · rw [decide_eq_true hline, if_pos rfl]
      exact ⟨a, rfl, hlen⟩

/-- `initEdgeList` returns -/
theorem initEdgeList_total (hc : Clean m) (ht : Traceable m) (hno : NoCorner m) (hin : m.init = false) {N : Nat}
    (hlab : ∀ p, m.isLine p → m.label p ≤ N) {m1 : Map} (hs : SameKinds m m1) (hp : m1.px = m.px) (hi1 : m1.init = false) (ha : Anchored m m1) :
    ∃ m2, initEdgeList m1 N = .ok m2 ∧ m2.edges.length = N + 1 ∧ m2.init = false := by
  unfold initEdgeList
  set a0 : Map := { m1 with edges := List.replicate (N + 1) ⟨false, emptyRect, 0, noDart, noDart⟩ } with ha0
  have hs0 : SameKinds m a0 := hs.trans (sameKinds_px rfl rfl rfl)
  obtain ⟨b, h1, h2, h3⟩ := foldO_total (l := List.range m1.nodes.length) (f := initNodeEdges)
    (P := fun _ b => EdgesGrow a0 b ∧ b.edges.length = N + 1)
    (fun pre l post b _ hb => by
      obtain ⟨b1, b2⟩ := hb
      have hsb := hs0.trans b1.kinds
      have hab : Anchored m b := fun l N hN => ha l N (by rw [b1.nodes] at hN; exact hN)
      obtain ⟨b', g1, g2⟩ := initNodeEdges_total hc ht hno hin hlab hsb (b1.px.trans hp) (b1.init.trans hi1) b2 hab l
      exact ⟨b', g1, b1.trans (initNodeEdges_grow hc hno hsb (b1.px.trans hp) g1 hab).1, g2⟩)
    (List.range m1.nodes.length) [] a0 rfl ⟨EdgesGrow.refl _, by simp [ha0]⟩
  exact ⟨b, h1, h3, h2.init.trans hi1⟩

end

end Verif.FourEight
