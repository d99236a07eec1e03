import Verif.FourEight.Effects

/-!
# Properties of the pixel based map (C77-C79)
-/

namespace Verif.FourEight.Props
open Verif Verif.CellImage Verif.FourEight Verif.Outcome

variable {m m' : Map}

/-! ## C77: what an operation does to the image and to the lists of cells -/

/-- **C77.** `mergeFaces` on an edge whose stored ends fit: one of the two faces of the dart survives, it gets exactly the pixels of the
edge and of the other face, no other pixel changes, exactly the edge and the other face stop to exist, and the infinite face is never the
one that is removed. -/
theorem mergeFaces_effect {d : Dart} {s : Nat} (hm : Consistent m) (ho : Outer m) (hd : EndsFit m d) (h : mergeFaces m d = .ok (m', s)) :
    ∃ e l r g, m.nb d 0 = .ok (.line, e) ∧ leftFace m d = .ok l ∧ rightFace m d = .ok r ∧ l ≠ r ∧ ((s = l ∧ g = r) ∨ (s = r ∧ g = l)) ∧
      g ≠ 0 ∧ m'.w = m.w ∧ m'.h = m.h ∧
      (∀ x y, m.inside x y →
        m'.px x y = if m.px x y = (.line, e) ∨ m.px x y = (.region, g) then (.region, s) else m.px x y) ∧
      (∀ i, HasNode m' i ↔ HasNode m i) ∧ (∀ i, HasEdge m' i ↔ HasEdge m i ∧ i ≠ e) ∧ (∀ i, HasFace m' i ↔ HasFace m i ∧ i ≠ g) := by
  obtain ⟨l, L, r, R, rd, e, E, g, G, hl, hL, hr, hR, hrd, he, hs, hg, res⟩ := mergeFaces_result hm h
  obtain ⟨e', E', l', r', hd0, hE', hE'l, hside, hst, hsp, hls, hrs, hlp, hrp, nel, ner⟩ := hd.edge
  have hal := alpha_ends hd.init hd0 hE' hE'l
  -- the sides of the dart and of the removed dart
  have hsides : e = e' ∧ ((s = l ∧ g = r ∧ R.box.area ≤ L.box.area) ∨ (s = r ∧ g = l ∧ L.box.area < R.box.area)) ∧
      (m.cell (.region, l)).Nonempty ∧ (m.cell (.region, r)).Nonempty := by
    by_cases hlt : L.box.area < R.box.area
    · rw [if_pos hlt, hal] at hrd
      cases hrd
      by_cases hds : d = E'.start
      · rw [if_pos hds] at he hs hg
        rw [hds, hls] at hl; rw [hds, hrs] at hr
        rw [hlp] at hs; rw [hrp] at hg
        rw [edgeLabel_line hsp] at he
        cases hl; cases hr; cases hs; cases hg; cases he
        exact ⟨rfl, .inr ⟨rfl, rfl, hlt⟩, nel, ner⟩
      · rw [if_neg hds] at he hs hg
        have hds' : d = E'.stop := hside.resolve_left hds
        rw [hds', hlp] at hl; rw [hds', hrp] at hr
        rw [hls] at hs; rw [hrs] at hg
        rw [edgeLabel_line hst] at he
        cases hl; cases hr; cases hs; cases hg; cases he
        exact ⟨rfl, .inr ⟨rfl, rfl, hlt⟩, ner, nel⟩
    · rw [if_neg hlt] at hrd
      cases hrd
      rw [edgeLabel_line hd0] at he
      rw [hl] at hs; rw [hr] at hg
      cases hs; cases hg; cases he
      refine ⟨rfl, .inl ⟨rfl, rfl, by omega⟩, ?_⟩
      rcases hside with hds | hds
      · rw [hds, hls] at hl; rw [hds, hrs] at hr; cases hl; cases hr; exact ⟨nel, ner⟩
      · rw [hds, hlp] at hl; rw [hds, hrp] at hr; cases hl; cases hr; exact ⟨ner, nel⟩
  obtain ⟨rfl, hsg, nel', ner'⟩ := hsides
  obtain ⟨hL1, hL2⟩ := face_ok hL
  obtain ⟨hR1, hR2⟩ := face_ok hR
  have hlr : l ≠ r := by
    rcases hsg with ⟨rfl, rfl, _⟩ | ⟨rfl, rfl, _⟩
    · exact res.ne
    · exact res.ne.symm
  have hg0 : g ≠ 0 := by
    rintro rfl
    rcases hsg with ⟨rfl, rfl, hlt⟩ | ⟨rfl, rfl, hlt⟩
    · have := outer_larger hm ho hlr hL1 hL2 nel' hR1 hR2
      omega
    · have := outer_larger hm ho hlr.symm hR1 hR2 ner' hL1 hL2
      omega
  obtain ⟨px, i1, i2⟩ := res.image
  refine ⟨e, l, r, g, hd0, hl, hr, hlr, ?_, hg0, res.w, res.h, ?_, ?_, ?_, ?_⟩
  · rcases hsg with ⟨h1, h2, _⟩ | ⟨h1, h2, _⟩
    · exact .inl ⟨h1, h2⟩
    · exact .inr ⟨h1, h2⟩
  · intro x y hxy
    have h1 := i1.px x y hxy
    dsimp only at h1
    have h2 := i2.px x y hxy
    simp only [h1] at h2
    rw [h2]
    by_cases c1 : m.px x y = (.line, e)
    · simp [c1, res.ne]
    · simp [c1]
  · intro i; rw [hasNode_iff, hasNode_iff, res.nodes]
  · intro i; rw [hasEdge_iff, hasEdge_iff, res.edges, kill_edges, liveAt_kill]
  · intro i; rw [hasFace_iff, hasFace_iff, res.faces, liveAt_kill, liveAt_same (by intro a; rfl), liveAt_same (by intro a; rfl)]

/-- **C77.** `removeBridge`, called with any dart whatsoever: if it returns, both sides of the dart are the same face, this face gets
exactly the pixels of the edge, and exactly the edge stops to exist. -/
theorem removeBridge_effect {d : Dart} {f : Nat} (hm : Consistent m) (h : removeBridge m d = .ok (m', f)) :
    ∃ e, m.nb d 0 = .ok (.line, e) ∧ leftFace m d = .ok f ∧ rightFace m d = .ok f ∧ m'.w = m.w ∧ m'.h = m.h ∧
      (∀ x y, m.inside x y → m'.px x y = if m.px x y = (.line, e) then (.region, f) else m.px x y) ∧
      (∀ i, HasNode m' i ↔ HasNode m i) ∧ (∀ i, HasEdge m' i ↔ HasEdge m i ∧ i ≠ e) ∧ (∀ i, HasFace m' i ↔ HasFace m i) := by
  obtain ⟨hs, e, E, he, hl, hr, res⟩ := removeBridge_result hm h
  have hd0 : m.nb d 0 = .ok (.line, e) := by
    unfold isSingular at hs
    obtain ⟨p, hp, hs⟩ := bind_eq_ok.1 hs
    obtain ⟨q, hq, rfl⟩ := map_ok he
    rw [hp] at hq; cases hq
    have : p.1 = .line := by simpa using hs
    rw [hp, ← this]
  refine ⟨e, hd0, hl, hr, res.image.w, res.image.h, res.image.px, ?_, ?_, ?_⟩
  · intro i; rw [hasNode_iff, hasNode_iff, res.nodes]
  · intro i; rw [hasEdge_iff, hasEdge_iff, res.edges, kill_edges, liveAt_kill]
  · intro i; rw [hasFace_iff, hasFace_iff, res.faces, liveAt_same (by intro a; rfl)]

/-- **C77.** `mergeEdges`, called with any dart: if it returns, exactly two darts with different edges meet at this node (the successor of
the successor of the dart is the dart itself), one of the two edges survives, it gets exactly the pixels of the node and of the other
edge, and exactly the node and the other edge stop to exist. -/
theorem mergeEdges_effect {d : Dart} {s : Nat} (hm : Consistent m) (h : mergeEdges m d = .ok (m', s)) :
    ∃ d' a b n g, m.nb d 0 = .ok (.line, a) ∧ sigma m 1 d = .ok d' ∧ m.nb d' 0 = .ok (.line, b) ∧ sigma m 1 d' = .ok d ∧ a ≠ b ∧
      ((s = a ∧ g = b) ∨ (s = b ∧ g = a)) ∧ (nodeLabel m d = .ok n ∨ nodeLabel m d' = .ok n) ∧ m'.w = m.w ∧ m'.h = m.h ∧
      (∀ x y, m.inside x y → m'.px x y = if m.px x y = (.vertex, n) ∨ m.px x y = (.line, g) then (.line, s) else m.px x y) ∧
      (∀ i, HasNode m' i ↔ HasNode m i ∧ i ≠ n) ∧ (∀ i, HasEdge m' i ↔ HasEdge m i ∧ i ≠ g) ∧ (∀ i, HasFace m' i ↔ HasFace m i) := by
  obtain ⟨d1, dart2, dart1, g, n, N, G, hd1, hor, hg, hn, hdart1, hs, hsame, res⟩ := mergeEdges_result hm h
  have hnb : ∃ p, m.nb d 0 = .ok p := by
    unfold sigma at hd1
    obtain ⟨p, hp, _⟩ := bind_eq_ok.1 hd1
    exact ⟨p, hp⟩
  obtain ⟨p, hp⟩ := hnb
  have hline : p.1 = .line := by
    by_contra hcon
    have hsd := sigma_singular (k := 1) hp hcon
    have h1 : d1 = d := by rw [hsd] at hd1; cases hd1; rfl
    subst h1
    have h2 : dart2 = d1 := by
      rcases hor with h | h
      · exact h
      · rw [hsd] at h; cases h; rfl
    subst h2
    rw [hsd] at hdart1; cases hdart1
    rw [hg] at hs; cases hs
    exact res.ne rfl
  obtain ⟨t, a⟩ := p
  dsimp only at hline; subst hline
  obtain ⟨b, hb⟩ := sigma_line hp hd1
  obtain ⟨px, i1, i2⟩ := res.image
  have himage : ∀ x y, m.inside x y → m'.px x y = if m.px x y = (.vertex, n) ∨ m.px x y = (.line, g) then (.line, s) else m.px x y := by
    intro x y hxy
    have h1 := i1.px x y hxy
    dsimp only at h1
    have h2 := i2.px x y hxy
    simp only [h1] at h2
    rw [h2]
    by_cases c1 : m.px x y = (.vertex, n)
    · simp [c1, res.ne]
    · simp [c1]
  have hN : ∀ i, HasNode m' i ↔ HasNode m i ∧ i ≠ n := by
    intro i; rw [hasNode_iff, hasNode_iff, res.nodes, kill_nodes, liveAt_kill]
  have hE : ∀ i, HasEdge m' i ↔ HasEdge m i ∧ i ≠ g := by
    intro i; rw [hasEdge_iff, hasEdge_iff, res.edges, liveAt_kill, liveAt_same (by intro a; rfl), liveAt_same (by intro a; rfl)]
  have hF : ∀ i, HasFace m' i ↔ HasFace m i := by intro i; rw [hasFace_iff, hasFace_iff, res.faces]
  rcases hsame with ⟨heq, rfl⟩ | ⟨heq, hdart2⟩
  · obtain ⟨l1, hl1⟩ := sigma_line hb hdart1
    rw [dartEq_line hl1] at heq
    obtain rfl : dart1 = d := by simpa using heq
    rw [edgeLabel_line hb] at hg; cases hg
    rw [edgeLabel_line hp] at hs; cases hs
    exact ⟨dart2, s, g, n, g, hp, hd1, hb, hdart1, res.ne, .inl ⟨rfl, rfl⟩, .inr hn, res.w, res.h, himage, hN, hE, hF⟩
  · obtain ⟨l1, hl1⟩ := sigma_line hb hdart2
    rw [dartEq_line hl1] at heq
    obtain rfl : dart2 = d := by simpa using heq
    rw [hd1] at hdart1; cases hdart1
    rw [edgeLabel_line hp] at hg; cases hg
    rw [edgeLabel_line hb] at hs; cases hs
    exact ⟨d1, g, s, n, g, hp, hd1, hb, hdart2, res.ne.symm, .inr ⟨rfl, rfl⟩, .inl hn, res.w, res.h, himage, hN, hE, hF⟩

/-- **C77.** `removeIsolatedNode`: if it returns, the face left of the dart gets exactly the pixels of the node, and exactly the node
stops to exist. -/
theorem removeIsolatedNode_effect {d : Dart} {f : Nat} (hm : Consistent m) (h : removeIsolatedNode m d = .ok (m', f)) :
    ∃ n, isSingular m d = .ok true ∧ nodeLabel m d = .ok n ∧ leftFace m d = .ok f ∧ m'.w = m.w ∧ m'.h = m.h ∧
      (∀ x y, m.inside x y → m'.px x y = if m.px x y = (.vertex, n) then (.region, f) else m.px x y) ∧
      (∀ i, HasNode m' i ↔ HasNode m i ∧ i ≠ n) ∧ (∀ i, HasEdge m' i ↔ HasEdge m i) ∧ (∀ i, HasFace m' i ↔ HasFace m i) := by
  obtain ⟨hs, n, N, hn, hf, res⟩ := removeIsolatedNode_result hm h
  refine ⟨n, hs, hn, hf, res.image.w, res.image.h, res.image.px, ?_, ?_, ?_⟩
  · intro i; rw [hasNode_iff, hasNode_iff, res.nodes, kill_nodes, liveAt_kill]
  · intro i; rw [hasEdge_iff, hasEdge_iff, res.edges]
  · intro i; rw [hasFace_iff, hasFace_iff, res.faces, liveAt_same (by intro a; rfl)]

/-! ## C78: stored bounds, sizes and counts are exact after any history -/

/-- One call that returns normally, with any dart, keeps everything exact, as long as it does not remove the infinite face and
`removeIsolatedNode` is called for a node without edges. -/
theorem consistent_any_dart {op : Op} {l : Nat} (hm : Consistent m) (h : run m op = .ok (m', l)) (h0 : HasFace m' 0)
    (hi : ∀ d, op = .removeIsolatedNode d → Allowed m op) : Consistent m' := by
  cases op with
  | removeIsolatedNode d =>
    obtain ⟨_, n, N, hn, hf, res⟩ := removeIsolatedNode_result hm h
    exact res.consistent hm (hi d rfl n _ hn hf)
  | mergeFaces d =>
    obtain ⟨_, _, _, _, _, e, E, g, G, _, _, _, _, _, _, _, _, res⟩ := mergeFaces_result hm h
    refine res.consistent hm ?_
    rintro rfl
    rw [hasFace_iff, res.faces, liveAt_kill] at h0
    exact h0.2 rfl
  | removeBridge d =>
    obtain ⟨_, e, E, _, _, _, res⟩ := removeBridge_result hm h
    exact res.consistent hm
  | mergeEdges d =>
    obtain ⟨_, _, _, _, _, _, _, _, _, _, _, _, _, _, res⟩ := mergeEdges_result hm h
    exact res.consistent hm

theorem step_keeps (hm : Consistent m) (ho : Outer m) (h : Step m m') : Consistent m' ∧ Outer m' := by
  obtain ⟨op, l, hallow, h⟩ := h
  have outer : ∀ (c v : Pixel), c.1 ≠ .region → Relabeled m m' c v → HasFace m' 0 → Outer m' := by
    intro c v hc hr hf
    exact ho.relabel hr (fun e => hc (by rw [e])) (hasFace_iff.1 hf)
  have hf0 : HasFace m 0 := ho.exists_
  cases op with
  | removeIsolatedNode d =>
    obtain ⟨_, n, N, hn, hf, res⟩ := removeIsolatedNode_result hm h
    refine ⟨res.consistent hm (hallow n _ hn hf), outer _ _ (by simp) res.image ?_⟩
    rw [hasFace_iff, res.faces, liveAt_same (by intro a; rfl), ← hasFace_iff]; exact hf0
  | mergeFaces d =>
    obtain ⟨e, l', r, g, _, _, _, _, _, hg0, hw, hh, himage, _, _, hface⟩ := mergeFaces_effect hm ho hallow h
    have h0 : HasFace m' 0 := (hface 0).2 ⟨hf0, fun e => hg0 e.symm⟩
    refine ⟨consistent_any_dart hm h h0 (fun d hd => by cases hd), ?_, h0⟩
    intro x y hi hb
    have hi' : m.inside x y := by simpa only [Map.inside, hw, hh] using hi
    rw [hw, hh] at hb
    have := ho.ring x y hi' hb
    rw [himage x y hi', this, if_neg]
    simp only [Prod.mk.injEq, reduceCtorEq, false_and, true_and, false_or]
    exact fun e => hg0 e.symm
  | removeBridge d =>
    obtain ⟨_, e, E, _, _, _, res⟩ := removeBridge_result hm h
    refine ⟨res.consistent hm, outer _ _ (by simp) res.image ?_⟩
    rw [hasFace_iff, res.faces, liveAt_same (by intro a; rfl), ← hasFace_iff]; exact hf0
  | mergeEdges d =>
    obtain ⟨_, _, _, g, n, _, _, _, _, _, _, _, _, _, res⟩ := mergeEdges_result hm h
    obtain ⟨_, _, _, n', g', _, _, _, _, _, _, _, hw, hh, himage, _, _, hface⟩ := mergeEdges_effect hm h
    refine ⟨res.consistent hm, ?_, (hface 0).2 hf0⟩
    intro x y hi hb
    have hi' : m.inside x y := by simpa only [Map.inside, hw, hh] using hi
    rw [hw, hh] at hb
    have := ho.ring x y hi' hb
    rw [himage x y hi', this, if_neg]
    simp

/-- **C78.** After any history of the four operations, every pixel belongs to an existing cell of its type, the stored bounds of every
cell are the smallest rectangle around its pixels, the stored sizes are the numbers of pixels, the counts are the numbers of cells, and
the frame around the image belongs to the infinite face. -/
theorem history_consistent (hm : Consistent m) (ho : Outer m) (h : Reach m m') : Consistent m' ∧ Outer m' := by
  induction h with
  | refl => exact ⟨hm, ho⟩
  | tail _ hs ih => exact step_keeps ih.1 ih.2 hs

/-! ## C79: construction from a cell image -/

/-- the three lists, for any sizes -/
theorem lists_consistent {o : Oracle} {N n F : Nat} {m0 m1 m2 m3 : Map} (hw : 1 ≤ m0.w) (hh : 1 ≤ m0.h) (hring : Framed m0)
    (c1 : m0.nodeCount = 0) (c2 : m0.edgeCount = 0) (c3 : m0.faceCount = 0)
    (h1 : initNodeList o m0 N = .ok m1) (h2 : initEdgeList m1 n = .ok m2) (h3 : initFaceList o m2 F = .ok m3)
    (hlines : ∀ (x y : Int) (l : Nat), m0.inside x y → m0.px x y = (.line, l) → HasEdge m3 l) :
    Consistent { m3 with init := true } ∧ Outer { m3 with init := true } ∧ m3.w = m0.w ∧ m3.h = m0.h := by
  have i1 := initNodeList_done hring c1 h1
  have i2 := initEdgeList_inv (i1.edgeCount.trans c2) h2
  have hw2 : m2.w = m0.w := i2.w.trans i1.w
  have hh2 : m2.h = m0.h := i2.h.trans i1.h
  have i3 := initFaceList_inv (by rw [hw2]; exact hw) (by rw [hh2]; exact hh) (i2.faceCount.trans (i1.faceCount.trans c3)) i2.fresh h3
  have hpx3 : m3.px = m1.px := i3.px.trans i2.px
  have hw3 : m3.w = m1.w := i3.w.trans i2.w
  have hh3 : m3.h = m1.h := i3.h.trans i2.h
  have hin : ∀ x y, m3.inside x y ↔ m1.inside x y := by intro x y; simp only [Map.inside, hw3, hh3]
  have hframed : Framed m3 := by
    intro x y hi hr
    rw [hw3, hh3] at hr
    rw [hpx3]; exact i1.framed x y ((hin x y).1 hi) hr
  have hmw : m3.w = m0.w := by rw [hw3, i1.w]
  have hmh : m3.h = m0.h := by rw [hh3, i1.h]
  refine ⟨⟨?_, ?_, ?_, ?_, ?_, ?_⟩, ⟨hframed, ?_⟩, hmw, hmh⟩
  · have : m3.nodes = m1.nodes := i3.nodes.trans i2.nodes
    show Exact _ _ (m3.nodes.map Node.info)
    rw [this]
    exact i1.nodes.of_px hw3 hh3 hpx3
  · refine Exact.of_px (m := m3) ?_ rfl rfl rfl
    refine Exact.of_collected hframed ?_ ?_ (by simp)
    · show Collected m3.px _ (innerPixels m3.w m3.h) _
      rw [i3.px, i3.w, i3.h]; exact i3.lines
    · intro x y i hi hp
      have hi1 := (hin x y).1 hi
      rw [hpx3] at hp
      have hp0 := (i1.lines x y i hi1).1 hp
      have := hlines x y i (by simpa only [Map.inside, hmw, hmh] using hi) hp0
      exact hasEdge_iff.1 this
  · refine Exact.of_px (m := m3) ?_ rfl rfl rfl
    refine Exact.of_collected hframed ?_ ?_ ?_
    · show Collected m3.px _ (innerPixels m3.w m3.h) _
      rw [i3.px, i3.w, i3.h]; exact i3.collected
    · intro x y i hi hp
      by_cases hr : x = -2 ∨ y = -2 ∨ x = m3.w - 3 ∨ y = m3.h - 3
      · rw [hframed x y hi hr] at hp
        cases hp
        obtain ⟨F, h1, h2, _⟩ := i3.outer
        exact ⟨F.info, faces_get h1, h2⟩
      · rw [i3.px] at hp
        refine i3.seen.live (x, y) (mem_innerPixels.2 ?_) i hp
        simp only [Map.inside] at hi
        rw [← i3.w, ← i3.h]
        dsimp only; omega
    · intro _ a ha
      obtain ⟨F, h1, h2, h3⟩ := i3.outer
      have := faces_get h1
      rw [this] at ha
      obtain rfl := Option.some.inj ha
      show IsBox _ F.box
      rw [h3, ← i3.w, ← i3.h]
      exact isBoxFull hframed (by omega) (by omega)
  · show m3.nodeCount = _
    rw [i3.nodeCount, i2.nodeCount, i1.nodeCount, i3.nodes, i2.nodes]
  · show m3.edgeCount = _
    rw [i3.edgeCount, i2.edgeCount, i3.edgesLive]
  · exact i3.faceCount
  · obtain ⟨F, h1, h2, _⟩ := i3.outer
    exact ⟨F, h1, h2⟩

/-- **C79.** Whenever the constructor returns for an image with a frame of face 0, and every edge label of the image was reached from a
node, everything stored is exact.  This holds whatever the contour functions of VIGRA return. -/
theorem construct_consistent {o : Oracle} {w h : Nat} {px : Int → Int → Pixel} (hw : 1 ≤ w) (hh : 1 ≤ h)
    (hring : ∀ x y : Int, -2 ≤ x ∧ x < w - 2 ∧ -2 ≤ y ∧ y < h - 2 → (x = -2 ∨ y = -2 ∨ x = w - 3 ∨ y = h - 3) → px x y = (.region, 0))
    (hc : construct o w h px = .ok m)
    (hlines : ∀ (x y : Int) (l : Nat), -2 ≤ x ∧ x < w - 2 ∧ -2 ≤ y ∧ y < h - 2 → px x y = (.line, l) → HasEdge m l) :
    Consistent m ∧ Outer m ∧ m.w = w ∧ m.h = h := by
  unfold construct at hc
  dsimp only at hc
  obtain ⟨m1, h1, hc⟩ := bind_eq_ok.1 hc
  obtain ⟨m2, h2, hc⟩ := bind_eq_ok.1 hc
  obtain ⟨m3, h3, hc⟩ := bind_eq_ok.1 hc
  cases hc
  exact lists_consistent (m0 := ⟨w, h, px, [], [], [], 0, 0, 0, false⟩) hw hh (fun x y hi hr => hring x y hi hr) rfl rfl rfl h1 h2 h3
    fun x y l hi hp => hlines x y l hi hp

end Verif.FourEight.Props
