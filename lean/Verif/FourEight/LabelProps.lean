import Verif.FourEight.LabelTotal
import Verif.FourEight.DartProps

/-!
# Labels of the cells of the pixel based map (C91)
-/

namespace Verif.FourEight.Props
open Verif Verif.CellImage Verif.FourEight

/-! ## C91: edges -/

/-- **C91.** One call of `labelEdge` at a dart terminates without leaving the image.  It gives the new label to all pixels of the edge that
starts with this dart, and changes no others. -/
theorem labelEdge_exact {m : Map} (hc : Clean m) (ht : Traceable m) (l : Nat) {d : Dart} (h : IsDart m d) :
    ∃ m', labelEdge l m.fuel m d = .ok m' ∧
      (∀ q : Int × Int, SameEdge m (d.x + dx d.dir, d.y + dy d.dir) q → m'.px q.1 q.2 = (.line, l)) ∧
      (∀ q : Int × Int, ¬SameEdge m (d.x + dx d.dir, d.y + dy d.dir) q → m'.px q.1 q.2 = m.px q.1 q.2) := by
  obtain ⟨m', h1, -, -, h2, h3⟩ := labelEdge_marks hc ht l h
  exact ⟨m', h1, h2, h3⟩

/-- **C91.** In a labelled image both ends of an edge have the same `edgeLabel`, and different edges have different ones. -/
theorem edgeLabel_alpha {m : Map} (hc : Clean m) (ht : Traceable m) (hin : m.init = false) {n : Nat} (hl : EdgesLabelled m n) {d d' e : Dart}
    (hd : IsDart m d) (ha : alpha m d = .ok d') (he : IsDart m e) :
    edgeLabel m d' = edgeLabel m d ∧ (edgeLabel m e = edgeLabel m d → e = d ∨ e = d') := by
  obtain ⟨n, hf, hv, hlk⟩ := edge_ends hc ht hd
  have htr := trace_edge hc ht hd.link hd.node n hv hlk
  have hj := edgelJump_eq hc ht n hd.link hv hlk m.fuel hf
  rw [alpha_before hc hin hd, hj] at ha
  cases ha
  have hend := iter_link hc ht hd.link (n + 1) hlk
  have hsw := hend.swap hc
  have hfront : (((nextD m)^[n + 1] d).swap).front = ((nextD m)^[n] d).front := by
    have h1 := congrArg Dart.x (swap_swap ((nextD m)^[n + 1] d))
    have h2 := congrArg Dart.y (swap_swap ((nextD m)^[n + 1] d))
    refine Prod.ext (h1.trans ?_) (h2.trans ?_)
    · rw [Function.iterate_succ_apply']; rfl
    · rw [Function.iterate_succ_apply']; rfl
  have hld : m.isLine d.front := ⟨(hd.link.swap hc).inside, hd.edge⟩
  have hle : m.isLine e.front := ⟨(he.link.swap hc).inside, he.edge⟩
  have hed : edgeLabel m d = .ok (m.label d.front) := by
    unfold edgeLabel; rw [hc.nb hd.inside hd.rim.nonregion, add_zero]; rfl
  have hee : edgeLabel m e = .ok (m.label e.front) := by
    unfold edgeLabel; rw [hc.nb he.inside he.rim.nonregion, add_zero]; rfl
  have hed' : edgeLabel m ((nextD m)^[n + 1] d).swap = .ok (m.label ((nextD m)^[n + 1] d).swap.front) := by
    unfold edgeLabel; rw [hc.nb hsw.inside hsw.here, add_zero]; rfl
  refine ⟨?_, fun h => ?_⟩
  · have hs : SameEdge m d.front ((nextD m)^[n] d).front := (htr _).2 ⟨n, le_refl _, rfl⟩
    rw [hed', hed, hfront, (hl.same _ _ hld (SameEdge.isLine hc hld hs)).2 hs]
  · rw [hee, hed] at h
    have hs : SameEdge m d.front e.front := (hl.same _ _ hld hle).1 (Outcome.ok.inj h).symm
    obtain ⟨i, hi, hq⟩ := (htr _).1 hs
    have hlki := iter_link hc ht hd.link i fun a ha => hlk a (by omega)
    have hli := hlk i (by omega)
    obtain ⟨-, -, -, g4⟩ := nextD_spec hc ht hlki hli
    have hsi := hlki.swap hc
    have hes := he.link.swap hc
    have hx : e.swap.x = ((nextD m)^[i] d).swap.x := congrArg Prod.fst hq
    have hy : e.swap.y = ((nextD m)^[i] d).swap.y := congrArg Prod.snd hq
    have hcl : cellConf .line (ringOf m ((nextD m)^[i] d).swap.x ((nextD m)^[i] d).swap.y) = .line := ht _ _ hsi.inside hli
    have hge := (link_iff hes.inside hes.here).1 hes
    rw [hx, hy] at hge
    rcases table_two _ hcl _ _ _ ((link_iff hsi.inside hsi.here).1 hsi) hge g4 with c | c
    · have hes' : e.swap = ((nextD m)^[i] d).swap := by
        show Dart.mk e.swap.x e.swap.y (e.dir + 4) = ⟨((nextD m)^[i] d).swap.x, ((nextD m)^[i] d).swap.y, ((nextD m)^[i] d).dir + 4⟩
        rw [hx, hy, c]
      have hed0 := swap_inj hes'
      cases i with
      | zero => exact Or.inl hed0
      | succ i =>
        exfalso
        have := he.node
        rw [hed0, Function.iterate_succ_apply', px_nextD, hlk i (by omega)] at this
        cases this
    · have hes' : e.swap = (nextD m)^[i + 1] d := by
        rw [Function.iterate_succ_apply']
        show Dart.mk e.swap.x e.swap.y (e.dir + 4) = ⟨((nextD m)^[i] d).swap.x, ((nextD m)^[i] d).swap.y, (nextD m ((nextD m)^[i] d)).dir⟩
        rw [hx, hy, c]
      have hlook : (m.look ((nextD m)^[i + 1] d).x ((nextD m)^[i + 1] d).y ((nextD m)^[i + 1] d).dir).1 = .vertex := by
        rw [← hes', look_swap]; exact he.node
      by_cases hin' : i = n
      · subst hin'
        refine Or.inr ?_
        rw [← hes', swap_swap]
      · have := hlk (i + 1) (by omega)
        rw [hlook] at this
        cases this

/-- **C91.** What the labelling of the cells returns for a source image of any size that is accepted with nodes at corners, with labels
of nodes and faces as VIGRA promises them, and if no node hides an edge in a hole (see `labelCells_violated`): edges are labelled without gaps, two pixels have the same
label exactly if they belong to the same edge, nodes and faces keep their labels, and a pixel of an edge becomes a node with a new label
only if the edge does not touch any node.  Afterwards every edge starts at some node, and the result can be navigated. -/
theorem labelCells_labels_partial {w h : Nat} {src : Int → Int → Bool} {cells : Int → Int → CellType}
    (hi : initCellImage .vertex (w + 4) (h + 4) (contourImage w h src) = .ok cells) {v : Components} (hv : v.Sane (w + 4) (h + 4) cells)
    (ho : OneRim (typedMap (w + 4) (h + 4) cells v)) {m : Map} {N n : Nat} (hr : labelCells (w + 4) (h + 4) cells v = .ok (m, N, n)) :
    m.w = w + 4 ∧ m.h = h + 4 ∧ m.init = false ∧ EdgesLabelled m n ∧ NodesLabelled m ∧ FacesLabelled m ∧ Clean m ∧ Traceable m ∧ NoCorner m ∧
    (∀ x y, m.inside x y → cells x y = .vertex → m.px x y = (.vertex, v.node x y)) ∧
    (∀ x y, Inner (w + 4) (h + 4) x y → cells x y = .region → m.px x y = (.region, v.face x y)) ∧
    (∀ x y, m.inside x y → ¬Inner (w + 4) (h + 4) x y → m.px x y = (.region, 0)) ∧
    (∀ x y, m.inside x y → cells x y = .line → (m.px x y).1 = .line ∨ (m.px x y).1 = .vertex ∧ v.maxNode < (m.px x y).2 ∧ (m.px x y).2 ≤ N ∧
      (∀ x' y', m.inside x' y' → m.px x' y' = m.px x y → x' = x ∧ y' = y) ∧
      ∀ d, IsDart (typedMap (w + 4) (h + 4) cells v) d →
        ¬SameEdge (typedMap (w + 4) (h + 4) cells v) (x, y) (d.x + dx d.dir, d.y + dy d.dir)) ∧
    (∀ l, v.maxNode < l → l ≤ N → ∃ x y, m.inside x y ∧ m.px x y = (.vertex, l)) ∧
    (∀ p, m.isLine p → ∃ d, IsDart m d ∧ SameEdge m (d.x + dx d.dir, d.y + dy d.dir) p) ∧
    m = { typedMap (w + 4) (h + 4) cells v with px := m.px } := by
  have hmap : FromContours .vertex (contourImage w h src) (typedMap (w + 4) (h + 4) cells v) := ⟨cells, hi, fun _ _ _ => rfl⟩
  obtain ⟨hc, ht, hno⟩ := contours_navigable rfl rfl hmap
  have hno := hno rfl
  have hraw : ∀ x y, (typedMap (w + 4) (h + 4) cells v).inside x y → (cells x y = .region ↔ contourImage w h src x y = false) := by
    intro x y hin
    rcases initCellImage_total .vertex w h src with ⟨f, h1, h2, h3⟩ | ⟨h1, -⟩
    · rw [hi] at h1
      cases h1
      have hin' : -2 ≤ x ∧ x < (w : Int) + 2 ∧ -2 ≤ y ∧ y < (h : Int) + 2 := by
        unfold Map.inside typedMap at hin
        push_cast at hin
        omega
      exact (h2 x y hin'.1 hin'.2.1 hin'.2.2.1 hin'.2.2.2).1
    · rw [hi] at h1
      cases h1
  classical
  generalize hm0 : typedMap (w + 4) (h + 4) cells v = m0 at *
  have hty0 : ∀ x y, (m0.px x y).1 = cells x y := by rw [← hm0]; exact fun _ _ => rfl
  have hw0 : m0.w = w + 4 := by rw [← hm0]; rfl
  have hh0 : m0.h = h + 4 := by rw [← hm0]; rfl
  have hi0 : m0.init = false := by rw [← hm0]; rfl
  have hnode0 : ∀ x y, cells x y = .vertex → m0.px x y = (.vertex, v.node x y) := by
    intro x y hx
    rw [← hm0]
    unfold typedMap
    dsimp only
    rw [if_pos hx, hx]
  have hzero0 : ∀ x y, cells x y ≠ .vertex → (m0.px x y).2 = 0 := by
    intro x y hx
    rw [← hm0]
    exact if_neg hx
  have hnl0 : NodesLabelled m0 := by
    intro x y k _ h1 h2
    rw [hty0] at h1
    have h2' : cells (x + dx k) (y + dy k) = .vertex := by rw [← hty0]; exact h2
    show (m0.px _ _).2 = _
    rw [hnode0 _ _ h1, hnode0 _ _ h2']
    exact hv.nodeNext x y k h1 h2'
  unfold labelCells at hr
  rw [hm0] at hr
  obtain ⟨r, hr1, hr2⟩ := Outcome.bind_eq_ok.1 hr
  obtain ⟨hp, hall⟩ := labelEdges_scan hc ht hno (fun p hp => hzero0 _ _ (by rw [← hty0, hp.2]; decide)) hr1
  obtain ⟨hs, hready, hpx⟩ := ready_faces hc ht hno hi0 hnl0 (N := v.maxNode)
    (by intro x y _ h1; rw [hty0] at h1; rw [hnode0 _ _ h1]; exact hv.node x y h1) hp (hall ho) (f := v.face)
    (by intro x y h1 h2; rw [hw0, hh0] at h1; rw [hty0] at h2; have := hv.face x y h1 h2; omega)
  obtain ⟨m', N', n', g1, g2, g3, g4⟩ := labelSelfLoops_all hready
  rw [g1] at hr2
  cases hr2
  have hw : m.w = w + 4 := by rw [g3.rest]; show (labelFaces v.face r.1).w = _; rw [hs.w, hw0]
  have hh : m.h = h + 4 := by rw [g3.rest]; show (labelFaces v.face r.1).h = _; rw [hs.h, hh0]
  have hins : ∀ x y, m.inside x y ↔ m0.inside x y := by
    intro x y; unfold Map.inside; rw [hw, hh, hw0, hh0]
  have hinner : ∀ x y, Inner (labelFaces v.face r.1).w (labelFaces v.face r.1).h x y ↔ Inner (w + 4) (h + 4) x y := by
    intro x y; rw [hs.w, hs.h, hw0, hh0]
  -- faces
  have hregion : ∀ x y, cells x y = .region → m.px x y = (.region, if Inner (w + 4) (h + 4) x y then v.face x y else 0) := by
    intro x y hx
    have e0 : r.1.px x y = (.region, 0) := by
      rw [hp.others (x, y) (by dsimp only; rw [hty0, hx]; decide)]
      exact Prod.ext ((hty0 x y).trans hx) (hzero0 x y (by rw [hx]; decide))
    have e : (labelFaces v.face r.1).px x y = (.region, if Inner (w + 4) (h + 4) x y then v.face x y else 0) := by
      unfold labelFaces
      dsimp only
      rw [e0, hp.kinds.w, hp.kinds.h, hw0, hh0]
      by_cases hI : Inner (w + 4) (h + 4) x y
      · rw [if_pos hI, if_pos ⟨rfl, hI⟩]
      · rw [if_neg hI, if_neg fun hh => hI hh.2]
    rw [g3.kept (x, y) (Or.inr (by dsimp only; rw [e]; exact (by decide : CellType.region ≠ .line)))]
    exact e
  have hvertex : ∀ x y, cells x y = .vertex → m0.inside x y → m.px x y = (.vertex, v.node x y) := by
    intro x y hx hin
    have e : (labelFaces v.face r.1).px x y = (.vertex, v.node x y) := by
      rw [hpx x y (by rw [hty0, hx]; decide), hp.others (x, y) (by dsimp only; rw [hty0, hx]; decide)]
      exact hnode0 x y hx
    rw [g3.kept (x, y) (Or.inl (by unfold Map.label; dsimp only; rw [e]; have := (hv.node x y hx).1; dsimp only; omega))]
    exact e
  have hmargin : ∀ x y, m0.inside x y → ¬Inner (w + 4) (h + 4) x y → cells x y = .region := by
    intro x y hin hn
    by_contra hne
    have := hc.frame x y hin (by rw [hty0]; exact hne)
    rw [hw0, hh0] at this
    exact hn this
  refine ⟨hw, hh, g2.fresh, ⟨fun p hp => ⟨?_, g2.marked.le p hp⟩, g2.marked.used, fun p q h1 h2 => ⟨fun e => g2.marked.apart p q h1 h2 ?_ e,
    fun e => g2.marked.closed p q h1 e⟩⟩, g2.nodes, ?_, g2.clean, g2.trace, g2.corner, fun x y h1 h2 => hvertex x y h2 ((hins x y).1 h1),
    fun x y h1 h2 => by rw [hregion x y h2, if_pos h1], fun x y h1 h2 => by rw [hregion x y (hmargin x y ((hins x y).1 h1) h2), if_neg h2], ?_, ?_,
    fun p hp => g2.marked.anchored p hp (by
      have := g2.clean.frame _ _ hp.1 (by rw [hp.2]; decide)
      exact g4 p.1 p.2 ((hinner _ _).2 (by rw [hw, hh] at this; exact this))), by
      rw [g3.rest]
      show ({ labelFaces v.face r.1 with px := m.px } : Map) = { m0 with px := m.px }
      unfold labelFaces
      rw [hp.rest]⟩
  · have := g2.clean.frame _ _ hp.1 (by rw [hp.2]; decide)
    have h4 := g4 p.1 p.2 ((hinner _ _).2 (by rw [hw, hh] at this; exact this))
    unfold Map.label; omega
  · have := g2.clean.frame _ _ h1.1 (by rw [h1.2]; decide)
    exact g4 p.1 p.2 ((hinner _ _).2 (by rw [hw, hh] at this; exact this))
  · intro x y k hk h1 h2 h3 h4
    have hreg : ∀ x y, m.inside x y → (m.px x y).1 = .region → cells x y = .region := by
      intro x y hin hreg
      rcases g3.kinds (x, y) with e | e
      · rw [← hty0, ← hs.px]; exact e.symm.trans hreg
      · exact absurd (hreg.symm.trans e.2.2.1) (by decide)
    have c1 := hreg _ _ h1 h3
    have c2 := hreg _ _ h2 h4
    show (m.px _ _).2 = _
    rw [hregion _ _ c1, hregion _ _ c2]
    dsimp only
    have r1 := (hraw x y ((hins _ _).1 h1)).1 c1
    have r2 := (hraw _ _ ((hins _ _).1 h2)).1 c2
    have hstep : ∀ k : Fin 8, k.val % 2 = 0 → (dx k = 0 ∨ dy k = 0) := by decide
    have hk' := hstep k hk
    have q1 := dx_range k
    have q2 := dy_range k
    unfold Map.inside at h1 h2
    rw [hw, hh] at h1 h2
    push_cast at h1 h2
    unfold contourImage at r1 r2
    have side : ∀ x y : Int, (if 0 ≤ x ∧ x < (w : Int) ∧ 0 ≤ y ∧ y < (h : Int) then src x y else
        decide (-1 ≤ x ∧ x ≤ (w : Int) ∧ -1 ≤ y ∧ y ≤ (h : Int))) = false →
        (0 ≤ x ∧ x < (w : Int) ∧ 0 ≤ y ∧ y < (h : Int)) ∨ ¬(-1 ≤ x ∧ x ≤ (w : Int) ∧ -1 ≤ y ∧ y ≤ (h : Int)) := by
      intro x y hh
      split at hh
      · left; assumption
      · right; simpa using hh
    have s1 := side _ _ r1
    have s2 := side _ _ r2
    by_cases i1 : Inner (w + 4) (h + 4) x y <;> by_cases i2 : Inner (w + 4) (h + 4) (x + dx k) (y + dy k)
    · rw [if_pos i1, if_pos i2]
      exact hv.faceNext x y k hk i1 i2 c1 c2
    · exfalso
      unfold Inner at i1 i2
      push_cast at i1 i2
      omega
    · exfalso
      unfold Inner at i1 i2
      push_cast at i1 i2
      omega
    · rw [if_neg i1, if_neg i2]
  · intro x y h1 h2
    rcases g3.kinds (x, y) with e | e
    · left; rw [e, hs.px, hty0, h2]
    · right
      refine ⟨e.2.2.1, e.2.2.2.1, e.2.2.2.2, ?_, ?_⟩
      · intro x' y' hin hpx'
        have hl' : ((labelFaces v.face r.1).px x' y').1 = .line := by
          rcases g3.kinds (x', y') with f | f
          · exfalso
            have hv' : cells x' y' = .vertex := by
              rw [← hty0, ← hs.px, ← f]
              dsimp only
              rw [hpx']
              exact e.2.2.1
            have hnn := hvertex x' y' hv' ((hins _ _).1 hin)
            rw [hpx'] at hnn
            have h7 := e.2.2.2.1
            have h8 := (hv.node x' y' hv').2
            unfold Map.label at h7
            rw [hnn] at h7
            dsimp only at h7
            omega
          · exact f.1.2
        have := g3.once (x', y') (x, y) (by dsimp only; rw [hpx']; exact e.2.2.1) hl' e.2.2.1 e.1.2 (by
          unfold Map.label; dsimp only; rw [hpx'])
        exact ⟨congrArg Prod.fst this, congrArg Prod.snd this⟩
      · intro d hd hse
        have hlp : r.1.isLine (x, y) := hp.kinds.isLine.2 (hs.isLine.1 e.1)
        have h5 := hp.marked.closed (x, y) d.front hlp (by rw [hp.kinds.sameEdge]; exact hse)
        have h6 : r.1.label (x, y) = 0 := by
          have := e.2.1
          unfold Map.label at this ⊢
          rw [hpx _ _ (by dsimp only; rw [hty0, h2]; decide)] at this
          exact this
        exact hall ho d hd (h5.symm.trans h6)
  · intro l h1 h2
    obtain ⟨q, a1, a2⟩ := g3.used l h1 h2
    exact ⟨q.1, q.2, (hins _ _).2 ((hs.inside _ _).1 a1.1), a2⟩

/-- **C91.** The labelling returns for every source image that is accepted: turning around a node ends, also when the start pixel does not
touch an edge, no index is out of range and no pixel outside of the image is read.  (The first statement needs no assumption about holes.) -/
theorem labelCells_returns {w h : Nat} {src : Int → Int → Bool} {cells : Int → Int → CellType}
    (hi : initCellImage .vertex (w + 4) (h + 4) (contourImage w h src) = .ok cells) {v : Components} (hv : v.Sane (w + 4) (h + 4) cells) :
    (∃ r, labelEdges (typedMap (w + 4) (h + 4) cells v) v.maxNode = .ok r) ∧
    (OneRim (typedMap (w + 4) (h + 4) cells v) → ∃ r, labelCells (w + 4) (h + 4) cells v = .ok r) := by
  have hmap : FromContours .vertex (contourImage w h src) (typedMap (w + 4) (h + 4) cells v) := ⟨cells, hi, fun _ _ _ => rfl⟩
  obtain ⟨hc, ht, hno⟩ := contours_navigable rfl rfl hmap
  have hno := hno rfl
  have hty0 : ∀ x y, ((typedMap (w + 4) (h + 4) cells v).px x y).1 = cells x y := fun _ _ => rfl
  have hnode0 : ∀ x y, cells x y = .vertex → (typedMap (w + 4) (h + 4) cells v).px x y = (.vertex, v.node x y) := by
    intro x y hx
    unfold typedMap
    dsimp only
    rw [if_pos hx, hx]
  have hzero0 : ∀ x y, cells x y ≠ .vertex → ((typedMap (w + 4) (h + 4) cells v).px x y).2 = 0 := fun x y hx => if_neg hx
  have hnl0 : NodesLabelled (typedMap (w + 4) (h + 4) cells v) := by
    intro x y k _ h1 h2
    rw [hty0] at h1
    have h2' : cells (x + dx k) (y + dy k) = .vertex := by rw [← hty0]; exact h2
    show ((typedMap (w + 4) (h + 4) cells v).px _ _).2 = _
    rw [hnode0 _ _ h1, hnode0 _ _ h2']
    exact hv.nodeNext x y k h1 h2'
  have hz : ∀ p, (typedMap (w + 4) (h + 4) cells v).isLine p → (typedMap (w + 4) (h + 4) cells v).label p = 0 :=
    fun p hp => hzero0 _ _ (by rw [← hty0, hp.2]; decide)
  have hlab : ∀ x y, (typedMap (w + 4) (h + 4) cells v).inside x y → ((typedMap (w + 4) (h + 4) cells v).px x y).1 = .vertex →
      1 ≤ ((typedMap (w + 4) (h + 4) cells v).px x y).2 ∧ ((typedMap (w + 4) (h + 4) cells v).px x y).2 ≤ v.maxNode := by
    intro x y _ h1
    rw [hty0] at h1
    rw [hnode0 _ _ h1]
    exact hv.node x y h1
  obtain ⟨r, hr⟩ := labelEdges_total hc ht hno hnl0 hz fun x y h1 h2 => (hlab x y h1 h2).2
  refine ⟨⟨r, hr⟩, fun ho => ?_⟩
  obtain ⟨hp, hall⟩ := labelEdges_scan hc ht hno hz hr
  obtain ⟨hs, hready, hpx⟩ := ready_faces hc ht hno rfl hnl0 hlab hp (hall ho) (f := v.face)
    (by intro x y h1 h2; have := hv.face x y h1 h2; omega)
  obtain ⟨m', N', n', g1, -⟩ := labelSelfLoops_all hready
  unfold labelCells
  rw [hr, Outcome.bind_ok]
  exact ⟨_, g1⟩

/-! ## Examples -/

/-- the cell types of a source image, if it is accepted -/
def cellsOf (corner : CellType) (w h : Nat) (src : Int → Int → Bool) (x y : Int) : CellType :=
  if x = -1 ∧ y = -1 then .vertex else classify corner (contourImage w h src) x y

theorem cellsOf_eq {corner : CellType} {w h : Nat} {src : Int → Int → Bool}
    (hok : (typeAt (initCellImage corner (w + 4) (h + 4) (contourImage w h src)) 0 0).isSome = true) :
    initCellImage corner (w + 4) (h + 4) (contourImage w h src) = .ok (cellsOf corner w h src) := by
  unfold initCellImage at hok ⊢
  cases hi : initPixels corner (w + 4) (h + 4) (contourImage w h src) (imagePixels (w + 4) (h + 4)) with
  | ok _ => rfl
  | _ => rw [hi] at hok; simp [Outcome.bind, typeAt] at hok

/-- nodes and edges are inside of the frame -/
theorem cells_inner {corner : CellType} {w h : Nat} {src : Int → Int → Bool} {cells : Int → Int → CellType}
    (hi : initCellImage corner (w + 4) (h + 4) (contourImage w h src) = .ok cells) {x y : Int} (hn : cells x y ≠ .region) :
    (x, y) ∈ innerPixels (w + 4) (h + 4) := by
  unfold initCellImage at hi
  obtain ⟨-, -, hcell⟩ := Outcome.bind_eq_ok.1 hi
  cases hcell
  dsimp only at hn
  refine inner_mem ?_
  unfold Inner
  push_cast
  split at hn
  · omega
  · have : contourImage w h src x y = true := by
      by_contra hf
      unfold classify at hn
      rw [if_neg (by simpa using hf)] at hn
      exact hn rfl
    unfold contourImage at this
    split at this
    · omega
    · simp only [decide_eq_true_eq] at this
      omega

/-- a finite check of `Components.Sane` -/
theorem sane_of_check {corner : CellType} {w h : Nat} {src : Int → Int → Bool} {cells : Int → Int → CellType} {v : Components}
    (hi : initCellImage corner (w + 4) (h + 4) (contourImage w h src) = .ok cells)
    (hn : ∀ p ∈ innerPixels (w + 4) (h + 4), cells p.1 p.2 = .vertex → (1 ≤ v.node p.1 p.2 ∧ v.node p.1 p.2 ≤ v.maxNode) ∧
      ∀ k : Fin 8, cells (p.1 + dx k) (p.2 + dy k) = .vertex → v.node (p.1 + dx k) (p.2 + dy k) = v.node p.1 p.2)
    (hf : ∀ p ∈ innerPixels (w + 4) (h + 4), cells p.1 p.2 = .region → (1 ≤ v.face p.1 p.2 ∧ v.face p.1 p.2 ≤ v.maxFace) ∧
      ∀ k : Fin 8, k.val % 2 = 0 → cells (p.1 + dx k) (p.2 + dy k) = .region → v.face (p.1 + dx k) (p.2 + dy k) = v.face p.1 p.2)
    (hnu : ∃ p ∈ innerPixels (w + 4) (h + 4), cells p.1 p.2 = .vertex ∧ v.node p.1 p.2 = v.maxNode)
    (hfu : ∃ p ∈ innerPixels (w + 4) (h + 4), cells p.1 p.2 = .region ∧ v.face p.1 p.2 = v.maxFace) : v.Sane (w + 4) (h + 4) cells := by
  have hin : ∀ x y, cells x y = .vertex → (x, y) ∈ innerPixels (w + 4) (h + 4) := fun x y hx => cells_inner hi (by rw [hx]; decide)
  refine ⟨fun x y hx => (hn (x, y) (hin x y hx) hx).1, fun x y k hx => (hn (x, y) (hin x y hx) hx).2 k, fun _ => ?_,
    fun x y hI hx => (hf (x, y) (inner_mem hI) hx).1, fun x y k hk hI _ hx => (hf (x, y) (inner_mem hI) hx).2 k hk, fun _ => ?_⟩
  · obtain ⟨p, h1, h2, h3⟩ := hnu
    have := mem_inner h1
    unfold Inner at this
    exact ⟨p.1, p.2, by omega, by omega, by omega, by omega, h2, h3⟩
  · obtain ⟨p, h1, h2, h3⟩ := hfu
    exact ⟨p.1, p.2, mem_inner h1, h2, h3⟩

/-- a finite check of `OneRim` for nodes of one pixel -/
theorem oneRim_of_check {m : Map} (hc : Clean m)
    (hone : ∀ p ∈ innerPixels m.w m.h, ∀ q ∈ innerPixels m.w m.h, (m.px p.1 p.2).1 = .vertex → m.px p.1 p.2 = m.px q.1 q.2 → p = q)
    (hdart : ∀ p ∈ innerPixels m.w m.h, (m.px p.1 p.2).1 = .vertex → ∀ k : Fin 8, (m.look p.1 p.2 k).1 = .line →
      ∃ n : Fin 8, theDart ((mkDart m ⟨p.1, p.2, 4⟩).bind (sigmas m n.val)) = some ⟨p.1, p.2, k⟩) : OneRim m := by
  intro x y d hf hd hlab
  have hin : ∀ x y, m.inside x y → (m.px x y).1 = .vertex → (x, y) ∈ innerPixels m.w m.h :=
    fun x y h1 h2 => inner_mem (hc.frame x y h1 (by rw [h2]; decide))
  have hp := hin _ _ hf.inside hf.node
  have hq := hin _ _ hd.inside hd.node
  have e := hone _ hp _ hq hf.node (Prod.ext (hf.node.trans hd.node.symm) hlab.symm)
  obtain ⟨n, hn⟩ := hdart _ hp hf.node d.dir (by
    have h1 := congrArg Prod.fst e
    have h2 := congrArg Prod.snd e
    dsimp only at h1 h2
    rw [h1, h2]; exact hd.edge)
  cases ha : mkDart m ⟨x, y, 4⟩ with
  | ok a =>
    dsimp only at hn
    rw [ha, Outcome.bind_ok] at hn
    cases hs : sigmas m n.val a with
    | ok b =>
      rw [hs] at hn
      refine ⟨a, n.val, rfl, hs.trans ?_⟩
      have hb : b = ⟨x, y, d.dir⟩ := Option.some.inj hn
      have h1 : x = d.x := congrArg Prod.fst e
      have h2 : y = d.y := congrArg Prod.snd e
      rw [hb, h1, h2]
    | _ => rw [hs] at hn; cases hn
  | _ => dsimp only at hn; rw [ha] at hn; cases hn

/-- the result of labelling at some pixels, and the largest labels of nodes and edges -/
def theLabels (r : Outcome (Map × Nat × Nat)) (l : List (Int × Int)) : Option (List Pixel × Nat × Nat) :=
  match r with
  | .ok (m, N, n) => some (l.map fun p => m.px p.1 p.2, N, n)
  | _ => none

/-- a small closed contour -/
def ringSrc (x y : Int) : Bool := decide ((x, y) ∈ [((2 : Int), (1 : Int)), (1, 2), (3, 2), (2, 3)])

/-- the labels of its nodes (the corners of the frame) and faces -/
def ringComponents : Components :=
  ⟨fun x y => if x < 0 then (if y < 0 then 1 else 3) else if y < 0 then 2 else 4, 4, fun x y => if x = 2 ∧ y = 2 then 2 else 1, 2⟩

/-- The closed contour in a frame of 5 x 5 pixels meets the hypotheses: the labelling returns, the pixel (2, 1) becomes node 5, and the other
three pixels of the contour become edge 5. -/
example : initCellImage .vertex (5 + 4) (5 + 4) (contourImage 5 5 ringSrc) = .ok (cellsOf .vertex 5 5 ringSrc) ∧
    ringComponents.Sane (5 + 4) (5 + 4) (cellsOf .vertex 5 5 ringSrc) ∧
    OneRim (typedMap (5 + 4) (5 + 4) (cellsOf .vertex 5 5 ringSrc) ringComponents) ∧
    theLabels (labelCells (5 + 4) (5 + 4) (cellsOf .vertex 5 5 ringSrc) ringComponents)
        [(2, 1), (1, 2), (3, 2), (2, 3), (2, 2), (0, 0), (-1, -1), (0, -1), (-1, 0), (-2, 3)] =
      some ([(.vertex, 5), (.line, 5), (.line, 5), (.line, 5), (.region, 2), (.region, 1), (.vertex, 1), (.line, 2), (.line, 1), (.region, 0)], 5, 5) := by
  have h1 : initCellImage .vertex (5 + 4) (5 + 4) (contourImage 5 5 ringSrc) = .ok (cellsOf .vertex 5 5 ringSrc) := cellsOf_eq (by decide +kernel)
  refine ⟨h1, sane_of_check h1 (by decide +kernel) (by decide +kernel) (by decide +kernel) (by decide +kernel), ?_, by decide +kernel⟩
  exact oneRim_of_check (contours_navigable rfl rfl ⟨_, h1, fun _ _ _ => rfl⟩).1 (by decide +kernel) (by decide +kernel)

/-- a node with a hole: columns of the contour pixels in each row -/
def wreathRows : List (List Int) :=
  [[],
   [3, 5, 7, 9],
   [3, 5, 7, 9],
   [1, 2, 4, 6, 8, 10, 11],
   [3, 4, 6, 8, 9],
   [1, 2, 10, 11],
   [3, 4, 8, 9],
   [1, 2, 5, 7, 10, 11],
   [3, 5, 7, 9],
   [2, 4, 6, 8, 10],
   [4, 6, 8],
   []]

def wreathSrc (x y : Int) : Bool := decide (x ∈ (wreathRows[y.toNat]?).getD [])

/-- the labels of its nodes and faces (one node in the middle and four corners) -/
def wreathComponents : Components :=
  ⟨fun x y => if 0 < x ∧ x < 12 ∧ 0 < y ∧ y < 11 then 4 else if x < 0 then (if y < 0 then 1 else 3) else if y < 0 then 2 else 5, 5,
   fun _ _ => 1, 1⟩

/-- **C91 is violated** for nodes with holes. A wreath of contour pixels becomes one node with a hole, and in the hole there are two edges of
two pixels each.  `labelEdges` turns around the outer rim of the node only and does not see them. `labelSelfLoops` takes them for closed
contours: the pixel (4, 6) becomes a node with label 6 beside the pixel (3, 6) of node 4, and only the pixel (5, 7) remains of the edge. -/
theorem labelCells_violated : initCellImage .vertex (13 + 4) (12 + 4) (contourImage 13 12 wreathSrc) = .ok (cellsOf .vertex 13 12 wreathSrc) ∧
    theLabels (labelCells (13 + 4) (12 + 4) (cellsOf .vertex 13 12 wreathSrc) wreathComponents) [(3, 6), (4, 6), (5, 7), (5, 8)] =
      some ([(.vertex, 4), (.vertex, 6), (.line, 5), (.vertex, 4)], 7, 6) ∧
    cellsOf .vertex 13 12 wreathSrc 4 6 = .line ∧ cellsOf .vertex 13 12 wreathSrc 5 7 = .line ∧
    IsDart (typedMap (13 + 4) (12 + 4) (cellsOf .vertex 13 12 wreathSrc) wreathComponents) ⟨3, 6, 0⟩ := by
  refine ⟨cellsOf_eq (by decide +kernel), by decide +kernel, by decide +kernel, by decide +kernel, by decide +kernel, by decide +kernel,
    by decide +kernel, by decide +kernel⟩

end Verif.FourEight.Props
