import Verif.Locate.ImageSpec
import Verif.Locate.Props

/-! # Pixels lie in the faces the label image reports: lemmas -/

set_option linter.unusedSectionVars false

namespace Verif.Locate
open Verif Verif.GeoMap Verif.Polygon Verif.Scan Verif.PermLemmas Verif.LabelImage

variable {K : Type} [Field K] [LinearOrder K] [IsStrictOrderedRing K] [FloorRing K]

omit [IsStrictOrderedRing K] [FloorRing K] in
theorem crossing_zero {g : GMap K} (hl : ∀ n, (g.edge n).isSome = true → n < g.nEdges) {p : Int × Int} (h : crossing g p = 0) {l : Nat} : ¬ Crosses g l p := by
  classical
  intro hc
  unfold crossing at h
  rw [Finset.card_eq_zero, Finset.filter_eq_empty_iff] at h
  refine h (Finset.mem_range.mpr (hl l ?_)) hc
  obtain ⟨e, he, -⟩ := hc
  rw [he]; rfl

omit [IsStrictOrderedRing K] [FloorRing K] in
/-- No edge has a point in a pixel that no edge passes through. -/
theorem off_pixel {g : GMap K} (hl : ∀ n, (g.edge n).isSome = true → n < g.nEdges) {p : Int × Int} (h : crossing g p = 0) {r : Pt K} (hr : OnEdge g r) :
    ¬ InPixel p.1 p.2 r := by
  intro hp
  obtain ⟨l, e, he, hq⟩ := hr
  exact crossing_zero hl h (l := l) ⟨e, he, r, hq, hp⟩

omit [FloorRing K] in
theorem centre_inPixel (x y : Int) : InPixel x y (centre x y : Pt K) := by
  unfold InPixel centre
  refine ⟨?_, ?_, ?_, ?_⟩ <;> simp only <;> linarith

theorem centre_off {g : GMap K} (hl : ∀ n, (g.edge n).isSome = true → n < g.nEdges) {p : Int × Int} (h : crossing g p = 0) :
    ¬ OnEdge g (centre p.1 p.2) := fun hr => off_pixel hl h hr (centre_inPixel _ _)

omit [FloorRing K] in
theorem inPixel_between {x y : Int} {c c' r : Pt K} (h : InPixel x y c) (h' : InPixel x y c') (hb : Between c c' r) : InPixel x y r := by
  obtain ⟨a1, a2, a3, a4⟩ := h
  obtain ⟨b1, b2, b3, b4⟩ := h'
  obtain ⟨⟨q1, q2⟩, q3, q4⟩ := hb
  exact ⟨lt_of_lt_of_le (lt_min a1 b1) q1, lt_of_le_of_lt q2 (max_lt a2 b2), lt_of_lt_of_le (lt_min a3 b3) q3, lt_of_le_of_lt q4 (max_lt a4 b4)⟩

/-! ## Switching on -/

theorem faceLines_congr {m : LMap K} {F F' : Face K} (h : F.anchors = F'.anchors) : m.faceLines F = m.faceLines F' := by
  unfold LMap.faceLines
  rw [h]

/-- The last face whose first contour winds around a pixel wins. -/
theorem fillFaces_last {m : LMap K} (hM : MapOK m.g) (hi : m.g.initialized) (hG : GeomOK m.g)
    (hd : ∀ l e, m.g.edge l = some e → DirOK (m.lines l e) e.pts) {p : Int × Int} (hp : InImage m.w m.h p) (hc : ∀ a, ¬ ContourPasses m.g a p)
    {fs : List Nat} (hs : fs.Pairwise (· < ·)) {g g' : GMap K} {im im' : Img} (hP : PixChanged m.g g) (e : m.fillFaces fs (g, im) = .ok (g', im')) :
    (im' p = im p ∧ ∀ f ∈ fs, ¬ FirstEncloses m.g (centre p.1 p.2) f) ∨
    ∃ f ∈ fs, FirstEncloses m.g (centre p.1 p.2) f ∧ im' p = (f : Int) ∧ ∀ k ∈ fs, FirstEncloses m.g (centre p.1 p.2) k → k ≤ f := by
  induction fs generalizing g im with
  | nil =>
    simp only [LMap.fillFaces, Outcome.ok.injEq, Prod.mk.injEq] at e
    obtain ⟨-, rfl⟩ := e
    exact Or.inl ⟨rfl, fun f hf => absurd hf (by simp)⟩
  | cons f fs ih =>
    obtain ⟨hlt, hs⟩ := List.pairwise_cons.mp hs
    unfold LMap.fillFaces at e
    cases hF : g.face f with
    | none =>
      have hn : ¬ FirstEncloses m.g (centre p.1 p.2) f := by
        rintro ⟨F, a, as, h, -⟩
        have := hP.isSome f
        rw [hF, h] at this; cases this
      simp only [hF] at e
      rcases ih hs hP e with ⟨h1, h2⟩ | ⟨k, h1, h2, h3, h4⟩
      · exact Or.inl ⟨h1, fun k hk => by
          rcases List.mem_cons.mp hk with rfl | hk
          · exact hn
          · exact h2 k hk⟩
      · refine Or.inr ⟨k, List.mem_cons_of_mem _ h1, h2, h3, fun j hj => ?_⟩
        rcases List.mem_cons.mp hj with rfl | hj
        · exact fun h => absurd h hn
        · exact h4 j hj
    | some F =>
      simp only [hF] at e
      obtain ⟨L, e1, e⟩ := Outcome.bind_eq_ok.mp e
      obtain ⟨_, -, e⟩ := Outcome.bind_eq_ok.mp e
      obtain ⟨F0, hF0⟩ := Option.isSome_iff_exists.mp (show (m.g.face f).isSome = true by rw [← hP.isSome, hF]; rfl)
      have han : F.anchors = F0.anchors := by
        have := hP.anchors f
        rw [hF, hF0] at this
        exact Option.some.inj this
      have hfill : p ∈ (fillScannedPoly L m.w m.h).1 ↔ FirstEncloses m.g (centre p.1 p.2) f := by
        cases ha : F0.anchors with
        | nil => unfold LMap.faceLines at e1; rw [han, ha] at e1; cases e1
        | cons a as =>
          obtain ⟨L', h1, -, h2⟩ := faceLines_fill hM hi hG hd hF0 ha m.w m.h
          rw [faceLines_congr han, h1] at e1
          cases e1
          rw [h2]
          constructor
          · exact fun h => ⟨F0, a, as, hF0, ha, h.2.2⟩
          · rintro ⟨F', a', as', q1, q2, q3⟩
            rw [hF0] at q1; cases q1
            rw [ha] at q2; cases q2
            exact ⟨hp, hc a, q3⟩
      have hv := fillImg_apply f im (px := (fillScannedPoly L m.w m.h).1) p
      rcases ih hs (hP.trans (pixChanged_set hF 0)) e with ⟨h1, h2⟩ | ⟨k, h1, h2, h3, h4⟩
      · by_cases hin : FirstEncloses m.g (centre p.1 p.2) f
        · rw [if_pos (hfill.mpr hin)] at hv
          refine Or.inr ⟨f, List.mem_cons_self, hin, by rw [h1, hv], fun j hj hh => ?_⟩
          rcases List.mem_cons.mp hj with rfl | hj
          · exact le_rfl
          · exact absurd hh (h2 j hj)
        · rw [if_neg (fun h => hin (hfill.mp h))] at hv
          refine Or.inl ⟨by rw [h1, hv], fun k hk => ?_⟩
          rcases List.mem_cons.mp hk with rfl | hk
          · exact hin
          · exact h2 k hk
      · refine Or.inr ⟨k, List.mem_cons_of_mem _ h1, h2, h3, fun j hj hh => ?_⟩
        rcases List.mem_cons.mp hj with rfl | hj
        · exact (hlt k h1).le
        · exact h4 j hj hh

/-- The pixels lie in their faces. -/
def Pict (m : LMap K) (im : Img) : Prop := ∀ p f, InImage m.w m.h p → own im m.lut p = some f → Located m.g (centre p.1 p.2) f

theorem _root_.Verif.LabelImage.Inv.own_free {m : LMap K} {im : Img} (hI : Inv m im) {p : Int × Int} (hp : InImage m.w m.h p) {f : Nat} (h : own im m.lut p = some f) :
    crossing m.g p = 0 ∧ (m.g.face f).isSome = true := by
  have hc : crossing m.g p = 0 := by
    by_contra hne
    have := hI.marked p hp (by omega)
    have := own_nonneg h
    omega
  obtain ⟨f', h1, h2⟩ := hI.free p hp hc
  rw [h] at h1
  cases h1
  exact ⟨hc, h2⟩

theorem pix_moves {s t : GMap K} (hs : MapOK s) (h : PixChanged s t) : Moves s t id := by
  have ht := h.mapOK hs
  have hi := h.isSome
  obtain ⟨face', rfl⟩ := h.eq
  exact moves_same hs ht rfl (fun _ => rfl) (fun _ => rfl) hi

omit [FloorRing K] in
theorem Moves.trans {s t u : GMap K} {ren : Nat → Nat} (h1 : Moves s t ren) (h2 : Moves t u id) : Moves s u ren := by
  refine ⟨fun c f hc hl => h2.loc c _ (fun h => hc (h1.onEdge h)) (h1.loc c f hc hl), fun d e he q hq => ?_⟩
  obtain ⟨d', e', a1, a2, a3⟩ := h2.edge d e he q hq
  obtain ⟨d'', e'', b1, b2, b3⟩ := h1.edge d' e' a1 q a2
  exact ⟨d'', e'', b1, b2, by rw [a3, b3]; simp⟩

theorem setHasLabelImage_pict {g : GMap K} (hP : Placed g) (h0 : ∀ F, g.face 0 = some F → F.pixelArea = 0)
    (hN : Nested g) {w h : Nat} {lut : LabelLUT.LUT} {n : LMap K} (e : (LMap.ofMap g w h lut).setHasLabelImage true = .ok n) :
    Placed n.g ∧ ∃ im, Inv n im ∧ Pict n im := by
  have hg := hP.good
  have hi := hP.init
  have hS := hP.sub
  obtain ⟨im, hI, hpc, hw, hh, hlut, -, g1, im1, e1, him⟩ := setHasLabelImage_inv hg hP.geom hi h0 e
  have hmv := pix_moves hg.map hpc
  have hcr : ∀ p, crossing n.g p = crossing g p := crossing_pix hpc
  have hlt : ∀ l, (g.edge l).isSome = true → l < g.nEdges := hg.map.graph.labels.edge_lt
  refine ⟨hP.next hI.good hI.geom hI.init hmv, im, hI, fun p f hp ho => ?_⟩
  have hc := (hI.own_free hp ho).1
  rw [hcr] at hc
  rw [hw, hh] at hp
  have hoff := centre_off hlt hc
  obtain ⟨f', hf'⟩ := hS.located _ hoff
  have hval : im1 p = (f' : Int) := by
    have hlast := fillFaces_last (m := LMap.ofMap g w h lut) hg.map hi hP.geom.geom (fun l e _ => edgeLines_dir e.pts) (p := p) hp
      (fun a => by rintro ⟨d, e', -, he', hps⟩; exact crossing_zero hlt hc (l := d.natAbs) ⟨e', he', hps⟩)
      (List.pairwise_lt_range' (s := 1) (n := g.nFaces - 1)) (PixChanged.refl g) e1
    have hmem : ∀ k, FirstEncloses g (centre p.1 p.2) k → k ≠ 0 → k ∈ List.range' 1 (g.nFaces - 1) := by
      rintro k ⟨F, a, as, hF, -⟩ hk
      have := hg.map.graph.labels.face_lt k (by rw [hF]; rfl)
      rw [List.mem_range'_1]
      omega
    rcases hlast with ⟨h1, h2⟩ | ⟨k, h1, h2, h3, h4⟩
    · by_cases hf0 : f' = 0
      · rw [hf0]; exact h1
      · have := hN.outer _ f' hoff hf' hf0
        exact absurd this (h2 f' (hmem f' this hf0))
    · have hk0 : k ≠ 0 := by have := List.mem_range'_1.mp h1; omega
      have hle := hN.order _ f' k hoff hf' hk0 h2
      have hf0 : f' ≠ 0 := by omega
      have ho' := hN.outer _ f' hoff hf' hf0
      have := h4 f' (hmem f' ho' hf0) ho'
      rw [h3, show k = f' by omega]
  have hff : f = f' := by
    unfold own at ho
    rw [him p hp hc, hval, if_pos (by omega), Int.toNat_natCast, hlut] at ho
    have hlive := hI.ident f' (by rw [hpc.isSome]; exact hf'.1)
    rw [hlut] at hlive
    rw [hlive] at ho
    exact (Option.some.inj ho).symm
  subst hff
  have := hmv.loc _ _ hoff hf'
  exact this

/-! ## Calls -/

/-- Pixels that keep their owner. -/
theorem Pict.keep {m n : LMap K} {im im' : Img} (hI : Inv m im) (hn : Inv n im') (hpic : Pict m im) (hw : n.w = m.w) (hh : n.h = m.h) {ren : Nat → Nat}
    (hm : Moves m.g n.g ren) (hren : ∀ f, (n.g.face f).isSome = true → ren f = f)
    (ho : ∀ p, InImage m.w m.h p → own im' n.lut p = own im m.lut p) : Pict n im' := by
  intro p f hp hf
  have hlive := (hn.own_free hp hf).2
  rw [hw, hh] at hp
  rw [ho p hp] at hf
  have := hm.loc _ f (centre_off hI.good.map.graph.labels.edge_lt (hI.own_free hp hf).1) (hpic p f hp hf)
  rwa [hren f hlive] at this

/-- Pixels after the removal of an edge. -/
theorem Pict.removed {m n : LMap K} {im im' : Img} {d : Int} {sl : Nat} {ren : Nat → Nat} {px : List (Int × Int)} (hI : Inv m im)
    (hP : Placed m.g) (hPn : Placed n.g) (hpic : Pict m im) (hR : Removed m n im im' d.natAbs sl ren px) (hm : Moves m.g n.g ren) {fl : Nat}
    (hl : m.g.left? d = some fl) (hsl : ren fl = sl) : Pict n im' := by
  intro p f hp hf
  rw [hR.size.1, hR.size.2] at hp
  rw [hR.own p hp] at hf
  split_ifs at hf with hpx
  · cases hf
    obtain ⟨-, ⟨e, he, q, hq, hqp⟩, hc⟩ := (hR.freed p).mp hpx
    have hlt := hPn.good.map.graph.labels.edge_lt
    have := hP.freed hPn hm he hq hl (fun h => off_pixel hlt hc h hqp)
    rw [hsl] at this
    exact this.move hPn.good.map hPn.init hPn.geom.geom fun r hr hb => off_pixel hlt hc hr (inPixel_between hqp (centre_inPixel _ _) hb)
  · obtain ⟨f0, h1, rfl⟩ := Option.map_eq_some_iff.mp hf
    exact hm.loc _ f0 (centre_off hI.good.map.graph.labels.edge_lt (hI.own_free hp h1).1) (hpic p f0 hp h1)

theorem call_pict {m n : LMap K} {im : Img} (hI : Inv m im) (hP : Placed m.g) (hpic : Pict m im) {h : Hooks K} {op : LOp K} (hl : op.op.legal m.g)
    (hf : op.fits m.g) (e : op.run h m = .ok n) : Placed n.g ∧ ∃ im', Inv n im' ∧ Pict n im' := by
  rcases run_inv hI h op hl hf with ⟨-, e'⟩ | ⟨g, n', imn, eg, e', hpc, hIn, hw, hh⟩
  · rw [e'] at e; cases e
  rw [e'] at e
  cases e
  obtain ⟨hgood, -, -, ren, hmv, hren⟩ := call_moves hP.good hP.geom hP.init hl hf eg
  have hmv := hmv.trans (pix_moves hgood.map hpc)
  have hren : ∀ f, (n.g.face f).isSome = true → ren f = f := fun f hf => hren f (by rw [← hpc.isSome]; exact hf)
  have hPn : Placed n.g := hP.next hIn.good hIn.geom hIn.init hmv
  refine ⟨hPn, ?_⟩
  have plain : n = { m with g := n.g } → ∃ im', Inv n im' ∧ Pict n im' := by
    intro hn
    have him : imn = im := by
      have h1 := hIn.img
      rw [hn] at h1
      exact (Option.some.inj (hI.img.symm.trans h1)).symm
    subst him
    exact ⟨imn, hIn, Pict.keep hI hIn hpic hw hh hmv hren fun p _ => by rw [hn]⟩
  have bridge : ∀ d, (m.removeBridge h d).map (·.2.1) = .ok n → ∃ im', Inv n im' ∧ Pict n im' := by
    intro d e
    rcases removeBridge_inv hI h d with ⟨-, e2⟩ | ⟨g, -, e2, -⟩ | ⟨f, g, n', px, im', e1, e2, e3, e4, e5⟩
    · rw [e2] at e; cases e
    · rw [e2] at e; cases e; exact plain rfl
    · rw [e2] at e; cases e
      have E := removeBridge_effect hI.good e1
      have hgd : MapOK g := by
        rcases call_safe hI.good h (.removeBridge d) trivial with e' | ⟨t', e', hg⟩
        · have e' : (m.g.removeBridge h d).map (·.2) = .precond := e'
          rw [e1] at e'; cases e'
        · have e' : (m.g.removeBridge h d).map (·.2) = .ok t' := e'
          rw [e1] at e'; cases e'
          exact (hg fun hn => absurd hI.init hn).map
      exact ⟨im', e4, Pict.removed hI hP hPn hpic e5 ((moves_removeBridge hI.good.map hgd E).trans (pix_moves hgd e3)) E.face.1 rfl⟩
  have faces : ∀ d, (m.mergeFaces h d).map (·.2.1) = .ok n → ∃ im', Inv n im' ∧ Pict n im' := by
    intro d e
    rcases mergeFaces_inv hI h d with ⟨-, e2⟩ | ⟨g, -, e2, -⟩ | ⟨sl, ml, g, n', px, im', e1, e2, E, e3, e4, e5⟩
    · rw [e2] at e; cases e
    · rw [e2] at e; cases e; exact plain rfl
    · rw [e2] at e; cases e
      have hgd : MapOK g := by
        rcases call_safe hI.good h (.mergeFaces d) trivial with e' | ⟨t', e', hg⟩
        · have e' : (m.g.mergeFaces h d).map (·.2) = .precond := e'
          rw [e1] at e'; cases e'
        · have e' : (m.g.mergeFaces h d).map (·.2) = .ok t' := e'
          rw [e1] at e'; cases e'
          exact (hg fun hn => absurd hI.init hn).map
      have hm := (moves_mergeFaces hI.good.map hgd E).trans (pix_moves hgd e3)
      rcases E.sides with ⟨h1, h2⟩ | ⟨h1, h2⟩
      · exact ⟨im', e4, Pict.removed hI hP hPn hpic e5 hm h1 (if_neg E.distinct.1)⟩
      · exact ⟨im', e4, Pict.removed hI hP hPn hpic e5 hm h1 (if_pos rfl)⟩
  cases op with
  | addNode p label => cases e'; exact plain rfl
  | removeIsolatedNode k => obtain ⟨r, -, rfl⟩ := map_ok (show (m.g.removeIsolatedNode h k).map _ = .ok n from e'); exact plain rfl
  | area f => obtain ⟨r, -, rfl⟩ := map_ok (show (m.g.faceArea (some f)).map _ = .ok n from e'); exact plain rfl
  | setFlags l x => obtain ⟨r, -, rfl⟩ := map_ok (show (m.g.setFlags l x).map _ = .ok n from e'); exact plain rfl
  | mergeEdges d =>
    have e' : (m.mergeEdges h d).map (·.2) = .ok n := e'
    rcases mergeEdges_inv hI h d with ⟨-, e2⟩ | ⟨r, g, n', im', e1, e2, e3, e4, e5, e6, e7⟩
    · rw [e2] at e'; cases e'
    · rw [e2] at e'; cases e'
      exact ⟨im', e4, Pict.keep hI e4 hpic e5 e6 hmv hren e7⟩
  | splitEdge l i np =>
    have e' : (m.splitEdge l i np).map (·.2) = .ok n := e'
    rcases splitEdge_inv hI l i np hf with ⟨-, e2⟩ | ⟨r, g, n', im', e1, e2, e3, e4, e5, e6, e7⟩
    · rw [e2] at e'; cases e'
    · rw [e2] at e'; cases e'
      exact ⟨im', e4, Pict.keep hI e4 hpic e5 e6 hmv hren e7⟩
  | removeBridge d => exact bridge d e'
  | mergeFaces d => exact faces d e'
  | removeEdge d =>
    have e' : (m.removeEdge h d).map (·.2.1) = .ok n := e'
    unfold LMap.removeEdge at e'
    cases he : m.g.edge d.natAbs with
    | none => simp [GMap.guaranteedEdge, he, bind, Outcome.map, Outcome.bind] at e'
    | some a =>
      simp only [guaranteedEdge_of he, bind, Outcome.bind_ok] at e'
      split_ifs at e'
      · exact bridge d e'
      · exact faces d e'

theorem LDrawn.pict {m : LMap K} (h : LDrawn m) : Placed m.g ∧ ∃ im, Inv m im ∧ Pict m im := by
  induction h with
  | on hr hi h0 hS hN e => exact setHasLabelImage_pict ⟨hr.reach.good, hr.geom, hi, hS⟩ h0 hN e
  | call h op _ hl hf e ih =>
    obtain ⟨hP, im, hI, hpic⟩ := ih
    exact call_pict hI hP hpic hl hf e
  | rename new size _ h0 e ih =>
    obtain ⟨hP, im, hI, hpic⟩ := ih
    obtain ⟨im', hn, hw, hh, hR, hlab, hcr, hown⟩ := rename_inv hI h0 e
    have hm := moves_rename hI.good.map hI.init h0 hn.good.map hR
    refine ⟨hP.next hn.good hn.geom hn.init hm, im', hn, fun p f hp hf => ?_⟩
    rw [hw, hh] at hp
    rw [hown p hp] at hf
    obtain ⟨f0, h1, h2⟩ := Option.bind_eq_some_iff.mp hf
    have := hm.loc _ f0 (centre_off hI.good.map.graph.labels.edge_lt (hI.own_free hp h1).1) (hpic p f0 hp h1)
    simp only [List.getD_eq_getElem?_getD, h2, Option.getD_some] at this
    exact this

end Verif.Locate
