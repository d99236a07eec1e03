import Verif.LabelImage.Steps

/-! # Switching the label image on -/

set_option linter.unusedSectionVars false

namespace Verif.LabelImage
open Verif Verif.GeoMap Verif.Scan Verif.LabelLUT

variable {K : Type} [Field K] [LinearOrder K] [IsStrictOrderedRing K] [FloorRing K]

theorem fillFaces_spec (m : LMap K) {fs : List Nat} {g g' : GMap K} {im im' : Img} (e : m.fillFaces fs (g, im) = .ok (g', im')) :
    PixChanged g g' ∧
    (∀ f F, g'.face f = some F → ∃ F0, g.face f = some F0 ∧ F.pixelArea = if f ∈ fs then 0 else F0.pixelArea) ∧
    ∀ p, im' p = im p ∨ ∃ f : Nat, f ∈ fs ∧ (g.face f).isSome = true ∧ im' p = f := by
  induction fs generalizing g im with
  | nil =>
    simp only [LMap.fillFaces, Outcome.ok.injEq, Prod.mk.injEq] at e
    obtain ⟨rfl, rfl⟩ := e
    exact ⟨PixChanged.refl _, fun f F h => ⟨F, h, by simp⟩, fun p => Or.inl rfl⟩
  | cons f fs ih =>
    unfold LMap.fillFaces at e
    cases hF : g.face f with
    | none =>
      simp only [hF] at e
      obtain ⟨a, b, c⟩ := ih e
      refine ⟨a, fun f' F h => ?_, fun p => ?_⟩
      · obtain ⟨F0, h1, h2⟩ := b f' F h
        refine ⟨F0, h1, ?_⟩
        have : f' ≠ f := by rintro rfl; rw [hF] at h1; cases h1
        rw [h2]; simp [this]
      · rcases c p with h | ⟨f', h1, h2, h3⟩
        · exact Or.inl h
        · exact Or.inr ⟨f', List.mem_cons_of_mem _ h1, h2, h3⟩
    | some F =>
      simp only [hF] at e
      obtain ⟨l, e1, e⟩ := Outcome.bind_eq_ok.mp e
      obtain ⟨_, -, e⟩ := Outcome.bind_eq_ok.mp e
      obtain ⟨a, b, c⟩ := ih e
      have hP := pixChanged_set hF 0
      refine ⟨hP.trans a, fun f' F' h => ?_, fun p => ?_⟩
      · obtain ⟨F0, h1, h2⟩ := b f' F' h
        by_cases hf : f' = f
        · subst hf
          simp only [GMap.setFace, Function.update_self, Option.some.injEq] at h1
          subst h1
          refine ⟨F, hF, ?_⟩
          rw [h2]; simp
        · simp only [GMap.setFace, Function.update_of_ne hf] at h1
          exact ⟨F0, h1, by rw [h2]; simp [hf]⟩
      · rcases c p with h | ⟨f', h1, h2, h3⟩
        · rw [h, fillImg_apply]
          split_ifs
          · exact Or.inr ⟨f, List.mem_cons_self, by rw [hF]; rfl, rfl⟩
          · exact Or.inl rfl
        · exact Or.inr ⟨f', List.mem_cons_of_mem _ h1, by rw [← hP.isSome]; exact h2, h3⟩

open Classical in
theorem markEdges_spec {m : LMap K} (hs : ∀ l e, m.g.edge l = some e → ScanOK (m.lines l e) e.pts) (ls : List Nat) (im : Img) (c : Nat)
    (v : Int) (hv : 0 ≤ v) {p : Int × Int} (hp : InImage m.w m.h p) (him : im p = if c = 0 then v else -(c : Int)) :
    m.markEdges ls im p = if c + (ls.filter fun l => Crosses m.g l p).length = 0 then v
      else -((c + (ls.filter fun l => Crosses m.g l p).length : Nat) : Int) := by
  induction ls generalizing im c with
  | nil => simpa [LMap.markEdges] using him
  | cons l ls ih =>
    unfold LMap.markEdges
    cases he : m.g.edge l with
    | none =>
      have hn : ¬ Crosses m.g l p := by rintro ⟨e, h, -⟩; rw [he] at h; cases h
      simp only
      rw [ih im c him, List.filter_cons_of_neg (by simpa using hn)]
    | some e =>
      simp only
      obtain ⟨hnd, hmem⟩ := (hs l e he).pixels m.w m.h
      have hnd : (m.pixels (m.lines l e)).Nodup := hnd
      have hval := markEdge_apply im hnd p
      have hin : p ∈ m.pixels (m.lines l e) ↔ Crosses m.g l p := by
        rw [crosses_iff he]; exact (hmem p).trans (and_iff_right hp)
      by_cases hc : Crosses m.g l p
      · rw [if_pos (hin.mpr hc)] at hval
        rw [ih _ (c + 1), List.filter_cons_of_pos (by simpa using hc), List.length_cons]
        · rw [show c + 1 + (ls.filter fun l => Crosses m.g l p).length = c + ((ls.filter fun l => Crosses m.g l p).length + 1) by omega]
        · rw [hval, if_neg (show ¬ c + 1 = 0 by omega)]
          by_cases h0 : c = 0
          · rw [if_pos h0] at him
            rw [if_pos (show 0 ≤ im p by omega)]
            omega
          · rw [if_neg h0] at him
            rw [if_neg (show ¬ 0 ≤ im p by omega)]
            omega
      · rw [if_neg (fun h => hc (hin.mp h))] at hval
        rw [ih _ c (by rw [hval]; exact him), List.filter_cons_of_neg (by simpa using hc)]

theorem countPixels_spec (im : Img) {ps : List (Int × Int)} {g g' : GMap K} (e : LMap.countPixels im ps g = .ok g') :
    PixChanged g g' ∧ ∀ f F, g'.face f = some F → ∃ F0, g.face f = some F0 ∧
      F.pixelArea = F0.pixelArea + (ps.filter fun p => im p = (f : Int)).length := by
  induction ps generalizing g with
  | nil =>
    simp only [LMap.countPixels, Outcome.ok.injEq] at e
    subst e
    exact ⟨PixChanged.refl _, fun f F h => ⟨F, h, by simp⟩⟩
  | cons p ps ih =>
    unfold LMap.countPixels at e
    split_ifs at e with h0
    · obtain ⟨F1, e1, e⟩ := Outcome.bind_eq_ok.mp e
      have hF1 : g.face (im p).toNat = some F1 := by
        unfold GMap.derefFace at e1
        simp only at e1
        split_ifs at e1
        cases h : g.face (im p).toNat with
        | none => rw [h] at e1; cases e1
        | some x => rw [h] at e1; cases e1; rfl
      obtain ⟨a, b⟩ := ih e
      have hP := pixChanged_set hF1 (F1.pixelArea + 1)
      refine ⟨hP.trans a, fun f F h => ?_⟩
      obtain ⟨F0, h1, h2⟩ := b f F h
      by_cases hf : f = (im p).toNat
      · simp only [GMap.setFace, hf, Function.update_self, Option.some.injEq] at h1
        subst h1
        refine ⟨F1, by rw [hf]; exact hF1, ?_⟩
        rw [h2, List.filter_cons_of_pos (by simp; omega), List.length_cons]
        simp only
        omega
      · simp only [GMap.setFace, Function.update_of_ne hf] at h1
        refine ⟨F0, h1, ?_⟩
        rw [h2, List.filter_cons_of_neg (by simp; omega)]
    · obtain ⟨a, b⟩ := ih e
      refine ⟨a, fun f F h => ?_⟩
      obtain ⟨F0, h1, h2⟩ := b f F h
      refine ⟨F0, h1, ?_⟩
      rw [h2, List.filter_cons_of_neg (by simp; omega)]

theorem allPixels_nodup (w h : Nat) : (LMap.allPixels w h).Nodup := by
  refine nodup_of_rows (g := Prod.snd) (cols_sorted _ _) (fun y _ => ?_) (fun y _ a ha => ?_)
  · rw [List.nodup_map_iff (fun a b hab => (Prod.mk.inj hab).1)]
    exact (cols_sorted _ _).imp fun h => ne_of_lt h
  · obtain ⟨x, -, rfl⟩ := List.mem_map.mp ha
    rfl

theorem mem_allPixels {w h : Nat} {p : Int × Int} : p ∈ LMap.allPixels w h ↔ InImage w h p := by
  obtain ⟨x, y⟩ := p
  simp only [LMap.allPixels, List.mem_flatMap, List.mem_map, mem_cols, Prod.mk.injEq, InImage]
  constructor
  · rintro ⟨a, ha, b, hb, rfl, rfl⟩
    exact ⟨hb.1, hb.2, ha.1, ha.2⟩
  · rintro ⟨a, b, c, d⟩
    exact ⟨y, ⟨c, d⟩, x, ⟨a, b⟩, rfl, rfl⟩

theorem allPixels_filter {w h : Nat} (P : Int × Int → Prop) [DecidablePred P] :
    ((LMap.allPixels w h).filter fun p => P p).length = ((image w h).filter P).card := by
  rw [← List.toFinset_card_of_nodup ((allPixels_nodup w h).filter _)]
  congr 1
  ext p
  simp only [List.mem_toFinset, List.mem_filter, Finset.mem_filter, mem_allPixels, mem_image, decide_eq_true_eq]

theorem setHasLabelImage_inv {g : GMap K} (hg : Good g) (hG : GoodGeom g) (hi : g.initialized)
    (h0 : ∀ F, g.face 0 = some F → F.pixelArea = 0) {w h : Nat} {lut : LUT} {n : LMap K}
    (e : (LMap.ofMap g w h lut).setHasLabelImage true = .ok n) : ∃ im, Inv n im ∧ PixChanged g n.g ∧ n.w = w ∧ n.h = h ∧
      n.lut = LabelLUT.init g.nFaces ∧ (∀ l e, n.g.edge l = some e → n.lines l e = edgeLines e.pts) ∧
      ∃ g1 im1, (LMap.ofMap g w h lut).fillFaces (List.range' 1 (g.nFaces - 1)) (g, fun _ => 0) = .ok (g1, im1) ∧
        ∀ p, InImage w h p → crossing g p = 0 → im p = im1 p := by
  classical
  unfold LMap.setHasLabelImage at e
  simp only [LMap.ofMap] at e
  by_cases hwh : w * h = 0
  · simp only [hwh, if_true] at e; cases e
  simp only [hwh, if_false] at e
  obtain ⟨⟨g1, im1⟩, e1, e⟩ := Outcome.bind_eq_ok.mp e
  obtain ⟨g2, e2, e⟩ := Outcome.bind_eq_ok.mp e
  simp only [Outcome.ok.injEq] at e
  obtain ⟨P1, A1, I1⟩ := fillFaces_spec _ e1
  obtain ⟨P2, A2⟩ := countPixels_spec _ e2
  have P := P1.trans P2
  have hscan : ∀ l e, g.edge l = some e → ScanOK (LMap.lines (⟨g, w, h, none, lut, fun _ => none⟩ : LMap K) l e) e.pts :=
    fun l e _ => edgeLines_ok e.pts
  obtain ⟨im2, him2⟩ : ∃ im2, im2 = LMap.markEdges (⟨g, w, h, none, lut, fun _ => none⟩ : LMap K) (List.range g.nEdges) im1 := ⟨_, rfl⟩
  rw [← him2] at A2 e
  have hface0 : (g.face 0).isSome = true := (hg.map.contours hi).face_zero
  have him1 : ∀ p, ∃ f : Nat, (g.face f).isSome = true ∧ im1 p = f := by
    intro p
    rcases I1 p with h | ⟨f, -, h2, h3⟩
    · exact ⟨0, hface0, by rw [h]; rfl⟩
    · exact ⟨f, h2, h3⟩
  have hcr : ∀ p, ((List.range g.nEdges).filter fun l => Crosses g l p).length = crossing g p := by
    intro p
    unfold crossing
    rw [← List.toFinset_card_of_nodup (List.nodup_range.filter _)]
    congr 1
    ext l
    simp
  have him : ∀ p, InImage w h p → im2 p = if crossing g p = 0 then im1 p else -(crossing g p : Int) := by
    intro p hp
    obtain ⟨f, -, hf⟩ := him1 p
    have := markEdges_spec (m := ⟨g, w, h, none, lut, fun _ => none⟩) hscan (List.range g.nEdges) im1 0 (im1 p) (by omega) hp (by simp)
    rw [← him2] at this
    simp only [zero_add, hcr] at this
    exact this
  obtain ⟨face', hf'⟩ := P.eq
  have hcr2 : ∀ p, crossing g2 p = crossing g p := crossing_congr (by rw [hf']) (fun l => by rw [hf'])
  have hlt := hg.map.graph.labels.face_lt
  have hlook : ∀ f, (g.face f).isSome = true → (LabelLUT.init g.nFaces).lut[f]? = some f := by
    intro f hf
    simp only [LabelLUT.init]
    rw [List.getElem?_range (hlt f hf)]
  refine ⟨im2, ?_, ?_⟩
  · subst e
    refine ⟨P.good hg, P.geom hG, ?_, rfl, ?_, ?_, ?_, inv_init _, ?_, ?_⟩
    · show 0 < g2.nFaces
      rw [hf']; exact hi
    · intro p hp
      show 0 < crossing g2 p → im2 p = -(crossing g2 p : Int)
      rw [hcr2]
      intro hc
      rw [him p hp, if_neg (by omega)]
    · intro p hp
      show crossing g2 p = 0 → ∃ f, own im2 (LabelLUT.init g.nFaces) p = some f ∧ (g2.face f).isSome = true
      rw [hcr2]
      intro hc
      obtain ⟨f, h1, h2⟩ := him1 p
      refine ⟨f, ?_, by rw [P.isSome]; exact h1⟩
      unfold own
      rw [him p hp, if_pos hc, h2, if_pos (by omega), Int.toNat_natCast]
      exact hlook f h1
    · intro f F hF
      have hF : g2.face f = some F := hF
      obtain ⟨F1, h1, h2⟩ := A2 f F hF
      obtain ⟨F0, h3, h4⟩ := A1 f F1 h1
      have hz : F1.pixelArea = 0 := by
        rw [h4]
        split_ifs with hm
        · rfl
        · have : f = 0 := by
            by_contra hf
            have := hlt f (by rw [h3]; rfl)
            exact hm (by rw [List.mem_range'_1]; omega)
          subst this
          exact h0 F0 h3
      rw [h2, hz, zero_add, allPixels_filter (fun p => im2 p = (f : Int))]
      unfold ownCount
      congr 1
      refine Finset.filter_congr fun p hp => ?_
      have hp := mem_image.mp hp
      constructor
      · intro hv
        unfold own
        rw [hv, if_pos (by omega), Int.toNat_natCast]
        exact hlook f (by rw [h3]; rfl)
      · intro hv
        have hnn := own_nonneg hv
        unfold own at hv
        rw [if_pos hnn] at hv
        simp only [LabelLUT.init] at hv
        rw [List.getElem?_eq_some_iff] at hv
        obtain ⟨q1, q2⟩ := hv
        rw [List.getElem_range] at q2
        omega
    · intro f hf
      have hf : (g2.face f).isSome = true := hf
      rw [P.isSome] at hf
      exact hlook f hf
    · intro l e hle
      have hle : g2.edge l = some e := hle
      have hle' : g.edge l = some e := by rw [hf'] at hle; exact hle
      have : LMap.lines (⟨g2, w, h, some im2, LabelLUT.init g.nFaces,
          LMap.cacheAll (⟨g, w, h, none, lut, fun _ => none⟩ : LMap K)⟩ : LMap K) l e = edgeLines e.pts := by
        unfold LMap.lines LMap.cacheAll
        simp only [hle']
        rfl
      rw [this]
      exact edgeLines_ok e.pts
  · subst e
    refine ⟨P, rfl, rfl, rfl, fun l e hle => ?_, g1, im1, e1, fun p hp hc => by rw [him p hp, if_pos hc]⟩
    have hle : g2.edge l = some e := hle
    have hle' : g.edge l = some e := by rw [hf'] at hle; exact hle
    unfold LMap.lines LMap.cacheAll
    simp only [hle']
    rfl

end Verif.LabelImage
