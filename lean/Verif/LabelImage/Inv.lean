import Verif.LabelImage.Spec
import Verif.GeoMap.PropLemmas
import Verif.LabelLUT.Props

/-! # The invariant of the label image -/

set_option linter.unusedSectionVars false

namespace Verif.LabelImage
open Verif Verif.GeoMap Verif.Scan Verif.LabelLUT

section pix
variable {K : Type} [Field K] [LinearOrder K]

/-! ## Changing pixel areas only -/

/-- Only pixel areas differ. -/
structure PixChanged (s t : GMap K) : Prop where
  eq : ∃ face', t = { s with face := face' }
  faces : ∀ f, (t.face f).map (fun F => (F.anchors, F.area)) = (s.face f).map (fun F => (F.anchors, F.area))

theorem PixChanged.refl (s : GMap K) : PixChanged s s := ⟨⟨s.face, rfl⟩, fun _ => rfl⟩

theorem PixChanged.trans {s t u : GMap K} (h1 : PixChanged s t) (h2 : PixChanged t u) : PixChanged s u := by
  obtain ⟨a, ha⟩ := h1.eq
  obtain ⟨b, hb⟩ := h2.eq
  exact ⟨⟨b, by rw [hb, ha]⟩, fun f => (h2.faces f).trans (h1.faces f)⟩

theorem PixChanged.isSome {s t : GMap K} (h : PixChanged s t) (f : Nat) : (t.face f).isSome = (s.face f).isSome := by
  have := congrArg Option.isSome (h.faces f)
  simpa using this

theorem PixChanged.anchors {s t : GMap K} (h : PixChanged s t) (f : Nat) :
    (t.face f).map (·.anchors) = (s.face f).map (·.anchors) := by
  have := congrArg (Option.map Prod.fst) (h.faces f)
  simpa [Option.map_map, Function.comp_def] using this

theorem pixChanged_set {s : GMap K} {f : Nat} {F : Face K} (hF : s.face f = some F) (n : Nat) :
    PixChanged s (s.setFace f (some { F with pixelArea := n })) := by
  refine ⟨⟨_, rfl⟩, fun g => ?_⟩
  simp only [GMap.setFace]
  by_cases hg : g = f
  · subst hg; simp [hF]
  · rw [Function.update_of_ne hg]

theorem PixChanged.mapOK {s t : GMap K} (h : PixChanged s t) (hM : MapOK s) : MapOK t := by
  obtain ⟨π, hg⟩ := hM.graph.exists_rep
  have his := h.isSome
  have han := h.anchors
  obtain ⟨f', e⟩ := h.eq
  subst e
  refine MapOK.of_reps (hg.congr_face his) (fun hi => ?_)
  obtain ⟨ψ, hc⟩ := (hM.contours hi).exists_rep hg
  refine ⟨ψ, hc.rep, ?_, ?_, ?_⟩
  · intro d hd
    obtain ⟨f, a, b, c⟩ := hc.lefts d hd
    exact ⟨f, a, by rw [his]; exact b, c⟩
  · intro f F hF
    have := han f
    rw [hF] at this
    cases h1 : s.face f with
    | none => simp [h1] at this
    | some G =>
      rw [h1] at this
      simp only [Option.map_some, Option.some.injEq] at this
      rw [this]; exact hc.faces f G h1
  · rw [his]; exact hc.face_zero

theorem PixChanged.good {s t : GMap K} (h : PixChanged s t) (hs : Good s) : Good t := by
  have hM := h.mapOK hs.map
  obtain ⟨f', e⟩ := h.eq
  subst e
  exact ⟨hM, hs.fresh, hs.planar⟩

theorem PixChanged.geom {s t : GMap K} (h : PixChanged s t) (hs : GoodGeom s) : GoodGeom t := by
  have hf := h.faces
  obtain ⟨f', e⟩ := h.eq
  subst e
  refine ⟨hs.geom, ?_⟩
  intro f F a hF ha
  have := hf f
  rw [hF] at this
  cases h1 : s.face f with
  | none => simp [h1] at this
  | some G =>
    rw [h1] at this
    simp only [Option.map_some, Option.some.injEq, Prod.mk.injEq] at this
    exact hs.area f G a h1 (by rw [← this.2]; exact ha)

/-! ## Counting crossings -/

open Classical in
theorem crossing_eq_sum (g : GMap K) (p : Int × Int) :
    crossing g p = ∑ l ∈ Finset.range g.nEdges, if Crosses g l p then 1 else 0 := by
  unfold crossing
  rw [Finset.card_filter]

theorem crosses_map {s t : GMap K} {l : Nat} (h : (t.edge l).map (·.pts) = (s.edge l).map (·.pts)) (p : Int × Int) :
    Crosses t l p ↔ Crosses s l p := by
  have key : ∀ {s t : GMap K}, (t.edge l).map (·.pts) = (s.edge l).map (·.pts) → Crosses t l p → Crosses s l p := by
    rintro s t h ⟨e, he, hp⟩
    rw [he] at h
    cases h1 : s.edge l with
    | none => simp [h1] at h
    | some e' =>
      rw [h1] at h
      simp only [Option.map_some, Option.some.injEq] at h
      exact ⟨e', h1, h ▸ hp⟩
  exact ⟨key h, key h.symm⟩

theorem crossing_congr {s t : GMap K} (hn : t.nEdges = s.nEdges) (h : ∀ l, (t.edge l).map (·.pts) = (s.edge l).map (·.pts))
    (p : Int × Int) : crossing t p = crossing s p := by
  classical
  rw [crossing_eq_sum, crossing_eq_sum, hn]
  exact Finset.sum_congr rfl fun l _ => by rw [if_congr (crosses_map (h l) p) rfl rfl]

open Classical in
/-- One edge disappears. -/
theorem crossing_remove {s t : GMap K} {l : Nat} (hl : l < s.nEdges) (hn : t.nEdges = s.nEdges)
    (h : ∀ k, k ≠ l → (t.edge k).map (·.pts) = (s.edge k).map (·.pts)) (hg : t.edge l = none) (p : Int × Int) :
    crossing s p = crossing t p + if Crosses s l p then 1 else 0 := by
  rw [crossing_eq_sum, crossing_eq_sum, hn, ← Finset.sum_erase_add _ _ (Finset.mem_range.mpr hl),
    ← Finset.sum_erase_add (a := l) (f := fun l => if Crosses t l p then 1 else 0) _ (Finset.mem_range.mpr hl)]
  have : ¬ Crosses t l p := by rintro ⟨e, he, -⟩; rw [hg] at he; cases he
  rw [if_neg this, add_zero]
  congr 1
  refine Finset.sum_congr rfl fun k hk => ?_
  rw [if_congr (crosses_map (h k (Finset.mem_erase.mp hk).1) p) rfl rfl]

open Classical in
/-- Two edges become one. -/
theorem crossing_merge {s t : GMap K} {a b : Nat} (hab : a ≠ b) (ha : a < s.nEdges) (hb : b < s.nEdges) (hn : t.nEdges = s.nEdges)
    (h : ∀ k, k ≠ a → k ≠ b → t.edge k = s.edge k) (hg : t.edge b = none) (p : Int × Int) :
    crossing s p + (if Crosses t a p then 1 else 0) =
      crossing t p + (if Crosses s a p then 1 else 0) + if Crosses s b p then 1 else 0 := by
  have hmem : b ∈ (Finset.range s.nEdges).erase a := Finset.mem_erase.mpr ⟨hab.symm, Finset.mem_range.mpr hb⟩
  have split : ∀ u : GMap K, (∑ l ∈ Finset.range s.nEdges, if Crosses u l p then 1 else 0) =
      (∑ l ∈ ((Finset.range s.nEdges).erase a).erase b, if Crosses u l p then 1 else 0) +
        (if Crosses u b p then 1 else 0) + if Crosses u a p then 1 else 0 := by
    intro u
    rw [← Finset.sum_erase_add _ _ (Finset.mem_range.mpr ha), ← Finset.sum_erase_add _ _ hmem]
  have hnb : ¬ Crosses t b p := by rintro ⟨e, he, -⟩; rw [hg] at he; cases he
  have hs : (∑ l ∈ ((Finset.range s.nEdges).erase a).erase b, if Crosses t l p then 1 else 0) =
      ∑ l ∈ ((Finset.range s.nEdges).erase a).erase b, if Crosses s l p then 1 else 0 := by
    refine Finset.sum_congr rfl fun k hk => ?_
    simp only [Finset.mem_erase] at hk
    exact if_congr (crosses_map (congrArg _ (h k hk.2.1 hk.1)) p) rfl rfl
  rw [crossing_eq_sum, crossing_eq_sum, hn, split s, split t, hs, if_neg hnb]
  ring

open Classical in
/-- One edge becomes two, the second with the next label. -/
theorem crossing_split {s t : GMap K} {a : Nat} (ha : a < s.nEdges) (hn : t.nEdges = s.nEdges + 1)
    (h : ∀ k, k ≠ a → k ≠ s.nEdges → t.edge k = s.edge k) (p : Int × Int) :
    crossing t p + (if Crosses s a p then 1 else 0) =
      crossing s p + (if Crosses t a p then 1 else 0) + if Crosses t s.nEdges p then 1 else 0 := by
  have hs : (∑ l ∈ (Finset.range s.nEdges).erase a, if Crosses t l p then 1 else 0) =
      ∑ l ∈ (Finset.range s.nEdges).erase a, if Crosses s l p then 1 else 0 := by
    refine Finset.sum_congr rfl fun k hk => ?_
    simp only [Finset.mem_erase, Finset.mem_range] at hk
    exact if_congr (crosses_map (congrArg _ (h k hk.1 (by omega))) p) rfl rfl
  rw [crossing_eq_sum, crossing_eq_sum, hn, Finset.sum_range_succ, ← Finset.sum_erase_add _ _ (Finset.mem_range.mpr ha),
    ← Finset.sum_erase_add (Finset.range s.nEdges) (fun l => if Crosses s l p then 1 else 0) (Finset.mem_range.mpr ha), hs]
  ring

end pix

/-! ## The invariant -/

variable {K : Type} [Field K] [LinearOrder K] [IsStrictOrderedRing K] [FloorRing K]

/-- The face a pixel belongs to. -/
def own (im : Img) (lut : LUT) (p : Int × Int) : Option Nat :=
  if 0 ≤ im p then lut.lut[(im p).toNat]? else none

/-- The number of pixels of a face. -/
def ownCount (w h : Nat) (im : Img) (lut : LUT) (f : Nat) : Nat :=
  ((image w h).filter fun p => own im lut p = some f).card

structure Inv (m : LMap K) (im : Img) : Prop where
  good : Good m.g
  geom : GoodGeom m.g
  init : m.g.initialized
  img : m.img = some im
  marked : ∀ p, InImage m.w m.h p → 0 < crossing m.g p → im p = -(crossing m.g p : Int)
  free : ∀ p, InImage m.w m.h p → crossing m.g p = 0 → ∃ f, own im m.lut p = some f ∧ (m.g.face f).isSome = true
  area : ∀ f F, m.g.face f = some F → F.pixelArea = ownCount m.w m.h im m.lut f
  wf : WF m.lut
  ident : ∀ f, (m.g.face f).isSome = true → m.lut.lut[f]? = some f
  scan : ∀ l e, m.g.edge l = some e → ScanOK (m.lines l e) e.pts

theorem own_nonneg {im : Img} {lut : LUT} {p : Int × Int} {f : Nat} (h : own im lut p = some f) : 0 ≤ im p := by
  unfold own at h
  split_ifs at h with h1
  exact h1

theorem own_of_neg {im : Img} {lut : LUT} {p : Int × Int} (h : im p < 0) : own im lut p = none := by
  unfold own
  rw [if_neg (by omega)]

theorem own_congr {im im' : Img} {lut : LUT} {p : Int × Int} (h : im' p = im p) : own im' lut p = own im lut p := by
  unfold own
  rw [h]

/-- A change of the map that keeps lines, face labels and pixel areas. -/
theorem Inv.same {m : LMap K} {im : Img} (hI : Inv m im) {g : GMap K} (hg : Good g) (hG : GoodGeom g)
    (hE : g.nEdges = m.g.nEdges) (hF : g.nFaces = m.g.nFaces) (he : ∀ l, (g.edge l).map (·.pts) = (m.g.edge l).map (·.pts))
    (hf : ∀ f, (g.face f).map (·.pixelArea) = (m.g.face f).map (·.pixelArea)) : Inv { m with g := g } im := by
  have hc : ∀ p, crossing g p = crossing m.g p := crossing_congr hE he
  have hs : ∀ f, (g.face f).isSome = (m.g.face f).isSome := fun f => by
    have := congrArg Option.isSome (hf f)
    simpa using this
  refine ⟨hg, hG, ?_, hI.img, ?_, ?_, ?_, hI.wf, ?_, ?_⟩
  · show 0 < g.nFaces
    rw [hF]; exact hI.init
  · intro p hp
    show 0 < crossing g p → im p = -(crossing g p : Int)
    rw [hc]; exact hI.marked p hp
  · intro p hp
    show crossing g p = 0 → ∃ f, own im m.lut p = some f ∧ (g.face f).isSome = true
    rw [hc]
    intro h0
    obtain ⟨f, h1, h2⟩ := hI.free p hp h0
    exact ⟨f, h1, by rw [hs]; exact h2⟩
  · intro f F hFf
    have hFf : g.face f = some F := hFf
    have := hf f
    rw [hFf] at this
    cases h1 : m.g.face f with
    | none => simp [h1] at this
    | some F' =>
      rw [h1] at this
      simp only [Option.map_some, Option.some.injEq] at this
      rw [this]
      exact hI.area f F' h1
  · intro f hf1
    have hf1 : (g.face f).isSome = true := hf1
    rw [hs] at hf1
    exact hI.ident f hf1
  · intro l e hle
    have hle : g.edge l = some e := hle
    have := he l
    rw [hle] at this
    cases h1 : m.g.edge l with
    | none => simp [h1] at this
    | some e' =>
      rw [h1] at this
      simp only [Option.map_some, Option.some.injEq] at this
      have h2 := hI.scan l e' h1
      have : LMap.lines { m with g := g } l e = m.lines l e' := by
        unfold LMap.lines; rw [this]
      rw [this, ‹e.pts = e'.pts›]
      exact h2

/-- An edge disappears; `ren` renames the faces of pixels. -/
theorem Inv.remove {m : LMap K} {im : Img} (hI : Inv m im) {l : Nat} {e : Edge K} (he : m.g.edge l = some e)
    {g : GMap K} (hg : Good g) (hG : GoodGeom g) (hE : g.nEdges = m.g.nEdges) (hF : g.nFaces = m.g.nFaces)
    (hedges : ∀ k, k ≠ l → (g.edge k).map (·.pts) = (m.g.edge k).map (·.pts)) (hgone : g.edge l = none)
    {lut : LUT} (hwf : WF lut) (hid : ∀ f, (g.face f).isSome = true → lut.lut[f]? = some f)
    (ren : Nat → Nat) (hren : ∀ i : Nat, lut.lut[i]? = (m.lut.lut[i]?).map ren)
    (hlive : ∀ f, (m.g.face f).isSome = true → (g.face (ren f)).isSome = true)
    (harea : ∀ f F, g.face f = some F →
      F.pixelArea = ((image m.w m.h).filter fun p => (own im m.lut p).map ren = some f).card)
    {sl : Nat} (hsl : (g.face sl).isSome = true) :
    ∃ g', LMap.associate g sl (unmarkEdge sl im (m.pixels (m.lines l e))).2 = .ok g' ∧ PixChanged g g' ∧
      Inv { m with g := g', lut := lut, img := some (unmarkEdge sl im (m.pixels (m.lines l e))).1 }
        (unmarkEdge sl im (m.pixels (m.lines l e))).1 ∧
      (∀ p, InImage m.w m.h p → own (unmarkEdge sl im (m.pixels (m.lines l e))).1 lut p =
        if p ∈ (unmarkEdge sl im (m.pixels (m.lines l e))).2 then some sl else (own im m.lut p).map ren) ∧
      (unmarkEdge sl im (m.pixels (m.lines l e))).2.Nodup ∧
      ∀ p, p ∈ (unmarkEdge sl im (m.pixels (m.lines l e))).2 ↔ InImage m.w m.h p ∧ Crosses m.g l p ∧ crossing g' p = 0 := by
  classical
  obtain ⟨hnd, hmem⟩ := (hI.scan l e he).pixels m.w m.h
  have hcr : ∀ p, Passes e.pts p.1 p.2 ↔ Crosses m.g l p := fun p =>
    ⟨fun h => ⟨e, he, h⟩, fun ⟨e', h1, h2⟩ => by rw [he] at h1; cases h1; exact h2⟩
  have hmem : ∀ p, p ∈ m.pixels (m.lines l e) ↔ InImage m.w m.h p ∧ Crosses m.g l p := fun p => by
    rw [← hcr]; exact hmem p
  set px := m.pixels (m.lines l e) with hpx
  have hllt : l < m.g.nEdges := hI.good.map.graph.labels.edge_lt l (by simp [he])
  have hcount := crossing_remove (s := m.g) (t := g) hllt hE hedges hgone
  have hval := unmarkEdge_apply sl im (px := px) hnd
  have hout := unmarkEdge_out sl im (px := px) hnd
  set im' := (unmarkEdge sl im px).1 with him'
  set out := (unmarkEdge sl im px).2 with hout'
  have hlutsl := hid sl hsl
  -- pixels that become free
  have hfreed : ∀ p, p ∈ out ↔ InImage m.w m.h p ∧ Crosses m.g l p ∧ im p = -1 := by
    intro p
    rw [hout, List.mem_filter, hmem, and_assoc]
    simp
  have hown : ∀ p, InImage m.w m.h p → own im' lut p = if p ∈ out then some sl else (own im m.lut p).map ren := by
    intro p hp
    by_cases hcx : Crosses m.g l p
    · have hin : p ∈ px := (hmem p).mpr ⟨hp, hcx⟩
      have hc := hcount p
      rw [if_pos hcx] at hc
      have hmk := hI.marked p hp (by omega)
      have hv := hval p
      rw [if_pos hin] at hv
      by_cases h1 : im p = -1
      · rw [if_pos ((hfreed p).mpr ⟨hp, hcx, h1⟩)]
        rw [if_pos h1] at hv
        unfold own
        rw [hv, if_pos (by omega), Int.toNat_natCast]
        exact hlutsl
      · rw [if_neg (fun h => h1 ((hfreed p).mp h).2.2)]
        rw [if_neg h1] at hv
        rw [own_of_neg (by omega), own_of_neg (by omega)]
        rfl
    · have hin : p ∉ px := fun h => hcx ((hmem p).mp h).2
      rw [if_neg (fun h => hcx ((hfreed p).mp h).2.1)]
      have hv := hval p
      rw [if_neg hin] at hv
      unfold own
      rw [hv]
      split_ifs
      · exact hren _
      · rfl
  have houtnd : out.Nodup := by rw [hout]; exact hnd.filter _
  have hcard : ∀ f, ownCount m.w m.h im' lut f =
      ((image m.w m.h).filter fun p => (own im m.lut p).map ren = some f).card + if f = sl then out.length else 0 := by
    intro f
    have hun : (image m.w m.h).filter (fun p => own im' lut p = some f) =
        ((image m.w m.h).filter fun p => (own im m.lut p).map ren = some f) ∪ (if f = sl then out.toFinset else ∅) := by
      ext p
      simp only [Finset.mem_filter, Finset.mem_union, mem_image]
      constructor
      · rintro ⟨hp, h1⟩
        rw [hown p hp] at h1
        split_ifs at h1 with h2
        · right
          rw [if_pos (Option.some.inj h1).symm]
          exact List.mem_toFinset.mpr h2
        · exact Or.inl ⟨hp, h1⟩
      · rintro (⟨hp, h1⟩ | h1)
        · refine ⟨hp, ?_⟩
          rw [hown p hp, if_neg, h1]
          intro h2
          have := ((hfreed p).mp h2).2.2
          rw [own_of_neg (by omega)] at h1
          cases h1
        · split_ifs at h1 with hf
          · rw [List.mem_toFinset] at h1
            have hp := ((hfreed p).mp h1).1
            exact ⟨hp, by rw [hown p hp, if_pos h1, hf]⟩
          · simp at h1
    unfold ownCount
    rw [hun, Finset.card_union_of_disjoint]
    · congr 1
      split_ifs
      · exact List.toFinset_card_of_nodup houtnd
      · rfl
    · rw [Finset.disjoint_left]
      intro p h1 h2
      split_ifs at h2
      · rw [List.mem_toFinset, hfreed] at h2
        simp only [Finset.mem_filter] at h1
        rw [own_of_neg (by omega)] at h1
        simp at h1
      · simp at h2
  -- the pixel areas
  have hassoc : ∃ g', LMap.associate g sl out = .ok g' ∧ PixChanged g g' ∧
      ∀ f F, g'.face f = some F → F.pixelArea = ownCount m.w m.h im' lut f := by
    obtain ⟨S, hS⟩ := Option.isSome_iff_exists.mp hsl
    unfold LMap.associate
    by_cases hnil : out = []
    · rw [if_pos hnil]
      refine ⟨g, rfl, PixChanged.refl g, fun f F hf => ?_⟩
      rw [hcard, harea f F hf, hnil]
      simp
    · rw [if_neg hnil]
      have hslt : sl < g.nFaces := hg.map.graph.labels.face_lt sl hsl
      refine ⟨g.setFace sl (some { S with pixelArea := S.pixelArea + out.length }), ?_, pixChanged_set hS _, ?_⟩
      · simp only [GMap.derefFace, hslt, if_true, hS, bind, Outcome.bind_ok]
      · intro f F hf
        rw [hcard]
        simp only [GMap.setFace] at hf
        by_cases hfs : f = sl
        · subst hfs
          rw [Function.update_self] at hf
          cases hf
          simp only [if_true]
          rw [harea f S hS]
        · rw [Function.update_of_ne hfs] at hf
          rw [if_neg hfs, add_zero]
          exact harea f F hf
  obtain ⟨g', ha1, ha2, ha3⟩ := hassoc
  refine ⟨g', ha1, ha2, ?_⟩
  have hsome := ha2.isSome
  have hgd := ha2.good hg
  have hgg := ha2.geom hG
  obtain ⟨face', hg'⟩ := ha2.eq
  have e1 : g'.edge = g.edge := by rw [hg']
  have e2 : crossing g' = crossing g := by
    funext p
    exact crossing_congr (by rw [hg']) (fun l => by rw [e1]) p
  refine ⟨⟨hgd, hgg, ?_, rfl, ?_, ?_, ha3, hwf, ?_, ?_⟩, hown, houtnd, ?_⟩
  rotate_left 5
  · intro p
    rw [hfreed, e2]
    refine and_congr_right fun hp => and_congr_right fun hcx => ?_
    have hc := hcount p
    rw [if_pos hcx] at hc
    have hmk := hI.marked p hp (by omega)
    omega
  · show 0 < g'.nFaces
    rw [show g'.nFaces = g.nFaces by rw [hg'], hF]
    exact hI.init
  · intro p hp
    show 0 < crossing g' p → im' p = -(crossing g' p : Int)
    rw [e2]
    intro h0
    have hc := hcount p
    have hv := hval p
    by_cases hcx : Crosses m.g l p
    · rw [if_pos hcx] at hc
      rw [if_pos ((hmem p).mpr ⟨hp, hcx⟩)] at hv
      have hmk := hI.marked p hp (by omega)
      rw [if_neg (by omega)] at hv
      omega
    · rw [if_neg hcx] at hc
      rw [if_neg (fun h => hcx ((hmem p).mp h).2)] at hv
      have hmk := hI.marked p hp (by omega)
      omega
  · intro p hp
    show crossing g' p = 0 → ∃ f, own im' lut p = some f ∧ (g'.face f).isSome = true
    rw [e2]
    intro h0
    rw [hown p hp]
    have hc := hcount p
    by_cases hcx : Crosses m.g l p
    · rw [if_pos hcx] at hc
      have hmk := hI.marked p hp (by omega)
      rw [if_pos ((hfreed p).mpr ⟨hp, hcx, by omega⟩)]
      exact ⟨sl, rfl, by rw [hsome]; exact hsl⟩
    · rw [if_neg hcx] at hc
      rw [if_neg (fun h => hcx ((hfreed p).mp h).2.1)]
      obtain ⟨f, h1, h2⟩ := hI.free p hp (by omega)
      exact ⟨ren f, by rw [h1]; rfl, by rw [hsome]; exact hlive f h2⟩
  · intro f hf
    have hf : (g'.face f).isSome = true := hf
    rw [hsome] at hf
    exact hid f hf
  · intro k ek hk
    have hk : g'.edge k = some ek := hk
    rw [e1] at hk
    have hkl : k ≠ l := by intro hh; rw [hh, hgone] at hk; cases hk
    have := hedges k hkl
    rw [hk] at this
    cases h1 : m.g.edge k with
    | none => simp [h1] at this
    | some e' =>
      rw [h1] at this
      simp only [Option.map_some, Option.some.injEq] at this
      have h2 := hI.scan k e' h1
      have h3 : LMap.lines { m with g := g', lut := lut, img := some im' } k ek = m.lines k e' := by
        unfold LMap.lines; rw [this]
      rw [h3, this]
      exact h2

/-- A change of the lines that keeps every pixel free or crossed. -/
theorem Inv.redraw {m : LMap K} {im : Img} (hI : Inv m im) {g : GMap K} (hg : Good g) (hG : GoodGeom g)
    (hF : g.nFaces = m.g.nFaces) (hf : ∀ f, (g.face f).map (·.pixelArea) = (m.g.face f).map (·.pixelArea))
    {im' : Img} {scan : Nat → Option Lines}
    (hscan : ∀ l e, g.edge l = some e → ScanOK ((scan l).getD (edgeLines e.pts)) e.pts)
    (hz : ∀ p, InImage m.w m.h p → (crossing g p = 0 ↔ crossing m.g p = 0))
    (him : ∀ p, InImage m.w m.h p → im' p + crossing g p = im p + crossing m.g p) :
    Inv { m with g := g, img := some im', scan := scan } im' := by
  have hs : ∀ f, (g.face f).isSome = (m.g.face f).isSome := fun f => by
    have := congrArg Option.isSome (hf f)
    simpa using this
  have hown : ∀ p, InImage m.w m.h p → own im' m.lut p = own im m.lut p := by
    intro p hp
    by_cases h0 : crossing m.g p = 0
    · have := him p hp
      rw [(hz p hp).mpr h0, h0] at this
      exact own_congr (by omega)
    · have h1 : crossing g p ≠ 0 := fun h => h0 ((hz p hp).mp h)
      have hmk := hI.marked p hp (by omega)
      have := him p hp
      rw [own_of_neg (by omega), own_of_neg (by omega)]
  refine ⟨hg, hG, ?_, rfl, ?_, ?_, ?_, hI.wf, ?_, ?_⟩
  · show 0 < g.nFaces
    rw [hF]; exact hI.init
  · intro p hp
    show 0 < crossing g p → im' p = -(crossing g p : Int)
    intro h0
    have hmk := hI.marked p hp (by
      have := hz p hp
      omega)
    have := him p hp
    omega
  · intro p hp
    show crossing g p = 0 → ∃ f, own im' m.lut p = some f ∧ (g.face f).isSome = true
    intro h0
    rw [hown p hp]
    obtain ⟨f, h1, h2⟩ := hI.free p hp ((hz p hp).mp h0)
    exact ⟨f, h1, by rw [hs]; exact h2⟩
  · intro f F hFf
    have hFf : g.face f = some F := hFf
    have hcnt : ownCount m.w m.h im' m.lut f = ownCount m.w m.h im m.lut f := by
      unfold ownCount
      congr 1
      refine Finset.filter_congr fun p hp => ?_
      rw [hown p (mem_image.mp hp)]
    have := hf f
    rw [hFf] at this
    cases h1 : m.g.face f with
    | none => simp [h1] at this
    | some F' =>
      rw [h1] at this
      simp only [Option.map_some, Option.some.injEq] at this
      rw [this]
      show _ = ownCount m.w m.h im' m.lut f
      rw [hcnt]
      exact hI.area f F' h1
  · intro f hf1
    have hf1 : (g.face f).isSome = true := hf1
    rw [hs] at hf1
    exact hI.ident f hf1
  · intro l e hle
    exact hscan l e hle

end Verif.LabelImage
