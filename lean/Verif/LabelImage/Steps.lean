import Verif.LabelImage.Inv

/-! # The operations preserve the invariant of the label image -/

set_option linter.unusedSectionVars false
set_option linter.unusedSimpArgs false

namespace Verif.LabelImage
open Verif Verif.GeoMap Verif.Scan Verif.LabelLUT

variable {K : Type} [Field K] [LinearOrder K] [IsStrictOrderedRing K] [FloorRing K]

omit [FloorRing K] in
theorem onLine_of_onSegment {a b p : Pt K} (h : OnSegment a b p) : GeoMap.OnLine a b p := by
  obtain ⟨t, -, -, rfl⟩ := h
  unfold GeoMap.OnLine
  ring

omit [FloorRing K] in
theorem LOp.fits_op {s : GMap K} {op : LOp K} (h : op.fits s) : op.op.fits s := by
  cases op with
  | splitEdge l i np =>
    cases np with
    | none => trivial
    | some p => exact fun e a b h1 h2 h3 => onLine_of_onSegment (h e a b h1 h2 h3)
  | _ => trivial

/-- The part of an operation that concerns the map. -/
theorem Inv.gstep {m : LMap K} {im : Img} (hI : Inv m im) (h : Hooks K) (op : LOp K) (hl : op.op.legal m.g) (hf : op.fits m.g) :
    op.op.run h m.g = .precond ∨ ∃ t, op.op.run h m.g = .ok t ∧ Good t ∧ GoodGeom t := by
  have hni : ∀ t : GMap K, ¬ m.g.initialized → t.initialized → PlanarOK t := fun t hn => absurd hI.init hn
  rcases call_safe hI.good h op.op hl with e | ⟨t, e, hg⟩
  · exact Or.inl e
  · exact Or.inr ⟨t, e, hg (hni t), call_geom hI.good hI.geom h op.op hl (LOp.fits_op hf) e (hni t)⟩

theorem map_precond {A B : Type} {o : Outcome A} {f : A → B} (h : o.map f = .precond) : o = .precond := by
  cases o with
  | precond => rfl
  | _ => cases h

theorem map_ok {A B : Type} {o : Outcome A} {f : A → B} {b : B} (h : o.map f = .ok b) : ∃ a, o = .ok a ∧ f a = b := by
  cases o with
  | ok a => exact ⟨a, rfl, by cases h; rfl⟩
  | _ => cases h

/-- What a removal of edge `l` that the callbacks allowed does to the label image. -/
structure Removed (m n : LMap K) (im im' : Img) (l sl : Nat) (ren : Nat → Nat) (px : List (Int × Int)) : Prop where
  size : n.w = m.w ∧ n.h = m.h
  own : ∀ p, InImage m.w m.h p → own im' n.lut p = if p ∈ px then some sl else (own im m.lut p).map ren
  nodup : px.Nodup
  freed : ∀ p, p ∈ px ↔ InImage m.w m.h p ∧ Crosses m.g l p ∧ crossing n.g p = 0

theorem removeBridge_inv {m : LMap K} {im : Img} (hI : Inv m im) (h : Hooks K) (d : Int) :
    (m.g.removeBridge h d = .precond ∧ m.removeBridge h d = .precond) ∨
    (∃ g, m.g.removeBridge h d = .ok (none, g) ∧ m.removeBridge h d = .ok (none, { m with g := g }, []) ∧ Inv { m with g := g } im) ∨
    ∃ f g n px im', m.g.removeBridge h d = .ok (some f, g) ∧ m.removeBridge h d = .ok (some f, n, px) ∧ PixChanged g n.g ∧ Inv n im' ∧
      Removed m n im im' d.natAbs f id px := by
  cases he : m.g.edge d.natAbs with
  | none =>
    left
    refine ⟨removeBridge_precond_all hI.good.map h d (Or.inl (by simp [GMap.liveD, he])), ?_⟩
    unfold LMap.removeBridge
    simp [GMap.guaranteedEdge, he, bind]
  | some e =>
    have hge := guaranteedEdge_of he
    rcases hI.gstep h (.removeBridge d) trivial trivial with e1 | ⟨t, e1, hg, hG⟩
    · left
      have e1 := map_precond (show (m.g.removeBridge h d).map (·.2) = .precond from e1)
      refine ⟨e1, ?_⟩
      unfold LMap.removeBridge
      simp [hge, e1, bind]
    · obtain ⟨⟨r, t'⟩, e2, rfl⟩ := map_ok (show (m.g.removeBridge h d).map (·.2) = .ok t from e1)
      cases r with
      | none =>
        right; left
        refine ⟨t', e2, ?_, ?_⟩
        · unfold LMap.removeBridge
          simp [hge, e2, bind]
        · have := removeBridge_vetoed hI.good e2
          simp only [this]
          exact hI
      | some f =>
        right; right
        have E := removeBridge_effect hI.good e2
        have hgone : t'.edge d.natAbs = none := by
          have := E.edge_gone.2
          unfold GMap.liveD at this
          simpa using this
        have hfs : ∀ f, (t'.face f).isSome = (m.g.face f).isSome := fun f => by
          have := congrArg Option.isSome (E.faces f)
          simpa using this
        have hfa : ∀ f, (t'.face f).map (·.pixelArea) = (m.g.face f).map (·.pixelArea) := fun f => by
          have := congrArg (Option.map Prod.snd) (E.faces f)
          simpa [Option.map_map, Function.comp_def] using this
        have hflive : (t'.face f).isSome = true := by
          rw [hfs]
          obtain ⟨f', F, q1, q2⟩ := (hI.good.map.contours hI.init).face_live d E.edge_gone.1
          rw [E.face.1] at q1
          cases q1
          rw [q2]; rfl
        obtain ⟨g', h1, h2, h3, h4, h5, h6⟩ := hI.remove he hg hG E.sizes.2.1 E.sizes.2.2 (fun k hk => by rw [E.edges k hk]) hgone hI.wf
          (fun f hf => hI.ident f (by rw [← hfs]; exact hf)) id (fun i => by simp) (fun f hf => by rw [hfs]; exact hf)
          (fun f F hF => by
            have := hfa f
            rw [hF] at this
            cases h1 : m.g.face f with
            | none => simp [h1] at this
            | some F' =>
              rw [h1] at this
              simp only [Option.map_some, Option.some.injEq] at this
              rw [this, hI.area f F' h1]
              simp [ownCount]) hflive
        refine ⟨f, t', _, _, _, e2, ?_, ?_, h3, ⟨rfl, rfl⟩, h4, h5, h6⟩
        · unfold LMap.removeBridge
          simp only [hge, e2, bind, Outcome.bind_ok, hI.img]
          rw [h1]
          rfl
        · exact h2

theorem mergeFaces_inv {m : LMap K} {im : Img} (hI : Inv m im) (h : Hooks K) (d : Int) :
    (m.g.mergeFaces h d = .precond ∧ m.mergeFaces h d = .precond) ∨
    (∃ g, m.g.mergeFaces h d = .ok (none, g) ∧ m.mergeFaces h d = .ok (none, { m with g := g }, []) ∧ Inv { m with g := g } im) ∨
    ∃ sl ml g n px im', m.g.mergeFaces h d = .ok (some sl, g) ∧ m.mergeFaces h d = .ok (some sl, n, px) ∧
      MergeFacesEffect m.g g d sl ml ∧ PixChanged g n.g ∧ Inv n im' ∧
      Removed m n im im' d.natAbs sl (fun f => if f = ml then sl else f) px := by
  cases he : m.g.edge d.natAbs with
  | none =>
    left
    refine ⟨mergeFaces_precond_all hI.good.map h d (Or.inl (by simp [GMap.liveD, he])), ?_⟩
    unfold LMap.mergeFaces
    simp [GMap.guaranteedEdge, he, bind]
  | some e =>
    have hge := guaranteedEdge_of he
    rcases hI.gstep h (.mergeFaces d) trivial trivial with e1 | ⟨t, e1, hg, hG⟩
    · left
      have e1 := map_precond (show (m.g.mergeFaces h d).map (·.2) = .precond from e1)
      refine ⟨e1, ?_⟩
      unfold LMap.mergeFaces
      simp [hge, e1, bind]
    · obtain ⟨⟨r, t'⟩, e2, rfl⟩ := map_ok (show (m.g.mergeFaces h d).map (·.2) = .ok t from e1)
      cases r with
      | none =>
        right; left
        refine ⟨t', e2, ?_, ?_⟩
        · unfold LMap.mergeFaces
          simp [hge, e2, bind]
        · have hA := mergeFaces_vetoed hI.good.map e2
          have hp : ∀ f, (t'.face f).map (·.pixelArea) = (m.g.face f).map (·.pixelArea) := by
            intro f
            rcases hA.faces f with h1 | ⟨F, a1, a2, a3⟩
            · rw [h1]
            · rw [a1, a3]; rfl
          obtain ⟨face', hf'⟩ := hA.eq
          exact hI.same hg hG (by rw [hf']) (by rw [hf']) (fun l => by rw [hf']) hp
      | some sl =>
        right; right
        obtain ⟨ml, E⟩ := mergeFaces_effect hI.good e2
        have hgone : t'.edge d.natAbs = none := by
          have := E.edge_gone.2
          unfold GMap.liveD at this
          simpa using this
        obtain ⟨S, M, T, hS, hM, hT, hTa⟩ := E.areas
        have d0 : d ≠ 0 := by
          rintro rfl
          rw [Int.natAbs_zero, hI.good.map.graph.labels.edge_zero] at he
          cases he
        have hother : LMap.otherFace e sl = some ml := by
          have hl : m.g.left? d = e.leftOf d := left?_of he
          have hr : m.g.left? (-d) = e.leftOf (-d) := left?_of (by simpa using he)
          have hs := E.sides
          rw [hl, hr] at hs
          have hne := E.distinct.1
          unfold LMap.otherFace
          unfold Edge.leftOf at hs
          rcases lt_or_gt_of_ne d0 with h1 | h1
          · rw [if_neg (by omega), if_pos (by omega)] at hs
            rcases hs with ⟨a, b⟩ | ⟨a, b⟩
            · rw [if_neg (by rw [b]; simpa using hne.symm), b]
            · rw [if_pos b, a]
          · rw [if_pos h1, if_neg (by omega)] at hs
            rcases hs with ⟨a, b⟩ | ⟨a, b⟩
            · rw [if_pos a, b]
            · rw [if_neg (by rw [a]; simpa using hne.symm), a]
        obtain ⟨lut, l1, l2, l3, l4⟩ := relabel_spec hI.wf (f := ml) (t := sl) (hI.ident ml (by simp [hM])) (hI.ident sl (by simp [hS])) E.distinct.1.symm
        have hnotml : ∀ f F, t'.face f = some F → f ≠ ml := by
          rintro f F hF rfl
          rw [E.face_gone.2] at hF
          cases hF
        have hlv : ∀ f, (t'.face f).isSome = true → (m.g.face f).isSome = true := by
          intro f hf
          obtain ⟨F, hF⟩ := Option.isSome_iff_exists.mp hf
          by_cases h1 : f = sl
          · rw [h1, hS]; rfl
          · rw [← E.faces f h1 (hnotml f F hF)]; exact hf
        obtain ⟨g', h1, h2, h3, h4, h5, h6⟩ := hI.remove he hg hG E.sizes.2.1 E.sizes.2.2
          (fun k hk => by
            have := congrArg (Option.map fun x => x.2.2.1) (E.edges k hk)
            simpa [Option.map_map, Function.comp_def] using this) hgone l2
          (fun f hf => by
            obtain ⟨F, hF⟩ := Option.isSome_iff_exists.mp hf
            have := hI.ident f (hlv f hf)
            rw [l4, this, if_neg (by simpa using hnotml f F hF)]) (fun f => if f = ml then sl else f)
          (fun i => by
            rw [l4]
            cases m.lut.lut[i]? with
            | none => simp
            | some v =>
              by_cases hv : v = ml
              · simp [hv]
              · simp [hv])
          (fun f hf => by
            by_cases h1 : f = ml
            · rw [if_pos h1, hT]; rfl
            · rw [if_neg h1]
              by_cases h2 : f = sl
              · rw [h2, hT]; rfl
              · rw [E.faces f h2 h1]; exact hf)
          (fun f F hF => by
            have hfm := hnotml f F hF
            have hdec : ∀ p, ((own im m.lut p).map (fun f => if f = ml then sl else f) = some f) ↔
                own im m.lut p = some f ∨ (f = sl ∧ own im m.lut p = some ml) := by
              intro p
              cases own im m.lut p with
              | none => simp
              | some v =>
                simp only [Option.map_some, Option.some.injEq]
                by_cases hv : v = ml
                · rw [if_pos hv, hv]
                  constructor
                  · rintro rfl; exact Or.inr ⟨rfl, rfl⟩
                  · rintro (h | h)
                    · exact absurd h.symm hfm
                    · exact h.1.symm
                · rw [if_neg hv]
                  constructor
                  · exact Or.inl
                  · rintro (h | ⟨-, h⟩)
                    · exact h
                    · exact absurd h hv
            by_cases h1 : f = sl
            · subst h1
              rw [hT] at hF
              cases hF
              rw [hTa, hI.area f S hS, hI.area ml M hM]
              unfold ownCount
              rw [← Finset.card_union_of_disjoint, ← Finset.filter_or]
              · congr 1
                refine Finset.filter_congr fun p _ => ?_
                rw [hdec]
                simp
              · rw [Finset.disjoint_filter]
                intro p _ a b
                rw [a] at b
                exact E.distinct.1 (Option.some.inj b)
            · rw [E.faces f h1 hfm] at hF
              rw [hI.area f F hF]
              unfold ownCount
              congr 1
              refine Finset.filter_congr fun p _ => ?_
              rw [hdec]
              simp [h1]) (sl := sl) (by rw [hT]; rfl)
        refine ⟨sl, ml, t', _, _, _, e2, ?_, E, ?_, h3, ⟨rfl, rfl⟩, h4, h5, h6⟩
        · unfold LMap.mergeFaces
          simp only [hge, e2, bind, Outcome.bind_ok, hI.img, hother, l1]
          rw [h1]
          rfl
        · exact h2

/-- `dartPts` pass through the same pixels as the points. -/
theorem passes_dartPts (e : Edge K) (d : Int) (x y : Int) : Passes (e.dartPts d) x y ↔ Passes e.pts x y := by
  unfold Edge.dartPts
  split_ifs
  · exact Iff.rfl
  · exact passes_congr (onLine_reverse _) x y

theorem crosses_iff {g : GMap K} {l : Nat} {e : Edge K} (h : g.edge l = some e) (p : Int × Int) : Crosses g l p ↔ Passes e.pts p.1 p.2 :=
  ⟨fun ⟨e', h1, h2⟩ => by rw [h] at h1; cases h1; exact h2, fun h1 => ⟨e, h, h1⟩⟩

theorem mergeEdges_inv {m : LMap K} {im : Img} (hI : Inv m im) (h : Hooks K) (d : Int) :
    (m.g.mergeEdges h d = .precond ∧ m.mergeEdges h d = .precond) ∨
    ∃ r g n im', m.g.mergeEdges h d = .ok (r, g) ∧ m.mergeEdges h d = .ok (r, n) ∧ n.g = g ∧ Inv n im' ∧
      n.w = m.w ∧ n.h = m.h ∧ ∀ p, InImage m.w m.h p → own im' n.lut p = own im m.lut p := by
  classical
  cases he : m.g.edge d.natAbs with
  | none =>
    left
    refine ⟨mergeEdges_precond h m.g d (Or.inl (by simp [GMap.liveD, he])), ?_⟩
    unfold LMap.mergeEdges
    simp [GMap.startLabel, GMap.guaranteedEdge, he, bind, Outcome.map]
  | some e =>
    have hst : m.g.startLabel d = .ok (e.startOf d) := by
      unfold GMap.startLabel
      rw [guaranteedEdge_of he]; rfl
    rcases hI.gstep h (.mergeEdges d) trivial trivial with e1 | ⟨t, e1, hg, hG⟩
    · left
      have e1 := map_precond (show (m.g.mergeEdges h d).map (·.2) = .precond from e1)
      refine ⟨e1, ?_⟩
      unfold LMap.mergeEdges
      simp [hst, e1, bind]
    · obtain ⟨⟨r, t'⟩, e2, rfl⟩ := map_ok (show (m.g.mergeEdges h d).map (·.2) = .ok t from e1)
      right
      cases r with
      | none =>
        refine ⟨none, t', { m with g := t' }, im, e2, ?_, rfl, ?_, rfl, rfl, fun _ _ => rfl⟩
        · unfold LMap.mergeEdges
          simp [hst, e2, bind]
        · have hA := (mergeEdges_vetoed hI.good.map e2).1
          have hp : ∀ f, (t'.face f).map (·.pixelArea) = (m.g.face f).map (·.pixelArea) := fun f => by
            have := congrArg (Option.map Prod.snd) (hA.face f)
            simpa [Option.map_map, Function.comp_def] using this
          obtain ⟨face', hf'⟩ := hA.eq
          exact hI.same hg hG (by rw [hf']) (by rw [hf']) (fun l => by rw [hf']) hp
      | some l =>
        obtain ⟨d1, d2, nd, hor, rfl, E⟩ := mergeEdges_effect hI.good.map e2
        obtain ⟨a1, a2, a3, h1, h2, h3, h4, -⟩ := E.survivor
        have hk : LMap.mergedLabel m.g d d1.natAbs = d2.natAbs := by
          have hn := E.at_m.2.2
          unfold LMap.mergedLabel
          rcases hor with ⟨rfl, rfl⟩ | ⟨rfl, rfl⟩
          · rw [if_pos rfl]; rfl
          · rw [if_neg hn]
        have g1 : m.g.guaranteedEdge (d1.natAbs : Int) = .ok a1 := guaranteedEdge_of (by rw [Int.natAbs_natCast]; exact h1)
        have g2 : m.g.guaranteedEdge (d2.natAbs : Int) = .ok a2 := guaranteedEdge_of (by rw [Int.natAbs_natCast]; exact h2)
        have hgone : t'.edge d2.natAbs = none := by
          have := E.edge_gone.2
          unfold GMap.liveD at this
          simpa using this
        have lab := hI.good.map.graph.labels
        have hd1 : d1 ≠ 0 := by
          rintro rfl
          rw [Int.natAbs_zero, lab.edge_zero] at h1; cases h1
        have hd2 : d2 ≠ 0 := by
          rintro rfl
          rw [Int.natAbs_zero, lab.edge_zero] at h2; cases h2
        -- the joint
        have hjoin : (a2.dartPts (-d2)).getLast? = (a1.dartPts d1).head? := by
          have q1 := (hI.geom.geom.dart (d := d1) h1).1
          have q2 := (hI.geom.geom.dart (d := -d2) (by rw [Int.natAbs_neg]; exact h2)).2
          have s1 := E.at_m.1
          have s2 := E.at_m.2.1
          rw [startN?_of h1] at s1
          rw [startN?_of h2] at s2
          rw [q1, q2]
          have : a2.endOf (-d2) = a2.startOf d2 := by
            have := Edge.startOf_neg a2 (d := -d2) (by omega)
            rw [neg_neg] at this
            exact this.symm
          rw [this, Option.some.inj s1, Option.some.inj s2]
        have hpass : ∀ x y, Passes a3.pts x y ↔ Passes a1.pts x y ∨ Passes a2.pts x y := by
          intro x y
          rw [← passes_dartPts a3 d1, h4, passes_or (onLine_append (Edge.dartPts_ne (lab.pts_ne _ _ h2) _) hjoin),
            passes_dartPts, passes_dartPts, or_comm]
        have sc1 := hI.scan _ _ h1
        have sc2 := hI.scan _ _ h2
        obtain ⟨rev, hrev⟩ : ∃ rev, rev = LMap.concatReverse a1 a2 (e.startOf d) := ⟨_, rfl⟩
        have sc3 := concatLines_ok sc1 sc2 hpass rev
        obtain ⟨n1, p1⟩ := sc1.pixels m.w m.h
        obtain ⟨n2, p2⟩ := sc2.pixels m.w m.h
        obtain ⟨n3, p3⟩ := sc3.pixels m.w m.h
        have n1 : (m.pixels (m.lines d1.natAbs a1)).Nodup := n1
        have n2 : (m.pixels (m.lines d2.natAbs a2)).Nodup := n2
        have n3 : (m.pixels (LMap.concatLines (m.lines d1.natAbs a1) (m.lines d2.natAbs a2) rev)).Nodup := n3
        obtain ⟨im', him'⟩ : ∃ im', im' = rawAdd (-1) (rawAdd 1 (rawAdd 1 im (m.pixels (m.lines d2.natAbs a2))) (m.pixels (m.lines d1.natAbs a1)))
          (m.pixels (LMap.concatLines (m.lines d1.natAbs a1) (m.lines d2.natAbs a2) rev)) := ⟨_, rfl⟩
        have hcross := crossing_merge E.at_m.2.2 (lab.edge_lt _ (by rw [h1]; rfl)) (lab.edge_lt _ (by rw [h2]; rfl)) E.sizes.2.1 E.edges hgone
        have him : ∀ p, InImage m.w m.h p → (im' p + (crossing t' p : Int) = im p + (crossing m.g p : Int) ∧ (crossing t' p = 0 ↔ crossing m.g p = 0)) := by
          intro p hp
          have hc := hcross p
          have v1 : p ∈ m.pixels (m.lines d1.natAbs a1) ↔ Crosses m.g d1.natAbs p := by
            rw [crosses_iff h1]; exact (p1 p).trans (and_iff_right hp)
          have v2 : p ∈ m.pixels (m.lines d2.natAbs a2) ↔ Crosses m.g d2.natAbs p := by
            rw [crosses_iff h2]; exact (p2 p).trans (and_iff_right hp)
          have v3 : p ∈ m.pixels (LMap.concatLines (m.lines d1.natAbs a1) (m.lines d2.natAbs a2) rev) ↔ Crosses t' d1.natAbs p := by
            rw [crosses_iff h3]; exact (p3 p).trans (and_iff_right hp)
          have hq : Crosses t' d1.natAbs p ↔ Crosses m.g d1.natAbs p ∨ Crosses m.g d2.natAbs p := by
            rw [crosses_iff h3, crosses_iff h1, crosses_iff h2, hpass]
          rw [him', rawAdd_apply _ _ n3, rawAdd_apply _ _ n1, rawAdd_apply _ _ n2]
          simp only [v1, v2, v3]
          have hpos1 : Crosses m.g d1.natAbs p → 0 < crossing m.g p := fun hx =>
            Finset.card_pos.mpr ⟨d1.natAbs, Finset.mem_filter.mpr ⟨Finset.mem_range.mpr (lab.edge_lt _ (by rw [h1]; rfl)), hx⟩⟩
          have hpos2 : Crosses m.g d2.natAbs p → 0 < crossing m.g p := fun hx =>
            Finset.card_pos.mpr ⟨d2.natAbs, Finset.mem_filter.mpr ⟨Finset.mem_range.mpr (lab.edge_lt _ (by rw [h2]; rfl)), hx⟩⟩
          have hpos3 : Crosses t' d1.natAbs p → 0 < crossing t' p := fun hx =>
            Finset.card_pos.mpr ⟨d1.natAbs, Finset.mem_filter.mpr ⟨Finset.mem_range.mpr (by rw [E.sizes.2.1]; exact lab.edge_lt _ (by rw [h1]; rfl)), hx⟩⟩
          by_cases c1 : Crosses m.g d1.natAbs p <;> by_cases c2 : Crosses m.g d2.natAbs p <;> by_cases c3 : Crosses t' d1.natAbs p <;>
            simp only [c1, c2, c3, true_or, or_true, or_false, false_or, iff_true, iff_false, not_true_eq_false, not_false_eq_true, if_true, if_false, true_implies, false_implies] at hq hc hpos1 hpos2 hpos3 ⊢ <;>
            omega
        refine ⟨some d1.natAbs, t', { m with
          g := t'
          img := some im'
          scan := Function.update m.scan d1.natAbs (some (LMap.concatLines (m.lines d1.natAbs a1) (m.lines d2.natAbs a2) rev)) }, im', e2, ?_, rfl, ?_, rfl, rfl, ?_⟩
        · unfold LMap.mergeEdges
          simp only [hst, e2, bind, Outcome.bind_ok, hk, g1, g2, hI.img]
          rw [← hrev, ← him']
        · refine hI.redraw hg hG E.sizes.2.2 (fun f => ?_) ?_ (fun p hp => (him p hp).2) (fun p hp => (him p hp).1)
          · have := congrArg (Option.map Prod.snd) (E.faces f)
            simpa [Option.map_map, Function.comp_def] using this
          · intro k ek hkk
            by_cases hk1 : k = d1.natAbs
            · subst hk1
              rw [h3] at hkk
              cases hkk
              rw [Function.update_self]
              exact sc3
            · rw [Function.update_of_ne hk1]
              have hk2 : k ≠ d2.natAbs := by
                intro hh
                rw [hh, hgone] at hkk; cases hkk
              rw [E.edges k hk1 hk2] at hkk
              exact hI.scan k ek hkk
        · intro p hp
          by_cases h0 : crossing m.g p = 0
          · have := him p hp
            exact own_congr (by omega)
          · have hmk := hI.marked p hp (by omega)
            have := him p hp
            show own im' m.lut p = _
            rw [own_of_neg (by omega), own_of_neg (by omega)]

theorem splitEdge_inv {m : LMap K} {im : Img} (hI : Inv m im) (l i : Nat) (np : Option (Pt K)) (hf : (LOp.splitEdge l i np).fits m.g) :
    (m.g.splitEdge l i np = .precond ∧ m.splitEdge l i np = .precond) ∨
    ∃ r g n im', m.g.splitEdge l i np = .ok (r, g) ∧ m.splitEdge l i np = .ok (r, n) ∧ n.g = g ∧ Inv n im' ∧
      n.w = m.w ∧ n.h = m.h ∧ ∀ p, InImage m.w m.h p → own im' n.lut p = own im m.lut p := by
  classical
  cases he : m.g.edge l with
  | none =>
    left
    refine ⟨by unfold GMap.splitEdge; simp [GMap.guaranteedEdge, he, bind], ?_⟩
    unfold LMap.splitEdge
    simp [GMap.guaranteedEdge, he, bind]
  | some e =>
    have hge : m.g.guaranteedEdge (l : Int) = .ok e := guaranteedEdge_of (by simpa using he)
    rcases hI.gstep Hooks.none (.splitEdge l i np) trivial hf with e1 | ⟨t, e1, hg, hG⟩
    · left
      have e1 := map_precond (show (m.g.splitEdge l i np).map (·.2) = .precond from e1)
      refine ⟨e1, ?_⟩
      unfold LMap.splitEdge
      simp [hge, e1, bind]
    · obtain ⟨⟨r, t'⟩, e2, rfl⟩ := map_ok (show (m.g.splitEdge l i np).map (·.2) = .ok t from e1)
      right
      have E := splitEdge_effect hI.good.map e2
      obtain ⟨e0, a1, a2, h0, h1, h2, h3, h4, -, -⟩ := E.halves
      rw [he] at h0
      cases h0
      have hr := E.fresh.2
      have lab := hI.good.map.graph.labels
      have hllt : l < m.g.nEdges := lab.edge_lt l (by rw [he]; rfl)
      have hlr : l ≠ r := by omega
      have g1 : t'.guaranteedEdge (l : Int) = .ok a1 := guaranteedEdge_of (by simpa using h1)
      have g2 : t'.guaranteedEdge (r : Int) = .ok a2 := guaranteedEdge_of (by simpa using h2)
      have hi : i < e.pts.length - 1 := by
        by_contra hi
        have hpts := lab.pts_ne l e he
        unfold GMap.splitEdge at e2
        simp only [hge, bind, Outcome.bind_ok, if_neg hpts, hi, not_false_eq_true, if_true] at e2
        cases e2
      have hpass : ∀ x y, Passes e.pts x y ↔ Passes a1.pts x y ∨ Passes a2.pts x y := by
        intro x y
        have hline : ∀ q, Scan.OnLine e.pts q ↔ Scan.OnLine (splitPts e.pts i np) q := by
          intro q
          cases np with
          | none => exact Iff.rfl
          | some p =>
            have q1 : i < e.pts.length := by omega
            have q2 : i + 1 < e.pts.length := by omega
            exact (onLine_insert (List.getElem?_eq_getElem q1) (List.getElem?_eq_getElem q2)
              (hf e _ _ he (List.getElem?_eq_getElem q1) (List.getElem?_eq_getElem q2)) q).symm
        rw [passes_congr hline, h3, h4]
        exact passes_or (onLine_split (splitPts_get hi np)) x y
      have sc := hI.scan l e he
      obtain ⟨n0, p0⟩ := sc.pixels m.w m.h
      obtain ⟨n1, p1⟩ := (edgeLines_ok a1.pts).pixels m.w m.h
      obtain ⟨n2, p2⟩ := (edgeLines_ok a2.pts).pixels m.w m.h
      have n0 : (m.pixels (m.lines l e)).Nodup := n0
      have n1 : (m.pixels (edgeLines a1.pts)).Nodup := n1
      have n2 : (m.pixels (edgeLines a2.pts)).Nodup := n2
      obtain ⟨im', him'⟩ : ∃ im', im' = rawAdd (-1) (rawAdd (-1) (rawAdd 1 im (m.pixels (m.lines l e))) (m.pixels (edgeLines a1.pts)))
          (m.pixels (edgeLines a2.pts)) := ⟨_, rfl⟩
      have hcross := crossing_split hllt E.sizes.2.1 (fun k a b => E.edges k a (by omega))
      have him : ∀ p, InImage m.w m.h p → (im' p + (crossing t' p : Int) = im p + (crossing m.g p : Int) ∧ (crossing t' p = 0 ↔ crossing m.g p = 0)) := by
        intro p hp
        have hc := hcross p
        rw [← hr] at hc
        have v0 : p ∈ m.pixels (m.lines l e) ↔ Crosses m.g l p := by
          rw [crosses_iff he]; exact (p0 p).trans (and_iff_right hp)
        have v1 : p ∈ m.pixels (edgeLines a1.pts) ↔ Crosses t' l p := by
          rw [crosses_iff h1]; exact (p1 p).trans (and_iff_right hp)
        have v2 : p ∈ m.pixels (edgeLines a2.pts) ↔ Crosses t' r p := by
          rw [crosses_iff h2]; exact (p2 p).trans (and_iff_right hp)
        have hq : Crosses m.g l p ↔ Crosses t' l p ∨ Crosses t' r p := by
          rw [crosses_iff he, crosses_iff h1, crosses_iff h2, hpass]
        rw [him', rawAdd_apply _ _ n2, rawAdd_apply _ _ n1, rawAdd_apply _ _ n0]
        simp only [v0, v1, v2]
        have hpos0 : Crosses m.g l p → 0 < crossing m.g p := fun hx =>
          Finset.card_pos.mpr ⟨l, Finset.mem_filter.mpr ⟨Finset.mem_range.mpr hllt, hx⟩⟩
        have hpos1 : Crosses t' l p → 0 < crossing t' p := fun hx =>
          Finset.card_pos.mpr ⟨l, Finset.mem_filter.mpr ⟨Finset.mem_range.mpr (by rw [E.sizes.2.1]; omega), hx⟩⟩
        have hpos2 : Crosses t' r p → 0 < crossing t' p := fun hx =>
          Finset.card_pos.mpr ⟨r, Finset.mem_filter.mpr ⟨Finset.mem_range.mpr (by rw [E.sizes.2.1]; omega), hx⟩⟩
        by_cases c1 : Crosses m.g l p <;> by_cases c2 : Crosses t' l p <;> by_cases c3 : Crosses t' r p <;>
          simp only [c1, c2, c3, true_or, or_true, or_false, false_or, iff_true, iff_false, true_iff, false_iff, not_true_eq_false, not_false_eq_true, if_true, if_false, true_implies, false_implies] at hq hc hpos0 hpos1 hpos2 ⊢ <;>
          omega
      refine ⟨r, t', { m with
        g := t'
        img := some im'
        scan := Function.update (Function.update m.scan l (some (edgeLines a1.pts))) r (some (edgeLines a2.pts)) }, im', e2, ?_, rfl, ?_, rfl, rfl, ?_⟩
      · unfold LMap.splitEdge
        simp only [hge, e2, bind, Outcome.bind_ok, g1, g2, hI.img]
        rw [← him']
      · refine hI.redraw hg hG E.sizes.2.2 (fun f => by rw [E.faces]) ?_ (fun p hp => (him p hp).2) (fun p hp => (him p hp).1)
        intro k ek hkk
        by_cases hk1 : k = r
        · subst hk1
          rw [h2] at hkk
          cases hkk
          rw [Function.update_self]
          exact edgeLines_ok _
        · rw [Function.update_of_ne hk1]
          by_cases hk2 : k = l
          · subst hk2
            rw [h1] at hkk
            cases hkk
            rw [Function.update_self]
            exact edgeLines_ok _
          · rw [Function.update_of_ne hk2]
            rw [E.edges k hk2 hk1] at hkk
            exact hI.scan k ek hkk
      · intro p hp
        by_cases h0 : crossing m.g p = 0
        · have := him p hp
          exact own_congr (by omega)
        · have hmk := hI.marked p hp (by omega)
          have := him p hp
          show own im' m.lut p = _
          rw [own_of_neg (by omega), own_of_neg (by omega)]

end Verif.LabelImage
