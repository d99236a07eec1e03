import Verif.FaceStats.Spec
import Verif.LabelImage.Props
import Mathlib.Algebra.Order.Group.Multiset
import Mathlib.Algebra.BigOperators.Group.Multiset.Basic

/-! # Lemmas about samples and marks -/

set_option linter.unusedSectionVars false

namespace Verif.FaceStats
open Verif Verif.GeoMap Verif.LabelImage

variable {K V : Type} [Field K] [LinearOrder K] [IsStrictOrderedRing K] [FloorRing K]

/-! ## Values of pixels -/

theorem map_val_eq_sum {α β : Type} (s : Finset α) (f : α → β) : s.val.map f = ∑ p ∈ s, ({f p} : Multiset β) := by
  rw [Finset.sum_eq_multiset_sum, ← Multiset.sum_map_singleton (s.val.map f), Multiset.map_map]
  rfl

theorem values_eq {m : LMap K} {im : Img} (hI : Inv m im) (orig : Int × Int → V) (f : Nat) :
    faceValues orig m f = ∑ p ∈ image m.w m.h, if own im m.lut p = some f then ({orig p} : Multiset V) else 0 := by
  classical
  unfold faceValues LMap.facePixels
  rw [map_val_eq_sum, Finset.sum_filter]
  refine Finset.sum_congr rfl fun p _ => ?_
  exact if_congr (hI.report_iff p f) rfl rfl

theorem values_card {m : LMap K} (hm : LReach m) (orig : Int × Int → V) {f : Nat} (hf : (m.g.face f).isSome = true) :
    (faceValues orig m f).card = pixelArea m.g f := by
  obtain ⟨F, hF⟩ := Option.isSome_iff_exists.mp hf
  unfold faceValues pixelArea
  rw [Multiset.card_map, hF]
  simp only [Option.map_some, Option.getD_some]
  rw [pixelArea_counts hm hF]
  rfl

theorem sum_px {px : List (Int × Int)} {w h : Nat} (hnd : px.Nodup) (hin : ∀ p ∈ px, InImage w h p) (orig : Int × Int → V) :
    (∑ p ∈ image w h, if p ∈ px then ({orig p} : Multiset V) else 0) = (px.map orig : List V) := by
  classical
  rw [← Finset.sum_filter]
  have : (image w h).filter (fun p => p ∈ px) = px.toFinset := by
    ext p
    simp only [Finset.mem_filter, mem_image, List.mem_toFinset]
    exact ⟨fun h => h.2, fun h => ⟨hin p h, h⟩⟩
  rw [this, List.sum_toFinset _ hnd]
  induction px with
  | nil => rfl
  | cons a l ih =>
    simp only [List.map_cons, List.sum_cons]
    rw [ih (List.nodup_cons.mp hnd).2 (fun p hp => hin p (List.mem_cons_of_mem _ hp))]
    · rfl
    · ext p
      simp only [Finset.mem_filter, mem_image, List.mem_toFinset]
      exact ⟨fun h => h.2, fun h => ⟨hin p (List.mem_cons_of_mem _ h), h⟩⟩

/-- The values of a face after a removal. -/
theorem values_removed {m n : LMap K} {im im' : Img} (hI : Inv m im) (hn : Inv n im') {l sl : Nat} {ren : Nat → Nat} {px : List (Int × Int)}
    (hl : ∀ p, Crosses m.g l p → 0 < crossing m.g p) (hR : Removed m n im im' l sl ren px) (orig : Int × Int → V) (f : Nat) :
    faceValues orig n f = (∑ p ∈ image m.w m.h, if (own im m.lut p).map ren = some f then ({orig p} : Multiset V) else 0) +
      if f = sl then ((px.map orig : List V) : Multiset V) else 0 := by
  classical
  rw [values_eq hn, hR.size.1, hR.size.2]
  have h2 : (if f = sl then ((px.map orig : List V) : Multiset V) else 0) =
      ∑ p ∈ image m.w m.h, if p ∈ px ∧ f = sl then ({orig p} : Multiset V) else 0 := by
    by_cases hf : f = sl
    · rw [if_pos hf, ← sum_px hR.nodup (fun p hp => ((hR.freed p).mp hp).1)]
      simp [hf]
    · rw [if_neg hf]
      simp [hf]
  rw [h2, ← Finset.sum_add_distrib]
  refine Finset.sum_congr rfl fun p hp => ?_
  have hp := mem_image.mp hp
  rw [hR.own p hp]
  by_cases hx : p ∈ px
  · have hc := (hR.freed p).mp hx
    have h0 := hl p hc.2.1
    have hmk := hI.marked p hp h0
    have hnone : own im m.lut p = none := own_of_neg (by omega)
    rw [if_pos hx, hnone]
    by_cases hf : f = sl
    · simp [hx, hf]
    · have : sl ≠ f := fun h => hf h.symm
      simp [hx, hf, this]
  · simp [hx]

theorem crossing_pos {m : LMap K} {im : Img} (hI : Inv m im) {l : Nat} {p : Int × Int} (h : Crosses m.g l p) : 0 < crossing m.g p := by
  classical
  obtain ⟨e, he, hp⟩ := h
  unfold crossing
  rw [Finset.card_pos]
  refine ⟨l, Finset.mem_filter.mpr ⟨Finset.mem_range.mpr (hI.good.map.graph.labels.edge_lt l (by simp [he])), e, he, hp⟩⟩

theorem values_bridge {m n : LMap K} {im im' : Img} (hI : Inv m im) (hn : Inv n im') {l sl : Nat} {px : List (Int × Int)}
    (hR : Removed m n im im' l sl id px) (orig : Int × Int → V) (f : Nat) :
    faceValues orig n f = faceValues orig m f + if f = sl then ((px.map orig : List V) : Multiset V) else 0 := by
  rw [values_removed hI hn (fun p h => crossing_pos hI h) hR orig f, values_eq hI]
  congr 1
  refine Finset.sum_congr rfl fun p _ => ?_
  simp

theorem values_merge {m n : LMap K} {im im' : Img} (hI : Inv m im) (hn : Inv n im') {l sl ml : Nat} {px : List (Int × Int)} (hne : sl ≠ ml)
    (hR : Removed m n im im' l sl (fun f => if f = ml then sl else f) px) (orig : Int × Int → V) :
    (faceValues orig n sl = faceValues orig m sl + faceValues orig m ml + (px.map orig : List V)) ∧
    ∀ f, f ≠ sl → f ≠ ml → faceValues orig n f = faceValues orig m f := by
  have key := values_removed hI hn (fun p h => crossing_pos hI h) hR orig
  constructor
  · rw [key sl, if_pos rfl, values_eq hI, values_eq hI, ← Finset.sum_add_distrib]
    congr 1
    refine Finset.sum_congr rfl fun p _ => ?_
    cases own im m.lut p with
    | none => simp
    | some v =>
      simp only [Option.map_some, Option.some.injEq]
      by_cases hv : v = ml
      · subst hv
        simp [hne.symm]
      · simp [hv]
  · intro f h1 h2
    rw [key f, if_neg h1, add_zero, values_eq hI]
    refine Finset.sum_congr rfl fun p _ => ?_
    cases own im m.lut p with
    | none => simp
    | some v =>
      simp only [Option.map_some, Option.some.injEq]
      by_cases hv : v = ml
      · subst hv
        simp [h1.symm, h2.symm]
      · simp [hv]

theorem rescan_values {env : Env K V} (hb : BoxesCover env) {m : LMap K} (hm : LReach m) (f : Nat) :
    rescan env m f = faceValues env.orig m f := by
  classical
  unfold rescan faceValues
  have : (m.facePixels f).val = (((LMap.allPixels m.w m.h).filter fun p => env.box m f p && decide (m.report p = .ok (f : Int)) : List (Int × Int)) : Multiset (Int × Int)) := by
    rw [← Multiset.coe_toList (m.facePixels f).val]
    rw [Multiset.coe_eq_coe]
    refine (List.perm_ext_iff_of_nodup ?_ ((allPixels_nodup _ _).filter _)).mpr fun p => ?_
    · rw [← Multiset.coe_nodup, Multiset.coe_toList]
      exact (m.facePixels f).nodup
    · rw [Multiset.mem_toList, Finset.mem_val, List.mem_filter, mem_allPixels]
      constructor
      · intro hp
        have hp' := hp
        unfold LMap.facePixels at hp'
        rw [Finset.mem_filter, mem_image] at hp'
        exact ⟨hp'.1, by simp [hb m hm f p hp, hp'.2]⟩
      · rintro ⟨h1, h2⟩
        unfold LMap.facePixels
        rw [Finset.mem_filter, mem_image]
        simp only [Bool.and_eq_true, decide_eq_true_eq] at h2
        exact ⟨h1, h2.2⟩
  rw [this]
  rfl

/-! ## The faces that meet at the removed dart -/

theorem removedSides_of {g t : GMap K} {h : Hooks K} {d : Int} (d0 : d ≠ 0) {e : Edge K} (he : g.guaranteedEdge d = .ok e) {r : Option Nat}
    (hm : g.mergeFaces h d = .ok (r, t)) :
    ∃ a b, removedSides g e d = .ok (some a, some b) ∧ a ≠ b ∧ (r = none ∨ r = some a) ∧
      ((e.leftOf d = some a ∧ e.leftOf (-d) = some b) ∨ (e.leftOf d = some b ∧ e.leftOf (-d) = some a)) := by
  unfold GMap.mergeFaces at hm
  simp only [he, bind, Outcome.bind_ok] at hm
  obtain ⟨⟨a, s1⟩, h1, hm⟩ := Outcome.bind_eq_ok.mp hm
  obtain ⟨⟨b, s2⟩, h2, hm⟩ := Outcome.bind_eq_ok.mp hm
  obtain ⟨S, -, hm⟩ := Outcome.bind_eq_ok.mp hm
  obtain ⟨M, -, hm⟩ := Outcome.bind_eq_ok.mp hm
  obtain ⟨_, -, hm⟩ := Outcome.bind_eq_ok.mp hm
  have hr : removedSides g e d = .ok (e.leftOf (GMap.chooseDart d (e.leftOf d) (e.rightOf d) a b),
      e.rightOf (GMap.chooseDart d (e.leftOf d) (e.rightOf d) a b)) := by
    unfold removedSides
    simp only [h1, bind, Outcome.bind_ok, h2]
  have hc : GMap.chooseDart d (e.leftOf d) (e.rightOf d) a b = d ∨ GMap.chooseDart d (e.leftOf d) (e.rightOf d) a b = -d := by
    unfold GMap.chooseDart
    simp only
    split_ifs <;> simp
  rw [hr]
  simp only at hm
  generalize GMap.chooseDart d (e.leftOf d) (e.rightOf d) a b = c at hc hm ⊢
  have hsd : ∀ x y, e.leftOf c = some x → e.rightOf c = some y →
      ((e.leftOf d = some x ∧ e.leftOf (-d) = some y) ∨ (e.leftOf d = some y ∧ e.leftOf (-d) = some x)) := by
    intro x y hx hy
    rcases hc with rfl | rfl
    · exact Or.inl ⟨hx, by rw [e.leftOf_neg d0]; exact hy⟩
    · exact Or.inr ⟨by rw [← e.rightOf_neg d0]; exact hy, hx⟩
  cases hl : e.leftOf c with
  | none => simp [hl] at hm
  | some x =>
    cases hy : e.rightOf c with
    | none => simp [hl, hy] at hm
    | some y =>
      simp only [hl, hy] at hm
      split_ifs at hm with q1 q2
      · refine ⟨x, y, rfl, q1, ?_, hsd x y hl hy⟩
        right
        obtain ⟨z, -, hz⟩ := map_ok hm
        cases hz
        rfl
      · refine ⟨x, y, rfl, q1, ?_, hsd x y hl hy⟩
        cases hm
        exact Or.inl rfl

end Verif.FaceStats
