import Verif.Euler.Genus
import Verif.GeoMap.Props

/-! # The value of nodes − edges + faces − components -/

namespace Verif.GeoMap
open Equiv Equiv.Perm Verif.PermLemmas

variable {K : Type} [Field K] [LinearOrder K]

/-- cppmap.hxx:1266-1269 `Face::holeCount()`, summed over all faces: every contour of the infinite
face and all but one contour of a finite face -/
def GMap.holeSum (s : GMap K) : Int := ∑ f ∈ s.liveFaces, ((s.face f).elim 0 fun F => (F.anchors.length : Int) - if f = 0 then 0 else 1)

theorem euler_pos {s : GMap K} (hs : Good s) (hi : s.initialized) : 1 ≤ s.euler := by
  classical
  obtain ⟨π, hg⟩ := hs.map.graph.exists_rep
  have h0 : (0 : Nat) ∈ s.liveFaces := (mem_liveFaces hg.labels.face_lt).mpr (hs.map.contours hi).face_zero
  rw [euler_dual hs hi (fun f => s.liveFaces.filter (s.DualConn f))]
  · have : 0 < (s.liveFaces.image fun f => s.liveFaces.filter (s.DualConn f)).card :=
      Finset.card_pos.mpr ⟨_, Finset.mem_image_of_mem _ h0⟩
    omega
  · intro f _ g hg
    constructor
    · intro h
      have : g ∈ s.liveFaces.filter (s.DualConn g) := by
        rw [Finset.mem_filter]; exact ⟨hg, Relation.ReflTransGen.refl⟩
      rw [← h, Finset.mem_filter] at this
      exact this.2
    · intro h
      ext x
      simp only [Finset.mem_filter, and_congr_right_iff]
      exact fun _ => ⟨fun g => (DualConn.symm h).trans g, fun g => h.trans g⟩

/-- If the faces are all joined, `euler` is 1, and vice versa. -/
theorem euler_one_iff {s : GMap K} (hs : Good s) (hi : s.initialized) : s.euler = 1 ↔ ∀ f, (s.face f).isSome = true → s.DualConn 0 f := by
  classical
  obtain ⟨π, hg⟩ := hs.map.graph.exists_rep
  have h0 : (0 : Nat) ∈ s.liveFaces := (mem_liveFaces hg.labels.face_lt).mpr (hs.map.contours hi).face_zero
  have hk : ∀ f ∈ s.liveFaces, ∀ g ∈ s.liveFaces, s.liveFaces.filter (s.DualConn f) = s.liveFaces.filter (s.DualConn g) ↔ s.DualConn f g := by
    intro f _ g hg
    constructor
    · intro h
      have : g ∈ s.liveFaces.filter (s.DualConn g) := by
        rw [Finset.mem_filter]; exact ⟨hg, Relation.ReflTransGen.refl⟩
      rw [← h, Finset.mem_filter] at this
      exact this.2
    · intro h
      ext x
      simp only [Finset.mem_filter, and_congr_right_iff]
      exact fun _ => ⟨fun g => (DualConn.symm h).trans g, fun g => h.trans g⟩
  rw [euler_dual hs hi (fun f => s.liveFaces.filter (s.DualConn f)) hk]
  constructor
  · intro h f hf
    have hc : (s.liveFaces.image fun f => s.liveFaces.filter (s.DualConn f)).card ≤ 1 := by omega
    have hfl := (mem_liveFaces hg.labels.face_lt).mpr hf
    exact (hk 0 h0 f hfl).mp (Finset.card_le_one.mp hc _ (Finset.mem_image_of_mem _ h0) _ (Finset.mem_image_of_mem _ hfl))
  · intro h
    have hc : (s.liveFaces.image fun f => s.liveFaces.filter (s.DualConn f)).card = 1 := by
      rw [Finset.card_eq_one]
      refine ⟨_, Finset.eq_singleton_iff_unique_mem.mpr ⟨Finset.mem_image_of_mem _ h0, ?_⟩⟩
      intro y hy
      obtain ⟨f, hf, rfl⟩ := Finset.mem_image.mp hy
      exact ((hk 0 h0 f hf).mpr (h f ((mem_liveFaces hg.labels.face_lt).mp hf))).symm
    omega

/-- Contours, faces and holes. -/
theorem holeSum_eq {s : GMap K} (hl : LabelsOK s) (h0 : (s.face 0).isSome = true) : s.holeSum + s.faceCount = s.contourCount + 1 := by
  have h0m : (0 : Nat) ∈ s.liveFaces := (mem_liveFaces hl.face_lt).mpr h0
  have h1 : s.holeSum = ∑ f ∈ s.liveFaces, ((s.face f).elim (0 : Int) fun F => (F.anchors.length : Int)) - ∑ f ∈ s.liveFaces, if f = 0 then (0 : Int) else 1 := by
    unfold GMap.holeSum
    rw [← Finset.sum_sub_distrib]
    refine Finset.sum_congr rfl (fun f hf => ?_)
    obtain ⟨F, hF⟩ := Option.isSome_iff_exists.mp ((mem_liveFaces hl.face_lt).mp hf)
    rw [hF]; rfl
  have h2 : ∑ f ∈ s.liveFaces, ((s.face f).elim (0 : Int) fun F => (F.anchors.length : Int)) = s.contourCount := by
    unfold GMap.contourCount
    push_cast
    refine Finset.sum_congr rfl (fun f hf => ?_)
    cases s.face f <;> rfl
  have h3 : ∑ f ∈ s.liveFaces, (if f = 0 then (0 : Int) else 1) = s.liveFaces.card - 1 := by
    rw [← Finset.insert_erase h0m, Finset.sum_insert (Finset.notMem_erase _ _), if_pos rfl, Finset.card_insert_of_notMem (Finset.notMem_erase _ _)]
    have : ∑ f ∈ s.liveFaces.erase 0, (if f = 0 then (0 : Int) else 1) = ∑ f ∈ s.liveFaces.erase 0, 1 := by
      refine Finset.sum_congr rfl (fun f hf => ?_)
      rw [if_neg (Finset.mem_erase.mp hf).1]
    rw [this]; simp
  rw [h1, h2, h3, hl.face_count]
  ring

/-- In a planar map `euler` and the number of holes determine each other. -/
theorem euler_holes {s : GMap K} (hs : Good s) (hi : s.initialized) : s.euler = s.edgeComponents - s.holeSum + 1 := by
  obtain ⟨π, hg⟩ := hs.map.graph.exists_rep
  have h1 := genus_zero hs hi
  have h2 := components_isolated s
  have h3 := holeSum_eq hg.labels (hs.map.contours hi).face_zero
  have h4 := hg.labels.node_count
  unfold GMap.euler
  omega

theorem orbitArea_congr {s : GMap K} {L : Finset Int} {ψ : Perm Int} (hr : Rep L s.phi s.phiInv ψ) {a b : Int} (ha : a ∈ L) (hb : b ∈ L)
    (h : SameCycle ψ a b) : s.orbitArea a = s.orbitArea b := by
  classical
  unfold GMap.orbitArea
  refine Finset.sum_congr ?_ (fun _ _ => rfl)
  ext x
  simp only [Finset.mem_filter, and_congr_right_iff]
  intro _
  unfold GMap.phiReach
  rw [← hr.sameCycle_iff ha, ← hr.sameCycle_iff hb]
  exact ⟨fun g => h.symm.trans g, fun g => h.trans g⟩

/-- Every component with edges has a contour whose area is not positive: all areas cancel. -/
theorem component_hole [IsStrictOrderedRing K] {s : GMap K} {π ψ : Perm Int} (hg : GraphRep s s.darts π) (hr : Rep s.darts s.phi s.phiInv ψ)
    {d : Int} {n : Nat} (hd : s.startN? d = some n) :
    ∃ a m, s.startN? a = some m ∧ s.Connected n m ∧ s.orbitArea a ≤ 0 := by
  classical
  by_contra hno
  push Not at hno
  let D := s.darts.filter fun x => ∃ m, s.startN? x = some m ∧ s.Connected n m
  have hD : ∀ x, x ∈ D ↔ x ∈ s.darts ∧ ∃ m, s.startN? x = some m ∧ s.Connected n m := fun x => Finset.mem_filter
  have hneg : ∀ x ∈ D, -x ∈ D := by
    intro x hx
    obtain ⟨h1, m, h2, h3⟩ := (hD x).mp hx
    obtain ⟨m', h4⟩ := hg.start_exists _ (hg.symm x h1)
    exact (hD _).mpr ⟨hg.symm x h1, m', h4, h3.trans (Relation.ReflTransGen.single ⟨x, h2, h4⟩)⟩
  have hzero : ∑ x ∈ D, s.dartArea x = 0 := by
    refine Finset.sum_involution (fun x _ => -x) (fun x hx => ?_) (fun x hx _ e => ?_) (fun x hx => hneg x hx) (fun x _ => neg_neg x)
    · rw [dartArea_neg s (hg.ne_zero ((hD x).mp hx).1), add_neg_cancel]
    · have := hg.ne_zero ((hD x).mp hx).1
      omega
  let g : Int → Finset Int := fun x => s.darts.filter (SameCycle ψ x)
  have hclosed : ∀ a ∈ D, ∀ x ∈ s.darts, SameCycle ψ a x → x ∈ D := by
    intro a ha x hx h
    obtain ⟨h1, m, h2, h3⟩ := (hD a).mp ha
    obtain ⟨m', h4⟩ := hg.start_exists x hx
    exact (hD x).mpr ⟨hx, m', h4, h3.trans (contour_connected hg hr h1 h h2 h4)⟩
  have hsum : ∑ x ∈ D, s.dartArea x = ∑ y ∈ D.image g, ∑ x ∈ D with g x = y, s.dartArea x :=
    (Finset.sum_fiberwise_of_maps_to (fun x hx => Finset.mem_image_of_mem g hx) _).symm
  have hfib : ∀ a ∈ D, ∑ x ∈ D with g x = g a, s.dartArea x = s.orbitArea a := by
    intro a ha
    unfold GMap.orbitArea
    refine Finset.sum_congr ?_ (fun _ _ => rfl)
    have haL := ((hD a).mp ha).1
    ext x
    simp only [Finset.mem_filter]
    unfold GMap.phiReach
    rw [← hr.sameCycle_iff haL]
    constructor
    · rintro ⟨h1, h2⟩
      have hxL := ((hD x).mp h1).1
      refine ⟨hxL, ?_⟩
      have : x ∈ g x := by simp only [g, Finset.mem_filter]; exact ⟨hxL, SameCycle.refl _ _⟩
      rw [h2] at this
      simp only [g, Finset.mem_filter] at this
      exact this.2
    · rintro ⟨h1, h2⟩
      refine ⟨hclosed a ha x h1 h2, ?_⟩
      ext z
      simp only [g, Finset.mem_filter, and_congr_right_iff]
      exact fun _ => ⟨fun h => h2.trans h, fun h => h2.symm.trans h⟩
  have hpos : 0 < ∑ y ∈ D.image g, ∑ x ∈ D with g x = y, s.dartArea x := by
    apply Finset.sum_pos
    · intro y hy
      obtain ⟨a, ha, rfl⟩ := Finset.mem_image.mp hy
      rw [hfib a ha]
      obtain ⟨-, m, h2, h3⟩ := (hD a).mp ha
      exact hno a m h2 h3
    · refine ⟨_, Finset.mem_image_of_mem g (a := d) ((hD d).mpr ⟨(hg.live d).mpr (liveD_of_start hd), n, hd, Relation.ReflTransGen.refl⟩)⟩
  rw [← hsum, hzero] at hpos
  exact lt_irrefl _ hpos

/-- With signed contours every component has a hole of its own. -/
theorem holes_ge [IsStrictOrderedRing K] {s : GMap K} (hs : Good s) (hi : s.initialized) (hS : ContoursSigned s) : (s.edgeComponents : Int) ≤ s.holeSum := by
  classical
  obtain ⟨π, hg⟩ := hs.map.graph.exists_rep
  obtain ⟨ψ, hc⟩ := (hs.map.contours hi).exists_rep hg
  let A : Nat → Finset Int := fun f => (s.face f).elim ∅ fun F => F.anchors.toFinset.filter fun a => s.orbitArea a ≤ 0
  have hA : ∀ f ∈ s.liveFaces, ((A f).card : Int) ≤ (s.face f).elim 0 fun F => (F.anchors.length : Int) - if f = 0 then 0 else 1 := by
    intro f hf
    obtain ⟨F, hF⟩ := Option.isSome_iff_exists.mp ((mem_liveFaces hg.labels.face_lt).mp hf)
    simp only [A, hF, Option.elim]
    by_cases h0 : f = 0
    · rw [if_pos h0]
      have := (Finset.card_filter_le F.anchors.toFinset fun a => s.orbitArea a ≤ 0).trans (List.toFinset_card_le F.anchors)
      omega
    · rw [if_neg h0]
      obtain ⟨a, rest, h1, h2, -⟩ := hS.outer f F hF h0
      have h3 : (F.anchors.toFinset.filter fun a => s.orbitArea a ≤ 0) ⊆ rest.toFinset := by
        intro x hx
        rw [Finset.mem_filter, List.mem_toFinset, h1, List.mem_cons] at hx
        rcases hx with ⟨rfl | hx, hx2⟩
        · exact absurd hx2 (not_le.mpr h2)
        · exact List.mem_toFinset.mpr hx
      have := (Finset.card_le_card h3).trans (List.toFinset_card_le rest)
      have h4 : F.anchors.length = rest.length + 1 := by rw [h1]; rfl
      omega
  have h1 : ((s.liveFaces.biUnion A).card : Int) ≤ s.holeSum := by
    have h2 : ((s.liveFaces.biUnion A).card : Int) ≤ ((∑ f ∈ s.liveFaces, (A f).card : Nat) : Int) := by
      exact_mod_cast Finset.card_biUnion_le
    push_cast at h2
    exact h2.trans (Finset.sum_le_sum hA)
  have h2 : s.edgeComponents ≤ (s.liveFaces.biUnion A).card := by
    have hsub : (s.edgeNodes.image fun n => s.liveNodes.filter (s.Connected n)) ⊆
        (s.liveFaces.biUnion A).image fun a => (s.startN? a).elim ∅ fun n => s.liveNodes.filter (s.Connected n) := by
      intro y hy
      obtain ⟨n, hn, rfl⟩ := Finset.mem_image.mp hy
      unfold GMap.edgeNodes at hn
      rw [Finset.mem_filter] at hn
      obtain ⟨hn, d, hd⟩ := hn
      obtain ⟨a, m, a1, a2, a3⟩ := component_hole hg hc.rep hd
      have haL := (hg.live a).mpr (liveD_of_start a1)
      obtain ⟨f, hf, hF, -⟩ := hc.lefts a haL
      obtain ⟨F, hF⟩ := Option.isSome_iff_exists.mp hF
      obtain ⟨b, hb, hcy⟩ := (hc.faces f F hF).cover a haL hf
      have hbL := ((hc.faces f F hF).left b hb).1
      obtain ⟨p, hp⟩ := hg.start_exists b hbL
      rw [Finset.mem_image]
      refine ⟨b, ?_, ?_⟩
      · rw [Finset.mem_biUnion]
        refine ⟨f, (mem_liveFaces hg.labels.face_lt).mpr (by rw [hF]; rfl), ?_⟩
        simp only [A, hF, Option.elim, Finset.mem_filter, List.mem_toFinset]
        exact ⟨hb, by rw [orbitArea_congr hc.rep hbL haL hcy]; exact a3⟩
      · rw [hp]
        exact (connected_class hn).mpr ((contour_connected hg hc.rep hbL hcy hp a1).trans (connected_symm a2))
    have h3 := (Finset.card_le_card hsub).trans Finset.card_image_le
    refine le_trans (le_of_eq ?_) h3
    unfold GMap.edgeComponents; congr!
  omega

/-- After `initializeMap` the value is 1. -/
theorem euler_signed [IsStrictOrderedRing K] {s : GMap K} (hs : Good s) (hi : s.initialized) (hS : ContoursSigned s) : s.euler = 1 := by
  have h1 := euler_pos hs hi
  have h2 := euler_holes hs hi
  have h3 := holes_ge hs hi hS
  omega

theorem rename_euler {s t : GMap K} {new : List Nat} {size : Nat} (h : RenamedBy new size s t) : t.euler = s.euler := by
  have hst : t.startN? = s.startN? := by
    funext d
    unfold GMap.startN?
    rw [h.edges, Option.map_map]
    rfl
  obtain ⟨face', edge', he⟩ := h.eq
  have hcomp : t.components = s.components := by
    unfold GMap.components GMap.Connected
    rw [hst]
    rw [he]; rfl
  unfold GMap.euler
  rw [hcomp, he]

end Verif.GeoMap
