import Verif.GeoMap.InitContours

/-! # Areas -/

namespace Verif.GeoMap
open Equiv Equiv.Perm Verif.PermLemmas

variable {K : Type} [Field K]

/-- signed area between the points of a dart and the origin (`Dart::partialArea`) -/
def GMap.dartArea (s : GMap K) (d : Int) : K :=
  match s.edge d.natAbs with
  | some e => e.areaOf d
  | none => 0

/-- the area enclosed by the contours of a face: the sum of the signed areas of its darts -/
def GMap.faceSum (s : GMap K) (f : Nat) : K := ∑ d ∈ s.leftDarts f, s.dartArea d

/-- cached areas are right -/
def AreaOK (s : GMap K) : Prop := ∀ f F a, s.face f = some F → F.area = some a → a = s.faceSum f

theorem Edge.areaOf_neg (e : Edge K) {d : Int} (h : d ≠ 0) : e.areaOf (-d) = -e.areaOf d := by
  unfold Edge.areaOf
  rcases lt_or_gt_of_ne h with h1 | h1
  · rw [if_pos (by omega), if_neg (by omega), neg_neg]
  · rw [if_neg (by omega), if_pos h1]

theorem dartArea_neg (s : GMap K) {d : Int} (h : d ≠ 0) : s.dartArea (-d) = -s.dartArea d := by
  unfold GMap.dartArea
  rw [Int.natAbs_neg]
  cases s.edge d.natAbs with
  | none => simp
  | some e => exact e.areaOf_neg h

theorem areaTerm_eq (s : GMap K) {d : Int} (h : d ≠ 0) :
    s.areaTerm d = if s.left? d = s.left? (-d) then 0 else s.dartArea d := by
  cases he : s.edge d.natAbs with
  | none => simp [GMap.areaTerm, GMap.dartArea, he]
  | some e =>
    have he' : s.edge (-d).natAbs = some e := by simpa using he
    have h1 : (s.left? d = s.left? (-d)) ↔ e.leftF = e.rightF := by
      rw [left?_of he, left?_of he']
      unfold Edge.leftOf
      rcases lt_or_gt_of_ne h with h1 | h1
      · rw [if_neg (by omega), if_pos (by omega)]; exact eq_comm
      · rw [if_pos (by omega), if_neg (by omega)]
    simp only [GMap.areaTerm, GMap.dartArea, he, h1]
    by_cases hc : e.leftF = e.rightF <;> simp [hc]

/-- Leaving out the bridges does not change the sum: their two darts cancel. -/
theorem sum_areaTerm (s : GMap K) (D : Finset Int) (h0 : ∀ d ∈ D, d ≠ 0) (hb : ∀ d ∈ D, s.left? d = s.left? (-d) → -d ∈ D) :
    ∑ d ∈ D, s.areaTerm d = ∑ d ∈ D, s.dartArea d := by
  have h1 : ∑ d ∈ D, s.dartArea d = ∑ d ∈ D, s.areaTerm d + ∑ d ∈ D with s.left? d = s.left? (-d), s.dartArea d := by
    rw [Finset.sum_filter, ← Finset.sum_add_distrib]
    refine Finset.sum_congr rfl fun d hd => ?_
    rw [areaTerm_eq s (h0 d hd)]
    split_ifs <;> simp
  have h2 : ∑ d ∈ D with s.left? d = s.left? (-d), s.dartArea d = 0 := by
    refine Finset.sum_involution (fun d _ => -d) ?_ ?_ ?_ ?_
    · intro d hd
      rw [Finset.mem_filter] at hd
      rw [dartArea_neg s (h0 d hd.1), add_neg_cancel]
    · intro d hd _
      rw [Finset.mem_filter] at hd
      have := h0 d hd.1
      omega
    · intro d hd
      rw [Finset.mem_filter] at hd ⊢
      exact ⟨hb d hd.1 hd.2, by rw [neg_neg]; exact hd.2.symm⟩
    · intro d _; simp
  rw [h1, h2, add_zero]

omit [Field K] in
theorem mem_leftDarts {s : GMap K} {f : Nat} {d : Int} (hl : LabelsOK s) : d ∈ s.leftDarts f ↔ s.left? d = some f := by
  unfold GMap.leftDarts
  rw [Finset.mem_filter, mem_darts hl.edge_lt]
  exact ⟨fun h => h.2, fun h => ⟨liveD_of_left h, h⟩⟩

/-- `Face::area()` computes the enclosed area -/
theorem trueArea_eq {s : GMap K} (hl : LabelsOK s) (f : Nat) : s.trueArea f = s.faceSum f := by
  unfold GMap.trueArea GMap.faceSum
  apply sum_areaTerm
  · intro d hd
    rw [mem_leftDarts hl] at hd
    exact hl.liveD_ne_zero (liveD_of_left hd)
  · intro d hd h
    rw [mem_leftDarts hl] at hd ⊢
    rw [← h]; exact hd

/-- all areas sum up to zero -/
theorem faceSum_total {s : GMap K} (hM : MapOK s) (hi : s.initialized) : ∑ f ∈ s.liveFaces, s.faceSum f = 0 := by
  have hl := hM.graph.labels
  have hc := hM.contours hi
  have h1 : ∑ f ∈ s.liveFaces, s.faceSum f = ∑ d ∈ s.darts, s.dartArea d := by
    unfold GMap.faceSum
    rw [← Finset.sum_biUnion]
    · congr 1
      ext d
      simp only [Finset.mem_biUnion, mem_leftDarts hl, mem_darts hl.edge_lt]
      constructor
      · rintro ⟨f, -, h⟩; exact liveD_of_left h
      · intro h
        obtain ⟨f, F, g1, g2⟩ := hc.face_live d h
        refine ⟨f, ?_, g1⟩
        simp only [GMap.liveFaces, Finset.mem_filter, Finset.mem_range]
        exact ⟨hl.face_lt f (by simp [g2]), by simp [g2]⟩
    · intro f _ g _ hfg
      rw [Function.onFun, Finset.disjoint_left]
      intro d hd hd'
      rw [mem_leftDarts hl] at hd hd'
      rw [hd] at hd'
      exact hfg (Option.some.inj hd')
  rw [h1]
  refine Finset.sum_involution (fun d _ => -d) ?_ ?_ ?_ ?_
  · intro d hd
    rw [mem_darts hl.edge_lt] at hd
    rw [dartArea_neg s (hl.liveD_ne_zero hd), add_neg_cancel]
  · intro d hd _
    rw [mem_darts hl.edge_lt] at hd
    have := hl.liveD_ne_zero hd
    omega
  · intro d hd
    rw [mem_darts hl.edge_lt] at hd ⊢
    exact liveD_neg.mpr hd
  · intro d _; simp

end Verif.GeoMap
