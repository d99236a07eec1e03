import Verif.Outer.Signed

/-! # Areas of contours under the operations -/

set_option linter.unusedSectionVars false

namespace Verif.Outer
open Verif Verif.GeoMap Verif.Polygon Verif.Scan Verif.Locate Equiv Equiv.Perm Verif.PermLemmas

variable {K : Type} [Field K] [LinearOrder K] [IsStrictOrderedRing K]

open Classical in
theorem orbitArea_sum {s : GMap K} {L : Finset Int} {ψ : Perm Int} (hL : s.darts = L) (hr : Rep L s.phi s.phiInv ψ) {a : Int} (ha : a ∈ L) :
    s.orbitArea a = ∑ x ∈ L, if SameCycle ψ a x then s.dartArea x else 0 := by
  unfold GMap.orbitArea
  rw [Finset.sum_filter, hL]
  refine Finset.sum_congr rfl fun x _ => ?_
  have : SameCycle ψ a x ↔ s.phiReach a x := hr.sameCycle_iff ha
  by_cases h : SameCycle ψ a x
  · rw [if_pos h, if_pos (this.mp h)]
  · rw [if_neg h, if_neg fun h' => h (this.mpr h')]

open Classical in
/-- Two edges become one: sums over sets of darts that contain both darts on a side or none of them do not change. -/
theorem sum_absorb {D : Finset Int} {w w' : Int → K} {d1 d2 : Int} (h1 : d1 ∈ D) (h1' : -d1 ∈ D) (h2 : d2 ∈ D) (h2' : -d2 ∈ D)
    (h10 : d1 ≠ 0) (h20 : d2 ≠ 0) (hn : d1.natAbs ≠ d2.natAbs) {P : Int → Prop} (hP1 : P d1 ↔ P (-d2)) (hP2 : P (-d1) ↔ P d2)
    (hw1 : w' d1 = w d1 + w (-d2)) (hw2 : w' (-d1) = w (-d1) + w d2)
    (hw : ∀ x ∈ D, x.natAbs ≠ d1.natAbs → x.natAbs ≠ d2.natAbs → w' x = w x) :
    ∑ x ∈ (D.erase d2).erase (-d2), (if P x then w' x else 0) = ∑ x ∈ D, if P x then w x else 0 := by
  have m1 : d1 ∈ (D.erase d2).erase (-d2) := by simp only [Finset.mem_erase]; exact ⟨by omega, by omega, h1⟩
  have m2 : -d1 ∈ ((D.erase d2).erase (-d2)).erase d1 := by simp only [Finset.mem_erase]; exact ⟨by omega, by omega, by omega, h1'⟩
  have m4 : -d2 ∈ D.erase d2 := by rw [Finset.mem_erase]; exact ⟨by omega, h2'⟩
  rw [← Finset.add_sum_erase D _ h2, ← Finset.add_sum_erase _ _ m4, ← Finset.add_sum_erase _ _ m1, ← Finset.add_sum_erase _ _ m2,
    ← Finset.add_sum_erase ((D.erase d2).erase (-d2)) _ m1, ← Finset.add_sum_erase _ _ m2, hw1, hw2]
  have rest : ∀ x ∈ (((D.erase d2).erase (-d2)).erase d1).erase (-d1), (if P x then w' x else 0) = if P x then w x else 0 := by
    intro x hx
    simp only [Finset.mem_erase] at hx
    rw [hw x hx.2.2.2.2 (by omega) (by omega)]
  rw [Finset.sum_congr rfl rest]
  by_cases c1 : P (-d2) <;> by_cases c2 : P d2 <;> simp only [hP1, hP2, c1, c2, if_true, if_false] <;> ring

/-- Removing an edge does not change the areas of the contours on which it does not lie. -/
theorem erase_orbit {s t : GMap K} {ψ : Perm Int} {r : Int} (hs : Rep s.darts s.phi s.phiInv ψ)
    (ht : Rep (eraseEdge s.darts r) t.phi t.phiInv (phiRemoved ψ r)) (hd : t.darts = eraseEdge s.darts r)
    (hw : ∀ x ∈ eraseEdge s.darts r, t.dartArea x = s.dartArea x) {a : Int} (ha : a ∈ s.darts)
    (h1 : ¬ SameCycle ψ a r) (h2 : ¬ SameCycle ψ a (-r)) : t.orbitArea a = s.orbitArea a := by
  classical
  have n1 : a ≠ r := by rintro rfl; exact h1 (SameCycle.refl _ _)
  have n2 : a ≠ -r := by rintro rfl; exact h2 (SameCycle.refl _ _)
  have hae : a ∈ eraseEdge s.darts r := mem_eraseEdge.mpr ⟨n2, n1, ha⟩
  rw [orbitArea_sum hd ht hae, orbitArea_sum rfl hs ha]
  refine (Finset.sum_congr rfl (g := fun x => if SameCycle ψ a x then s.dartArea x else 0) fun x hx => ?_).trans
    (Finset.sum_subset (fun x hx => (mem_eraseEdge.mp hx).2.2) fun x hx hx' => ?_)
  · obtain ⟨x1, x2, -⟩ := mem_eraseEdge.mp hx
    rw [hw x hx]
    have : SameCycle (phiRemoved ψ r) a x ↔ SameCycle ψ a x := by
      rw [phiRemoved_sameCycle n1 n2 x2 x1]
      exact sameCycle_swap_mul_other h1 h2
    simp only [this]
  · rw [if_neg]
    intro h
    rw [mem_eraseEdge] at hx'
    have : x = -r ∨ x = r := by
      by_contra hc
      push Not at hc
      exact hx' ⟨hc.1, hc.2, hx⟩
    rcases this with rfl | rfl
    · exact h2 h
    · exact h1 h

/-- Darts of the same contour give the same area. -/
theorem orbitArea_reach {s : GMap K} (hM : MapOK s) (hi : s.initialized) {a b : Int} (ha : s.liveD a) (h : s.phiReach a b) :
    s.orbitArea b = s.orbitArea a := by
  classical
  obtain ⟨π, hg⟩ := hM.graph.exists_rep
  obtain ⟨ψ, hc⟩ := (hM.contours hi).exists_rep hg
  have haL := (hg.live a).mpr ha
  have hab := (hc.rep.sameCycle_iff haL).mpr h
  have hbL := hc.rep.mem_of_sameCycle haL hab
  rw [orbitArea_sum rfl hc.rep haL, orbitArea_sum rfl hc.rep hbL]
  refine Finset.sum_congr rfl fun x _ => ?_
  have : SameCycle ψ b x ↔ SameCycle ψ a x := ⟨fun h => hab.trans h, fun h => hab.symm.trans h⟩
  simp only [this]

/-- `mergeEdges` does not change the areas of contours. -/
theorem merge_orbit {s : GMap K} {π ψ : Perm Int} (hg : GraphRep s s.darts π) (hc : ContoursRep s s.darts ψ) (hG : GeomOK s)
    {d1 d2 : Int} {e1 e2 : Edge K} {m n2 : Nat} {nd : Node K} (h : Deg2 s s.darts d1 d2 e1 e2 m n2 nd)
    (hoff : ∀ f F, s.face f = some F → ∀ a ∈ F.anchors, a.natAbs ≠ d2.natAbs) {a : Int} (ha : a ∈ s.darts) (hn : a.natAbs ≠ d2.natAbs) :
    (mergedState s d1 d2 e1 e2 m n2 nd).orbitArea a = s.orbitArea a := by
  classical
  obtain ⟨n12, n1m, n2m, hm2, p1, p2, s1, s2, sm, only, nm, ndm, hndm⟩ := h.facts hg
  obtain ⟨a1, a2⟩ := h.dartArea hg hG
  have G := mergedState_graph hg h
  have C := mergedState_contours hg hc h hoff
  have h10 := hg.ne_zero h.h1
  have h20 := hg.ne_zero h.h2
  have hm1 := hg.symm _ h.h1
  have phi1 : SameCycle ψ (-d2) d1 := by
    have : s.phi (-d2) = d1 := by
      unfold GMap.phi
      rw [neg_neg, hg.rep.eqi _ h.h2, ← p1]; simp
    rw [← this, hc.rep.eq _ hm2]; exact ⟨1, rfl⟩
  have phi2 : SameCycle ψ (-d1) d2 := by
    have : s.phi (-d1) = d2 := by
      unfold GMap.phi
      rw [neg_neg, hg.rep.eqi _ h.h1, ← p2]; simp
    rw [← this, hc.rep.eq _ hm1]; exact ⟨1, rfl⟩
  have cyc : ∀ x ∈ (s.darts.erase d2).erase (-d2), (SameCycle (skip (skip ψ d2) (-d2)) a x ↔ SameCycle ψ a x) := by
    intro x hx
    simp only [Finset.mem_erase] at hx
    rw [sameCycle_skip _ (by omega) hx.1, sameCycle_skip _ (by omega) hx.2.1]
  rw [orbitArea_sum G.darts_eq C.rep (by simp only [Finset.mem_erase]; exact ⟨by omega, by omega, ha⟩), orbitArea_sum rfl hc.rep ha,
    ← sum_absorb (w := s.dartArea) (w' := (mergedState s d1 d2 e1 e2 m n2 nd).dartArea) (d1 := d1) (d2 := d2) (P := SameCycle ψ a)
      h.h1 hm1 h.h2 hm2 h10 h20 h.hn ⟨fun h => h.trans phi1.symm, fun h => h.trans phi1⟩ ⟨fun h => h.trans phi2, fun h => h.trans phi2.symm⟩ a1
      (by rw [dartArea_neg _ h10, a1, dartArea_neg s h10, dartArea_neg s h20]; ring) fun x _ h1 h2 => a2 x h1 h2]
  refine Finset.sum_congr rfl fun x hx => ?_
  simp only [cyc x hx]

/-- `splitEdge` does not change the areas of contours. -/
theorem split_orbit {s : GMap K} {π ψ : Perm Int} (hg : GraphRep s s.darts π) (hc : ContoursRep s s.darts ψ) {l : Nat} {e : Edge K} {cnd : Node K}
    (h : SplitCtx s s.darts l e cnd) {i : Nat} (hi : i < e.pts.length - 1) {np : Option (Pt K)} {p : Pt K}
    (hp : (splitPts e.pts i np)[splitIdx i np]? = some p) (ha : area2 (splitPts e.pts i np) = area2 e.pts) {a : Int} (haL : a ∈ s.darts) :
    (splitState s l e ((splitPts e.pts i np).take (splitIdx i np + 1)) ((splitPts e.pts i np).drop (splitIdx i np)) p cnd).orbitArea a
      = s.orbitArea a := by
  classical
  obtain ⟨h0, hlt, hn, hm, hr, hq, s1, s2⟩ := h.facts hg
  have hidx := splitPts_get hi np
  have hL : (splitPts e.pts i np).take (splitIdx i np + 1) ≠ [] := by
    intro h
    rw [List.take_eq_nil_iff] at h
    rcases h with h | h
    · omega
    · rw [h] at hidx; simp at hidx
  have hR : (splitPts e.pts i np).drop (splitIdx i np) ≠ [] := by
    intro h; rw [List.drop_eq_nil_iff] at h; omega
  have G := splitState_graph (p := p) hg h hL hR
  obtain ⟨ψ', C, eψ, v1, v2⟩ := splitState_contours (p := p) hg hc h hL hR
  obtain ⟨t, ht⟩ : ∃ t, t = splitState s l e ((splitPts e.pts i np).take (splitIdx i np + 1)) ((splitPts e.pts i np).drop (splitIdx i np)) p cnd := ⟨_, rfl⟩
  rw [← ht] at G C ⊢
  have hsplit := area2_split hp
  have a1 : s.dartArea l = t.dartArea l + t.dartArea s.nEdges := by
    have x1 : t.dartArea l = partialArea ((splitPts e.pts i np).take (splitIdx i np + 1)) := by
      rw [GMap.dartArea_of (e := { e with pts := (splitPts e.pts i np).take (splitIdx i np + 1), endN := s.nNodes }) (by rw [ht]; simp [splitState])]
      unfold Edge.dartPts; rw [if_pos (by omega)]
    have x2 : t.dartArea s.nEdges = partialArea ((splitPts e.pts i np).drop (splitIdx i np)) := by
      rw [GMap.dartArea_of (e := ⟨s.nNodes, e.endN, e.leftF, e.rightF, (splitPts e.pts i np).drop (splitIdx i np), e.flags⟩)
        (by rw [ht]; simp only [splitState, Int.natAbs_natCast, Function.update_apply]; rw [if_neg (by omega)]; simp)]
      unfold Edge.dartPts; rw [if_pos (by omega)]
    have x3 : s.dartArea l = partialArea e.pts := by
      rw [GMap.dartArea_of (e := e) (by simpa using h.he)]
      unfold Edge.dartPts; rw [if_pos (by omega)]
    rw [x1, x2, x3]
    unfold partialArea
    rw [← ha, ← hsplit]; ring
  have a2 : ∀ x, x.natAbs ≠ l → x.natAbs ≠ s.nEdges → s.dartArea x = t.dartArea x := by
    intro x h1 h2
    unfold GMap.dartArea
    rw [ht]
    simp only [splitState, Function.update_apply, if_neg h1, if_neg h2]
  have l0 : (l : Int) ≠ 0 := by omega
  have r0 : (s.nEdges : Int) ≠ 0 := by omega
  have c1 : SameCycle ψ' (l : Int) s.nEdges := by rw [← v1]; exact ⟨1, rfl⟩
  have c2 : SameCycle ψ' (-(s.nEdges : Int)) (-(l : Int)) := by rw [← v2]; exact ⟨1, rfl⟩
  have hD : s.darts = ((insert (-(s.nEdges : Int)) (insert (s.nEdges : Int) s.darts)).erase (-(s.nEdges : Int))).erase (- -(s.nEdges : Int)) := by
    ext x
    rw [neg_neg]
    simp only [Finset.mem_erase, Finset.mem_insert]
    constructor
    · intro hx
      exact ⟨by rintro rfl; exact hr hx, by rintro rfl; exact hq hx, Or.inr (Or.inr hx)⟩
    · rintro ⟨h1, h2, h3 | h3 | h3⟩
      · exact absurd h3 h2
      · exact absurd h3 h1
      · exact h3
  have cyc : ∀ x ∈ s.darts, (SameCycle ψ a x ↔ SameCycle ψ' a x) := by
    intro x hx
    have k : ∀ y ∈ s.darts, y ≠ s.nEdges ∧ y ≠ -(s.nEdges : Int) := fun y hy => ⟨by rintro rfl; exact hr hy, by rintro rfl; exact hq hy⟩
    rw [eψ, sameCycle_skip _ (k a haL).2 (k x hx).2, sameCycle_skip _ (k a haL).1 (k x hx).1]
  rw [orbitArea_sum G.darts_eq C.rep (by simp [haL]), orbitArea_sum rfl hc.rep haL]
  have := sum_absorb (D := insert (-(s.nEdges : Int)) (insert (s.nEdges : Int) s.darts)) (w := t.dartArea) (w' := s.dartArea) (d1 := (l : Int))
    (d2 := -(s.nEdges : Int)) (P := SameCycle ψ' a) (by simp [h.hl]) (by simp [hm]) (by simp) (by simp) l0 (by omega) (by omega)
    (by rw [neg_neg]; exact ⟨fun h => h.trans c1, fun h => h.trans c1.symm⟩) ⟨fun h => h.trans c2.symm, fun h => h.trans c2⟩
    (by rw [neg_neg]; exact a1) (by rw [dartArea_neg s l0, dartArea_neg t l0, dartArea_neg t r0, a1]; ring)
    fun x _ h1 h2 => a2 x (by simpa using h1) (by simpa using h2)
  rw [← hD] at this
  rw [← this]
  refine Finset.sum_congr rfl fun x hx => ?_
  simp only [cyc x hx]

end Verif.Outer
