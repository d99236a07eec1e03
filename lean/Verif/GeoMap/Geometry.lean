import Verif.GeoMap.Machine
import Mathlib.Tactic.Ring
import Mathlib.Tactic.LinearCombination

/-! # Geometry: end points of edges, areas of faces -/

namespace Verif.GeoMap
open Equiv Equiv.Perm Verif.PermLemmas

variable {K : Type}

/-- the points of every edge start and end at the positions of its end nodes -/
def GeomOK (s : GMap K) : Prop := ∀ l e, s.edge l = some e →
  e.pts.head? = (s.node e.startN).map (·.pos) ∧ e.pts.getLast? = (s.node e.endN).map (·.pos)

/-! ## point lists -/

theorem join_tail {A B : List (Pt K)} (h : A.getLast? = B.head?) (hA : A ≠ []) : A.dropLast ++ B = A ++ B.tail := by
  cases B with
  | nil => simp at h; exact absurd h hA
  | cons b B =>
    rw [List.head?_cons] at h
    conv_rhs => rw [← List.dropLast_append_getLast? b h]
    simp

theorem join_head {A B : List (Pt K)} (h : A.getLast? = B.head?) (hA : A ≠ []) : (A.dropLast ++ B).head? = A.head? := by
  rw [join_tail h hA, List.head?_append]
  cases A with
  | nil => exact absurd rfl hA
  | cons a A => rfl

theorem join_last {A B : List (Pt K)} (hB : B ≠ []) : (A.dropLast ++ B).getLast? = B.getLast? := by
  rw [List.getLast?_append]
  cases h : B.getLast? with
  | none => rw [List.getLast?_eq_none_iff] at h; exact absurd h hB
  | some x => rfl

section Area
variable [Field K]

theorem area2_append (A : List (Pt K)) (p : Pt K) (B : List (Pt K)) : area2 (A ++ p :: B) = area2 (A ++ [p]) + area2 (p :: B) := by
  induction A with
  | nil => simp [area2]
  | cons a A ih =>
    cases A with
    | nil =>
      cases B with
      | nil => simp [area2]
      | cons b B => simp [area2]
    | cons a' A =>
      simp only [List.cons_append, area2] at ih ⊢
      rw [ih]; ring

theorem area2_join {A B : List (Pt K)} (h : A.getLast? = B.head?) (hA : A ≠ []) : area2 (A.dropLast ++ B) = area2 A + area2 B := by
  cases B with
  | nil => simp at h; exact absurd h hA
  | cons b B =>
    rw [List.head?_cons] at h
    rw [area2_append, List.dropLast_append_getLast? b h]

theorem area2_reverse (A : List (Pt K)) : area2 A.reverse = -area2 A := by
  induction A with
  | nil => simp [area2]
  | cons a A ih =>
    cases A with
    | nil => simp [area2]
    | cons b A =>
      rw [List.reverse_cons, List.reverse_cons, List.append_assoc, List.singleton_append, area2_append]
      rw [← List.reverse_cons, ih]
      simp only [area2]; ring

end Area

/-! ## darts -/

theorem Edge.dartPts_neg (e : Edge K) {d : Int} (h : d ≠ 0) : e.dartPts (-d) = (e.dartPts d).reverse := by
  unfold Edge.dartPts
  rcases lt_or_gt_of_ne h with h1 | h1
  · rw [if_pos (by omega), if_neg (by omega), List.reverse_reverse]
  · rw [if_neg (by omega), if_pos h1]

theorem Edge.areaOf_eq [Field K] (e : Edge K) (d : Int) : e.areaOf d = partialArea (e.dartPts d) := by
  unfold Edge.areaOf Edge.dartPts partialArea
  split_ifs
  · rfl
  · rw [area2_reverse]; ring

theorem geom_dart {e : Edge K} (X : Nat → Option (Pt K)) (d : Int) :
    (e.pts.head? = X e.startN ∧ e.pts.getLast? = X e.endN) ↔ ((e.dartPts d).head? = X (e.startOf d) ∧ (e.dartPts d).getLast? = X (e.endOf d)) := by
  unfold Edge.dartPts Edge.startOf Edge.endOf
  split_ifs
  · exact Iff.rfl
  · rw [List.head?_reverse, List.getLast?_reverse]; exact And.comm

theorem GeomOK.dart {s : GMap K} (h : GeomOK s) {d : Int} {e : Edge K} (he : s.edge d.natAbs = some e) :
    (e.dartPts d).head? = (s.node (e.startOf d)).map (·.pos) ∧ (e.dartPts d).getLast? = (s.node (e.endOf d)).map (·.pos) :=
  (geom_dart (fun n => (s.node n).map (·.pos)) d).mp (h _ e he)

theorem Edge.dartPts_ne {e : Edge K} (h : e.pts ≠ []) (d : Int) : e.dartPts d ≠ [] := by
  unfold Edge.dartPts
  split_ifs
  · exact h
  · simpa using h

theorem GeomOK.of_sub {s t : GMap K} (hs : GeomOK s) (hM : GraphOK t)
    (he : ∀ l e, t.edge l = some e → ∃ e', s.edge l = some e' ∧ e'.startN = e.startN ∧ e'.endN = e.endN ∧ e'.pts = e.pts)
    (hn : ∀ n nd, t.node n = some nd → ∃ nd', s.node n = some nd' ∧ nd'.pos = nd.pos) : GeomOK t := by
  intro l e hl
  obtain ⟨e', h1, h2, h3, h4⟩ := he l e hl
  have := hs l e' h1
  rw [h2, h3, h4] at this
  have h0 : l ≠ 0 := by rintro rfl; rw [hM.edge_zero] at hl; cases hl
  have hst : t.startN? (l : Int) = some e.startN := by
    rw [startN?_of (e := e) (by simpa using hl)]; unfold Edge.startOf; rw [if_pos (by omega)]
  have hen : t.startN? (-(l : Int)) = some e.endN := by
    rw [startN?_of (e := e) (by simpa using hl)]; unfold Edge.startOf; rw [if_neg (by omega)]
  obtain ⟨n1, g1⟩ := Option.isSome_iff_exists.mp (hM.start_live _ _ hst)
  obtain ⟨n2, g2⟩ := Option.isSome_iff_exists.mp (hM.start_live _ _ hen)
  obtain ⟨m1, k1, k2⟩ := hn _ _ g1
  obtain ⟨m2, k3, k4⟩ := hn _ _ g2
  rw [g1, g2]
  rw [k1, k3] at this
  simp only [Option.map_some] at this ⊢
  rw [← k2, ← k4]; exact this

/-! ## `mergeEdges` -/

/-- The points of the merged edge, seen from the side of `d2`: first along the merged edge towards
the removed node, then along the survivor. -/
theorem mergedGeometry_dart {s : GMap K} {L : Finset Int} {π : Perm Int} (hg : GraphRep s L π) {d1 d2 : Int} {e1 e2 : Edge K} {m n2 : Nat} {nd : Node K}
    (h : Deg2 s L d1 d2 e1 e2 m n2 nd) :
    (GMap.mergedGeometry e1 e2 m n2).dartPts d1 = (e2.dartPts (-d2)).dropLast ++ e1.dartPts d1 ∧
    (GMap.mergedGeometry e1 e2 m n2).startOf d1 = n2 ∧ (GMap.mergedGeometry e1 e2 m n2).endOf d1 = e1.endOf d1 := by
  obtain ⟨n12, n1m, n2m, hm2, p1, p2, s1, s2, sm, only, nm, ndm, hndm⟩ := h.facts hg
  have h10 := hg.ne_zero h.h1
  have h20 := hg.ne_zero h.h2
  have e1m : e1.startOf d1 = m := by rw [startN?_of h.he1] at s1; exact Option.some.inj s1
  have e1n : e1.endOf d1 ≠ m := by
    intro e
    have : s.startN? (-d1) = some m := by
      rw [startN?_of (e := e1) (by simpa using h.he1), e1.startOf_neg h10, e]
    have := only _ (hg.symm _ h.h1) this
    have := h.hn
    omega
  have hm := h.hm
  have hn2 := h.hn2
  unfold GMap.mergedGeometry concatPts
  unfold Edge.dartPts Edge.startOf Edge.endOf at *
  rcases lt_or_gt_of_ne h10 with a | a <;> rcases lt_or_gt_of_ne h20 with b | b
  · have a' : ¬ 0 < d1 := by omega
    have b' : ¬ 0 < d2 := by omega
    have b'' : 0 < -d2 := by omega
    simp only [a', b', b'', if_true, if_false] at *
    subst hm hn2
    simp only [e1n, ne_eq, not_false_eq_true, if_true, nm, decide_true, List.reverse_append]
    exact ⟨by rw [List.drop_one, List.tail_reverse, List.reverse_reverse], by simp, by simp⟩
  · have a' : ¬ 0 < d1 := by omega
    have b'' : ¬ 0 < -d2 := by omega
    simp only [a', b, b'', if_true, if_false] at *
    subst hm hn2
    simp only [e1n, ne_eq, not_false_eq_true, if_true, not_true_eq_false, decide_false, List.reverse_append]
    exact ⟨by rw [List.drop_one, ← List.dropLast_reverse], by simp, by simp⟩
  · have b' : ¬ 0 < d2 := by omega
    have b'' : 0 < -d2 := by omega
    simp only [a, b', b'', if_true, if_false] at *
    subst hm hn2
    simp [e1m, nm]
  · have b'' : ¬ 0 < -d2 := by omega
    simp only [a, b, b'', if_true, if_false] at *
    subst hm hn2
    simp [e1m]

theorem Deg2.join {s : GMap K} {L : Finset Int} {π : Perm Int} (hg : GraphRep s L π) (hG : GeomOK s) {d1 d2 : Int} {e1 e2 : Edge K} {m n2 : Nat} {nd : Node K}
    (h : Deg2 s L d1 d2 e1 e2 m n2 nd) : (e2.dartPts (-d2)).getLast? = (e1.dartPts d1).head? := by
  obtain ⟨n12, n1m, n2m, hm2, p1, p2, s1, s2, sm, only, nm, ndm, hndm⟩ := h.facts hg
  have e1m : e1.startOf d1 = m := by rw [startN?_of h.he1] at s1; exact Option.some.inj s1
  rw [(hG.dart h.he1).1, (hG.dart (d := -d2) (e := e2) (by simpa using h.he2)).2, e1m]
  have : e2.endOf (-d2) = e2.startOf d2 := by
    have := e2.startOf_neg (d := -d2) (by have := hg.ne_zero h.h2; omega)
    rw [neg_neg] at this; exact this.symm
  rw [this, h.hm]

theorem Deg2.geom {s : GMap K} {L : Finset Int} {π : Perm Int} (hg : GraphRep s L π) (hG : GeomOK s) {d1 d2 : Int} {e1 e2 : Edge K} {m n2 : Nat} {nd : Node K}
    (h : Deg2 s L d1 d2 e1 e2 m n2 nd) : GeomOK (mergedState s d1 d2 e1 e2 m n2 nd) := by
  obtain ⟨n12, n1m, n2m, hm2, p1, p2, s1, s2, sm, only, nm, ndm, hndm⟩ := h.facts hg
  obtain ⟨k1, k2, k3⟩ := mergedGeometry_dart hg h
  have hj := h.join hg hG
  have hp1 := Edge.dartPts_ne (hg.labels.pts_ne _ _ h.he1) d1
  have hp2 := Edge.dartPts_ne (hg.labels.pts_ne _ _ h.he2) (-d2)
  have h20 := hg.ne_zero h.h2
  have h10 := hg.ne_zero h.h1
  have e1n : e1.endOf d1 ≠ m := by
    intro e
    have : s.startN? (-d1) = some m := by
      rw [startN?_of (e := e1) (by simpa using h.he1), e1.startOf_neg (hg.ne_zero h.h1), e]
    have := only _ (hg.symm _ h.h1) this
    have := h.hn
    omega
  have hpos : ∀ n, n ≠ m → ((mergedState s d1 d2 e1 e2 m n2 nd).node n).map (·.pos) = (s.node n).map (·.pos) := by
    intro n hn
    simp only [mergedState, Function.update_apply, if_neg hn]
    split_ifs with g
    · rw [g, h.hnd]; rfl
    · rfl
  intro l e hl
  simp only [mergedState, Function.update_apply] at hl
  split_ifs at hl with g1 g2
  · cases hl
    rw [geom_dart (fun n => ((mergedState s d1 d2 e1 e2 m n2 nd).node n).map (·.pos)) d1, k1, k2, k3, join_head hj hp2, join_last hp1,
      hpos _ nm, hpos _ e1n, (hG.dart h.he1).2, (hG.dart (d := -d2) (e := e2) (by simpa using h.he2)).1, e2.startOf_neg h20, h.hn2]
    exact ⟨rfl, rfl⟩
  · have h0 : l ≠ 0 := by rintro rfl; rw [hg.labels.edge_zero] at hl; cases hl
    have hst : s.startN? (l : Int) = some e.startN := by
      rw [startN?_of (e := e) (by simpa using hl)]; unfold Edge.startOf; rw [if_pos (by omega)]
    have hen : s.startN? (-(l : Int)) = some e.endN := by
      rw [startN?_of (e := e) (by simpa using hl)]; unfold Edge.startOf; rw [if_neg (by omega)]
    have c1 : e.startN ≠ m := by
      intro e'
      rw [e'] at hst
      have := only _ ((hg.live _).mpr (liveD_of_start hst)) hst
      omega
    have c2 : e.endN ≠ m := by
      intro e'
      rw [e'] at hen
      have := only _ ((hg.live _).mpr (liveD_of_start hen)) hen
      omega
    rw [hpos _ c1, hpos _ c2]
    exact hG l e hl

section
variable [Field K]

theorem GMap.dartArea_of {s : GMap K} {d : Int} {e : Edge K} (h : s.edge d.natAbs = some e) : s.dartArea d = partialArea (e.dartPts d) := by
  unfold GMap.dartArea; rw [h]; exact e.areaOf_eq d

/-- areas of darts after `mergeEdges` -/
theorem Deg2.dartArea {s : GMap K} {L : Finset Int} {π : Perm Int} (hg : GraphRep s L π) (hG : GeomOK s) {d1 d2 : Int} {e1 e2 : Edge K} {m n2 : Nat} {nd : Node K}
    (h : Deg2 s L d1 d2 e1 e2 m n2 nd) :
    (mergedState s d1 d2 e1 e2 m n2 nd).dartArea d1 = s.dartArea d1 + s.dartArea (-d2) ∧
    ∀ x, x.natAbs ≠ d1.natAbs → x.natAbs ≠ d2.natAbs → (mergedState s d1 d2 e1 e2 m n2 nd).dartArea x = s.dartArea x := by
  obtain ⟨k1, -, -⟩ := mergedGeometry_dart hg h
  have hp2 := Edge.dartPts_ne (hg.labels.pts_ne _ _ h.he2) (-d2)
  constructor
  · rw [GMap.dartArea_of (e := GMap.mergedGeometry e1 e2 m n2) (by simp [mergedState, Function.update_apply, h.hn]), GMap.dartArea_of h.he1,
      GMap.dartArea_of (e := e2) (d := -d2) (by simpa using h.he2), k1]
    unfold partialArea
    rw [area2_join (h.join hg hG) hp2]
    ring
  · intro x h1 h2
    unfold GMap.dartArea
    simp only [mergedState, Function.update_apply, if_neg h1, if_neg h2]

theorem Deg2.faceSum {s : GMap K} {π ψ : Perm Int} (hg : GraphRep s s.darts π) (hc : ContoursRep s s.darts ψ) (hG : GeomOK s)
    {d1 d2 : Int} {e1 e2 : Edge K} {m n2 : Nat} {nd : Node K}
    (h : Deg2 s s.darts d1 d2 e1 e2 m n2 nd) (f : Nat) : (mergedState s d1 d2 e1 e2 m n2 nd).faceSum f = s.faceSum f := by
  obtain ⟨n12, n1m, n2m, hm2, p1, p2, s1, s2, sm, only, nm, ndm, hndm⟩ := h.facts hg
  obtain ⟨a1, a2⟩ := h.dartArea hg hG
  have G := mergedState_graph hg h
  have h10 := hg.ne_zero h.h1
  have h20 := hg.ne_zero h.h2
  have hn := h.hn
  -- `-d2` is followed by `d1`, `-d1` by `d2`
  have phi1 : s.phi (-d2) = d1 := by
    unfold GMap.phi
    rw [neg_neg, hg.rep.eqi _ h.h2, ← p1]; simp
  have phi2 : s.phi (-d1) = d2 := by
    unfold GMap.phi
    rw [neg_neg, hg.rep.eqi _ h.h1, ← p2]; simp
  have l1 : s.left? d1 = s.left? (-d2) := by
    have : SameCycle ψ (-d2) d1 := by
      rw [← phi1, hc.rep.eq _ hm2]; exact ⟨1, rfl⟩
    exact left_of_sameCycle hc.rep hc.lefts hm2 this
  have l2 : s.left? d2 = s.left? (-d1) := by
    have : SameCycle ψ (-d1) d2 := by
      rw [← phi2, hc.rep.eq _ (hg.symm _ h.h1)]; exact ⟨1, rfl⟩
    exact left_of_sameCycle hc.rep hc.lefts (hg.symm _ h.h1) this
  obtain ⟨t, ht⟩ : ∃ t, t = mergedState s d1 d2 e1 e2 m n2 nd := ⟨_, rfl⟩
  have hleft : ∀ x, t.left? x = if x = d2 ∨ x = -d2 then none else s.left? x := by
    intro x
    split_ifs with hx
    · rw [ht]; unfold GMap.left?
      have : x.natAbs = d2.natAbs := by omega
      simp [mergedState, this]
    · by_cases hxL : x ∈ s.darts
      · rw [ht]; exact mergedState_left hg h (by simp only [Finset.mem_erase]; tauto)
      · have e1' : s.left? x = none := by
          cases hh : s.left? x with
          | none => rfl
          | some y => exact absurd ((hg.live x).mpr (liveD_of_left hh)) hxL
        have e2' : t.left? x = none := by
          cases hh : t.left? x with
          | none => rfl
          | some y =>
            rw [ht] at hh
            have := (G.live x).mpr (liveD_of_left hh)
            simp only [Finset.mem_erase] at this
            exact absurd this.2.2 hxL
        rw [e1', e2']
  have a1' : t.dartArea d1 = s.dartArea d1 + s.dartArea (-d2) := by rw [ht]; exact a1
  have a1n : t.dartArea (-d1) = s.dartArea (-d1) + s.dartArea d2 := by
    rw [dartArea_neg _ h10, a1', dartArea_neg s h10, dartArea_neg s h20]; ring
  have a2' : ∀ x, x ≠ d1 → x ≠ -d1 → x ≠ d2 → x ≠ -d2 → t.dartArea x = s.dartArea x := by
    intro x h1 h2 h3 h4; rw [ht]; exact a2 x (by omega) (by omega)
  rw [← ht] at G ⊢
  -- compare the sums over all darts
  have sum : ∀ u : GMap K, LabelsOK u → u.darts ⊆ s.darts → u.faceSum f = ∑ d ∈ s.darts, if u.left? d = some f then u.dartArea d else 0 := by
    intro u hu hs
    unfold GMap.faceSum GMap.leftDarts
    rw [Finset.sum_filter]
    refine Finset.sum_subset hs fun x _ hx => ?_
    rw [if_neg]
    intro hl
    exact hx ((mem_darts hu.edge_lt _).mpr (liveD_of_left hl))
  rw [sum t G.labels (by rw [G.darts_eq]; intro x; simp only [Finset.mem_erase]; tauto), sum s hg.labels (Finset.Subset.refl _)]
  have split : ∀ g : Int → K, ∑ d ∈ s.darts, g d = g d1 + (g (-d1) + (g d2 + (g (-d2) + ∑ d ∈ (((s.darts.erase d1).erase (-d1)).erase d2).erase (-d2), g d))) := by
    intro g
    have m1 := h.h1
    have m2 : -d1 ∈ s.darts.erase d1 := by rw [Finset.mem_erase]; exact ⟨by omega, hg.symm _ h.h1⟩
    have m3 : d2 ∈ (s.darts.erase d1).erase (-d1) := by
      simp only [Finset.mem_erase]; exact ⟨by omega, n12.symm, h.h2⟩
    have m4 : -d2 ∈ ((s.darts.erase d1).erase (-d1)).erase d2 := by
      simp only [Finset.mem_erase]; exact ⟨by omega, by omega, by omega, hm2⟩
    rw [← Finset.add_sum_erase _ _ m1, ← Finset.add_sum_erase _ _ m2, ← Finset.add_sum_erase _ _ m3, ← Finset.add_sum_erase _ _ m4]
  rw [split, split]
  have rest : ∑ d ∈ (((s.darts.erase d1).erase (-d1)).erase d2).erase (-d2), (if t.left? d = some f then t.dartArea d else 0)
      = ∑ d ∈ (((s.darts.erase d1).erase (-d1)).erase d2).erase (-d2), (if s.left? d = some f then s.dartArea d else 0) := by
    refine Finset.sum_congr rfl fun x hx => ?_
    simp only [Finset.mem_erase] at hx
    have q : t.left? x = s.left? x := by rw [hleft, if_neg (by tauto)]
    rw [q, a2' x (by tauto) (by tauto) (by tauto) (by tauto)]
  have q1 : t.left? d1 = s.left? (-d2) := by rw [hleft, if_neg (by omega), l1]
  have q2 : t.left? (-d1) = s.left? d2 := by rw [hleft, if_neg (by omega), l2]
  have q3 : t.left? d2 = none := by rw [hleft, if_pos (by tauto)]
  have q4 : t.left? (-d2) = none := by rw [hleft, if_pos (by tauto)]
  rw [rest, q1, q2, q3, q4, a1', a1n, l1, ← l2]
  simp only [reduceCtorEq, if_false]
  split_ifs <;> ring

end

end Verif.GeoMap
