import Verif.Parallel.Sorted

/-!
# Sorting the edges and splitting the parallel ones: the properties
-/

namespace Verif.Parallel
open Verif Verif.GeoMap Verif.Eventually Verif.DartPos Verif.PointIter

variable {srt : List DPA → List DPA} {fuel : Nat} {stepDist minDist : ℝ} {s t : GMap ℝ} {st st' : St}

/-- Whenever `sortEdgesEventually` has planned splits, they form groups, numbered from 0 on and stored one after the other; each group
consists of at least two darts of one node that follow each other around it in the sorted map, in the order of the stored positions,
and each split is on a segment of its edge. -/
theorem sortEdgesEventually_plan (hs : Sorter srt) (hstep : stepDist ≠ 0) (hmin : 0 < minDist) (h : Sound s)
    (e : sortEdgesEventually srt fuel stepDist minDist true s st = .ok (t, st')) : Sound t ∧ ∃ (pl : Splits) (gs : List (List SplitPos)),
      st'.splits = some pl ∧ pl.list = gs.flatten ∧ pl.count = gs.length ∧
      ∀ (i : Nat) (g : List SplitPos), gs[i]? = some g → ∃ n, PlannedGroup t n i g := by
  obtain ⟨π, hg⟩ := h.ok.graph.exists_rep
  rw [eventually_of h.raw] at e
  obtain ⟨⟨u, st1⟩, e1, e2⟩ := Outcome.bind_eq_ok.1 e
  cases e2
  have hr : 0 < stepDist * stepDist := mul_self_pos.2 hstep
  have hm := (minAngle_pos (stepDist := stepDist) hmin).1
  obtain ⟨gs, a, b⟩ := sortNodes_plan hs hr hm fuel _ List.nodup_range hg h.geom h.long e1 (sp := ⟨[], 0⟩) rfl
  rcases sortNodes_spec hs hr hm fuel (List.range s.nNodes) List.nodup_range hg h.geom h.long (startSt true st) with e' | ⟨u', st1', π', e', k1, ⟨sg, sgi, k2⟩, -⟩
  · rw [e1] at e'; cases e'
  · rw [e1] at e'; cases e'
    have hfr : ({ u with edgesSorted := true } : GMap ℝ) = { s with sigma := sg, sigmaInv := sgi, edgesSorted := true } := by rw [k2]
    have hg' : GraphRep ({ u with edgesSorted := true } : GMap ℝ) s.darts π' := ⟨⟨k1.labels.edges_pos, k1.labels.edge_zero, k1.labels.node_lt, k1.labels.edge_lt, k1.labels.face_lt,
        k1.labels.node_count, k1.labels.edge_count, k1.labels.face_count, k1.labels.pts_ne⟩, k1.live, k1.rep, k1.starts, k1.nodes⟩
    have hit : ¬ ({ u with edgesSorted := true } : GMap ℝ).initialized := by rw [hfr]; exact h.raw
    refine ⟨⟨⟨hg'.graphOK, fun h => absurd h hit⟩, hit, by rw [hfr]; exact h.geom, by rw [hfr]; exact h.long⟩, _, gs, a, by simp, by simp, fun i g hgi => ?_⟩
    obtain ⟨n, -, hp⟩ := b i g hgi
    rw [Nat.zero_add] at hp
    exact ⟨n, hp.frame rfl rfl fun _ _ => rfl⟩

/-- If the degree of the nodes is small compared with the minimal angle (`(N - 1) * minAngle` at most 60 degrees), every planned
position is the point of its dart at the stored arc length, and the splits of one dart are planned in the order of the dart, unless
the end of the dart was reached. -/
theorem sortEdgesEventually_nested (hs : Sorter srt) (hstep : 0 < stepDist) (hmin : 0 < minDist) (h : Sound s) {N : Nat} (hdeg : DegreeLE s N)
    (hN : ((N : ℝ) - 1) * atan2 minDist stepDist ≤ Real.pi / 3) (e : sortEdgesEventually srt fuel stepDist minDist true s st = .ok (t, st')) :
    ∃ pl, st'.splits = some pl ∧ (∀ v ∈ pl.list, Walked (pointsOf t) v) ∧
      pl.list.Pairwise fun u v => u.label = v.label → walk (pointsOf t) u < pathLen (pointsOf t u.label) → walk (pointsOf t) u < walk (pointsOf t) v := by
  obtain ⟨π, hg⟩ := h.ok.graph.exists_rep
  rw [eventually_of h.raw] at e
  obtain ⟨⟨u, st1⟩, e1, e2⟩ := Outcome.bind_eq_ok.1 e
  cases e2
  have hm := (minAngle_pos (stepDist := stepDist) hmin).1
  obtain ⟨M, hM0, hMdeg, hM⟩ : ∃ M : Nat, 0 < M ∧ DegreeLE s M ∧ ((M : ℝ) - 1) * atan2 minDist stepDist ≤ Real.pi / 3 := by
    rcases Nat.eq_zero_or_pos N with rfl | h0
    · refine ⟨1, by omega, fun n l h1 h2 => (hdeg n l h1 h2).trans (by omega), ?_⟩
      simp; linarith [Real.pi_pos]
    · exact ⟨N, h0, hdeg, hN⟩
  obtain ⟨new, cnt, a, b, c⟩ := sortNodes_nest hs hstep hm hM0 hM _ List.nodup_range hg h.geom h.long hMdeg e1 (sp := ⟨[], 0⟩) rfl
  rcases sortNodes_spec hs (mul_pos hstep hstep) hm fuel (List.range s.nNodes) List.nodup_range hg h.geom h.long (startSt true st) with e' | ⟨u', st1', π', e', -, ⟨sg, sgi, k2⟩, -⟩
  · rw [e1] at e'; cases e'
  · rw [e1] at e'; cases e'
    have hpts : pointsOf ({ u with edgesSorted := true } : GMap ℝ) = pointsOf s := by rw [k2]; rfl
    rw [hpts]
    exact ⟨_, a, fun v hv => (b v (by simpa using hv)).1, by simpa using c⟩

/-- Sorting and then splitting: with few darts around each node compared with the minimal angle, if no split was planned at the end of a
dart and splits planned from both ends of an edge do not cross, the planned splits can be carried out with the result of
`splitParallelEdges_ok`. -/
theorem sort_then_split (hs : Sorter srt) (hstep : 0 < stepDist) (hmin : 0 < minDist) (h : Sound s) {N : Nat} (hdeg : DegreeLE s N)
    (hN : ((N : ℝ) - 1) * atan2 minDist stepDist ≤ Real.pi / 3) (e : sortEdgesEventually srt fuel stepDist minDist true s st = .ok (t, st'))
    {srtS : List SplitPos → List SplitPos} {srtM : List MergeDart → List MergeDart} (hS : SplitSorter srtS) (hM : MergeSorter srtM)
    (cont : GMap ℝ → Nat → ℝ) {hk : Hooks ℝ} (hh : ∀ s n, hk.removeNode s n = true) {given : Option (List ℝ)} (hgiv : ∀ p, given = some p → p.length = s.nEdges)
    (hun : ∀ pl, st'.splits = some pl → Uncrossed (pointsOf t) pl.list) :
    ∃ (pl : Splits) (gs : List (List SplitPos)) (r : GMap ℝ), st'.splits = some pl ∧ pl.list = gs.flatten ∧
      (∀ (i : Nat) (g : List SplitPos), gs[i]? = some g → ∃ n, PlannedGroup t n i g) ∧
      splitParallelEdges srtS srtM cont hk st'.splits given t = .ok r ∧ Parallelized t r gs given := by
  obtain ⟨hts, pl, gs, hpl, hlist, -, hgrp⟩ := sortEdgesEventually_plan hs hstep.ne' hmin h e
  obtain ⟨pl', hpl', hw, hord⟩ := sortEdgesEventually_nested hs hstep hmin h hdeg hN e
  rw [hpl] at hpl'; cases hpl'
  have hu := hun pl hpl
  have hedges : t.nEdges = s.nEdges := by
    obtain ⟨π, hg⟩ := h.ok.graph.exists_rep
    rw [eventually_of h.raw] at e
    obtain ⟨⟨u, st1⟩, e1, e2⟩ := Outcome.bind_eq_ok.1 e
    cases e2
    rcases sortNodes_spec hs (mul_pos hstep hstep) (minAngle_pos (stepDist := stepDist) hmin).1 fuel (List.range s.nNodes) List.nodup_range hg h.geom h.long
      (startSt true st) with e' | ⟨u', st1', π', e', -, ⟨sg, sgi, k2⟩, -⟩
    · rw [e1] at e'; cases e'
    · rw [e1] at e'; cases e'
      rw [k2]
  have hin : ∀ v ∈ pl.list, ∃ e, t.edge v.label.natAbs = some e ∧ v.at_.seg + 1 < e.pts.length := by
    intro v hv
    rw [hlist] at hv
    obtain ⟨g, hg, hvg⟩ := List.mem_flatten.1 hv
    obtain ⟨i, hi⟩ := List.getElem?_of_mem hg
    obtain ⟨n, hp⟩ := hgrp i g hi
    exact hp.inside v hvg
  have hpos : ∀ v ∈ pl.list, v.label ≠ 0 := by
    intro v hv h0
    obtain ⟨e, he, -⟩ := hin v hv
    rw [h0] at he
    have := hts.ok.graph.labels.edge_zero
    rw [show (0 : Int).natAbs = 0 from rfl, this] at he; cases he
  -- the order of the groups
  have hgs : pl.list.Pairwise fun u v => u.label = v.label → u.group < v.group := by
    rw [hlist, List.pairwise_flatten]
    constructor
    · intro g hg
      obtain ⟨i, hi⟩ := List.getElem?_of_mem hg
      obtain ⟨n, hp⟩ := hgrp i g hi
      obtain ⟨ord, o1, -, -, o4, -⟩ := hp.order
      have hno : (g.map (·.label)).Nodup := o4.nodup_iff.1 o1
      rw [List.nodup_iff_pairwise_ne, List.pairwise_map] at hno
      exact hno.imp fun hne e => absurd e hne
    · rw [List.pairwise_iff_getElem]
      intro i j hi hj hij u hu v hv _
      obtain ⟨n, hp⟩ := hgrp i _ (List.getElem?_eq_getElem hi)
      obtain ⟨n', hp'⟩ := hgrp j _ (List.getElem?_eq_getElem hj)
      rw [hp.group u hu, hp'.group v hv]; exact hij
  -- the segments agree with the arc lengths
  have hseg : ∀ u ∈ pl.list, ∀ v ∈ pl.list, u.label.natAbs = v.label.natAbs → u.at_.arc < v.at_.arc → u.at_.seg ≤ v.at_.seg := by
    intro u hu' v hv' hl hlt
    obtain ⟨e, he, hus⟩ := hin u hu'
    obtain ⟨e', he', hvs⟩ := hin v hv'
    rw [← hl, he] at he'; cases he'
    -- in terms of the points of the edge
    have key : ∀ w ∈ pl.list, w.label.natAbs = u.label.natAbs → w.at_.seg + 1 < e.pts.length →
        reach e.pts w.at_.seg ≤ w.at_.arc ∧ w.at_.arc ≤ reach e.pts (w.at_.seg + 1) := by
      intro w hw' hwl hws
      have hW := hw w hw'
      have hI := hu.interior w hw'
      have hseg := hW.seg hI
      have hpt : pointsOf t w.label = if 0 < w.label then e.pts else e.pts.reverse := by rw [pointsOf, hwl, he]
      by_cases hneg : w.label < 0
      · rw [if_neg (by omega)] at hpt
        rw [walk, walkSeg, if_pos hneg, if_pos hneg, hpt, pathLen_reverse, List.length_reverse, reach_reverse (by omega), reach_reverse (by omega)] at hseg
        rw [show e.pts.length - 1 - (e.pts.length - 2 - w.at_.seg) = w.at_.seg + 1 by omega,
          show e.pts.length - 1 - (e.pts.length - 2 - w.at_.seg + 1) = w.at_.seg by omega] at hseg
        exact ⟨by linarith [hseg.2], by linarith [hseg.1]⟩
      · have hp := hpos w hw'
        rw [if_pos (by omega)] at hpt
        rw [walk, walkSeg, if_neg hneg, if_neg hneg, hpt] at hseg
        exact hseg
    by_contra hc
    have h1 := (key u hu' rfl hus).1
    have h2 := (key v hv' hl.symm hvs).2
    have := reach_mono (L := e.pts) (j := v.at_.seg + 1) (k := u.at_.seg) (by omega)
    linarith
  have hplan : PlanOK t pl.list gs := by
    refine ⟨hlist, ?_, hin, ?_⟩
    · intro i g hg
      obtain ⟨n, hp⟩ := hgrp i g hg
      refine ⟨fun h0 => ?_, hp.group⟩
      have := hp.two
      rw [h0] at this; simp at this
    · refine (hgs.and hord).imp_of_mem ?_
      rintro u v hu' hv' ⟨h1, h2⟩ hl
      have hu0 := hpos u hu'
      have hv0 := hpos v hv'
      by_cases hsame : u.label = v.label
      · have hlt := h2 hsame (hu.interior u hu')
        have hg := h1 hsame
        by_cases hneg : u.label < 0
        · right
          rw [walk, walk, ← hsame, if_pos hneg, if_pos hneg] at hlt
          have harc : v.at_.arc < u.at_.arc := by linarith
          exact ⟨harc, hseg v hv' u hu' hl.symm harc, fun h => by omega, fun _ => hg⟩
        · left
          rw [walk, walk, ← hsame, if_neg hneg, if_neg hneg] at hlt
          exact ⟨hlt, hseg u hu' v hv' hl hlt, fun _ => hg, fun h => by omega⟩
      · by_cases hneg : u.label < 0
        · right
          have harc := hu.apart v hv' u hu' (by omega) (by omega)
          exact ⟨harc, hseg v hv' u hu' hl.symm harc, fun h => by omega, fun h => by omega⟩
        · left
          have harc := hu.apart u hu' v hv' (by omega) (by omega)
          exact ⟨harc, hseg u hu' v hv' hl harc, fun h => by omega, fun h => by omega⟩
  obtain ⟨r, hr, hP⟩ := splitParallelEdges_ok hS hM cont hh hts hplan (given := given) (fun p hp => by rw [hgiv p hp, hedges])
  exact ⟨pl, gs, r, hpl, hlist, hgrp, by rw [hpl]; exact hr, hP⟩

end Verif.Parallel
