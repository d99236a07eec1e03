import Verif.Parallel.SortedProps
import Verif.Eventually.Seam

/-!
# A fork: two edges with a common first part

Example for the theorems about `sortEdgesEventually` and `splitParallelEdges`: both edges lead from (0, 0) to (2, 0), then one turns
to (2, 4), the other to (2, -4).
-/

namespace Verif.Parallel
open Verif Verif.GeoMap Verif.Eventually Verif.DartPos Verif.PointIter

noncomputable def fork0 : GMap ℝ := (((GMap.empty.addNodeAt (0, 0) 0).2.addNodeAt (2, 4) 0).2.addNodeAt (2, -4) 0).2
noncomputable def fork1 : GMap ℝ := Example.val GMap.empty ((Op.addEdge (.node 0) (.node 1) [(0, 0), (2, 0), (2, 4)] 0).run Hooks.none fork0)
noncomputable def fork : GMap ℝ := Example.val GMap.empty ((Op.addEdge (.node 0) (.node 2) [(0, 0), (2, 0), (2, -4)] 0).run Hooks.none fork1)

theorem fork1_ok : (Op.addEdge (.node 0) (.node 1) [(0, 0), (2, 0), (2, 4)] 0).run Hooks.none fork0 = .ok fork1 := rfl
theorem fork_ok : (Op.addEdge (.node 0) (.node 2) [(0, 0), (2, 0), (2, -4)] 0).run Hooks.none fork1 = .ok fork := rfl

theorem fork_reach : ReachG fork := by
  refine .call Hooks.none _ (.call Hooks.none _ (.call Hooks.none (.addNode (2, -4) 0) (.call Hooks.none (.addNode (2, 4) 0)
    (.call Hooks.none (.addNode (0, 0) 0) .empty trivial trivial rfl ?_) trivial trivial rfl ?_) trivial trivial rfl ?_) ?_ ?_ fork1_ok ?_) ?_ ?_ fork_ok ?_
  any_goals (intro _ h; exact absurd h (Nat.lt_irrefl 0))
  · exact ⟨by simp, fun n h => by cases h; rfl, fun n h => by cases h; rfl⟩
  · exact ⟨⟨0, _, rfl, rfl, rfl⟩, ⟨1, _, rfl, rfl, rfl⟩⟩
  · exact ⟨by simp, fun n h => by cases h; rfl, fun n h => by cases h; rfl⟩
  · exact ⟨⟨0, _, rfl, rfl, rfl⟩, ⟨2, _, rfl, rfl, rfl⟩⟩

theorem fork_edge : fork.edge = Function.update (Function.update (fun _ => none) 1 (some ⟨0, 1, none, none, [(0, 0), (2, 0), (2, 4)], 0⟩)) 2
    (some ⟨0, 2, none, none, [(0, 0), (2, 0), (2, -4)], 0⟩) := rfl

theorem fork_long : EdgesLong fork := by
  intro l e h
  rw [fork_edge] at h
  simp only [Function.update_apply] at h
  split_ifs at h <;> cases h <;> simp

theorem fork_sound : Sound fork := ⟨fork_reach.reach.good.map, Nat.lt_irrefl 0, fork_reach.geom.geom, fork_long⟩

/-- a position at the start of an edge of the fork that ends at (2, y) -/
noncomputable def forkA (y : ℝ) : DP := ⟨⟨[(0, 0), (2, 0), (2, y)], 1, 1, 3⟩, 0, 0, 0, (0, 0), (2, 0), (0, 0)⟩
/-- a position at the fork -/
noncomputable def forkB (y : ℝ) : DP := ⟨⟨[(0, 0), (2, 0), (2, y)], 1, 1, 3⟩, 0, 0, 2, (0, 0), (2, 0), (2, 0)⟩

theorem fork_darts : dartPositions fork 1 fork.fuel 1 [] = .ok [⟨1, forkA 4, 0, 0, none⟩, ⟨2, forkA (-4), 0, 0, none⟩] := rfl

theorem sqrt4 : Real.sqrt 4 = 2 := by
  rw [show (4 : ℝ) = 2 ^ 2 by norm_num]; exact Real.sqrt_sq (by norm_num)

theorem sqrt16 : Real.sqrt 16 = 4 := by
  rw [show (16 : ℝ) = 4 ^ 2 by norm_num]; exact Real.sqrt_sq (by norm_num)

theorem sqrt64 : Real.sqrt 64 = 8 := by
  rw [show (64 : ℝ) = 8 ^ 2 by norm_num]; exact Real.sqrt_sq (by norm_num)

theorem normAngle_zero : normAngle 0 = 0 := normAngle_id (by linarith [Real.pi_pos]) (by linarith [Real.pi_pos])

/-- the first circle: both edges pass the fork -/
theorem fork_measure1 (d : Int) (y a b : ℝ) : Eventually.measure (0, 0) 0 (2 * 2) ⟨d, forkA y, a, b, none⟩ = .ok ⟨d, forkB y, 0, 0, none⟩ := by
  have e1 : circleLoop (0, 0) (2 * 2) 4 (forkA y) = .ok (true, forkA y) := by
    rw [circleLoop, if_neg (by norm_num [forkA, sqMag])]
  have e2 : lambda (0, 0) (2 * 2) (0, 0) (2, 0) = 1 := by
    rw [lambda, if_neg (by norm_num [sqMag, radicand])]
    norm_num [sqMag, radicand, dot, sqrt16]
  have e3 : atan2 0 2 = 0 := by
    show Complex.arg ⟨2, 0⟩ = 0
    have : (⟨2, 0⟩ : ℂ) = ((2 : ℝ) : ℂ) := by apply Complex.ext <;> simp
    rw [this, Complex.arg_ofReal_of_nonneg (by norm_num)]
  have e4 : (forkA y).intersectCircle (0, 0) (2 * 2) = .ok (true, forkB y) := by
    show (circleLoop (0, 0) (2 * 2) 4 (forkA y)).bind _ = _
    rw [e1, Outcome.bind_ok]
    simp only [if_true, forkA, e2]
    norm_num [forkB, mag, sqMag, sqrt4]
  rw [Eventually.measure, if_neg (by simp [forkA, DP.atEnd, DPI.atEnd]), e4]
  simp only [Outcome.map, Outcome.bind_ok]
  norm_num [forkB, e3, normAngle_zero]

/-- the second circle: the edges lead to different directions -/
theorem fork_measure2 (d : Int) (y : ℝ) (hy : y = 4 ∨ y = -4) (a b : ℝ) (cm : Option EdgePos) : ∃ dp, Eventually.measure (2, 0) 0 (2 * 2) ⟨d, forkB y, a, b, cm⟩ =
    .ok ⟨d, dp, if y = 4 then -(Real.pi / 2) else Real.pi / 2, if y = 4 then -(Real.pi / 2) else Real.pi / 2, cm⟩ := by
  have pp := Real.pi_pos
  have hyy : y * y = 16 := by rcases hy with rfl | rfl <;> norm_num
  let C : DP := ⟨⟨[(0, 0), (2, 0), (2, y)], 2, 1, 3⟩, 1, 0 + mag ((2, 0) - (0, 0)), 2, (2, 0), (2, y), (2, 0)⟩
  have e1 : circleLoop (2, 0) (2 * 2) 4 (forkB y) = .ok (true, C) := by
    rw [circleLoop, if_pos (by norm_num [forkB, sqMag])]
    have : (forkB y).next = .ok (true, C) := rfl
    rw [this, Outcome.bind_ok]
    simp only [if_true]
    rw [circleLoop, if_neg (by simp only [C, sqMag, Prod.fst_sub, Prod.snd_sub]; linarith)]
  have hsq : sqMag ((2, y) - ((2 : ℝ), (0 : ℝ))) = 16 := by simp only [sqMag, Prod.fst_sub, Prod.snd_sub]; linarith
  have hrad : radicand (2, 0) (2 * 2) (2, 0) (2, y) = 64 := by
    rw [radicand, hsq]
    simp only [Prod.fst_sub, Prod.snd_sub]
    ring
  have e2 : lambda (2, 0) (2 * 2) (2, 0) (2, y) = 1 / 2 := by
    rw [lambda, if_neg (by rw [hsq, hrad]; norm_num), hsq, hrad, sqrt64]
    norm_num [dot]
  have e4 : ∃ dp : DP, (forkB y).intersectCircle (2, 0) (2 * 2) = .ok (true, dp) ∧ dp.pos = (2, y / 2) := by
    refine ⟨{ C with
      pos := C.p1 + lambda (2, 0) (2 * 2) C.p1 C.p2 • (C.p2 - C.p1), part := mag (lambda (2, 0) (2 * 2) C.p1 C.p2 • (C.p2 - C.p1)) }, ?_, ?_⟩
    · show (circleLoop (2, 0) (2 * 2) 4 (forkB y)).bind _ = _
      rw [e1, Outcome.bind_ok]
      simp only [if_true]
    · simp only [C, e2]
      ext
      · simp
      · simp; ring
  obtain ⟨dp, e4, hp⟩ := e4
  have e3 : atan2 (-(y / 2) + 0) (2 - 2) = if y = 4 then -(Real.pi / 2) else Real.pi / 2 := by
    rcases hy with rfl | rfl
    · rw [if_pos rfl]
      show Complex.arg ⟨2 - 2, -(4 / 2) + 0⟩ = _
      have : (⟨2 - 2, -(4 / 2) + 0⟩ : ℂ) = ((2 : ℝ) : ℂ) * (-Complex.I) := by apply Complex.ext <;> norm_num
      rw [this, Complex.arg_real_mul _ (by norm_num), Complex.arg_neg_I]
    · rw [if_neg (by norm_num)]
      show Complex.arg ⟨2 - 2, -(-4 / 2) + 0⟩ = _
      have : (⟨2 - 2, -(-4 / 2) + 0⟩ : ℂ) = ((2 : ℝ) : ℂ) * Complex.I := by apply Complex.ext <;> norm_num
      rw [this, Complex.arg_real_mul _ (by norm_num), Complex.arg_I]
  refine ⟨dp, ?_⟩
  rw [Eventually.measure, if_neg (by simp [forkB, DP.atEnd, DPI.atEnd]), e4]
  simp only [Outcome.map, Outcome.bind_ok, hp, e3, sub_zero]
  rw [normAngle_id (by split_ifs <;> linarith) (by split_ifs <;> linarith)]

theorem atan22 : atan2 2 2 = Real.pi / 4 := by
  show Complex.arg ⟨2, 2⟩ = _
  have : (⟨2, 2⟩ : ℂ) = ((Real.sqrt 8 : ℝ) : ℂ) * (Real.cos (Real.pi / 4) + Real.sin (Real.pi / 4) * Complex.I) := by
    have h : Real.sqrt 8 * Real.sqrt 2 = 4 := by
      rw [← Real.sqrt_mul (by norm_num)]; norm_num; exact sqrt16
    rw [Real.cos_pi_div_four, Real.sin_pi_div_four]
    apply Complex.ext <;> simp <;> linarith
  rw [this, Complex.ofReal_cos, Complex.ofReal_sin]
  exact Complex.arg_mul_cos_add_sin_mul_I (θ := Real.pi / 4) (Real.sqrt_pos.2 (by norm_num : (0 : ℝ) < 8)) ⟨by linarith [Real.pi_pos], by linarith [Real.pi_pos]⟩

/-- the split planned for the dart `d` -/
noncomputable def forkSplit (d : Int) (p : Nat) : SplitPos := ⟨⟨0, 2, (2, 0)⟩, d, some p, 0⟩

/-- two darts that go to different directions in a recursive call -/
theorem pair_split {srt : List DPA → List DPA} (hs : Sorter srt) {r2 m : ℝ} (hm : 0 < m) (fuel : Nat) {c : Pt ℝ} {ref : ℝ} {l l1 : List DPA} (st : St)
    (hst : st.splits = some ⟨[], 0⟩)
    (hl1 : mapAll (Eventually.measure c ref r2) l = .ok l1) (hlen : l.length = 2) {x y : DPA} (hp : l1.Perm [x, y]) (hxy : x.angle + m ≤ y.angle)
    (he : ∃ x ∈ l, x.dp.atEnd = false) {cx cy : EdgePos} (hx : x.common = some cx) (hy : y.common = some cy) (px : 0 < x.label) (py : 0 < y.label)
    (hne : x.label ≠ y.label) :
    sortInternal srt r2 m (fuel + 1) c ref true l st = .ok ([x, y], { st with
      splits := some ⟨[⟨cx, x.label, some 0, 0⟩, ⟨cy, y.label, some 1, 0⟩], 1⟩ }) := by
  rw [sortInternal, if_neg (by omega), hl1, Outcome.bind_ok, if_neg (by
    rw [List.all_eq_true]
    intro hc
    obtain ⟨x, hx, e⟩ := he
    have := hc x hx
    rw [e] at this; cases this)]
  have hgr : groups m [x, y] = [[x], [y]] := by
    simp [groups, List.splitBy, List.splitBy.loop, not_lt.2 hxy]
  simp only [sorted_pair hs hp (by linarith), rotateGroups_pair, hgr]
  simp [planSplits, hst, mapAll, DPA.splitPos, hx, hy, if_neg (not_lt.2 px.le), if_neg (not_lt.2 py.le), Outcome.bind_ok, sortGroups, St.plans, storeOrder, St.offset,
    List.idxOf_cons]
  rw [beq_eq_false_iff_ne.2 hne]; rfl

/-- the darts of node 0 -/
theorem fork_internal {srt : List DPA → List DPA} (hs : Sorter srt) (fuel : Nat) (st : St) (hst : st.splits = some ⟨[], 0⟩) :
    ∃ x y : DPA, x.label = 1 ∧ y.label = 2 ∧ sortInternal srt (2 * 2) (atan2 2 2) (fuel + 2) (0, 0) 0 false
      [⟨1, forkA 4, 0, 0, none⟩, ⟨2, forkA (-4), 0, 0, none⟩] st =
      .ok ([x, y], { st with
        splits := some ⟨[forkSplit 1 0, forkSplit 2 1], 1⟩ }) := by
  have pp := Real.pi_pos
  obtain ⟨d1, h1⟩ := fork_measure2 1 4 (Or.inl rfl) 0 0 (some ⟨0, 0 + 2, (2, 0)⟩)
  obtain ⟨d2, h2⟩ := fork_measure2 2 (-4) (Or.inr rfl) 0 0 (some ⟨0, 0 + 2, (2, 0)⟩)
  rw [if_pos rfl] at h1
  rw [if_neg (by norm_num)] at h2
  refine ⟨⟨1, d1, -(Real.pi / 2), -(Real.pi / 2), some ⟨0, 0 + 2, (2, 0)⟩⟩, ⟨2, d2, Real.pi / 2, Real.pi / 2, some ⟨0, 0 + 2, (2, 0)⟩⟩, rfl, rfl, ?_⟩
  rw [sortInternal, if_neg (by simp)]
  simp only [mapAll, fork_measure1, Outcome.bind_ok]
  rw [if_neg (by simp [forkA, DP.atEnd, DPI.atEnd])]
  -- either order
  obtain ⟨u, v, e, huv⟩ : ∃ u v : DPA, srt [⟨1, forkB 4, 0, 0, none⟩, ⟨2, forkB (-4), 0, 0, none⟩] = [u, v] ∧
      ((u = ⟨1, forkB 4, 0, 0, none⟩ ∧ v = ⟨2, forkB (-4), 0, 0, none⟩) ∨ (v = ⟨1, forkB 4, 0, 0, none⟩ ∧ u = ⟨2, forkB (-4), 0, 0, none⟩)) := by
    have hp := (hs [⟨1, forkB 4, 0, 0, none⟩, ⟨2, forkB (-4), 0, 0, none⟩]).1
    obtain ⟨u, v, e⟩ := List.length_eq_two.1 hp.length_eq
    rw [e] at hp
    refine ⟨u, v, e, ?_⟩
    have hu := hp.subset (by simp : u ∈ [u, v])
    have hv := hp.subset (by simp : v ∈ [u, v])
    have h1 := hp.symm.subset (by simp : (⟨1, forkB 4, 0, 0, none⟩ : DPA) ∈ [_, _])
    have h2 := hp.symm.subset (by simp : (⟨2, forkB (-4), 0, 0, none⟩ : DPA) ∈ [_, _])
    simp only [List.mem_cons, List.not_mem_nil, or_false] at hu hv h1 h2
    rcases hu with rfl | rfl
    · rcases h2 with h2 | rfl
      · cases h2
      · exact Or.inl ⟨rfl, rfl⟩
    · rcases h1 with h1 | rfl
      · cases h1
      · exact Or.inr ⟨rfl, rfl⟩
  have hm : 0 < atan2 2 2 := by rw [atan22]; linarith
  have hang : u.angle = 0 ∧ v.angle = 0 ∧ u.absAngle = 0 ∧ v.absAngle = 0 ∧ u.dp.pos = (2, 0) ∧ v.dp.pos = (2, 0) := by
    rcases huv with ⟨rfl, rfl⟩ | ⟨rfl, rfl⟩ <;> exact ⟨rfl, rfl, rfl, rfl, rfl, rfl⟩
  obtain ⟨a1, a2, a3, a4, a5, a6⟩ := hang
  have hgr : groups (atan2 2 2) [u, v] = [[u, v]] := by
    simp [groups, List.splitBy, List.splitBy.loop, a1, a2, hm]
  simp only [e, rotateGroups_pair, hgr]
  have hplan : planSplits (decide (1 < [[u, v]].length)) false [u, v] st = .ok st := by
    rw [planSplits, hst]; simp
  rw [hplan, Outcome.bind_ok]
  have hmean : meanPos [u, v] = (2, 0) := by
    rw [meanPos]
    simp only [List.map_cons, List.map_nil, List.sum_cons, List.sum_nil, a5, a6]
    ext <;> norm_num
  have href : refAngle [u, v] = 0 := by
    simp only [refAngle, List.head?_cons, List.getLast?_cons_cons, List.getLast?_singleton, a3, a4, sub_self, normAngle_zero, zero_div, add_zero]
  have hpl : st.plans (decide (1 < 1)) false = false := by simp [St.plans]
  simp only [sortGroups, List.length_cons, List.length_nil, Nat.zero_add, Nat.reduceAdd, gt_iff_lt, Nat.one_lt_ofNat, if_true, hmean, href]
  have hrec : ∀ l1, l1.Perm [(⟨1, d1, -(Real.pi / 2), -(Real.pi / 2), some ⟨0, 0 + 2, (2, 0)⟩⟩ : DPA), ⟨2, d2, Real.pi / 2, Real.pi / 2, some ⟨0, 0 + 2, (2, 0)⟩⟩] →
      mapAll (Eventually.measure (2, 0) 0 (2 * 2)) (List.map (fun x => x.setCommon) [u, v]) = .ok l1 →
      sortInternal srt (2 * 2) (atan2 2 2) (fuel + 1) (2, 0) 0 true (List.map (fun x => x.setCommon) [u, v]) st = _ := fun l1 hp hl1 =>
    pair_split hs hm fuel st hst hl1 rfl hp (by rw [atan22]; show -(Real.pi / 2) + Real.pi / 4 ≤ Real.pi / 2; linarith)
      ⟨u.setCommon, by simp, by rcases huv with ⟨rfl, rfl⟩ | ⟨rfl, rfl⟩ <;> simp [DPA.setCommon, forkB, DP.atEnd, DPI.atEnd]⟩ rfl rfl (by simp) (by simp) (by simp)
  have hfin : ∃ l1, l1.Perm [(⟨1, d1, -(Real.pi / 2), -(Real.pi / 2), some ⟨0, 0 + 2, (2, 0)⟩⟩ : DPA), ⟨2, d2, Real.pi / 2, Real.pi / 2, some ⟨0, 0 + 2, (2, 0)⟩⟩] ∧
      mapAll (Eventually.measure (2, 0) 0 (2 * 2)) (List.map (fun x => x.setCommon) [u, v]) = .ok l1 := by
    rcases huv with ⟨rfl, rfl⟩ | ⟨rfl, rfl⟩
    · refine ⟨_, .refl _, ?_⟩
      simp only [List.map_cons, List.map_nil, DPA.setCommon, DP.arcLength, mapAll]
      show (Eventually.measure (2, 0) 0 (2 * 2) ⟨1, forkB 4, 0, 0, some ⟨0, 0 + 2, (2, 0)⟩⟩).bind (fun y =>
        ((Eventually.measure (2, 0) 0 (2 * 2) ⟨2, forkB (-4), 0, 0, some ⟨0, 0 + 2, (2, 0)⟩⟩).bind _).bind _) = _
      rw [h1, h2]; rfl
    · refine ⟨_, .swap _ _ _, ?_⟩
      simp only [List.map_cons, List.map_nil, DPA.setCommon, DP.arcLength, mapAll]
      show (Eventually.measure (2, 0) 0 (2 * 2) ⟨2, forkB (-4), 0, 0, some ⟨0, 0 + 2, (2, 0)⟩⟩).bind (fun y =>
        ((Eventually.measure (2, 0) 0 (2 * 2) ⟨1, forkB 4, 0, 0, some ⟨0, 0 + 2, (2, 0)⟩⟩).bind _).bind _) = _
      rw [h1, h2]; rfl
  obtain ⟨l1, hp, hl1⟩ := hfin
  rw [hrec l1 hp hl1]
  simp only [Outcome.bind_ok, hpl, Bool.false_eq_true, if_false, List.append_nil, zero_add]
  rfl

/-- `sortEdgesEventually` plans one group of two splits at the fork. -/
theorem fork_run {srt : List DPA → List DPA} (hs : Sorter srt) (fuel : Nat) : ∃ t, sortEdgesEventually srt (fuel + 2) 2 2 true fork ⟨[], none⟩ =
    .ok (t, ⟨[], some ⟨[forkSplit 1 0, forkSplit 2 1], 1⟩⟩) ∧ pointsOf t = pointsOf fork ∧ t.nodeCount = 3 ∧ t.edgeCount = 2 := by
  obtain ⟨x, y, hx, hy, e⟩ := fork_internal hs fuel ⟨[], some ⟨[], 0⟩⟩ rfl
  rw [eventually_of (s := fork) (Nat.lt_irrefl 0)]
  show ∃ t, (sortNodes srt (fuel + 2) (2 * 2) (atan2 2 2) [0, 1, 2] fork ⟨[], some ⟨[], 0⟩⟩).bind _ = _ ∧ _ ∧ _
  have e0 : ∀ st, sortNode srt (fuel + 2) (2 * 2) (atan2 2 2) fork st 0 = 
      (sortInternal srt (2 * 2) (atan2 2 2) (fuel + 2) (0, 0) 0 false [⟨1, forkA 4, 0, 0, none⟩, ⟨2, forkA (-4), 0, 0, none⟩] st).bind fun r =>
        match r.1.map (·.label) with
        | [] => .ub
        | d :: ds => .ok (GMap.linkCycle d d ds fork, r.2) := fun st => rfl
  have e1 : ∀ st, sortNode srt (fuel + 2) (2 * 2) (atan2 2 2) (GMap.linkCycle 1 1 [2] fork) st 1 = .ok (GMap.linkCycle (-1) (-1) [] (GMap.linkCycle 1 1 [2] fork), st) := fun st => rfl
  have e2 : ∀ st, sortNode srt (fuel + 2) (2 * 2) (atan2 2 2) (GMap.linkCycle (-1) (-1) [] (GMap.linkCycle 1 1 [2] fork)) st 2 =
      .ok (GMap.linkCycle (-2) (-2) [] (GMap.linkCycle (-1) (-1) [] (GMap.linkCycle 1 1 [2] fork)), st) := fun st => rfl
  simp only [sortNodes, e0, e, Outcome.bind_ok, List.map_cons, List.map_nil, hx, hy, e1, e2]
  exact ⟨_, rfl, rfl, rfl, rfl⟩

theorem fork_starts {d : Int} {n : Nat} (h : fork.startN? d = some n) : (d = 1 ∧ n = 0) ∨ (d = -1 ∧ n = 1) ∨ (d = 2 ∧ n = 0) ∨ (d = -2 ∧ n = 2) := by
  have s1 : fork.startN? 1 = some 0 := rfl
  have s2 : fork.startN? 2 = some 0 := rfl
  have s1' : fork.startN? (-1) = some 1 := rfl
  have s2' : fork.startN? (-2) = some 2 := rfl
  have hl : d = 1 ∨ d = -1 ∨ d = 2 ∨ d = -2 := by
    have h := liveD_of_start h
    unfold GMap.liveD at h
    rw [fork_edge] at h
    simp only [Function.update_apply] at h
    split_ifs at h with h1 h2
    · omega
    · omega
    · cases h
  rcases hl with rfl | rfl | rfl | rfl <;> simp_all

theorem fork_degree : DegreeLE fork 2 := by
  intro n l hno hl
  have hsub : l ⊆ if n = 0 then [1, 2] else if n = 1 then [-1] else [-2] := by
    intro d hd
    rcases fork_starts (hl d hd) with ⟨rfl, rfl⟩ | ⟨rfl, rfl⟩ | ⟨rfl, rfl⟩ | ⟨rfl, rfl⟩ <;> simp
  have := (List.subperm_of_subset hno hsub).length_le
  split_ifs at this <;> simp at this <;> omega

theorem fork_len {d : Int} (h : d = 1 ∨ d = 2) : pathLen (pointsOf fork d) = 6 := by
  rcases h with rfl | rfl
  · show pathLen [((0 : ℝ), (0 : ℝ)), (2, 0), (2, 4)] = 6
    norm_num [pathLen, mag, sqMag, sqrt4, sqrt16]
  · show pathLen [((0 : ℝ), (0 : ℝ)), (2, 0), (2, -4)] = 6
    norm_num [pathLen, mag, sqMag, sqrt4, sqrt16]

theorem fork_uncrossed : Uncrossed (pointsOf fork) [forkSplit 1 0, forkSplit 2 1] := by
  constructor
  · intro v hv
    simp only [List.mem_cons, List.not_mem_nil, or_false] at hv
    rcases hv with rfl | rfl
    · rw [show (forkSplit 1 0).label = 1 from rfl, fork_len (Or.inl rfl)]; norm_num [walk, forkSplit]
    · rw [show (forkSplit 2 1).label = 2 from rfl, fork_len (Or.inr rfl)]; norm_num [walk, forkSplit]
  · intro u hu v hv h0 h1
    simp only [List.mem_cons, List.not_mem_nil, or_false] at hu hv
    rcases hu with rfl | rfl <;> rcases hv with rfl | rfl <;> simp [forkSplit] at h1

/-- All hypotheses of `sort_then_split` (and of the theorems before it) are met by the fork: the result is a map with one more node,
at the fork, and one more edge. -/
example {srt : List DPA → List DPA} (hs : Sorter srt) {srtS : List SplitPos → List SplitPos} {srtM : List MergeDart → List MergeDart} (hS : SplitSorter srtS)
    (hM : MergeSorter srtM) (cont : GMap ℝ → Nat → ℝ) : ∃ t st' r, sortEdgesEventually srt 2 2 2 true fork ⟨[], none⟩ = .ok (t, st') ∧
      splitParallelEdges srtS srtM cont Hooks.none st'.splits none t = .ok r ∧ Sound r ∧ (∃ n, (r.node n).map (·.pos) = some (2, 0)) ∧
      r.nodeCount = 4 ∧ r.edgeCount = 3 := by
  obtain ⟨t, e, hpts, hn, he⟩ := fork_run hs 0
  obtain ⟨pl, gs, r, h0, h1, hgr, h2, h3⟩ := sort_then_split hs (by norm_num) (by norm_num) fork_sound fork_degree (by rw [atan22]; push_cast; linarith [Real.pi_pos]) e hS hM cont
    (hk := Hooks.none) (fun _ _ => rfl) (given := none) (by simp) (fun pl hpl => by cases hpl; rw [hpts]; exact fork_uncrossed)
  cases h0
  obtain ⟨g, rfl⟩ : ∃ g, gs = [g] := by
    match gs, h1, hgr with
    | [g], _, _ => exact ⟨g, rfl⟩
    | g :: g' :: gs, h1, hgr =>
      obtain ⟨_, hp⟩ := hgr 0 g rfl
      obtain ⟨_, hp'⟩ := hgr 1 g' rfl
      have := congrArg List.length h1
      have := hp.two
      have := hp'.two
      simp at *
      omega
  obtain ⟨node, -, k2, -⟩ := h3.groups
  obtain ⟨-, v, hv, hpos, -⟩ := k2 0 g rfl
  refine ⟨t, _, r, e, h2, h3.sound, ⟨node 0, ?_⟩, by rw [h3.nodeCount, hn]; rfl, by rw [h3.edgeCount, he]; rfl⟩
  rw [hpos]
  have hv' : v ∈ [forkSplit 1 0, forkSplit 2 1] := by
    show v ∈ (Splits.mk [forkSplit 1 0, forkSplit 2 1] 1).list
    rw [h1]; simpa using hv
  simp only [List.mem_cons, List.not_mem_nil, or_false] at hv'
  rcases hv' with rfl | rfl <;> rfl

end Verif.Parallel
