import Verif.Eventually.Props

/-!
# Two nearly parallel edges: the answer depends on their direction

The comparison of the last dart with the first one (cppmap.cxx:542-559) has no effect if the only gap is the one after the first
dart.  Therefore two edges that leave a node to the left, one on each side of the negative x axis, count as different directions
however close they are, while the same edges turned by 180 degrees are reported as unsortable.
-/

namespace Verif.Eventually
open Verif Verif.GeoMap Verif.PointIter Verif.DartPos Equiv

theorem sorted_pair {srt : List DPA → List DPA} (hs : Sorter srt) {l : List DPA} {x y : DPA} (hl : l.Perm [x, y]) (hlt : x.angle < y.angle) : srt l = [x, y] := by
  have hp := (hs l).1.trans hl
  have hso := (hs l).2
  have hlen := hp.length_eq
  match h : srt l, hlen with
  | [a, b], _ =>
    rw [h] at hp hso
    have hab : a.angle ≤ b.angle := by simpa using hso
    have ha : a = x ∨ a = y := by simpa using hp.subset (by simp : a ∈ [a, b])
    have hb : b = x ∨ b = y := by simpa using hp.subset (by simp : b ∈ [a, b])
    have hx : x = a ∨ x = b := by simpa using hp.symm.subset (by simp : x ∈ [x, y])
    have hy : y = a ∨ y = b := by simpa using hp.symm.subset (by simp : y ∈ [x, y])
    rcases ha with rfl | rfl
    · rcases hy with rfl | rfl
      · exact absurd hlt (lt_irrefl _)
      · rfl
    · rcases hx with rfl | rfl
      · exact absurd hlt (lt_irrefl _)
      · linarith

theorem rotateGroups_pair (m : ℝ) (x y : DPA) : rotateGroups m [x, y] = [x, y] := by
  rw [rotateGroups]
  split_ifs <;> rfl

theorem pair_apart {srt : List DPA → List DPA} (hs : Sorter srt) {r2 m : ℝ} (hm : 0 < m) (fuel : Nat) {c : Pt ℝ} {ref : ℝ} {l l1 : List DPA} (st : St)
    (hl1 : mapAll (measure c ref r2) l = .ok l1) (hlen : l.length = 2) {x y : DPA} (hp : l1.Perm [x, y]) (hxy : x.angle + m ≤ y.angle)
    (he : ∃ x ∈ l, x.dp.atEnd = false) : sortInternal srt r2 m (fuel + 1) c ref false l st = .ok ([x, y], st) := by
  rw [sortInternal, if_neg (by omega), hl1, Outcome.bind_ok, if_neg (by
    rw [List.all_eq_true]
    intro hc
    obtain ⟨x, hx, e⟩ := he
    have := hc x hx
    rw [e] at this; cases this)]
  have hgr : groups m [x, y] = [[x], [y]] := by
    simp [groups, List.splitBy, List.splitBy.loop, not_lt.2 hxy]
  simp only [sorted_pair hs hp (by linarith), rotateGroups_pair, hgr]
  have hplan : planSplits (decide (1 < [[x], [y]].length)) false [x, y] st = .ok st := by
    rw [planSplits]
    rcases e : st.splits with _ | sp <;> simp
  rw [hplan, Outcome.bind_ok]
  simp [sortGroups, St.plans]

theorem pair_together {srt : List DPA → List DPA} (hs : Sorter srt) {r2 m : ℝ} (fuel : Nat) {c : Pt ℝ} {ref : ℝ} {l l1 : List DPA} (st : St)
    (hl1 : mapAll (measure c ref r2) l = .ok l1) (hlen : l.length = 2) {x y : DPA} (hp : l1.Perm [x, y]) (hlt : x.angle < y.angle) (hxy : y.angle < x.angle + m)
    (he : ∃ x ∈ l, x.dp.atEnd = false) (hx : x.dp.atEnd = true) (hy : y.dp.atEnd = true) :
    ∃ r, sortInternal srt r2 m (fuel + 2) c ref false l st = .ok (r, { st with
      unsortable := st.unsortable ++ [[x.label, y.label]] }) ∧ r ≠ [] := by
  rw [sortInternal, if_neg (by omega), hl1, Outcome.bind_ok, if_neg (by
    rw [List.all_eq_true]
    intro hc
    obtain ⟨x, hx, e⟩ := he
    have := hc x hx
    rw [e] at this; cases this)]
  have hgr : groups m [x, y] = [[x, y]] := by
    simp [groups, List.splitBy, List.splitBy.loop, hxy]
  simp only [sorted_pair hs hp hlt, rotateGroups_pair, hgr]
  have hplan : planSplits (decide (1 < [[x, y]].length)) false [x, y] st = .ok st := by
    rw [planSplits]
    rcases e : st.splits with _ | sp <;> simp
  rw [hplan, Outcome.bind_ok]
  simp only [sortGroups, List.length_cons, List.length_nil, Nat.zero_add, Nat.reduceAdd, gt_iff_lt, Nat.one_lt_ofNat, if_true]
  rw [sortInternal, if_neg (by simp)]
  simp only [List.map_cons, List.map_nil, mapAll, measure, DPA.setCommon, hx, hy, if_true, Outcome.bind_ok, List.all_cons, List.all_nil, Bool.and_self]
  have hpl : st.plans (decide (1 < 1)) false = false := by simp [St.plans]
  rw [hpl]
  exact ⟨_, rfl, by simp⟩

/-- Two edges from (0, 0) to `k * (4, 0)` and `k * (4, 1)`. -/
noncomputable def twoNodes (k : ℝ) : GMap ℝ := (((GMap.empty.addNodeAt (0, 0) 0).2.addNodeAt (k * 4, 0) 0).2.addNodeAt (k * 4, k) 0).2
noncomputable def two1 (k : ℝ) : GMap ℝ := Example.val GMap.empty ((Op.addEdge (.node 0) (.node 1) [(0, 0), (k * 4, 0)] 0).run Hooks.none (twoNodes k))
noncomputable def two (k : ℝ) : GMap ℝ := Example.val GMap.empty ((Op.addEdge (.node 0) (.node 2) [(0, 0), (k * 4, k)] 0).run Hooks.none (two1 k))

theorem two1_ok (k : ℝ) : (Op.addEdge (.node 0) (.node 1) [(0, 0), (k * 4, 0)] 0).run Hooks.none (twoNodes k) = .ok (two1 k) := rfl
theorem two_ok (k : ℝ) : (Op.addEdge (.node 0) (.node 2) [(0, 0), (k * 4, k)] 0).run Hooks.none (two1 k) = .ok (two k) := rfl

theorem two_reach (k : ℝ) : ReachG (two k) := by
  refine .call Hooks.none _ (.call Hooks.none _ (.call Hooks.none (.addNode (k * 4, k) 0) (.call Hooks.none (.addNode (k * 4, 0) 0)
    (.call Hooks.none (.addNode (0, 0) 0) .empty trivial trivial rfl ?_) trivial trivial rfl ?_) trivial trivial rfl ?_) ?_ ?_ (two1_ok k) ?_) ?_ ?_ (two_ok k) ?_
  any_goals (intro _ h; exact absurd h (Nat.lt_irrefl 0))
  · exact ⟨by simp, fun n h => by cases h; rfl, fun n h => by cases h; rfl⟩
  · exact ⟨⟨0, _, rfl, rfl, rfl⟩, ⟨1, _, rfl, rfl, rfl⟩⟩
  · exact ⟨by simp, fun n h => by cases h; rfl, fun n h => by cases h; rfl⟩
  · exact ⟨⟨0, _, rfl, rfl, rfl⟩, ⟨2, _, rfl, rfl, rfl⟩⟩

theorem two_edge (k : ℝ) : (two k).edge = Function.update (Function.update (fun _ => none) 1 (some ⟨0, 1, none, none, [(0, 0), (k * 4, 0)], 0⟩)) 2
    (some ⟨0, 2, none, none, [(0, 0), (k * 4, k)], 0⟩) := rfl

theorem two_live {k : ℝ} {d : Int} (h : (two k).liveD d) : d = 1 ∨ d = -1 ∨ d = 2 ∨ d = -2 := by
  unfold GMap.liveD at h
  rw [two_edge] at h
  simp only [Function.update_apply] at h
  split_ifs at h with h1 h2
  · omega
  · omega
  · cases h

theorem two_long (k : ℝ) : EdgesLong (two k) := by
  intro l e h
  rw [two_edge] at h
  simp only [Function.update_apply] at h
  split_ifs at h <;> cases h <;> simp

theorem two_starts {k : ℝ} {d : Int} {n : Nat} (h : (two k).startN? d = some n) : (d = 1 ∧ n = 0) ∨ (d = -1 ∧ n = 1) ∨ (d = 2 ∧ n = 0) ∨ (d = -2 ∧ n = 2) := by
  have s1 : (two k).startN? 1 = some 0 := rfl
  have s2 : (two k).startN? 2 = some 0 := rfl
  have s1' : (two k).startN? (-1) = some 1 := rfl
  have s2' : (two k).startN? (-2) = some 2 := rfl
  rcases two_live (liveD_of_start h) with rfl | rfl | rfl | rfl <;> simp_all

theorem two_separated (k : ℝ) {n : Nat} (hn : n ≠ 0) (r2 m : ℝ) : Separated (two k) r2 m n := by
  intro nd hnd x y p q hxy hx hy
  rcases two_starts hx with ⟨rfl, rfl⟩ | ⟨rfl, rfl⟩ | ⟨rfl, rfl⟩ | ⟨rfl, rfl⟩ <;>
    rcases two_starts hy with ⟨rfl, h⟩ | ⟨rfl, h⟩ | ⟨rfl, h⟩ | ⟨rfl, h⟩ <;> first | exact absurd rfl hxy | omega

/-- the end of an edge that stays inside of the circle -/
theorem measure_end {s : GMap ℝ} {x : DPA} (h : Fresh s x) {c : Pt ℝ} {ref r2 : ℝ} {y : DPA} (hy : measure c ref r2 x = .ok y)
    (hin : ∀ v ∈ pointsOf s x.label, sqMag (v - c) < r2) : y.dp.atEnd = true := by
  have t := h.track
  obtain ⟨b, s', e, h1⟩ := t.intersect (c := c) (r2 := r2)
  rw [measure, if_neg (by rw [DP.atEnd, t.atEnd]; simp), e] at hy
  simp only [Outcome.map, Outcome.bind_ok] at hy
  cases hy
  cases b with
  | true =>
    exfalso
    simp only [if_true] at h1
    obtain ⟨k', -, t', ⟨-, ho⟩, -⟩ := h1
    have := hin _ (List.mem_of_getElem? t'.p2)
    linarith
  | false =>
    simp only [Bool.false_eq_true, if_false] at h1
    exact h1.1.atEnd

/-- node 0 before the sorting -/
theorem two_measured (k : ℝ) (hk : k * k = 1) : ∃ xs l1 a b, dartPositions (two k) 1 (two k).fuel 1 [] = .ok xs ∧ xs.length = 2 ∧ (∃ x ∈ xs, x.dp.atEnd = false) ∧
    mapAll (measure (0, 0) 0 (10 * 10)) xs = .ok l1 ∧ l1.Perm [a, b] ∧ a.label = 1 ∧ b.label = 2 ∧ a.dp.atEnd = true ∧ b.dp.atEnd = true ∧
    a.angle = angleOf (0, 0) (k * 4, 0) ∧ b.angle = angleOf (0, 0) (k * 4, k) := by
  obtain ⟨π, hg⟩ := (two_reach k).reach.good.map.graph.exists_rep
  have hnd : (two k).node 0 = some ⟨(0, 0), 1⟩ := rfl
  obtain ⟨xs, e1, hfr, hnodup, hmem⟩ := node_darts hg (two_long k) hnd (by decide)
  have hlab : ∀ d, d ∈ xs.map (·.label) ↔ d = 1 ∨ d = 2 := by
    intro d
    rw [hmem]
    constructor
    · intro h
      rcases two_starts h with ⟨rfl, h⟩ | ⟨rfl, h⟩ | ⟨rfl, h⟩ | ⟨rfl, h⟩
      · exact Or.inl rfl
      · omega
      · exact Or.inr rfl
      · omega
    · rintro (rfl | rfl) <;> rfl
  have hperm : (xs.map (·.label)).Perm [1, 2] := by
    rw [List.perm_ext_iff_of_nodup hnodup (by decide)]
    intro d; rw [hlab]; simp
  have hlen : xs.length = 2 := by have := hperm.length_eq; simpa using this
  have hp1 : ∀ x ∈ xs, x.dp.p1 = (0, 0) := by
    intro x hx
    have t := (hfr x hx).track.p1
    rcases (hlab _).1 (List.mem_map_of_mem hx) with h | h
    · have : (pointsOf (two k) x.label)[0]? = some (0, 0) := by rw [h]; rfl
      rw [this] at t; exact (Option.some.inj t).symm
    · have : (pointsOf (two k) x.label)[0]? = some (0, 0) := by rw [h]; rfl
      rw [this] at t; exact (Option.some.inj t).symm
  have hin : ∀ x ∈ xs, ∀ v ∈ pointsOf (two k) x.label, sqMag (v - (0, 0)) < 10 * 10 := by
    intro x hx v hv
    rcases (hlab _).1 (List.mem_map_of_mem hx) with h | h
    · rw [h] at hv
      have : v ∈ [((0 : ℝ), (0 : ℝ)), (k * 4, 0)] := hv
      simp only [List.mem_cons, List.not_mem_nil, or_false] at this
      rcases this with rfl | rfl
      · norm_num [sqMag]
      · simp only [sqMag, Prod.fst_sub, Prod.snd_sub]; nlinarith
    · rw [h] at hv
      have : v ∈ [((0 : ℝ), (0 : ℝ)), (k * 4, k)] := hv
      simp only [List.mem_cons, List.not_mem_nil, or_false] at this
      rcases this with rfl | rfl
      · norm_num [sqMag]
      · simp only [sqMag, Prod.fst_sub, Prod.snd_sub]; nlinarith
  obtain ⟨l1, hl1, k1⟩ := mapAll_ok (l := xs) (f := measure (0, 0) 0 (10 * 10)) (R := fun x y => y.label = x.label ∧ y.dp.atEnd = true ∧
      Crossing (pointsOf (two k) x.label) (0, 0) (10 * 10) y.dp.pos ∧ y.angle = angleOf (0, 0) y.dp.pos) (fun x hx => by
    obtain ⟨y, h, -⟩ := measure_ok (x := x) ⟨_, Or.inl ⟨_, (hfr x hx).track⟩⟩ (0, 0) 0 (10 * 10)
    obtain ⟨q1, q2, q3⟩ := measure_fresh (hfr x hx) (hp1 x hx) (by norm_num) h
    exact ⟨y, h, q1, measure_end (hfr x hx) h (hin x hx), q2, q3⟩)
  have hlab1 : l1.map (·.label) = xs.map (·.label) := by
    have : List.Forall₂ (fun x y : DPA => y.label = x.label) xs l1 := k1.imp fun x y h => h.1
    clear k1 hl1 e1 hfr hnodup hmem hp1 hlab hin hlen hperm
    induction this with
    | nil => rfl
    | cons h _ ih => simp [h, ih]
  have hy : ∀ y ∈ l1, y.dp.atEnd = true ∧ Crossing (pointsOf (two k) y.label) (0, 0) (10 * 10) y.dp.pos ∧ y.angle = angleOf (0, 0) y.dp.pos := by
    intro y hy
    obtain ⟨x, hx, h1, h2⟩ := forall2_mem k1 hy
    rw [← h1] at h2; exact h2
  obtain ⟨a, b, hab, ha, hb⟩ : ∃ a b, l1.Perm [a, b] ∧ a.label = 1 ∧ b.label = 2 := by
    have hperm1 : (l1.map (·.label)).Perm [1, 2] := by rw [hlab1]; exact hperm
    have hl := hperm1.length_eq
    simp only [List.length_map] at hl
    obtain ⟨u, v, rfl⟩ := List.length_eq_two.1 hl
    have hperm1 : [u.label, v.label].Perm [1, 2] := hperm1
    have h1 : u.label = 1 ∨ u.label = 2 := by simpa using hperm1.subset (by simp : u.label ∈ [u.label, v.label])
    have h2 : v.label = 1 ∨ v.label = 2 := by simpa using hperm1.subset (by simp : v.label ∈ [u.label, v.label])
    have h3 : u.label ≠ v.label := by
      have := hperm1.nodup_iff.2 (by decide)
      simpa using this
    rcases h1 with h1 | h1 <;> rcases h2 with h2 | h2
    · rw [h1, h2] at h3; exact absurd rfl h3
    · exact ⟨u, v, .refl _, h1, h2⟩
    · exact ⟨v, u, .swap _ _ _, h2, h1⟩
    · rw [h1, h2] at h3; exact absurd rfl h3
  obtain ⟨a1, a2, a3⟩ := hy a (hab.mem_iff.2 (by simp))
  obtain ⟨b1, b2, b3⟩ := hy b (hab.mem_iff.2 (by simp))
  refine ⟨xs, l1, a, b, e1, hlen, ?_, hl1, hab, ha, hb, a1, b1, ?_, ?_⟩
  · obtain ⟨x, hx⟩ := List.exists_mem_of_ne_nil xs (by rintro rfl; simp at hlen)
    exact ⟨x, hx, by rw [DP.atEnd, (hfr x hx).track.atEnd]⟩
  · rw [a3]
    congr 1
    rw [ha] at a2
    refine a2.unique (Or.inr ⟨?_, rfl⟩)
    obtain ⟨x, hx, e⟩ := List.mem_map.1 ((hlab 1).2 (Or.inl rfl))
    have := hin x hx
    rw [e] at this; exact this
  · rw [b3]
    congr 1
    rw [hb] at b2
    refine b2.unique (Or.inr ⟨?_, rfl⟩)
    obtain ⟨x, hx, e⟩ := List.mem_map.1 ((hlab 2).2 (Or.inr rfl))
    have := hin x hx
    rw [e] at this; exact this

/-- the rest of the nodes -/
theorem two_rest {srt : List DPA → List DPA} (hs : Sorter srt) (k : ℝ) (fuel : Nat) (st st' : St) {xs r : List DPA} (e1 : dartPositions (two k) 1 (two k).fuel 1 [] = .ok xs)
    (e2 : sortInternal srt (10 * 10) (atan2 10 10) (fuel + 1) (0, 0) 0 false xs st = .ok (r, st')) (hr : r ≠ []) :
    ∃ t, sortEdgesEventually srt (fuel + 1) 10 10 false (two k) st = .ok (t, st') := by
  obtain ⟨π, hg⟩ := (two_reach k).reach.good.map.graph.exists_rep
  have hm := minAngle_pos (stepDist := 10) (by norm_num : (0 : ℝ) < 10)
  obtain ⟨t, e⟩ := sortNode_of (srt := srt) (s := two k) (n := 0) (nd := ⟨(0, 0), 1⟩) rfl (by decide) e1 e2 hr
  rcases sortNode_spec hs (by norm_num : (0 : ℝ) < 10 * 10) hm.1 (fuel + 1) hg (two_reach k).geom.geom (two_long k) st 0 with h | ⟨t', st1, π', h1, h2, ⟨sg, sgi, h3⟩, -⟩
  · rw [h] at e; cases e
  rw [e] at h1
  cases h1
  have hsame : Same (two k) t := by rw [h3]; exact ⟨rfl, rfl⟩
  obtain ⟨t1, f1⟩ := sortNode_clear hs (by norm_num : (0 : ℝ) < 10 * 10) fuel h2 (hsame.geom (two_reach k).geom.geom) (hsame.long (two_long k)) st' 1
    (hsame.separated (two_separated k (by decide) (10 * 10) (atan2 10 10)))
  rcases sortNode_spec hs (by norm_num : (0 : ℝ) < 10 * 10) hm.1 (fuel + 1) h2 (hsame.geom (two_reach k).geom.geom) (hsame.long (two_long k)) st' 1 with h | ⟨t', st2, π2, g1, g2, ⟨sg2, sgi2, g3⟩, -⟩
  · rw [h] at f1; cases f1
  rw [f1] at g1
  cases g1
  have hsame2 : Same (two k) t1 := by rw [g3]; exact ⟨hsame.node, hsame.edge⟩
  obtain ⟨t2, f2⟩ := sortNode_clear hs (by norm_num : (0 : ℝ) < 10 * 10) fuel g2 (hsame2.geom (two_reach k).geom.geom) (hsame2.long (two_long k)) st' 2
    (hsame2.separated (two_separated k (by decide) (10 * 10) (atan2 10 10)))
  rw [eventually_of (s := two k) (Nat.lt_irrefl 0)]
  refine ⟨{ t2 with edgesSorted := true }, ?_⟩
  show (sortNodes srt (fuel + 1) (10 * 10) (atan2 10 10) [0, 1, 2] (two k) st).bind _ = _
  simp only [sortNodes, e, f1, f2, Outcome.bind_ok]

/-- `std::atan2(1, 4)`-/
theorem small_angle : 0 < Complex.arg ⟨4, 1⟩ ∧ Complex.arg ⟨4, 1⟩ < atan2 10 10 := by
  have := arg_between (a := 4) (b := 1) (c := 1) (by norm_num) (by norm_num) (by norm_num)
  refine ⟨this.1, ?_⟩
  have e : atan2 10 10 = atan2 1 1 := by
    have : (⟨10, 10⟩ : ℂ) = ((10 : ℝ) : ℂ) * ⟨1, 1⟩ := by apply Complex.ext <;> simp
    rw [atan2, this, Complex.arg_real_mul _ (by norm_num)]; rfl
  rw [e]; exact this.2

/-- The code treats equal situations differently: two edges that enclose the same small angle (less than the minimal angle) and end inside
of the circle are reported as unsortable if they lead to the right, and silently sorted if they lead to the left - the map turned
by 180 degrees. -/
theorem sortEdgesEventually_seam_violated {srt : List DPA → List DPA} (hs : Sorter srt) (fuel : Nat) :
    (∃ t st', sortEdgesEventually srt (fuel + 2) 10 10 false (two 1) ⟨[], none⟩ = .ok (t, st') ∧ st'.unsortable = [[2, 1]]) ∧
    (∃ t st', sortEdgesEventually srt (fuel + 2) 10 10 false (two (-1)) ⟨[], none⟩ = .ok (t, st') ∧ st'.unsortable = []) ∧
    ∀ d, pointsOf (two (-1)) d = (pointsOf (two 1) d).map (fun p => -p) := by
  have pp := Real.pi_pos
  obtain ⟨s1, s2⟩ := small_angle
  have hm : 0 < atan2 10 10 := s1.trans s2
  have hq : Complex.arg ⟨4, 1⟩ < Real.pi / 2 := by
    have := (Complex.abs_arg_lt_pi_div_two_iff (z := ⟨4, 1⟩)).2 (Or.inl (by norm_num))
    exact (abs_lt.1 this).2
  have hq' : atan2 10 10 < Real.pi / 2 := by
    have := (Complex.abs_arg_lt_pi_div_two_iff (z := ⟨10, 10⟩)).2 (Or.inl (by norm_num))
    exact (abs_lt.1 this).2
  have cj : Complex.arg ⟨4, -1⟩ = -Complex.arg ⟨4, 1⟩ := by
    have e : (⟨4, -1⟩ : ℂ) = (starRingEnd ℂ) ⟨4, 1⟩ := rfl
    rw [e, Complex.arg_conj, if_neg (by linarith)]
  refine ⟨?_, ?_, ?_⟩
  · obtain ⟨xs, l1, a, b, e1, hlen, he, hl1, hp, ha, hb, ea, eb, ga, gb⟩ := two_measured 1 (by norm_num)
    have ga' : a.angle = 0 := by
      rw [ga, angleOf]
      have : atan2 (((0 : ℝ), (0 : ℝ)).2 - ((1 : ℝ) * 4, (0 : ℝ)).2) (((1 : ℝ) * 4, (0 : ℝ)).1 - ((0 : ℝ), (0 : ℝ)).1) = 0 := by
        have : (⟨1 * 4 - 0, 0 - 0⟩ : ℂ) = ((4 : ℝ) : ℂ) := by apply Complex.ext <;> simp
        show Complex.arg ⟨1 * 4 - 0, 0 - 0⟩ = 0
        rw [this, Complex.arg_ofReal_of_nonneg (by norm_num)]
      rw [this, normAngle_id (by linarith) (by linarith)]
    have gb' : b.angle = -Complex.arg ⟨4, 1⟩ := by
      rw [gb, angleOf]
      have : atan2 (((0 : ℝ), (0 : ℝ)).2 - ((1 : ℝ) * 4, (1 : ℝ)).2) (((1 : ℝ) * 4, (1 : ℝ)).1 - ((0 : ℝ), (0 : ℝ)).1) = -Complex.arg ⟨4, 1⟩ := by
        rw [← cj]
        show Complex.arg ⟨1 * 4 - 0, 0 - 1⟩ = _
        norm_num
      rw [this, normAngle_id (by linarith) (by linarith)]
    obtain ⟨r, e2, hr⟩ := pair_together hs fuel ⟨[], none⟩ hl1 hlen (hp.trans (.swap _ _ _)) (by rw [ga', gb']; linarith) (m := atan2 10 10) (by rw [ga', gb']; linarith) he eb ea
    obtain ⟨t, e⟩ := two_rest hs 1 (fuel + 1) _ _ e1 e2 hr
    exact ⟨t, _, e, by simp [ha, hb]⟩
  · obtain ⟨xs, l1, a, b, e1, hlen, he, hl1, hp, ha, hb, ea, eb, ga, gb⟩ := two_measured (-1) (by norm_num)
    have ga' : a.angle = -Real.pi := by
      rw [ga, angleOf]
      have : atan2 (((0 : ℝ), (0 : ℝ)).2 - ((-1 : ℝ) * 4, (0 : ℝ)).2) (((-1 : ℝ) * 4, (0 : ℝ)).1 - ((0 : ℝ), (0 : ℝ)).1) = Real.pi := by
        have : (⟨-1 * 4 - 0, 0 - 0⟩ : ℂ) = ((-4 : ℝ) : ℂ) := by apply Complex.ext <;> simp
        show Complex.arg ⟨-1 * 4 - 0, 0 - 0⟩ = _
        rw [this, Complex.arg_ofReal_of_neg (by norm_num)]
      rw [this, normAngle]
      simp only [if_neg (not_lt.2 (by linarith : -Real.pi ≤ Real.pi)), ge_iff_le, le_refl, if_true]
      ring
    have gb' : b.angle = Real.pi - Complex.arg ⟨4, 1⟩ := by
      rw [gb, angleOf]
      have : atan2 (((0 : ℝ), (0 : ℝ)).2 - ((-1 : ℝ) * 4, (-1 : ℝ)).2) (((-1 : ℝ) * 4, (-1 : ℝ)).1 - ((0 : ℝ), (0 : ℝ)).1) = Real.pi - Complex.arg ⟨4, 1⟩ := by
        show Complex.arg ⟨-1 * 4 - 0, 0 - -1⟩ = _
        have e : (⟨-1 * 4 - 0, 0 - -1⟩ : ℂ) = -⟨4, -1⟩ := by apply Complex.ext <;> simp
        rw [e, Complex.arg_neg_eq_arg_add_pi_of_im_neg (by norm_num), cj]; ring
      rw [this, normAngle_id (by linarith) (by linarith)]
    have e2 := pair_apart hs hm (fuel + 1) ⟨[], none⟩ hl1 hlen hp (by rw [ga', gb']; linarith) he
    obtain ⟨t, e⟩ := two_rest hs (-1) (fuel + 1) _ _ e1 e2 (by simp)
    exact ⟨t, _, e, rfl⟩
  · intro d
    rw [pointsOf, pointsOf, two_edge, two_edge]
    simp only [Function.update_apply]
    by_cases h2 : d.natAbs = 2
    · simp only [if_pos h2]
      split_ifs <;> simp
    · simp only [if_neg h2]
      by_cases h1 : d.natAbs = 1
      · simp only [if_pos h1]
        split_ifs <;> simp
      · simp only [if_neg h1, List.map_nil]

end Verif.Eventually
