import Verif.Eventually.Endless
import Verif.GeoMap.AngleProps

/-!
# Sorting edges that leave a node in the same direction: the properties
-/

namespace Verif.Eventually
open Verif Verif.GeoMap Verif.PointIter Verif.DartPos Equiv

/-- `minAngle` -/
theorem minAngle_pos {stepDist minDist : ℝ} (h : 0 < minDist) : 0 < atan2 minDist stepDist ∧ atan2 minDist stepDist ≤ Real.pi := by
  refine ⟨lt_of_le_of_ne (Complex.arg_nonneg_iff.2 h.le) ?_, (atan2_range _ _).2⟩
  intro h0
  have := Complex.arg_eq_zero_iff.1 h0.symm
  simp at this
  linarith [this.2]

/-- where the planned splits start -/
def startSt (splitEdges : Bool) (st : St) : St := if splitEdges then { st with
  splits := some ⟨[], 0⟩ } else st

theorem eventually_of {srt : List DPA → List DPA} {fuel : Nat} {stepDist minDist : ℝ} {splitEdges : Bool} {s : GMap ℝ} {st : St} (hi : ¬ s.initialized) :
    sortEdgesEventually srt fuel stepDist minDist splitEdges s st =
      (sortNodes srt fuel (stepDist * stepDist) (atan2 minDist stepDist) (List.range s.nNodes) s (startSt splitEdges st)).bind fun r =>
      .ok ({ r.1 with edgesSorted := true }, r.2) := by
  rw [sortEdgesEventually, if_neg hi]; rfl

/-- after `initializeMap()` the call is refused -/
theorem sortEdgesEventually_initialized (srt : List DPA → List DPA) (fuel : Nat) (stepDist minDist : ℝ) (splitEdges : Bool) (s : GMap ℝ) (st : St)
    (h : s.initialized) : sortEdgesEventually srt fuel stepDist minDist splitEdges s st = .precond := by
  rw [sortEdgesEventually, if_pos h]

/-- In a map that is not initialized and whose edges have at least two points, `sortEdgesEventually` either recurses too deeply or
ends normally.  If it ends, the map satisfies all invariants again (for every later history), nothing but the order of the darts around
the nodes has changed, this order agrees with the directions on the circle of the radius `stepDist` wherever these leave a gap of at
least the minimal angle, and the reported groups of unsortable darts consist of at least two consecutive darts at one node each. -/
theorem sortEdgesEventually_safe {srt : List DPA → List DPA} (hs : Sorter srt) (fuel : Nat) {stepDist minDist : ℝ} (hstep : stepDist ≠ 0)
    (hmin : 0 < minDist) (splitEdges : Bool) {s : GMap ℝ} (h : ReachG s) (hi : ¬ s.initialized) (hlong : EdgesLong s) (st : St) :
    sortEdgesEventually srt fuel stepDist minDist splitEdges s st = .hang ∨
    ∃ t st', sortEdgesEventually srt fuel stepDist minDist splitEdges s st = .ok (t, st') ∧ Good t ∧ GoodGeom t ∧ t.edgesSorted = true ∧
      (∃ sg sgi, t = { s with sigma := sg, sigmaInv := sgi, edgesSorted := true }) ∧
      (∀ n, OrderOK s t (stepDist * stepDist) (atan2 minDist stepDist) n) ∧
      ∃ U, st'.unsortable = st.unsortable ++ U ∧ ∀ u ∈ U, ∃ n, GroupsOK t n u := by
  have hG := h.reach.good
  obtain ⟨π, hg⟩ := hG.map.graph.exists_rep
  rw [eventually_of hi]
  have hr : 0 < stepDist * stepDist := mul_self_pos.2 hstep
  rcases sortNodes_spec hs hr (minAngle_pos (stepDist := stepDist) hmin).1 fuel (List.range s.nNodes) List.nodup_range hg h.geom.geom hlong (startSt splitEdges st)
    with e | ⟨t, st', π', e, h1, ⟨sg, sgi, h2⟩, -, h4, ⟨U, h5, h6⟩, -⟩
  · left; rw [e]; rfl
  · right
    have hu : (startSt splitEdges st).unsortable = st.unsortable := by unfold startSt; split_ifs <;> rfl
    rw [hu] at h5
    have hfr : ({ t with edgesSorted := true } : GMap ℝ) = { s with sigma := sg, sigmaInv := sgi, edgesSorted := true } := by rw [h2]
    have hg' : GraphRep ({ t with edgesSorted := true } : GMap ℝ) s.darts π' := ⟨⟨h1.labels.edges_pos, h1.labels.edge_zero, h1.labels.node_lt, h1.labels.edge_lt, h1.labels.face_lt,
        h1.labels.node_count, h1.labels.edge_count, h1.labels.face_count, h1.labels.pts_ne⟩, h1.live, h1.rep, h1.starts, h1.nodes⟩
    have hit : ¬ ({ t with edgesSorted := true } : GMap ℝ).initialized := by rw [hfr]; exact hi
    refine ⟨{ t with edgesSorted := true }, st', by rw [e]; rfl, ⟨⟨hg'.graphOK, fun h => absurd h hit⟩, fun _ d => by rw [hfr]; exact hG.fresh hi d, fun h => absurd h hit⟩,
      ⟨by rw [hfr]; exact h.geom.geom, areaOK_uninit hg'.labels hit⟩, rfl, ⟨sg, sgi, hfr⟩, ?_, U, h5, ?_⟩
    · intro n
      by_cases hn : n < s.nNodes
      · exact orderOK_frame rfl rfl rfl (fun _ _ => rfl) (h4 n (List.mem_range.2 hn))
      · intro nd hnd
        exact absurd (hg.labels.node_lt n (by rw [hnd]; rfl)) hn
    · intro u hu
      obtain ⟨n, -, h7⟩ := h6 u hu
      exact ⟨n, ⟨h7.two, h7.start, h7.next⟩⟩

/-- fuel -/
theorem sortNodes_mono {srt : List DPA → List DPA} {r2 m : ℝ} {fuel : Nat} : ∀ (ns : List Nat) (s : GMap ℝ) (st : St) (r : GMap ℝ × St),
    sortNodes srt fuel r2 m ns s st = .ok r → sortNodes srt (fuel + 1) r2 m ns s st = .ok r
  | [], _, _, _, h => h
  | n :: ns, s, st, r, h => by
    rw [sortNodes] at h ⊢
    obtain ⟨r1, e1, h⟩ := Outcome.bind_eq_ok.1 h
    refine Outcome.bind_eq_ok.2 ⟨r1, ?_, sortNodes_mono ns r1.1 r1.2 r h⟩
    rw [sortNode] at e1 ⊢
    rcases hn : s.node n with _ | nd
    · rw [hn] at e1; exact e1
    · rw [hn] at e1
      simp only at e1 ⊢
      by_cases h0 : nd.anchor = 0
      · rw [if_pos h0] at e1 ⊢; exact e1
      · rw [if_neg h0] at e1 ⊢
        obtain ⟨l, e2, e1⟩ := Outcome.bind_eq_ok.1 e1
        obtain ⟨q, e3, e1⟩ := Outcome.bind_eq_ok.1 e1
        exact Outcome.bind_eq_ok.2 ⟨l, e2, Outcome.bind_eq_ok.2 ⟨q, sortInternal_mono _ _ _ _ _ _ _ e3, e1⟩⟩

/-- The result does not depend on the limit of the recursion: `hang` is the only other outcome, for smaller limits. -/
theorem sortEdgesEventually_limit {srt : List DPA → List DPA} {fuel fuel' : Nat} (hf : fuel ≤ fuel') {stepDist minDist : ℝ} {splitEdges : Bool} {s : GMap ℝ} {st : St} {r : GMap ℝ × St}
    (h : sortEdgesEventually srt fuel stepDist minDist splitEdges s st = .ok r) : sortEdgesEventually srt fuel' stepDist minDist splitEdges s st = .ok r := by
  induction hf with
  | refl => exact h
  | @step k _ ih =>
    by_cases hi : s.initialized
    · rw [sortEdgesEventually_initialized _ _ _ _ _ _ _ hi] at h; cases h
    · rw [eventually_of hi] at ih ⊢
      obtain ⟨q, e, ih⟩ := Outcome.bind_eq_ok.1 ih
      exact Outcome.bind_eq_ok.2 ⟨q, sortNodes_mono _ _ _ _ e, ih⟩

/-- The recursion ends if the degree of the nodes is small compared with the minimal angle: with `N` darts at most around a node, if
`(N - 1) * minAngle` is at most 60 degrees. -/
theorem sortEdgesEventually_terminates {srt : List DPA → List DPA} (hs : Sorter srt) {stepDist minDist : ℝ} (hstep : 0 < stepDist)
    (hmin : 0 < minDist) (splitEdges : Bool) {s : GMap ℝ} (h : ReachG s) (hi : ¬ s.initialized) (hlong : EdgesLong s) {N : Nat} (hdeg : DegreeLE s N)
    (hN : ((N : ℝ) - 1) * atan2 minDist stepDist ≤ Real.pi / 3) (st : St) :
    ∃ fuel₀ r, ∀ fuel ≥ fuel₀, sortEdgesEventually srt fuel stepDist minDist splitEdges s st = .ok r := by
  have hG := h.reach.good
  obtain ⟨π, hg⟩ := hG.map.graph.exists_rep
  have hm := minAngle_pos (stepDist := stepDist) hmin
  -- with no dart at all every `N` will do
  obtain ⟨M, hM0, hMdeg, hM⟩ : ∃ M : Nat, 0 < M ∧ DegreeLE s M ∧ ((M : ℝ) - 1) * atan2 minDist stepDist ≤ Real.pi / 3 := by
    rcases Nat.eq_zero_or_pos N with rfl | h0
    · refine ⟨1, by omega, fun n l h1 h2 => (hdeg n l h1 h2).trans (by omega), ?_⟩
      simp; linarith [Real.pi_pos]
    · exact ⟨N, h0, hdeg, hN⟩
  have hq : 0 < stepDist / M := div_pos hstep (by exact_mod_cast hM0)
  obtain ⟨j, hj⟩ := exists_nat_gt ((∑ d ∈ s.darts, pathLen (pointsOf s d)) / (stepDist / M))
  rw [div_lt_iff₀ hq] at hj
  obtain ⟨t, st', e⟩ := sortNodes_total hs hstep hm.1 hM0 hM (le_refl (j + 1)) (List.range s.nNodes) hg h.geom.geom hlong hMdeg (fun d hd =>
    lt_of_le_of_lt (Finset.single_le_sum (f := fun d => pathLen (pointsOf s d)) (fun _ _ => pathLen_nonneg _) ((hg.live d).2 hd)) hj) (startSt splitEdges st)
  have e' : sortEdgesEventually srt (j + 1) stepDist minDist splitEdges s st = .ok ({ t with edgesSorted := true }, st') := by
    rw [eventually_of hi, e]; rfl
  exact ⟨j + 1, _, fun fuel hf => sortEdgesEventually_limit hf e'⟩

/-- Darts in clearly different directions need one circle only: if any two darts of a node are at least the minimal angle apart on
the circle of the radius `stepDist`, the call ends without recursion, reports nothing as unsortable, plans no split, and sigma
visits the darts of every node in the order of the angles. -/
theorem sortEdgesEventually_separated {srt : List DPA → List DPA} (hs : Sorter srt) (fuel : Nat) {stepDist minDist : ℝ} (hstep : stepDist ≠ 0)
    (hmin : 0 < minDist) (splitEdges : Bool) {s : GMap ℝ} (h : ReachG s) (hi : ¬ s.initialized) (hlong : EdgesLong s) (st : St)
    (hsep : ∀ n, Separated s (stepDist * stepDist) (atan2 minDist stepDist) n) :
    ∃ t st', sortEdgesEventually srt (fuel + 1) stepDist minDist splitEdges s st = .ok (t, st') ∧ st'.unsortable = st.unsortable ∧
      st'.splits = (if splitEdges then some ⟨[], 0⟩ else st.splits) ∧
      ∀ n nd, s.node n = some nd → ∃ (r : List Int) (p : Int → Pt ℝ) (w : Int → ℝ), SigmaList t n r ∧
        (∀ d ∈ r, Crossing (pointsOf s d) nd.pos (stepDist * stepDist) (p d)) ∧ Unwrapped (fun d => angleOf nd.pos (p d)) w r ∧
        r.Pairwise fun x y => w x < w y := by
  have hG := h.reach.good
  obtain ⟨π, hg⟩ := hG.map.graph.exists_rep
  have hr : 0 < stepDist * stepDist := mul_self_pos.2 hstep
  have hm := minAngle_pos (stepDist := stepDist) hmin
  obtain ⟨t, e⟩ := sortNodes_clear hs hr hm.1 fuel (List.range s.nNodes) hg h.geom.geom hlong hsep (startSt splitEdges st)
  have e' : sortEdgesEventually srt (fuel + 1) stepDist minDist splitEdges s st = .ok ({ t with edgesSorted := true }, startSt splitEdges st) := by
    rw [eventually_of hi, e]; rfl
  refine ⟨_, _, e', by unfold startSt; split_ifs <;> rfl, by unfold startSt; split_ifs <;> rfl, ?_⟩
  rcases sortEdgesEventually_safe hs (fuel + 1) hstep hmin splitEdges h hi hlong st with h1 | ⟨t', st', h1, -, -, -, ⟨sg, sgi, hfr⟩, h2, -⟩
  · rw [h1] at e'; cases e'
  rw [e'] at h1
  cases h1
  intro n nd hnd
  obtain ⟨r, p, w, g1, g2, g3, g4⟩ := h2 n nd hnd
  refine ⟨r, p, w, g1, g2, g3, ?_⟩
  have hst : ∀ d ∈ r, s.startN? d = some n := by
    intro d hd
    have := (g1.2.1 d).1 hd
    rw [hfr] at this; exact this
  have far : ∀ x ∈ r, ∀ y ∈ r, x ≠ y → atan2 minDist stepDist ≤ |w x - w y| := by
    intro x hx y hy hxy
    obtain ⟨f1, f2⟩ := hsep n nd hnd x y (p x) (p y) hxy (hst x hx) (hst y hy) (g2 x hx) (g2 y hy)
    obtain ⟨cut, hc⟩ := g3
    have pp := Real.pi_pos
    obtain ⟨hx1, hx2, hx3⟩ := hc x hx
    obtain ⟨hy1, hy2, hy3⟩ := hc y hy
    obtain ⟨f3, f4⟩ := abs_le.1 f2
    simp only at hx1 hy1
    rcases hx1 with e1 | e1 <;> rcases hy1 with e2 | e2 <;> rw [e1, e2]
    · exact f1
    · exact le_trans (by linarith) (neg_le_abs _)
    · exact le_trans (by linarith) (le_abs_self _)
    · rw [add_sub_add_right_eq_sub]; exact f1
  have hp : r.Pairwise fun x y => x ≠ y := g1.1
  rw [List.pairwise_iff_getElem] at hp ⊢
  intro i j hi hj hij
  by_contra hlt
  have hne := hp i j hi hj hij
  have hfar := far _ (List.getElem_mem hi) _ (List.getElem_mem hj) hne
  rw [abs_of_nonneg (by linarith)] at hfar
  have := g4 (w r[j]) (fun d hd => by
    by_cases hd' : d = r[j]
    · left; rw [hd']
    · have := far d hd _ (List.getElem_mem hj) hd'
      rcases le_total (w d) (w r[j]) with h | h
      · exact Or.inl h
      · right
        rw [abs_of_nonneg (by linarith)] at this; linarith)
  rw [List.pairwise_iff_getElem] at this
  exact this i j hi hj hij ⟨le_rfl, by linarith⟩

/-- The code violates termination: if the points at which the darts of a node leave the circle lie all around the node, the next circle
is the same one again, and the recursion never ends - for every limit of its depth. -/
theorem sortEdgesEventually_endless_violated {srt : List DPA → List DPA} (hs : Sorter srt) (fuel : Nat) {stepDist minDist : ℝ} (hstep : stepDist ≠ 0)
    (hmin : 0 < minDist) (splitEdges : Bool) {s : GMap ℝ} (h : ReachG s) (hi : ¬ s.initialized) (hlong : EdgesLong s) (st : St)
    {n : Nat} {nd : Node ℝ} {p : Int → Pt ℝ} (ha : AllAround s (stepDist * stepDist) (atan2 minDist stepDist) n nd p) :
    sortEdgesEventually srt fuel stepDist minDist splitEdges s st = .hang := by
  obtain ⟨π, hg⟩ := h.reach.good.map.graph.exists_rep
  have hm := minAngle_pos (stepDist := stepDist) hmin
  rw [eventually_of hi, sortNodes_endless hs (mul_self_pos.2 hstep) hm.1 hm.2 fuel _ hg h.geom.geom hlong ha
    (List.mem_range.2 (hg.labels.node_lt n (by rw [ha.node]; rfl)))]
  rfl

/-! ## An edge with a single point -/

section Single

noncomputable def single : GMap ℝ := Example.val GMap.empty ((Op.addEdge (.node 0) (.node 1) [(0, 0)] 0).run Hooks.none ((GMap.empty.addNodeAt (0, 0) 0).2.addNodeAt (0, 0) 0).2)

theorem single_ok : (Op.addEdge (.node 0) (.node 1) [(0, 0)] 0).run Hooks.none ((GMap.empty.addNodeAt (0, 0) 0).2.addNodeAt (0, 0) 0).2 = .ok single := rfl

theorem single_reach : ReachG single := by
  refine .call Hooks.none _ (.call Hooks.none (.addNode (0, 0) 0) (.call Hooks.none (.addNode (0, 0) 0) .empty trivial trivial rfl ?_) trivial trivial rfl ?_) ?_ ?_ single_ok ?_
  any_goals (intro _ h; exact absurd h (Nat.lt_irrefl 0))
  · exact ⟨by simp, fun n h => by cases h; rfl, fun n h => by cases h; rfl⟩
  · exact ⟨⟨0, _, rfl, rfl, rfl⟩, ⟨1, _, rfl, rfl, rfl⟩⟩

/-- The code does not check that edges have two points: with an edge of a single point (which `addEdge` accepts) it reads beyond the
end of the points. -/
theorem sortEdgesEventually_single_point_violated : ReachG single ∧ ¬ single.initialized ∧
    ∀ srt fuel stepDist minDist splitEdges st, sortEdgesEventually srt fuel stepDist minDist splitEdges single st = .ub := by
  refine ⟨single_reach, Nat.lt_irrefl 0, fun srt fuel stepDist minDist splitEdges st => ?_⟩
  rw [eventually_of (s := single) (Nat.lt_irrefl 0)]
  have e : sortNode srt fuel (stepDist * stepDist) (atan2 minDist stepDist) single (startSt splitEdges st) 0 = .ub := rfl
  show (sortNodes _ _ _ _ [0, 1] _ _).bind _ = _
  rw [sortNodes, e]
  rfl

end Single

/-! ## Two edges in different directions -/

section Corner
open Verif.GeoMap.Props (rn r1 r1_ok r2_ok r2_edge r2_live)

local notation "corner" => Verif.GeoMap.Props.r2

theorem corner_reach : ReachG corner := by
  refine .call Hooks.none _ (.call Hooks.none _ (.call Hooks.none (.addNode (0, 1) 0) (.call Hooks.none (.addNode (1, 0) 0)
    (.call Hooks.none (.addNode (0, 0) 0) .empty trivial trivial rfl ?_) trivial trivial rfl ?_) trivial trivial rfl ?_) ?_ ?_ r1_ok ?_) ?_ ?_ r2_ok ?_
  any_goals (intro _ h; exact absurd h (Nat.lt_irrefl 0))
  · exact ⟨by simp, fun n h => by cases h; rfl, fun n h => by cases h; rfl⟩
  · exact ⟨⟨0, _, rfl, rfl, rfl⟩, ⟨1, _, rfl, rfl, rfl⟩⟩
  · exact ⟨by simp, fun n h => by cases h; rfl, fun n h => by cases h; rfl⟩
  · exact ⟨⟨0, _, rfl, rfl, rfl⟩, ⟨2, _, rfl, rfl, rfl⟩⟩

theorem corner_long : EdgesLong corner := by
  intro l e h
  rw [r2_edge] at h
  simp only [Function.update_apply] at h
  split_ifs at h <;> cases h <;> simp

theorem corner_starts {d : Int} {n : Nat} (h : (corner).startN? d = some n) : (d = 1 ∧ n = 0) ∨ (d = -1 ∧ n = 1) ∨ (d = 2 ∧ n = 0) ∨ (d = -2 ∧ n = 2) := by
  have s1 : (corner).startN? 1 = some 0 := rfl
  have s2 : (corner).startN? 2 = some 0 := rfl
  have s1' : (corner).startN? (-1) = some 1 := rfl
  have s2' : (corner).startN? (-2) = some 2 := rfl
  rcases r2_live (liveD_of_start h) with rfl | rfl | rfl | rfl <;> simp_all

theorem corner_degree : DegreeLE corner 2 := by
  intro n l h1 h2
  have hsub : l.toFinset ⊆ ({1, 2} : Finset Int) ∨ l.toFinset ⊆ ({-1} : Finset Int) ∨ l.toFinset ⊆ ({-2} : Finset Int) := by
    rcases Nat.lt_trichotomy n 1 with hn | rfl | hn
    · left; intro d hd
      rcases corner_starts (h2 d (List.mem_toFinset.1 hd)) with ⟨rfl, h⟩ | ⟨rfl, h⟩ | ⟨rfl, h⟩ | ⟨rfl, h⟩ <;> first | decide | omega
    · right; left; intro d hd
      rcases corner_starts (h2 d (List.mem_toFinset.1 hd)) with ⟨rfl, h⟩ | ⟨rfl, h⟩ | ⟨rfl, h⟩ | ⟨rfl, h⟩ <;> first | decide | omega
    · right; right; intro d hd
      rcases corner_starts (h2 d (List.mem_toFinset.1 hd)) with ⟨rfl, h⟩ | ⟨rfl, h⟩ | ⟨rfl, h⟩ | ⟨rfl, h⟩ <;> first | decide | omega
  rw [← List.toFinset_card_of_nodup h1]
  rcases hsub with h | h | h
  · exact Finset.card_le_card h
  · exact (Finset.card_le_card h).trans (by simp)
  · exact (Finset.card_le_card h).trans (by simp)

theorem normAngle_id {x : ℝ} (h1 : -Real.pi ≤ x) (h2 : x < Real.pi) : normAngle x = x := by
  rw [normAngle]
  simp only [if_neg (not_lt.2 h1), if_neg (not_le.2 h2), ge_iff_le]

theorem quarter : atan2 (1 / 2) (1 / 2) = Real.pi / 4 := by
  rw [atan2, Complex.arg_of_re_nonneg (by norm_num)]
  have : ‖(⟨1 / 2, 1 / 2⟩ : ℂ)‖ = Real.sqrt 2 / 2 := by
    rw [Complex.norm_def, Complex.normSq_mk, show (1 / 2 * (1 / 2) + 1 / 2 * (1 / 2) : ℝ) = 2 / 2 ^ 2 by norm_num, Real.sqrt_div (by norm_num), Real.sqrt_sq (by norm_num)]
  rw [this]
  have h2 : Real.sqrt 2 ≠ 0 := by simp
  have : (1 / 2 : ℝ) / (Real.sqrt 2 / 2) = Real.sin (Real.pi / 4) := by
    rw [Real.sin_pi_div_four]
    field_simp
    rw [Real.sq_sqrt (by norm_num)]
  rw [this, Real.arcsin_sin] <;> linarith [Real.pi_pos]

theorem corner_separated (n : Nat) : Separated corner (1 / 2 * (1 / 2)) (atan2 (1 / 2) (1 / 2)) n := by
  have pp := Real.pi_pos
  have c1 : Crossing (pointsOf corner 1) ((0 : ℝ), (0 : ℝ)) (1 / 2 * (1 / 2)) (1 / 2, 0) := by
    left
    refine ⟨0, (0, 0), (1, 0), 1 / 2, rfl, rfl, ?_, ?_, by norm_num, by norm_num, ?_, ?_⟩
    · intro j v hj hv
      obtain rfl : j = 0 := by omega
      cases hv; norm_num [sqMag]
    · norm_num [sqMag]
    · ext <;> simp
    · norm_num [sqMag]
  have c2 : Crossing (pointsOf corner 2) ((0 : ℝ), (0 : ℝ)) (1 / 2 * (1 / 2)) (0, 1 / 2) := by
    left
    refine ⟨0, (0, 0), (0, 1), 1 / 2, rfl, rfl, ?_, ?_, by norm_num, by norm_num, ?_, ?_⟩
    · intro j v hj hv
      obtain rfl : j = 0 := by omega
      cases hv; norm_num [sqMag]
    · norm_num [sqMag]
    · ext <;> simp
    · norm_num [sqMag]
  have a1 : angleOf ((0 : ℝ), (0 : ℝ)) (1 / 2, 0) = 0 := by
    have : (⟨1 / 2 - 0, 0 - 0⟩ : ℂ) = ((1 / 2 : ℝ) : ℂ) := by apply Complex.ext <;> simp
    simp only [angleOf, atan2, this]
    rw [Complex.arg_ofReal_of_nonneg (by norm_num), normAngle_id (by linarith) (by linarith)]
  have a2 : angleOf ((0 : ℝ), (0 : ℝ)) (0, 1 / 2) = -(Real.pi / 2) := by
    have : (⟨0 - 0, 0 - 1 / 2⟩ : ℂ) = ((1 / 2 : ℝ) : ℂ) * (-Complex.I) := by apply Complex.ext <;> simp
    simp only [angleOf, atan2, this]
    rw [Complex.arg_real_mul _ (by norm_num), Complex.arg_neg_I, normAngle_id (by linarith) (by linarith)]
  intro nd hnd x y p q hxy hx hy hp hq
  rw [quarter]
  rcases corner_starts hx with ⟨rfl, rfl⟩ | ⟨rfl, rfl⟩ | ⟨rfl, rfl⟩ | ⟨rfl, rfl⟩ <;>
    rcases corner_starts hy with ⟨rfl, h⟩ | ⟨rfl, h⟩ | ⟨rfl, h⟩ | ⟨rfl, h⟩ <;> (try (exact absurd rfl hxy)) <;> (try omega)
  all_goals
    have hpos : nd.pos = ((0 : ℝ), (0 : ℝ)) := by
      have e : (corner).node 0 = some nd := hnd
      cases e; rfl
    rw [hpos] at hp hq ⊢
  · rw [hp.unique c1, hq.unique c2, a1, a2, abs_of_nonneg (by linarith)]
    constructor <;> linarith
  · rw [hp.unique c2, hq.unique c1, a1, a2, abs_of_nonpos (by linarith)]
    constructor <;> linarith

/-- all theorems above apply to this map -/
example {srt : List DPA → List DPA} (hs : Sorter srt) :
    ∃ t st', sortEdgesEventually srt 1 (1 / 2) (1 / 2) true corner ⟨[], none⟩ = .ok (t, st') ∧ st'.unsortable = [] ∧
      ∃ (p : Int → Pt ℝ) (r : List Int), SigmaList t 0 r ∧ ∀ d ∈ r, Crossing (pointsOf corner d) ((0 : ℝ), (0 : ℝ)) (1 / 2 * (1 / 2)) (p d) := by
  obtain ⟨t, st', h1, h2, -, h3⟩ := sortEdgesEventually_separated hs 0 (by norm_num) (by norm_num) true corner_reach (Nat.lt_irrefl 0) corner_long ⟨[], none⟩ corner_separated
  obtain ⟨r, p, w, g1, g2, -⟩ := h3 0 _ rfl
  exact ⟨t, st', h1, h2, p, r, g1, g2⟩

example {srt : List DPA → List DPA} (hs : Sorter srt) :
    ∃ fuel₀ r, ∀ fuel ≥ fuel₀, sortEdgesEventually srt fuel (1 / 2) (1 / 2) true corner ⟨[], none⟩ = .ok r :=
  sortEdgesEventually_terminates hs (by norm_num) (by norm_num) true corner_reach (Nat.lt_irrefl 0) corner_long corner_degree (by
    rw [quarter]; push_cast; linarith [Real.pi_pos]) _

end Corner

/-! ## A star -/

section Star

noncomputable def ray : Nat → Pt ℝ
  | 1 => (2, 0)
  | 2 => (6 / 5, 8 / 5)
  | 3 => (-6 / 5, 8 / 5)
  | 4 => (-2, 0)
  | 5 => (-6 / 5, -8 / 5)
  | 6 => (6 / 5, -8 / 5)
  | _ => (0, 0)

noncomputable def starNodes : Nat → GMap ℝ
  | 0 => GMap.empty
  | n + 1 => ((starNodes n).addNodeAt (ray n) 0).2

noncomputable def star : Nat → GMap ℝ
  | 0 => starNodes 7
  | n + 1 => Example.val GMap.empty ((Op.addEdge (.node 0) (.node (n + 1)) [(0, 0), ray (n + 1)] 0).run Hooks.none (star n))

theorem starNodes_reach : ∀ n, n ≤ 7 → ReachG (starNodes n) ∧ ¬ (starNodes n).initialized
  | 0, _ => ⟨.empty, Nat.lt_irrefl 0⟩
  | n + 1, h => by
    obtain ⟨h1, h2⟩ := starNodes_reach n (by omega)
    exact ⟨.call Hooks.none (.addNode (ray n) 0) h1 trivial trivial rfl (fun _ h => absurd h h2), h2⟩

theorem star1 : (Op.addEdge (.node 0) (.node 1) [(0, 0), ray 1] 0).run Hooks.none (star 0) = .ok (star 1) := rfl
theorem star2 : (Op.addEdge (.node 0) (.node 2) [(0, 0), ray 2] 0).run Hooks.none (star 1) = .ok (star 2) := rfl
theorem star3 : (Op.addEdge (.node 0) (.node 3) [(0, 0), ray 3] 0).run Hooks.none (star 2) = .ok (star 3) := rfl
theorem star4 : (Op.addEdge (.node 0) (.node 4) [(0, 0), ray 4] 0).run Hooks.none (star 3) = .ok (star 4) := rfl
theorem star5 : (Op.addEdge (.node 0) (.node 5) [(0, 0), ray 5] 0).run Hooks.none (star 4) = .ok (star 5) := rfl
theorem star6 : (Op.addEdge (.node 0) (.node 6) [(0, 0), ray 6] 0).run Hooks.none (star 5) = .ok (star 6) := rfl

theorem star_reach : ReachG (star 6) := by
  refine .call Hooks.none _ (.call Hooks.none _ (.call Hooks.none _ (.call Hooks.none _ (.call Hooks.none _ (.call Hooks.none _
    (starNodes_reach 7 le_rfl).1 ?_ ?_ star1 ?_) ?_ ?_ star2 ?_) ?_ ?_ star3 ?_) ?_ ?_ star4 ?_) ?_ ?_ star5 ?_) ?_ ?_ star6 ?_
  any_goals (intro _ h; exact absurd h (Nat.lt_irrefl 0))
  any_goals
    first
    | exact ⟨⟨0, _, rfl, rfl, rfl⟩, ⟨_, _, rfl, rfl, rfl⟩⟩
    | exact ⟨by simp, fun n h => by cases h; rfl, fun n h => by cases h; rfl⟩

theorem star_edge : (star 6).edge = Function.update (Function.update (Function.update (Function.update (Function.update (Function.update (fun _ => none)
    1 (some ⟨0, 1, none, none, [(0, 0), ray 1], 0⟩)) 2 (some ⟨0, 2, none, none, [(0, 0), ray 2], 0⟩)) 3 (some ⟨0, 3, none, none, [(0, 0), ray 3], 0⟩))
    4 (some ⟨0, 4, none, none, [(0, 0), ray 4], 0⟩)) 5 (some ⟨0, 5, none, none, [(0, 0), ray 5], 0⟩)) 6 (some ⟨0, 6, none, none, [(0, 0), ray 6], 0⟩) := rfl

theorem star_edge_of {l : Nat} {e : Edge ℝ} (h : (star 6).edge l = some e) :
    (l = 1 ∨ l = 2 ∨ l = 3 ∨ l = 4 ∨ l = 5 ∨ l = 6) ∧ e = ⟨0, l, none, none, [(0, 0), ray l], 0⟩ := by
  rw [star_edge] at h
  simp only [Function.update_apply] at h
  split_ifs at h with h1 h2 h3 h4 h5 h6 <;> cases h <;> subst_vars <;> simp

theorem star_long : EdgesLong (star 6) := by
  intro l e h
  rw [(star_edge_of h).2]; simp

theorem star_starts (d : Int) : (star 6).startN? d = some 0 ↔ d = 1 ∨ d = 2 ∨ d = 3 ∨ d = 4 ∨ d = 5 ∨ d = 6 := by
  constructor
  · intro h
    obtain ⟨e, he⟩ := liveD_exists (liveD_of_start h)
    obtain ⟨h1, rfl⟩ := star_edge_of he
    rw [startN?_of he] at h
    have hp : 0 < d := by
      by_contra hd
      rw [Edge.startOf, if_neg hd] at h
      simp at h
      omega
    omega
  · rintro (rfl | rfl | rfl | rfl | rfl | rfl) <;> rfl

noncomputable def tip (d : Int) : Pt ℝ := (1 / 2 : ℝ) • ray d.natAbs

/-- turning by the argument of `u` -/
theorem turn {z u z' : ℂ} (hz : z ≠ 0) (hu : u ≠ 0) (h : z * u = z') : ∃ k : ℤ, Complex.arg z' = Complex.arg z + Complex.arg u + k * (2 * Real.pi) := by
  have e := Complex.arg_mul_coe_angle hz hu
  rw [h, ← Real.Angle.coe_add, Real.Angle.angle_eq_iff_two_pi_dvd_sub] at e
  obtain ⟨k, hk⟩ := e
  exact ⟨k, by linarith⟩

theorem arg_between {a b c : ℝ} (ha : 0 < a) (hb : 0 < b) (h : b / a < c) : 0 < Complex.arg ⟨a, b⟩ ∧ Complex.arg ⟨a, b⟩ < atan2 c 1 := by
  have hc : 0 < c := lt_trans (div_pos hb ha) h
  have q : ∀ {a b : ℝ}, 0 < a → 0 < b → 0 < Complex.arg ⟨a, b⟩ ∧ Complex.arg ⟨a, b⟩ < Real.pi / 2 ∧ Real.tan (Complex.arg ⟨a, b⟩) = b / a := by
    intro a b ha hb
    refine ⟨(minAngle_pos (stepDist := a) hb).1, ?_, by rw [Complex.tan_arg]⟩
    have := (Complex.abs_arg_lt_pi_div_two_iff (z := ⟨a, b⟩)).2 (Or.inl ha)
    exact (abs_lt.1 this).2
  obtain ⟨p1, p2, p3⟩ := q ha hb
  obtain ⟨q1, q2, q3⟩ := q one_pos hc
  refine ⟨p1, ?_⟩
  have pp := Real.pi_pos
  refine (Real.strictMonoOn_tan.lt_iff_lt ⟨by linarith, p2⟩ ⟨by show _ < Complex.arg ⟨1, c⟩; linarith, q2⟩).1 ?_
  show _ < Real.tan (Complex.arg ⟨1, c⟩)
  rw [p3, q3, div_one]; exact h

theorem angleOf_turn {p q : Pt ℝ} {a b : ℝ} (hp : p ≠ 0) (ha : 0 < a) (hb : 0 < b) (hc : b / a < 4) (h1 : q.1 = p.1 * a + p.2 * b) (h2 : q.2 = p.2 * a - p.1 * b) :
    ∃ (g : ℝ) (k : ℤ), 0 < g ∧ g < atan2 4 1 ∧ angleOf ((0 : ℝ), (0 : ℝ)) q = angleOf ((0 : ℝ), (0 : ℝ)) p + g + k * (2 * Real.pi) := by
  obtain ⟨k1, e1⟩ := angleOf_abs ((0 : ℝ), (0 : ℝ)) p
  obtain ⟨k2, e2⟩ := angleOf_abs ((0 : ℝ), (0 : ℝ)) q
  obtain ⟨k, e⟩ := turn (z := ⟨p.1 - 0, -p.2 + 0⟩) (u := ⟨a, b⟩) (z' := ⟨q.1 - 0, -q.2 + 0⟩) (by
      intro h
      have h1 := congrArg Complex.re h
      have h2 := congrArg Complex.im h
      simp at h1 h2
      exact hp (Prod.ext h1 h2)) (by
      intro h
      have h1 := congrArg Complex.re h
      simp at h1
      linarith) (by
      apply Complex.ext
      · simp [h1]
      · simp [h2]; ring)
  obtain ⟨g0, g1⟩ := arg_between ha hb hc
  refine ⟨_, k + k2 - k1, g0, g1, ?_⟩
  rw [e1, e2]
  simp only [atan2] at *
  rw [e]
  push_cast
  ring

theorem star_around : AllAround (star 6) (1 * 1) (atan2 4 1) 0 ⟨(0, 0), 1⟩ tip := by
  refine ⟨rfl, ⟨1, rfl⟩, ?_, ?_, ?_⟩
  · intro d hd
    have hon : sqMag (tip d - ((0 : ℝ), (0 : ℝ))) = 1 * 1 := by
      rcases (star_starts d).1 hd with rfl | rfl | rfl | rfl | rfl | rfl <;> norm_num [tip, ray, sqMag]
    refine ⟨Or.inl ⟨0, (0, 0), ray d.natAbs, 1 / 2, ?_, ?_, ?_, ?_, by norm_num, by norm_num, ?_, hon⟩, hon⟩
    · rcases (star_starts d).1 hd with rfl | rfl | rfl | rfl | rfl | rfl <;> rfl
    · rcases (star_starts d).1 hd with rfl | rfl | rfl | rfl | rfl | rfl <;> rfl
    · intro j v hj hv
      obtain rfl : j = 0 := by omega
      have : v = (0, 0) := by rcases (star_starts d).1 hd with rfl | rfl | rfl | rfl | rfl | rfl <;> (cases hv; rfl)
      rw [this]; norm_num [sqMag]
    · rcases (star_starts d).1 hd with rfl | rfl | rfl | rfl | rfl | rfl <;> norm_num [ray, sqMag]
    · rw [tip]; ext <;> simp
  · intro r hr hm
    have hp : r.Perm [1, 2, 3, 4, 5, 6] := by
      rw [List.perm_ext_iff_of_nodup hr (by decide)]
      intro d
      rw [hm, star_starts]; simp
    rw [(hp.map _).sum_eq]
    ext <;> norm_num [tip, ray]
  · intro d hd
    have nz : ∀ {x y : ℝ}, x ≠ 0 → ((x, y) : Pt ℝ) ≠ 0 := fun h e => h (congrArg Prod.fst e)
    rcases (star_starts d).1 hd with rfl | rfl | rfl | rfl | rfl | rfl
    · exact ⟨6, rfl, angleOf_turn (a := 3 / 5) (b := 4 / 5) (by simp [tip, ray]) (by norm_num) (by norm_num) (by norm_num) (by norm_num [tip, ray]) (by norm_num [tip, ray])⟩
    · exact ⟨1, rfl, angleOf_turn (a := 3 / 5) (b := 4 / 5) (by simp [tip, ray]) (by norm_num) (by norm_num) (by norm_num) (by norm_num [tip, ray]) (by norm_num [tip, ray])⟩
    · exact ⟨2, rfl, angleOf_turn (a := 7 / 25) (b := 24 / 25) (by simp [tip, ray]) (by norm_num) (by norm_num) (by norm_num) (by norm_num [tip, ray]) (by norm_num [tip, ray])⟩
    · exact ⟨3, rfl, angleOf_turn (a := 3 / 5) (b := 4 / 5) (by simp [tip, ray]) (by norm_num) (by norm_num) (by norm_num) (by norm_num [tip, ray]) (by norm_num [tip, ray])⟩
    · exact ⟨4, rfl, angleOf_turn (a := 3 / 5) (b := 4 / 5) (by simp [tip, ray]) (by norm_num) (by norm_num) (by norm_num) (by norm_num [tip, ray]) (by norm_num [tip, ray])⟩
    · exact ⟨5, rfl, angleOf_turn (a := 7 / 25) (b := 24 / 25) (by simp [tip, ray]) (by norm_num) (by norm_num) (by norm_num) (by norm_num [tip, ray]) (by norm_num [tip, ray])⟩

/-- A star of six edges: the recursion does not end. -/
theorem sortEdgesEventually_star_violated : ReachG (star 6) ∧ ¬ (star 6).initialized ∧ EdgesLong (star 6) ∧
    ∀ srt, Sorter srt → ∀ fuel splitEdges st, sortEdgesEventually srt fuel 1 4 splitEdges (star 6) st = .hang :=
  ⟨star_reach, Nat.lt_irrefl 0, star_long, fun _ hs fuel splitEdges st => sortEdgesEventually_endless_violated hs fuel one_ne_zero
    (by norm_num) splitEdges star_reach (Nat.lt_irrefl 0) star_long st star_around⟩

end Star

end Verif.Eventually
