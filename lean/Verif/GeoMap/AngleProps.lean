import Verif.GeoMap.Angle
import Verif.GeoMap.Props
import Mathlib.Analysis.SpecialFunctions.Complex.Arg

/-! # C26: edges are sorted by angle (property theorems) -/

namespace Verif.GeoMap.Props
open Verif.GeoMap

/-- `AngleLess` is the order of the angles in (-π, π] -/
theorem angleLess_iff_arg {ux uy vx vy : ℝ} (hu : ¬ (ux = 0 ∧ uy = 0)) (hv : ¬ (vx = 0 ∧ vy = 0)) :
    AngleLess ux uy vx vy ↔ Complex.arg ⟨ux, uy⟩ < Complex.arg ⟨vx, vy⟩ := by
  obtain ⟨z, hz⟩ : ∃ z : ℂ, z = ⟨ux, uy⟩ := ⟨_, rfl⟩
  obtain ⟨w, hw⟩ : ∃ w : ℂ, w = ⟨vx, vy⟩ := ⟨_, rfl⟩
  have z1 : ux = z.re := by rw [hz]
  have z2 : uy = z.im := by rw [hz]
  have w1 : vx = w.re := by rw [hw]
  have w2 : vy = w.im := by rw [hw]
  rw [← hz, ← hw]
  subst z1 z2 w1 w2
  have hz0 : 0 < ‖z‖ := by rw [norm_pos_iff]; rintro rfl; exact hu ⟨rfl, rfl⟩
  have hw0 : 0 < ‖w‖ := by rw [norm_pos_iff]; rintro rfl; exact hv ⟨rfl, rfl⟩
  have cross : z.re * w.im - z.im * w.re = ‖z‖ * ‖w‖ * Real.sin (w.arg - z.arg) := by
    rw [Real.sin_sub]
    rw [← Complex.norm_mul_cos_arg z, ← Complex.norm_mul_sin_arg z, ← Complex.norm_mul_cos_arg w, ← Complex.norm_mul_sin_arg w]
    simp only [Complex.norm_mul_cos_arg, Complex.norm_mul_sin_arg]
    have h1 : Real.cos z.arg = z.re / ‖z‖ := by rw [← Complex.norm_mul_cos_arg z]; field_simp
    have h2 : Real.sin z.arg = z.im / ‖z‖ := by rw [← Complex.norm_mul_sin_arg z]; field_simp
    have h3 : Real.cos w.arg = w.re / ‖w‖ := by rw [← Complex.norm_mul_cos_arg w]; field_simp
    have h4 : Real.sin w.arg = w.im / ‖w‖ := by rw [← Complex.norm_mul_sin_arg w]; field_simp
    rw [h1, h2, h3, h4]; field_simp
  have hpos : 0 < ‖z‖ * ‖w‖ := mul_pos hz0 hw0
  have cp : 0 < z.re * w.im - z.im * w.re ↔ 0 < Real.sin (w.arg - z.arg) := by rw [cross, mul_pos_iff_of_pos_left hpos]
  have c0 : z.re * w.im - z.im * w.re = 0 ↔ Real.sin (w.arg - z.arg) = 0 := by
    rw [cross, mul_eq_zero]; exact ⟨fun h => h.resolve_left hpos.ne', Or.inr⟩
  have az := Complex.neg_pi_lt_arg z
  have az' := Complex.arg_le_pi z
  have aw := Complex.neg_pi_lt_arg w
  have aw' := Complex.arg_le_pi w
  have nz : z.arg < 0 ↔ z.im < 0 := Complex.arg_neg_iff
  have nw : w.arg < 0 ↔ w.im < 0 := Complex.arg_neg_iff
  have pz : 0 ≤ z.arg ↔ 0 ≤ z.im := Complex.arg_nonneg_iff
  have pw : 0 ≤ w.arg ↔ 0 ≤ w.im := Complex.arg_nonneg_iff
  have zx : 0 < z.re ↔ 0 < Real.cos z.arg := by rw [← Complex.norm_mul_cos_arg z, mul_pos_iff_of_pos_left hz0]
  have wx : w.re < 0 ↔ Real.cos w.arg < 0 := by
    rw [← Complex.norm_mul_cos_arg w]
    constructor
    · intro h; by_contra hc; push Not at hc; exact absurd h (not_lt.mpr (mul_nonneg hw0.le hc))
    · intro h; exact mul_neg_of_pos_of_neg hw0 h
  unfold AngleLess
  rw [← nz, ← pw, ← nw, ← pz, cp, c0, zx, wx]
  constructor
  · rintro (⟨h1, h2⟩ | ⟨h1, h2, h3⟩ | ⟨h1, h2, h3 | ⟨h3, h4, h5⟩⟩)
    · linarith
    · by_contra hc
      have : Real.sin (w.arg - z.arg) ≤ 0 := Real.sin_nonpos_of_nonpos_of_neg_pi_le (by linarith) (by linarith)
      linarith
    · by_contra hc
      have : Real.sin (w.arg - z.arg) ≤ 0 := Real.sin_nonpos_of_nonpos_of_neg_pi_le (by linarith) (by linarith)
      linarith
    · by_contra hc
      push Not at hc
      rcases hc.lt_or_eq with hc | hc
      · rcases az'.lt_or_eq with h | h
        · have : Real.sin (w.arg - z.arg) < 0 := Real.sin_neg_of_neg_of_neg_pi_lt (by linarith) (by linarith)
          linarith
        · rw [h, Real.cos_pi] at h4; linarith
      · rw [hc] at h5; linarith
  · intro h
    rcases lt_or_ge z.arg 0 with h1 | h1
    · rcases lt_or_ge w.arg 0 with h2 | h2
      · right; left; exact ⟨h1, h2, Real.sin_pos_of_pos_of_lt_pi (by linarith) (by linarith)⟩
      · exact Or.inl ⟨h1, h2⟩
    · right; right
      refine ⟨h1, by linarith, ?_⟩
      by_cases hp : w.arg - z.arg < Real.pi
      · exact Or.inl (Real.sin_pos_of_pos_of_lt_pi (by linarith) hp)
      · right
        have e1 : z.arg = 0 := by linarith
        have e2 : w.arg = Real.pi := by linarith
        rw [e1, e2]; simp

/-- `angleTheta` orders directions exactly as the mathematical angle in (-π, π]. -/
theorem angleTheta_orders_by_angle {ux uy vx vy : ℝ} (hu : ¬ (ux = 0 ∧ uy = 0)) (hv : ¬ (vx = 0 ∧ vy = 0)) :
    angleTheta uy ux < angleTheta vy vx ↔ Complex.arg ⟨ux, uy⟩ < Complex.arg ⟨vx, vy⟩ :=
  (angleTheta_lt_iff hu hv).trans (angleLess_iff_arg hu hv)

/-- Equal values of `angleTheta` mean equal directions. -/
theorem angleTheta_eq_iff {ux uy vx vy : ℝ} (hu : ¬ (ux = 0 ∧ uy = 0)) (hv : ¬ (vx = 0 ∧ vy = 0)) :
    angleTheta uy ux = angleTheta vy vx ↔ Complex.arg ⟨ux, uy⟩ = Complex.arg ⟨vx, vy⟩ := by
  have h1 := angleTheta_orders_by_angle hu hv
  have h2 := angleTheta_orders_by_angle hv hu
  constructor
  · intro h
    exact le_antisymm (not_lt.mp fun h' => absurd (h2.mpr h') (by rw [h]; exact lt_irrefl _))
      (not_lt.mp fun h' => absurd (h1.mpr h') (by rw [h]; exact lt_irrefl _))
  · intro h
    exact le_antisymm (not_lt.mp fun h' => absurd (h2.mp h') (by rw [h]; exact lt_irrefl _))
      (not_lt.mp fun h' => absurd (h1.mp h') (by rw [h]; exact lt_irrefl _))

example : ¬ ((-1 : ℝ) = 0 ∧ (-1 : ℝ) = 0) := by norm_num

/-! ## sorting -/

/-- The direction in which a dart leaves its node, as an angle: `y` points down in image coordinates, so
the angle is that of `(dx, -dy)`. -/
noncomputable def dartAngle (s : GMap ℝ) (d : Int) : Option ℝ :=
  (s.edge d.natAbs).bind fun e =>
    match e.dartPts d with
    | p :: q :: _ => some (Complex.arg ⟨q.1 - p.1, -(q.2 - p.2)⟩)
    | _ => none

/-- the dart has a direction: its first two points differ -/
def HasDirection (s : GMap ℝ) (d : Int) : Prop :=
  ∃ e p q l, s.edge d.natAbs = some e ∧ e.dartPts d = p :: q :: l ∧ p ≠ q

theorem angle?_dartAngle {s : GMap ℝ} {d : Int} (h : HasDirection s d) : ∃ x y : ℝ, ¬ (x = 0 ∧ y = 0) ∧ s.angle? d = some (angleTheta y x) ∧
    dartAngle s d = some (Complex.arg ⟨x, y⟩) := by
  obtain ⟨e, p, q, l, he, hp, hne⟩ := h
  refine ⟨q.1 - p.1, -(q.2 - p.2), ?_, ?_, ?_⟩
  · rintro ⟨h1, h2⟩
    exact hne (Prod.ext (by linarith) (by linarith))
  · simp only [GMap.angle?, he, Option.bind_some, hp, firstAngle, Option.some.injEq]
    congr 1; ring
  · simp only [dartAngle, he, Option.bind_some, hp]

/-- After a successful `sortEdgesDirectly` the darts around each node follow each other counter-clockwise:
the successor of a dart has the next larger angle, and the successor of the dart with the largest angle is the
one with the smallest.  No two darts of a node have the same angle.  Apart from the order of the darts
nothing changed. -/
theorem sortEdgesDirectly_sorts {s t : GMap ℝ} (hs : Reach s) (hdir : ∀ d, s.liveD d → HasDirection s d)
    (e : s.sortEdgesDirectly = .ok t) :
    (∃ sg sgi, t = { s with sigma := sg, sigmaInv := sgi, edgesSorted := true }) ∧
    (∀ d, s.liveD d → ∃ a b, dartAngle t d = some a ∧ dartAngle t (t.nextSigma d) = some b ∧ t.startN? (t.nextSigma d) = t.startN? d ∧
      ((a < b ∧ ∀ d' c, t.startN? d' = t.startN? d → dartAngle t d' = some c → c ≤ a ∨ b ≤ c) ∨
       (∀ d' c, t.startN? d' = t.startN? d → dartAngle t d' = some c → b ≤ c ∧ c ≤ a))) ∧
    ∀ d d' a, t.startN? d = t.startN? d' → dartAngle t d = some a → dartAngle t d' = some a → d = d' := by
  have hi : ¬ s.initialized := by intro hi; unfold GMap.sortEdgesDirectly at e; rw [if_pos hi] at e; cases e
  obtain ⟨π, hg⟩ := hs.good.map.graph.exists_rep
  rcases sortEdgesDirectly_spec hg hi with ⟨e', -⟩ | ⟨t', π', h1, h2, h3, h4⟩
  · rw [e'] at e; cases e
  rw [h1] at e; cases e
  have hed : t.edge = s.edge := by obtain ⟨sg, sgi, h⟩ := h3; rw [h]
  have hdir' : ∀ d, t.liveD d → HasDirection t d := by
    intro d hd
    unfold GMap.liveD at hd; rw [hed] at hd
    obtain ⟨e, p, q, l, a1, a2, a3⟩ := hdir d hd
    exact ⟨e, p, q, l, by rw [hed]; exact a1, a2, a3⟩
  -- comparison of theta and angle for live darts
  have cmp : ∀ {x y : Int} {a b ta tb : ℝ}, t.liveD x → t.liveD y → dartAngle t x = some a → dartAngle t y = some b →
      t.angle? x = some ta → t.angle? y = some tb → ((ta < tb ↔ a < b) ∧ (ta ≤ tb ↔ a ≤ b)) := by
    intro x y a b ta tb hx hy ha hb hta htb
    obtain ⟨x1, y1, n1, q1, q2⟩ := angle?_dartAngle (hdir' x hx)
    obtain ⟨x2, y2, n2, q3, q4⟩ := angle?_dartAngle (hdir' y hy)
    rw [hta] at q1; rw [htb] at q3; rw [ha] at q2; rw [hb] at q4
    cases q1; cases q2; cases q3; cases q4
    exact ⟨angleTheta_orders_by_angle n1 n2, by rw [← not_lt, ← not_lt, angleTheta_orders_by_angle n2 n1]⟩
  have live_angle : ∀ {x : Int} {a : ℝ}, dartAngle t x = some a → t.liveD x := by
    intro x a h
    unfold dartAngle at h
    unfold GMap.liveD
    cases hx : t.edge x.natAbs with
    | none => rw [hx] at h; cases h
    | some e => rfl
  have theta : ∀ {x : Int}, t.liveD x → ∃ ta, t.angle? x = some ta := fun hx => by
    obtain ⟨x1, y1, -, q1, -⟩ := angle?_dartAngle (hdir' _ hx); exact ⟨_, q1⟩
  refine ⟨h3, fun d hd => ?_, fun d d' a hst ha hb => ?_⟩
  · have hd' : t.liveD d := by unfold GMap.liveD at hd ⊢; rw [hed]; exact hd
    have hn := (h2.graphOK.sigma_live d hd').1
    obtain ⟨ed, hed'⟩ := liveD_exists hd'
    have hstart := startN?_of hed'
    obtain ⟨ta, tb, g1, g2, g3⟩ := (h4 (ed.startOf d)).1 d hstart
    obtain ⟨x1, y1, n1, q1, q2⟩ := angle?_dartAngle (hdir' d hd')
    obtain ⟨x2, y2, n2, q3, q4⟩ := angle?_dartAngle (hdir' _ hn)
    refine ⟨_, _, q2, q4, h2.graphOK.start_sigma d hd', ?_⟩
    rw [hstart]
    rcases g3 with ⟨g3, g4⟩ | g3
    · left
      refine ⟨(cmp hd' hn q2 q4 g1 g2).1.mp g3, fun d'' c k1 k2 => ?_⟩
      have hl := live_angle k2
      obtain ⟨tc, hc⟩ := theta hl
      rcases g4 d'' tc k1 hc with h | h
      · exact Or.inl ((cmp hl hd' k2 q2 hc g1).2.mp h)
      · exact Or.inr ((cmp hn hl q4 k2 g2 hc).2.mp h)
    · right
      intro d'' c k1 k2
      have hl := live_angle k2
      obtain ⟨tc, hc⟩ := theta hl
      obtain ⟨h, h'⟩ := g3 d'' tc k1 hc
      exact ⟨(cmp hn hl q4 k2 g2 hc).2.mp h, (cmp hl hd' k2 q2 hc g1).2.mp h'⟩
  · have l1 := live_angle ha
    have l2 := live_angle hb
    obtain ⟨ta, q1⟩ := theta l1
    obtain ⟨tb, q2⟩ := theta l2
    have : ta = tb := le_antisymm ((cmp l1 l2 ha hb q1 q2).2.mpr le_rfl) ((cmp l2 l1 hb ha q2 q1).2.mpr le_rfl)
    subst this
    obtain ⟨ed, hed'⟩ := liveD_exists l1
    have hstart := startN?_of hed'
    exact (h4 (ed.startOf d)).2 d d' ta hstart (by rw [← hst]; exact hstart) q1 q2

/-- Equal directions are rejected: if two darts leave a node with the same angle, `sortEdgesDirectly` reports
a violated precondition. -/
theorem sortEdgesDirectly_rejects {s : GMap ℝ} (hs : Reach s) (hi : ¬ s.initialized) {d d' : Int} {n : Nat} {a : ℝ} (hne : d ≠ d')
    (h1 : s.startN? d = some n) (h2 : s.startN? d' = some n) (hd : HasDirection s d) (hd' : HasDirection s d')
    (a1 : dartAngle s d = some a) (a2 : dartAngle s d' = some a) : s.sortEdgesDirectly = .precond := by
  obtain ⟨π, hg⟩ := hs.good.map.graph.exists_rep
  rcases sortEdgesDirectly_spec hg hi with ⟨e', -⟩ | ⟨t, π', e, -, ⟨sg, sgi, h3⟩, h4⟩
  · exact e'
  exfalso
  obtain ⟨x1, y1, n1, q1, q2⟩ := angle?_dartAngle hd
  obtain ⟨x2, y2, n2, q3, q4⟩ := angle?_dartAngle hd'
  rw [a1] at q2; rw [a2] at q4
  have : angleTheta y1 x1 = angleTheta y2 x2 := (angleTheta_eq_iff n1 n2).mpr (by rw [← Option.some.inj q2, ← Option.some.inj q4])
  rw [← this] at q3
  refine hne ((h4 n).2 d d' (angleTheta y1 x1) ?_ ?_ ?_ ?_)
  · rw [h3]; exact h1
  · rw [h3]; exact h2
  · rw [h3]; exact q1
  · rw [h3]; exact q3

/-! A graph with real coordinates to which `sortEdgesDirectly_sorts` applies: edges 1 and 2 leave node 0 to the right and
downwards. -/

noncomputable def rn : GMap ℝ := (((GMap.empty.addNodeAt (0, 0) 0).2.addNodeAt (1, 0) 0).2.addNodeAt (0, 1) 0).2
noncomputable def r1 : GMap ℝ := Example.val GMap.empty ((Op.addEdge (.node 0) (.node 1) [(0, 0), (1, 0)] 0).run Hooks.none rn)
noncomputable def r2 : GMap ℝ := Example.val GMap.empty ((Op.addEdge (.node 0) (.node 2) [(0, 0), (0, 1)] 0).run Hooks.none r1)

theorem r1_ok : (Op.addEdge (.node 0) (.node 1) [(0, 0), (1, 0)] 0).run Hooks.none rn = .ok r1 := rfl
theorem r2_ok : (Op.addEdge (.node 0) (.node 2) [(0, 0), (0, 1)] 0).run Hooks.none r1 = .ok r2 := rfl

theorem r2_edge : r2.edge = Function.update (Function.update (fun _ => none) 1 (some ⟨0, 1, none, none, [(0, 0), (1, 0)], 0⟩)) 2
    (some ⟨0, 2, none, none, [(0, 0), (0, 1)], 0⟩) := rfl

theorem r2_reach : Reach r2 := by
  refine .call Hooks.none _ (.call Hooks.none _ (.call Hooks.none (.addNode (0, 1) 0) (.call Hooks.none (.addNode (1, 0) 0)
    (.call Hooks.none (.addNode (0, 0) 0) .empty trivial rfl ?_) trivial rfl ?_) trivial rfl ?_) ?_ r1_ok ?_) ?_ r2_ok ?_
  any_goals (intro _ h; exact absurd h (Nat.lt_irrefl 0))
  · exact ⟨by simp, fun n h => by cases h; rfl, fun n h => by cases h; rfl⟩
  · exact ⟨by simp, fun n h => by cases h; rfl, fun n h => by cases h; rfl⟩

theorem r2_live {d : Int} (h : r2.liveD d) : d = 1 ∨ d = -1 ∨ d = 2 ∨ d = -2 := by
  unfold GMap.liveD at h
  rw [r2_edge] at h
  simp only [Function.update_apply] at h
  split_ifs at h with h1 h2
  · omega
  · omega
  · cases h

theorem r2_directions (d : Int) (h : r2.liveD d) : HasDirection r2 d := by
  unfold HasDirection
  rw [r2_edge]
  rcases r2_live h with rfl | rfl | rfl | rfl <;>
    exact ⟨_, _, _, _, rfl, rfl, by simp⟩

example : ∃ t, r2.sortEdgesDirectly = .ok t := by
  obtain ⟨π, hg⟩ := r2_reach.good.map.graph.exists_rep
  rcases sortEdgesDirectly_spec hg (Nat.lt_irrefl 0) with ⟨-, n, ⟨d, h1, h2⟩ | h⟩ | ⟨t, π', e, -⟩
  · obtain ⟨x, y, -, h3, -⟩ := angle?_dartAngle (r2_directions d (liveD_of_start h1))
    rw [h2] at h3; cases h3
  · exfalso
    apply h
    intro d d' a h1 h2 h3 h4
    have a1 : r2.angle? 1 = some 0 := by simp [GMap.angle?, r2_edge, Edge.dartPts, firstAngle, angleTheta]
    have a2 : r2.angle? 2 = some (-1) := by simp [GMap.angle?, r2_edge, Edge.dartPts, firstAngle, angleTheta]
    have s1 : r2.startN? 1 = some 0 := rfl
    have s2 : r2.startN? 2 = some 0 := rfl
    have s1' : r2.startN? (-1) = some 1 := rfl
    have s2' : r2.startN? (-2) = some 2 := rfl
    rcases r2_live (liveD_of_start h1) with rfl | rfl | rfl | rfl <;> rcases r2_live (liveD_of_start h2) with rfl | rfl | rfl | rfl <;>
      simp_all
  · exact ⟨t, e⟩

end Verif.GeoMap.Props
