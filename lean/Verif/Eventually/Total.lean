import Verif.Eventually.Node
import Mathlib.Analysis.SpecialFunctions.Trigonometric.Bounds

/-! # The recursion of `sortEdgesInternal` ends for small angles (helper lemmas) -/

namespace Verif.Eventually
open Verif Verif.GeoMap Verif.PointIter Verif.DartPos Equiv

/-! ## distances -/

theorem sqMag_le_iff {v : Pt ℝ} {r : ℝ} (hr : 0 ≤ r) : sqMag v ≤ r * r ↔ mag v ≤ r := by
  rw [mag]
  constructor
  · intro h
    have := Real.sqrt_le_sqrt h
    rwa [Real.sqrt_mul_self hr] at this
  · intro h
    have h0 := sqMag_nonneg v
    have := Real.mul_self_sqrt h0
    have h1 := Real.sqrt_nonneg (sqMag v)
    nlinarith

theorem sqMag_lt_iff {v : Pt ℝ} {r : ℝ} (hr : 0 ≤ r) : sqMag v < r * r ↔ mag v < r := by
  rw [mag]
  have h0 := sqMag_nonneg v
  have := Real.mul_self_sqrt h0
  have h1 := Real.sqrt_nonneg (sqMag v)
  constructor
  · intro h
    by_contra hc
    nlinarith
  · intro h
    nlinarith

theorem polar (c p : Pt ℝ) : p.1 - c.1 = mag (p - c) * Real.cos (atan2 (-p.2 + c.2) (p.1 - c.1)) ∧
    -p.2 + c.2 = mag (p - c) * Real.sin (atan2 (-p.2 + c.2) (p.1 - c.1)) := by
  have hn : ‖(⟨p.1 - c.1, -p.2 + c.2⟩ : ℂ)‖ = mag (p - c) := by
    rw [mag, sqMag, Complex.norm_def, Complex.normSq_mk]
    congr 1
    simp only [Prod.fst_sub, Prod.snd_sub]
    ring
  have h := Complex.norm_mul_cos_arg (⟨p.1 - c.1, -p.2 + c.2⟩ : ℂ)
  have h' := Complex.norm_mul_sin_arg (⟨p.1 - c.1, -p.2 + c.2⟩ : ℂ)
  rw [hn] at h h'
  exact ⟨h.symm, h'.symm⟩

theorem close_of_cos {c p q : Pt ℝ} {r : ℝ} (hp : mag (p - c) ≤ r) (hq : mag (q - c) ≤ r)
    (h : 1 / 2 ≤ Real.cos (atan2 (-p.2 + c.2) (p.1 - c.1) - atan2 (-q.2 + c.2) (q.1 - c.1))) : mag (p - q) ≤ r := by
  obtain ⟨p1, p2⟩ := polar c p
  obtain ⟨q1, q2⟩ := polar c q
  have ha := mag_nonneg (p - c)
  have hb := mag_nonneg (q - c)
  rw [← sqMag_le_iff (ha.trans hp)]
  set a := mag (p - c)
  set b := mag (q - c)
  set φ := atan2 (-p.2 + c.2) (p.1 - c.1)
  set ψ := atan2 (-q.2 + c.2) (q.1 - c.1)
  have e : sqMag (p - q) = a * a + b * b - 2 * (a * b) * Real.cos (φ - ψ) := by
    rw [Real.cos_sub]
    have s1 := Real.sin_sq_add_cos_sq φ
    have s2 := Real.sin_sq_add_cos_sq ψ
    simp only [sqMag, Prod.fst_sub, Prod.snd_sub]
    have d1 : p.1 - q.1 = a * Real.cos φ - b * Real.cos ψ := by linarith
    have d2 : p.2 - q.2 = b * Real.sin ψ - a * Real.sin φ := by linarith
    rw [d1, d2]
    linear_combination a ^ 2 * s1 + b ^ 2 * s2
  rw [e]
  have hab : 0 ≤ a * b := mul_nonneg ha hb
  nlinarith [mul_nonneg hab (by linarith : (0 : ℝ) ≤ Real.cos (φ - ψ) - 1 / 2), mul_nonneg (sub_nonneg.2 hp) (sub_nonneg.2 hq), mul_nonneg ha (sub_nonneg.2 hq), mul_nonneg hb (sub_nonneg.2 hp), mul_nonneg ha (sub_nonneg.2 hp), mul_nonneg hb (sub_nonneg.2 hq)]

theorem mag_sum_le {r : ℝ} {p : Pt ℝ} : ∀ {l : List (Pt ℝ)}, (∀ q ∈ l, mag (p - q) ≤ r) → mag ((l.length : ℝ) • p - l.sum) ≤ l.length * r
  | [], _ => by simp [mag_eq_zero.2]
  | q :: l, h => by
    have ih := mag_sum_le (l := l) (fun z hz => h z (by simp [hz]))
    have e : ((q :: l).length : ℝ) • p - (q :: l).sum = (p - q) + ((l.length : ℝ) • p - l.sum) := by
      simp only [List.length_cons, List.sum_cons, Nat.cast_add, Nat.cast_one, add_smul, one_smul]
      abel
    rw [e]
    refine (mag_add_le _ _).trans ?_
    have := h q (by simp)
    simp only [List.length_cons, Nat.cast_add, Nat.cast_one]
    linarith

theorem mean_close {r : ℝ} {l : List (Pt ℝ)} (h : ∀ p ∈ l, ∀ q ∈ l, mag (p - q) ≤ r) {p : Pt ℝ} (hp : p ∈ l) :
    mag (p - (1 / (l.length : ℝ)) • l.sum) ≤ r - r / l.length := by
  obtain ⟨u, v, rfl⟩ := List.append_of_mem hp
  set n : ℝ := ((u ++ p :: v).length : ℝ) with hn
  have n0 : 0 < n := by rw [hn]; simp; positivity
  have h1 := mag_sum_le (p := p) (l := u ++ v) (r := r) (fun q hq => h p (by simp) q (by
    rcases List.mem_append.1 hq with hq | hq <;> simp [hq]))
  have hlen : ((u ++ v).length : ℝ) = n - 1 := by rw [hn]; simp; ring
  have e : p - (1 / n) • (u ++ p :: v).sum = (1 / n) • (((u ++ v).length : ℝ) • p - (u ++ v).sum) := by
    rw [hlen]
    simp only [List.sum_append, List.sum_cons, smul_sub, smul_smul, smul_add]
    rw [show 1 / n * (n - 1) = 1 - 1 / n by field_simp, sub_smul, one_smul]
    abel
  rw [e, mag_smul _ _ (by positivity)]
  rw [hlen] at h1
  rw [hlen]
  calc 1 / n * mag ((n - 1) • p - (u ++ v).sum) ≤ 1 / n * ((n - 1) * r) := by
        exact mul_le_mul_of_nonneg_left h1 (by positivity)
    _ = r - r / n := by field_simp

/-! ## one circle -/

/-- The entry stands on the polyline `L`, at the position with its arc length or at the end. -/
def Placed (L : List (Pt ℝ)) (x : DPA) : Prop := (∃ k, Track L x.dp k ∧ InSeg x.dp) ∨ (Done L x.dp ∧ x.dp.pos = x.dp.p1)

theorem Placed.valid {L : List (Pt ℝ)} {x : DPA} (h : Placed L x) : Valid x := by
  rcases h with ⟨k, t, -⟩ | ⟨t, -⟩
  · exact ⟨L, Or.inl ⟨k, t⟩⟩
  · exact ⟨L, Or.inr t⟩

theorem Placed.le {L : List (Pt ℝ)} {x : DPA} (h : Placed L x) (he : x.dp.atEnd = false) : x.dp.arcLength ≤ pathLen L := by
  rcases h with ⟨k, t, u, u0, u1, -, up⟩ | ⟨t, -⟩
  · rw [DP.arcLength, up, t.arc]
    have := reach_le (L := L) (k + 1)
    rw [reach_succ t.p1 t.p2] at this
    nlinarith [mag_nonneg (x.dp.p2 - x.dp.p1)]
  · rw [DP.atEnd, t.atEnd] at he; cases he

theorem measure_placed {L : List (Pt ℝ)} {x : DPA} (h : Placed L x) {c : Pt ℝ} {ref r : ℝ} (hr : 0 < r) (hc : mag (x.dp.pos - c) < r) :
    ∃ y, measure c ref (r * r) x = .ok y ∧ y.label = x.label ∧ y.common = x.common ∧ Placed L y ∧ mag (y.dp.pos - c) ≤ r ∧
      y.absAngle = atan2 (-y.dp.pos.2 + c.2) (y.dp.pos.1 - c.1) ∧ y.angle = normAngle (y.absAngle - ref) ∧
      (y.dp.atEnd = false → x.dp.atEnd = false ∧ x.dp.arcLength + (r - mag (x.dp.pos - c)) ≤ y.dp.arcLength) := by
  rcases h with ⟨k, t, ins⟩ | ⟨t, hp⟩
  · obtain ⟨b, s', e, h1⟩ := t.intersect (c := c) (r2 := r * r)
    have hne : ¬ x.dp.atEnd = true := by rw [DP.atEnd, t.atEnd]; simp
    have hin := (sqMag_lt_iff hr.le).2 hc
    refine ⟨{ x with
      dp := s', absAngle := atan2 (-s'.pos.2 + c.2) (s'.pos.1 - c.1),
      angle := normAngle (atan2 (-s'.pos.2 + c.2) (s'.pos.1 - c.1) - ref) }, by rw [measure, if_neg hne, e]; rfl, rfl, rfl, ?_⟩
    cases b with
    | true =>
      simp only [if_true] at h1
      obtain ⟨k', -, t', -, hon, hle⟩ := h1
      obtain ⟨i1, hc1⟩ := hon (Or.inr ⟨ins, hin⟩)
      refine ⟨Or.inl ⟨k', t', i1⟩, (sqMag_le_iff hr.le).1 hc1.le, rfl, rfl, fun _ => ⟨by simpa using hne, ?_⟩⟩
      have hle' := hle ⟨ins, hin⟩
      have a1 := (t.along ins)
      have a2 := (t'.along i1)
      have lip := along_lip (L := L) a1.2 hle'
      rw [← a1.1, ← a2.1] at lip
      have e1 : mag (s'.pos - c) = r := by
        rw [mag, hc1, Real.sqrt_mul_self hr.le]
      have tri := mag_add_le (s'.pos - x.dp.pos) (x.dp.pos - c)
      rw [sub_add_sub_cancel, e1] at tri
      simp only
      linarith
    | false =>
      simp only [Bool.false_eq_true, if_false] at h1
      obtain ⟨d, hp, -, hins⟩ := h1
      refine ⟨Or.inr ⟨d, hp⟩, ?_, rfl, rfl, fun h => ?_⟩
      · refine (sqMag_le_iff hr.le).1 (le_of_lt ?_)
        simp only
        rw [hp]
        refine hins (L.length - 1) s'.p1 (by have := t.lt; omega) ?_
        rw [← List.getLast?_eq_getElem?]; exact d.p1
      · simp only at h
        rw [DP.atEnd, d.atEnd] at h; cases h
  · have he : x.dp.atEnd = true := t.atEnd
    refine ⟨{ x with
      dp := x.dp, absAngle := atan2 (-x.dp.pos.2 + c.2) (x.dp.pos.1 - c.1),
      angle := normAngle (atan2 (-x.dp.pos.2 + c.2) (x.dp.pos.1 - c.1) - ref) }, by rw [measure, if_pos he]; rfl, rfl, rfl,
      Or.inr ⟨t, hp⟩, hc.le, rfl, rfl, fun h => ?_⟩
    simp only at h
    rw [he] at h; cases h

/-! ## angles -/

theorem normAngle_wide {x : ℝ} (h1 : -(2 * Real.pi) ≤ x) (h2 : x ≤ 2 * Real.pi) : (-Real.pi ≤ normAngle x ∧ normAngle x < Real.pi) ∧
    ∃ k : ℤ, normAngle x = x + k * (2 * Real.pi) := by
  have := Real.pi_pos
  rw [normAngle]
  split_ifs with h h' h'
  · exact ⟨by constructor <;> linarith, 0, by push_cast; ring⟩
  · exact ⟨by constructor <;> linarith, 1, by push_cast; ring⟩
  · exact ⟨by constructor <;> linarith, -1, by push_cast; ring⟩
  · exact ⟨by constructor <;> linarith, 0, by push_cast; ring⟩

theorem atan2_range (y x : ℝ) : -Real.pi ≤ atan2 y x ∧ atan2 y x ≤ Real.pi := ⟨(Complex.neg_pi_lt_arg _).le, Complex.arg_le_pi _⟩

theorem refAngle_range {g : List DPA} (h : ∀ x ∈ g, -Real.pi ≤ x.absAngle ∧ x.absAngle ≤ Real.pi) : -Real.pi ≤ refAngle g ∧ refAngle g ≤ Real.pi := by
  have pp := Real.pi_pos
  rw [refAngle]
  rcases e1 : g.head? with _ | x
  · simp only; constructor <;> linarith
  · rcases e2 : g.getLast? with _ | y
    · simp only; constructor <;> linarith
    · simp only
      have hx := h x (List.mem_of_mem_head? e1)
      have hy := h y (List.mem_of_getLast? e2)
      have h1 := (normAngle_wide (x := y.absAngle - x.absAngle) (by linarith) (by linarith)).1
      have h2 := (normAngle_wide (x := x.absAngle + normAngle (y.absAngle - x.absAngle) / 2) (by linarith) (by linarith)).1
      exact ⟨h2.1, h2.2.le⟩

theorem chain_span {w : DPA → ℝ} {m : ℝ} (hm : 0 < m) : ∀ {g : List DPA} {x : DPA}, (x :: g).IsChain (fun x y => w x ≤ w y ∧ w y < w x + m) →
    ∀ y ∈ x :: g, w x ≤ w y ∧ w y ≤ w x + g.length * m
  | [], x, _, y, hy => by
    rw [List.mem_singleton] at hy
    subst hy; simp
  | z :: g, x, hc, y, hy => by
    rw [List.isChain_cons_cons] at hc
    rcases List.mem_cons.1 hy with rfl | hy
    · refine ⟨le_rfl, ?_⟩
      have : 0 ≤ ((z :: g).length : ℝ) * m := by positivity
      linarith
    · have := chain_span hm hc.2 y hy
      simp only [List.length_cons, Nat.cast_add, Nat.cast_one]
      exact ⟨by linarith [hc.1.1], by linarith [hc.1.2]⟩

theorem group_span {w : DPA → ℝ} {m : ℝ} (hm : 0 < m) {g : List DPA} (h : g.IsChain (fun x y => w x ≤ w y ∧ w y < w x + m)) {x y : DPA} (hx : x ∈ g) (hy : y ∈ g) :
    |w x - w y| ≤ (g.length - 1) * m := by
  cases g with
  | nil => cases hx
  | cons z g =>
    have h1 := chain_span hm h x hx
    have h2 := chain_span hm h y hy
    simp only [List.length_cons, Nat.cast_add, Nat.cast_one, add_sub_cancel_right]
    rw [abs_le]
    constructor <;> linarith [h1.1, h1.2, h2.1, h2.2]

/-! ## the recursion -/

theorem sortGroups_total {rec : Pt ℝ → ℝ → List DPA → St → Outcome (List DPA × St)} :
    ∀ (gs : List (List DPA)) (st : St), (∀ g ∈ gs, g.length > 1 → ∀ st, ∃ r, rec (meanPos g) (refAngle g) (g.map (·.setCommon)) st = .ok r) →
      ∃ r, sortGroups rec gs st = .ok r := by
  intro gs
  induction gs with
  | nil => intro st _; exact ⟨_, rfl⟩
  | cons g gs ih =>
    intro st h
    obtain ⟨r, hr⟩ : ∃ r, (if g.length > 1 then rec (meanPos g) (refAngle g) (g.map (·.setCommon)) st else .ok (g, st)) = .ok r := by
      split_ifs with hg
      · exact h g (by simp) hg st
      · exact ⟨_, rfl⟩
    obtain ⟨q, hq⟩ := ih r.2 (fun g hg => h g (by simp [hg]))
    exact ⟨_, by rw [sortGroups, hr, Outcome.bind_ok, hq, Outcome.bind_ok]⟩

/-- the darts of a group stay close to their mean position -/
theorem groups_close {srt : List DPA → List DPA} (hs : Sorter srt) {r m : ℝ} (hr : 0 < r) (hm : 0 < m) {N : Nat}
    (hN : ((N : ℝ) - 1) * m ≤ Real.pi / 3) {c : Pt ℝ} {ref : ℝ} (href1 : -Real.pi ≤ ref) (href2 : ref ≤ Real.pi) {l1 : List DPA} (hlN : l1.length ≤ N)
    (hl1 : ∀ y ∈ l1, mag (y.dp.pos - c) ≤ r ∧ y.absAngle = atan2 (-y.dp.pos.2 + c.2) (y.dp.pos.1 - c.1) ∧ y.angle = normAngle (y.absAngle - ref)) :
    ∀ g ∈ groups m (rotateGroups m (srt l1)), g.length > 1 → g.length ≤ N ∧ (∀ x ∈ g, x ∈ l1 ∧ mag (x.dp.pos - meanPos g) ≤ r - r / N) ∧
      -Real.pi ≤ refAngle g ∧ refAngle g ≤ Real.pi := by
  have pp := Real.pi_pos
  have p2 : (rotateGroups m (srt l1)).Perm l1 := (rotateGroups_perm m _).trans (hs l1).1
  have hfl : (groups m (rotateGroups m (srt l1))).flatten = rotateGroups m (srt l1) := List.flatten_splitBy _ _
  have hwide : ∀ y ∈ l1, (-Real.pi ≤ y.angle ∧ y.angle < Real.pi) ∧ ∃ k : ℤ, y.angle = y.absAngle - ref + k * (2 * Real.pi) := by
    intro y hy
    obtain ⟨-, a, b⟩ := hl1 y hy
    have := atan2_range (-y.dp.pos.2 + c.2) (y.dp.pos.1 - c.1)
    rw [← a] at this
    rw [b]
    exact normAngle_wide (by linarith [this.1]) (by linarith [this.2])
  obtain ⟨w, cut, hw, hsort, hnb⟩ := rotated_sorted hm (hs l1).2 (fun x hx => (hwide x ((hs l1).1.mem_iff.1 hx)).1)
  have hwk : ∀ y ∈ l1, ∃ k : ℤ, w y.angle = y.absAngle - ref + k * (2 * Real.pi) := by
    intro y hy
    obtain ⟨k, hk⟩ := (hwide y hy).2
    rcases (hw y ((hs l1).1.mem_iff.2 hy)).1 with h | h
    · exact ⟨k, by rw [h, hk]⟩
    · exact ⟨k + 1, by rw [h, hk]; push_cast; ring⟩
  intro g hg hg2
  have hgm : ∀ x ∈ g, x ∈ l1 := fun x hx => p2.mem_iff.1 (by rw [← hfl]; exact List.mem_flatten.2 ⟨g, hg, hx⟩)
  obtain ⟨u, v, e⟩ : ∃ u v, rotateGroups m (srt l1) = u ++ g ++ v := by
    rw [← hfl]
    obtain ⟨u, v, e⟩ := List.append_of_mem hg
    exact ⟨u.flatten, v.flatten, by rw [e]; simp⟩
  have hgN : g.length ≤ N := by
    have := p2.length_eq
    rw [e] at this
    simp at this
    omega
  have hchain : g.IsChain (fun x y => w x.angle ≤ w y.angle ∧ w y.angle < w x.angle + m) := by
    refine chain_of_neighbours (R := fun x y => y.angle < x.angle + m) ?_ u v g e ?_
    · intro p x y q e hxy
      refine ⟨?_, hnb p x y q e hxy⟩
      rw [e, List.pairwise_append] at hsort
      exact (List.pairwise_cons.1 hsort.2.1).1 y (by simp)
    · have := List.isChain_of_mem_splitBy hg
      exact this.imp (fun x y h => by simpa using h)
  -- the darts of the group are close to each other
  have hclose : ∀ x ∈ g, ∀ y ∈ g, mag (x.dp.pos - y.dp.pos) ≤ r := by
    intro x hx y hy
    obtain ⟨x1, x2, -⟩ := hl1 x (hgm x hx)
    obtain ⟨y1, y2, -⟩ := hl1 y (hgm y hy)
    refine close_of_cos x1 y1 ?_
    rw [← x2, ← y2]
    obtain ⟨k, hk⟩ := hwk x (hgm x hx)
    obtain ⟨k', hk'⟩ := hwk y (hgm y hy)
    have hspan := group_span (w := fun z => w z.angle) hm hchain hx hy
    have hb : ((g.length : ℝ) - 1) * m ≤ Real.pi / 3 := by
      refine le_trans (mul_le_mul_of_nonneg_right ?_ hm.le) hN
      have : (g.length : ℝ) ≤ N := by exact_mod_cast hgN
      linarith
    have e3 : x.absAngle - y.absAngle = (w x.angle - w y.angle) + ((k' - k : ℤ) : ℝ) * (2 * Real.pi) := by
      rw [hk, hk']; push_cast; ring
    rw [e3, Real.cos_add_int_mul_two_pi, ← Real.cos_abs, ← Real.cos_pi_div_three]
    exact Real.cos_le_cos_of_nonneg_of_le_pi (abs_nonneg _) (by linarith) (hspan.trans hb)
  have hg0 : (0 : ℝ) < g.length := by
    have : 0 < g.length := by omega
    exact_mod_cast this
  have hmean : ∀ x ∈ g, mag (x.dp.pos - meanPos g) ≤ r - r / N := by
    intro x hx
    have := mean_close (r := r) (l := g.map (·.dp.pos)) (by
      intro p hp q hq
      obtain ⟨x, hx, rfl⟩ := List.mem_map.1 hp
      obtain ⟨y, hy, rfl⟩ := List.mem_map.1 hq
      exact hclose x hx y hy) (List.mem_map.2 ⟨x, hx, rfl⟩)
    rw [List.length_map] at this
    rw [meanPos]
    refine this.trans ?_
    have : r / N ≤ r / g.length := by
      refine div_le_div_of_nonneg_left hr.le hg0 ?_
      exact_mod_cast hgN
    linarith
  have href := refAngle_range (g := g) (fun x hx => by
    rw [(hl1 x (hgm x hx)).2.1]
    exact atan2_range _ _)
  exact ⟨hgN, fun x hx => ⟨hgm x hx, hmean x hx⟩, href.1, href.2⟩

theorem sortInternal_total {srt : List DPA → List DPA} (hs : Sorter srt) {r m : ℝ} (hr : 0 < r) (hm : 0 < m) {N : Nat} (hN1 : 0 < N)
    (hN : ((N : ℝ) - 1) * m ≤ Real.pi / 3) (pts : Int → List (Pt ℝ)) : ∀ (j fuel : Nat), j + 1 ≤ fuel →
    ∀ (c : Pt ℝ) (ref : ℝ) (parallel : Bool) (l : List DPA) (st : St), -Real.pi ≤ ref → ref ≤ Real.pi → l.length ≤ N →
      (∀ x ∈ l, Placed (pts x.label) x ∧ mag (x.dp.pos - c) ≤ r - r / N) →
      (∀ x ∈ l, x.dp.atEnd = false → pathLen (pts x.label) - x.dp.arcLength < j * (r / N)) →
      (parallel = true → ∀ x ∈ l, x.common.isSome) →
      ∃ q, sortInternal srt (r * r) m fuel c ref parallel l st = .ok q := by
  have N0 : (0 : ℝ) < N := by exact_mod_cast hN1
  have d0 : 0 < r / N := div_pos hr N0
  intro j
  induction j with
  | zero =>
    intro fuel hf c ref parallel l st _ _ _ hpl hrem _
    obtain ⟨fuel, rfl⟩ : ∃ f, fuel = f + 1 := ⟨fuel - 1, by omega⟩
    rw [sortInternal]
    by_cases hlen : l.length < 2
    · rw [if_pos hlen]; exact ⟨_, rfl⟩
    · rw [if_neg hlen]
      obtain ⟨l1, e1, -⟩ := mapAll_ok (fun x hx => measure_ok (hpl x hx).1.valid c ref (r * r))
      rw [e1, Outcome.bind_ok, if_pos]
      · exact ⟨_, rfl⟩
      · rw [List.all_eq_true]
        intro x hx
        by_contra hc
        have hc' : x.dp.atEnd = false := by simpa using hc
        have h1 := hrem x hx hc'
        have h2 := (hpl x hx).1.le hc'
        simp at h1
        linarith
  | succ j ih =>
    intro fuel hf c ref parallel l st href1 href2 hlN hpl hrem hcm
    obtain ⟨fuel, rfl⟩ : ∃ f, fuel = f + 1 := ⟨fuel - 1, by omega⟩
    rw [sortInternal]
    by_cases hlen : l.length < 2
    · rw [if_pos hlen]; exact ⟨_, rfl⟩
    rw [if_neg hlen]
    have hlt : ∀ x ∈ l, mag (x.dp.pos - c) < r := fun x hx => by have := (hpl x hx).2; linarith
    obtain ⟨l1, e1, k1⟩ := mapAll_ok (fun x hx => measure_placed (hpl x hx).1 (ref := ref) hr (hlt x hx))
    rw [e1, Outcome.bind_ok]
    by_cases hall : (l.all fun x => x.dp.atEnd) = true
    · rw [if_pos hall]; exact ⟨_, rfl⟩
    rw [if_neg hall]
    simp only
    have pp := Real.pi_pos
    -- what is known of the measured darts
    have hl1 : ∀ y ∈ l1, Placed (pts y.label) y ∧ mag (y.dp.pos - c) ≤ r ∧ y.absAngle = atan2 (-y.dp.pos.2 + c.2) (y.dp.pos.1 - c.1) ∧
        y.angle = normAngle (y.absAngle - ref) ∧ (y.dp.atEnd = false → pathLen (pts y.label) - y.dp.arcLength < j * (r / N)) ∧
        (parallel = true → y.common.isSome) := by
      intro y hy
      obtain ⟨x, hx, a1, a2, a3, a4, a5, a6, a7⟩ := forall2_mem k1 hy
      rw [a1]
      refine ⟨a3, a4, a5, a6, fun he => ?_, fun hp => by rw [a2]; exact hcm hp x hx⟩
      obtain ⟨b1, b2⟩ := a7 he
      have h1 := hrem x hx b1
      have h2 := (hpl x hx).2
      push_cast at h1
      linarith
    have hlenl1 : l1.length = l.length := k1.length_eq.symm
    have p2 : (rotateGroups m (srt l1)).Perm l1 := (rotateGroups_perm m _).trans (hs l1).1
    have hfl : (groups m (rotateGroups m (srt l1))).flatten = rotateGroups m (srt l1) := List.flatten_splitBy _ _
    obtain ⟨st1, e2, -⟩ := planSplits_ok (decision := decide (1 < (groups m (rotateGroups m (srt l1))).length)) (parallel := parallel)
      (l := rotateGroups m (srt l1)) (fun hp x hx => (hl1 x (p2.mem_iff.1 hx)).2.2.2.2.2 hp) st
    rw [e2, Outcome.bind_ok]
    obtain ⟨q, hq⟩ := sortGroups_total (rec := fun c ref g st => sortInternal srt (r * r) m fuel c ref true g st)
      (groups m (rotateGroups m (srt l1))) st1 (by
        intro g hg hg2 st
        obtain ⟨hgN, hgm', href⟩ := groups_close hs hr hm hN href1 href2 (hlenl1.trans_le hlN) (fun y hy => ⟨(hl1 y hy).2.1, (hl1 y hy).2.2.1, (hl1 y hy).2.2.2.1⟩) g hg hg2
        have hgm : ∀ x ∈ g, x ∈ l1 := fun x hx => (hgm' x hx).1
        have hmean : ∀ x ∈ g, mag (x.dp.pos - meanPos g) ≤ r - r / N := fun x hx => (hgm' x hx).2
        refine ih fuel (by omega) (meanPos g) (refAngle g) true (g.map (·.setCommon)) st href.1 href.2 (by simpa using hgN) ?_ ?_ ?_
        · intro x hx
          obtain ⟨y, hy, rfl⟩ := List.mem_map.1 hx
          exact ⟨(hl1 y (hgm y hy)).1, hmean y hy⟩
        · intro x hx he
          obtain ⟨y, hy, rfl⟩ := List.mem_map.1 hx
          exact (hl1 y (hgm y hy)).2.2.2.2.1 he
        · intro _ x hx
          obtain ⟨y, hy, rfl⟩ := List.mem_map.1 hx
          simp [DPA.setCommon])
    exact ⟨_, by rw [hq]; rfl⟩

end Verif.Eventually
