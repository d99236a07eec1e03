import Verif.Locate.Reach
import Verif.FaceStats.Props

/-! # A subdivision: two nested rectangles -/

namespace Verif.Locate
open Verif Verif.GeoMap Verif.Polygon Verif.Scan Verif.LabelImage Verif.FaceStats

/-- The contour of the rectangle from `(a, b)` to `(e, d)`. -/
def rect (a b e d : ℚ) : List (Pt ℚ) := [(a, b), (a, d), (e, d), (e, b), (a, b)]

/-- `r` lies on the contour of the rectangle. -/
def OnRect (a b e d : ℚ) (r : Pt ℚ) : Prop :=
  (a ≤ r.1 ∧ r.1 ≤ e) ∧ (b ≤ r.2 ∧ r.2 ≤ d) ∧ (r.1 = a ∨ r.1 = e ∨ r.2 = b ∨ r.2 = d)

theorem onLine_rect {a b e d : ℚ} (hae : a < e) (hbd : b < d) (r : Pt ℚ) : OnLine (rect a b e d) r ↔ OnRect a b e d r := by
  have vert : ∀ x y y' : ℚ, ∀ r : Pt ℚ, OnSegment (x, y) (x, y') r ↔ r.1 = x ∧ min y y' ≤ r.2 ∧ r.2 ≤ max y y' := by
    intro x y y' r
    constructor
    · rintro ⟨t, t0, t1, rfl⟩
      refine ⟨by simp, ?_, ?_⟩
      · rcases le_total y y' with h | h
        · rw [min_eq_left h]; have := mul_nonneg t0 (sub_nonneg.mpr h); simp only; linarith
        · rw [min_eq_right h]; have := mul_nonneg (sub_nonneg.mpr t1) (sub_nonneg.mpr h); simp only; linarith
      · rcases le_total y y' with h | h
        · rw [max_eq_right h]; have := mul_nonneg (sub_nonneg.mpr t1) (sub_nonneg.mpr h); simp only; linarith
        · rw [max_eq_left h]; have := mul_nonneg t0 (sub_nonneg.mpr h); simp only; linarith
    · rintro ⟨h1, h2, h3⟩
      by_cases hy : y' = y
      · subst hy
        rw [min_self] at h2; rw [max_self] at h3
        exact ⟨0, le_rfl, zero_le_one, by ext <;> simp only <;> linarith⟩
      · have hne : y' - y ≠ 0 := sub_ne_zero.mpr hy
        refine ⟨(r.2 - y) / (y' - y), ?_, ?_, ?_⟩
        · rcases lt_or_gt_of_ne hy with h | h
          · rw [max_eq_left h.le] at h3
            exact div_nonneg_of_nonpos (by linarith) (by linarith)
          · rw [min_eq_left h.le] at h2
            exact div_nonneg (by linarith) (by linarith)
        · rcases lt_or_gt_of_ne hy with h | h
          · rw [min_eq_right h.le] at h2
            rw [div_le_one_of_neg (by linarith)]; linarith
          · rw [max_eq_right h.le] at h3
            rw [div_le_one (by linarith)]; linarith
        · ext
          · simp only; linarith
          · simp only; rw [div_mul_cancel₀ _ hne]; ring
  have swap : ∀ p q r : Pt ℚ, OnSegment p q r ↔ OnSegment p.swap q.swap r.swap := by
    intro p q r
    constructor
    · rintro ⟨t, t0, t1, rfl⟩; exact ⟨t, t0, t1, rfl⟩
    · rintro ⟨t, t0, t1, h⟩
      refine ⟨t, t0, t1, ?_⟩
      have := congrArg Prod.swap h
      simpa using this
  have hor : ∀ y x x' : ℚ, ∀ r : Pt ℚ, OnSegment (x, y) (x', y) r ↔ r.2 = y ∧ min x x' ≤ r.1 ∧ r.1 ≤ max x x' := by
    intro y x x' r
    rw [swap]; exact vert y x x' r.swap
  unfold rect OnRect
  rw [LabelImage.onLine_cons, LabelImage.onLine_cons, LabelImage.onLine_cons, LabelImage.onLine_cons, onLine_single, vert, hor, vert, hor,
    min_eq_left hbd.le, max_eq_right hbd.le, min_eq_left hae.le, max_eq_right hae.le, min_eq_right hbd.le, max_eq_left hbd.le,
    min_eq_right hae.le, max_eq_left hae.le]
  constructor
  · rintro (⟨h1, h2, h3⟩ | ⟨h1, h2, h3⟩ | ⟨h1, h2, h3⟩ | ⟨h1, h2, h3⟩ | rfl)
    · exact ⟨⟨by linarith, by linarith⟩, ⟨h2, h3⟩, Or.inl h1⟩
    · exact ⟨⟨h2, h3⟩, ⟨by linarith, by linarith⟩, Or.inr (Or.inr (Or.inr h1))⟩
    · exact ⟨⟨by linarith, by linarith⟩, ⟨h2, h3⟩, Or.inr (Or.inl h1)⟩
    · exact ⟨⟨h2, h3⟩, ⟨by linarith, by linarith⟩, Or.inr (Or.inr (Or.inl h1))⟩
    · exact ⟨⟨le_rfl, hae.le⟩, ⟨le_rfl, hbd.le⟩, Or.inl rfl⟩
  · rintro ⟨⟨h1, h2⟩, ⟨h3, h4⟩, h | h | h | h⟩
    · exact Or.inl ⟨h, h3, h4⟩
    · exact Or.inr (Or.inr (Or.inl ⟨h, h3, h4⟩))
    · exact Or.inr (Or.inr (Or.inr (Or.inl ⟨h, h1, h2⟩)))
    · exact Or.inr (Or.inl ⟨h, h1, h2⟩)

/-- Inside of the rectangle, with its upper and its right side. -/
def InRect (a b e d : ℚ) (c : Pt ℚ) : Prop := (a < c.1 ∧ c.1 ≤ e) ∧ b < c.2 ∧ c.2 ≤ d

instance (a b e d : ℚ) (c : Pt ℚ) : Decidable (InRect a b e d c) := inferInstanceAs (Decidable (_ ∧ _))

theorem winding_rect {a b e d : ℚ} (hae : a < e) (hbd : b < d) (c : Pt ℚ) : winding c (rect a b e d) = if InRect a b e d c then 1 else 0 := by
  have key : winding c (rect a b e d) = turn c (a, b) (a, d) + (turn c (a, d) (e, d) + (turn c (e, d) (e, b) + (turn c (e, b) (a, b) + 0))) := rfl
  have hor : ∀ x x' y : ℚ, turn c (x, y) (x', y) = 0 := by
    intro x x' y
    unfold turn
    simp only
    split_ifs with h1 h2 <;> first | rfl | (exfalso; linarith [h2.1, h2.2])
  rw [key, hor, hor]
  unfold turn InRect
  simp only [sub_self, zero_mul, zero_div, add_zero]
  by_cases h1 : a < c.1 <;> by_cases h2 : c.1 ≤ e <;> by_cases h3 : b < c.2 <;> by_cases h4 : c.2 ≤ d <;>
    by_cases h5 : e < c.1 <;> by_cases h6 : d < c.2 <;> by_cases h7 : c.2 ≤ b <;> simp [h1, h2, h3, h4, h5, h6, h7] <;> linarith

/-- Points inside and outside close to the contour. -/
theorem near_rect {a b e d : ℚ} (hae : a < e) (hbd : b < d) {q : Pt ℚ} (hq : OnRect a b e d q) {ε : ℚ} (hε : 0 < ε) :
    (∃ c : Pt ℚ, |c.1 - q.1| < ε ∧ |c.2 - q.2| < ε ∧ (a < c.1 ∧ c.1 < e) ∧ b < c.2 ∧ c.2 < d) ∧
    ∃ c : Pt ℚ, |c.1 - q.1| < ε ∧ |c.2 - q.2| < ε ∧ (c.1 < a ∨ e < c.1 ∨ c.2 < b ∨ d < c.2) := by
  obtain ⟨δ, h0, h1, h2, h3⟩ : ∃ δ : ℚ, 0 < δ ∧ δ < ε ∧ δ < e - a ∧ δ < d - b := by
    refine ⟨min ε (min (e - a) (d - b)) / 2, ?_, ?_, ?_, ?_⟩
    · have : 0 < min ε (min (e - a) (d - b)) := by simp [hε, hae, hbd]
      linarith
    all_goals
      have hp : 0 < min ε (min (e - a) (d - b)) := by simp [hε, hae, hbd]
      have m1 : min ε (min (e - a) (d - b)) ≤ ε := min_le_left _ _
      have m2 : min ε (min (e - a) (d - b)) ≤ e - a := (min_le_right _ _).trans (min_le_left _ _)
      have m3 : min ε (min (e - a) (d - b)) ≤ d - b := (min_le_right _ _).trans (min_le_right _ _)
      linarith
  obtain ⟨⟨q1, q2⟩, ⟨q3, q4⟩, hq⟩ := hq
  have small : ∀ x : ℚ, (x = 0 ∨ x = δ ∨ x = -δ ∨ x = δ / 2 ∨ x = -(δ / 2)) → |x| < ε := by
    intro x hx
    rw [abs_lt]
    rcases hx with rfl | rfl | rfl | rfl | rfl <;> constructor <;> linarith
  constructor
  · have mid : ∀ lo hi x : ℚ, lo ≤ x → x ≤ hi → δ < hi - lo → ∃ y, |y - x| < ε ∧ lo < y ∧ y < hi := by
      intro lo hi x hx1 hx2 hd
      by_cases h : lo + δ / 2 ≤ x
      · exact ⟨x - δ / 2 + δ / 4, by rw [abs_lt]; constructor <;> linarith, by linarith, by linarith⟩
      · exact ⟨x + δ / 2, small _ (by simp), by linarith, by linarith⟩
    obtain ⟨x, x1, x2, x3⟩ := mid a e q.1 q1 q2 h2
    obtain ⟨y, y1, y2, y3⟩ := mid b d q.2 q3 q4 h3
    exact ⟨(x, y), x1, y1, ⟨x2, x3⟩, y2, y3⟩
  · rcases hq with h | h | h | h
    · exact ⟨(q.1 - δ, q.2), small _ (by simp), small _ (by simp), Or.inl (by simp only; linarith)⟩
    · exact ⟨(q.1 + δ, q.2), small _ (by simp), small _ (by simp), Or.inr (Or.inl (by simp only; linarith))⟩
    · exact ⟨(q.1, q.2 - δ), small _ (by simp), small _ (by simp), Or.inr (Or.inr (Or.inl (by simp only; linarith)))⟩
    · exact ⟨(q.1, q.2 + δ), small _ (by simp), small _ (by simp), Or.inr (Or.inr (Or.inr (by simp only; linarith)))⟩

theorem pair_edges (l : Nat) (e : Edge ℚ) (h : pair.edge l = some e) : (l = 1 ∧ e.pts = rect 0 0 9 9) ∨ (l = 2 ∧ e.pts = rect 1 1 5 5) := by
  have hlt : l < 3 := by
    have := pair_reach.reach.good.map.graph.labels.edge_lt l (by rw [h]; rfl)
    have h3 : pair.nEdges = 3 := by decide +kernel
    omega
  have h1 : (pair.edge 1).map (·.pts) = some (rect 0 0 9 9) := by decide +kernel
  have h2 : (pair.edge 2).map (·.pts) = some (rect 1 1 5 5) := by decide +kernel
  have h0 : pair.edge 0 = none := by decide +kernel
  obtain rfl | rfl | rfl : l = 0 ∨ l = 1 ∨ l = 2 := by omega
  · rw [h0] at h; cases h
  · rw [h] at h1; exact Or.inl ⟨rfl, Option.some.inj h1⟩
  · rw [h] at h2; exact Or.inr ⟨rfl, Option.some.inj h2⟩

theorem pair_onEdge (c : Pt ℚ) : OnEdge pair c ↔ OnRect 0 0 9 9 c ∨ OnRect 1 1 5 5 c := by
  constructor
  · rintro ⟨l, e, he, hc⟩
    rcases pair_edges l e he with ⟨-, h⟩ | ⟨-, h⟩
    · rw [h, onLine_rect (by norm_num) (by norm_num)] at hc; exact Or.inl hc
    · rw [h, onLine_rect (by norm_num) (by norm_num)] at hc; exact Or.inr hc
  · have h1 : (pair.edge 1).map (·.pts) = some (rect 0 0 9 9) := by decide +kernel
    have h2 : (pair.edge 2).map (·.pts) = some (rect 1 1 5 5) := by decide +kernel
    rintro (h | h)
    · obtain ⟨e, he, hp⟩ := Option.map_eq_some_iff.mp h1
      exact ⟨1, e, he, by rw [hp, onLine_rect (by norm_num) (by norm_num)]; exact h⟩
    · obtain ⟨e, he, hp⟩ := Option.map_eq_some_iff.mp h2
      exact ⟨2, e, he, by rw [hp, onLine_rect (by norm_num) (by norm_num)]; exact h⟩

theorem pair_left : pair.left? 1 = some 1 ∧ pair.left? (-1) = some 0 ∧ pair.left? 2 = some 3 ∧ pair.left? (-2) = some 1 := by
  decide +kernel

theorem pair_dartWind (c : Pt ℚ) : dartWind pair c 1 = (if InRect 0 0 9 9 c then 1 else 0) ∧ dartWind pair c 2 = if InRect 1 1 5 5 c then 1 else 0 := by
  have h1 : (pair.edge 1).map (·.pts) = some (rect 0 0 9 9) := by decide +kernel
  have h2 : (pair.edge 2).map (·.pts) = some (rect 1 1 5 5) := by decide +kernel
  obtain ⟨e1, he1, hp1⟩ := Option.map_eq_some_iff.mp h1
  obtain ⟨e2, he2, hp2⟩ := Option.map_eq_some_iff.mp h2
  constructor
  · unfold dartWind
    rw [show (1 : Int).natAbs = 1 from rfl, he1]
    simp only [Edge.dartPts]
    rw [if_pos (by decide), hp1, winding_rect (by norm_num) (by norm_num)]
  · unfold dartWind
    rw [show (2 : Int).natAbs = 2 from rfl, he2]
    simp only [Edge.dartPts]
    rw [if_pos (by decide), hp2, winding_rect (by norm_num) (by norm_num)]

theorem pair_faceWind (c : Pt ℚ) (f : Nat) : faceWind pair c f =
    (if f = 1 then dartWind pair c 1 else 0) - (if f = 0 then dartWind pair c 1 else 0) + (if f = 3 then dartWind pair c 2 else 0) -
      if f = 1 then dartWind pair c 2 else 0 := by
  have h0 : pair.edge 0 = none := by decide +kernel
  obtain ⟨l1, l2, l3, l4⟩ := pair_left
  unfold faceWind
  rw [pair_darts]
  rw [Finset.sum_insert (by decide), Finset.sum_insert (by decide), Finset.sum_insert (by decide), Finset.sum_singleton, l1, l2, l3, l4,
    dartWind_neg h0, dartWind_neg h0]
  simp only [Option.some.injEq, eq_comm (b := f)]
  split_ifs <;> ring

theorem pair_faces (f : Nat) : (pair.face f).isSome = true ↔ f = 0 ∨ f = 1 ∨ f = 3 := by
  constructor
  · intro h
    have hlt := pair_reach.reach.good.map.graph.labels.face_lt f h
    have h4 : pair.nFaces = 5 := by decide +kernel
    have h4' : (pair.face 4).isSome = false := by decide +kernel
    have h2 : (pair.face 2).isSome = false := by decide +kernel
    have : f ≠ 2 := by rintro rfl; rw [h2] at h; cases h
    have : f ≠ 4 := by rintro rfl; rw [h4'] at h; cases h
    omega
  · rintro (rfl | rfl | rfl) <;> decide +kernel

/-- The face of a point of the two nested rectangles. -/
def pairFace (c : Pt ℚ) : Nat := if InRect 1 1 5 5 c then 3 else if InRect 0 0 9 9 c then 1 else 0

theorem pair_located (c : Pt ℚ) : Located pair c (pairFace c) := by
  have hin : InRect 1 1 5 5 c → InRect 0 0 9 9 c := fun ⟨⟨h1, h2⟩, h3, h4⟩ => ⟨⟨by linarith, by linarith⟩, by linarith, by linarith⟩
  obtain ⟨w1, w2⟩ := pair_dartWind c
  unfold pairFace
  by_cases h2 : InRect 1 1 5 5 c
  · rw [if_pos h2]
    refine ⟨by rw [pair_faces]; simp, fun k hk => ?_⟩
    rw [pair_faceWind, w1, w2, if_pos h2, if_pos (hin h2)]
    rcases (pair_faces k).mp hk with rfl | rfl | rfl <;> decide
  · rw [if_neg h2]
    by_cases h1 : InRect 0 0 9 9 c
    · rw [if_pos h1]
      refine ⟨by rw [pair_faces]; simp, fun k hk => ?_⟩
      rw [pair_faceWind, w1, w2, if_neg h2, if_pos h1]
      rcases (pair_faces k).mp hk with rfl | rfl | rfl <;> decide
    · rw [if_neg h1]
      refine ⟨by rw [pair_faces]; simp, fun k hk => ?_⟩
      rw [pair_faceWind, w1, w2, if_neg h2, if_neg h1]
      rcases (pair_faces k).mp hk with rfl | rfl | rfl <;> decide

theorem pair_subdivision : Subdivision pair := by
  refine ⟨fun c _ => ⟨_, pair_located c⟩, ?_⟩
  intro d e he q hq ε hε
  have hm : 0 < min ε (1 / 2) := by simp [hε]
  obtain ⟨l1, l2, l3, l4⟩ := pair_left
  have fin : ∀ c f, pair.left? d = some f → |c.1 - q.1| < min ε (1 / 2) → |c.2 - q.2| < min ε (1 / 2) → ¬ (OnRect 0 0 9 9 c ∨ OnRect 1 1 5 5 c) → pairFace c = f →
      ∃ c f, pair.left? d = some f ∧ |c.1 - q.1| < ε ∧ |c.2 - q.2| < ε ∧ ¬ OnEdge pair c ∧ Located pair c f := by
    intro c f h1 h2 h3 h4 h5
    exact ⟨c, f, h1, h2.trans_le (min_le_left _ _), h3.trans_le (min_le_left _ _), by rwa [pair_onEdge], h5 ▸ pair_located c⟩
  have half : ∀ x y : ℚ, |x - y| < min ε (1 / 2) → y - 1 / 2 < x ∧ x < y + 1 / 2 := by
    intro x y h
    have := abs_lt.mp (h.trans_le (min_le_right _ _))
    constructor <;> linarith [this.1, this.2]
  rcases pair_edges _ e he with ⟨hd, hp⟩ | ⟨hd, hp⟩
  · rw [hp, onLine_rect (by norm_num) (by norm_num)] at hq
    obtain ⟨⟨c, a1, a2, ⟨a3, a4⟩, a5, a6⟩, c', b1, b2, b3⟩ := near_rect (by norm_num) (by norm_num) hq hm
    have hx := half _ _ a1
    have hy := half _ _ a2
    have hx' := half _ _ b1
    have hy' := half _ _ b2
    obtain ⟨⟨q1, q2⟩, ⟨q3, q4⟩, hq⟩ := hq
    rcases Int.natAbs_eq d with h | h
    · rw [hd] at h
      have hd : d = 1 := h
      subst hd
      refine fin c 1 l1 a1 a2 ?_ ?_
      · rintro (⟨-, -, h | h | h | h⟩ | ⟨⟨r1, r2⟩, ⟨r3, r4⟩, -⟩)
        · linarith
        · linarith
        · linarith
        · linarith
        · rcases hq with h | h | h | h <;> linarith [hx.1, hx.2, hy.1, hy.2]
      · unfold pairFace
        rw [if_neg, if_pos ⟨⟨a3, a4.le⟩, a5, a6.le⟩]
        rintro ⟨⟨r1, r2⟩, r3, r4⟩
        rcases hq with h | h | h | h <;> linarith [hx.1, hx.2, hy.1, hy.2]
    · rw [hd] at h
      have hd : d = -1 := h
      subst hd
      refine fin c' 0 l2 b1 b2 ?_ ?_
      · rintro (⟨⟨r1, r2⟩, ⟨r3, r4⟩, -⟩ | ⟨⟨r1, r2⟩, ⟨r3, r4⟩, -⟩)
        · rcases b3 with h | h | h | h <;> linarith
        · rcases b3 with h | h | h | h <;> linarith
      · unfold pairFace
        rw [if_neg, if_neg]
        · rintro ⟨⟨r1, r2⟩, r3, r4⟩
          rcases b3 with h | h | h | h <;> linarith
        · rintro ⟨⟨r1, r2⟩, r3, r4⟩
          rcases b3 with h | h | h | h <;> linarith
  · rw [hp, onLine_rect (by norm_num) (by norm_num)] at hq
    obtain ⟨⟨c, a1, a2, ⟨a3, a4⟩, a5, a6⟩, c', b1, b2, b3⟩ := near_rect (by norm_num) (by norm_num) hq hm
    have hx := half _ _ a1
    have hy := half _ _ a2
    have hx' := half _ _ b1
    have hy' := half _ _ b2
    obtain ⟨⟨q1, q2⟩, ⟨q3, q4⟩, hq⟩ := hq
    rcases Int.natAbs_eq d with h | h
    · rw [hd] at h
      have hd : d = 2 := h
      subst hd
      refine fin c 3 l3 a1 a2 ?_ ?_
      · rintro (⟨-, -, h | h | h | h⟩ | ⟨-, -, h | h | h | h⟩) <;> linarith
      · unfold pairFace
        rw [if_pos ⟨⟨a3, a4.le⟩, a5, a6.le⟩]
    · rw [hd] at h
      have hd : d = -2 := h
      subst hd
      refine fin c' 1 l4 b1 b2 ?_ ?_
      · rintro (⟨-, -, h | h | h | h⟩ | ⟨⟨r1, r2⟩, ⟨r3, r4⟩, -⟩)
        · linarith [hx'.1]
        · linarith [hx'.2]
        · linarith [hy'.1]
        · linarith [hy'.2]
        · rcases b3 with h | h | h | h <;> linarith
      · unfold pairFace
        rw [if_neg, if_pos]
        · exact ⟨⟨by linarith [hx'.1], by linarith [hx'.2]⟩, by linarith [hy'.1], by linarith [hy'.2]⟩
        · rintro ⟨⟨r1, r2⟩, r3, r4⟩
          rcases b3 with h | h | h | h <;> linarith

end Verif.Locate
