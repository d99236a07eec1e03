import Verif.Query.Props
import Verif.Locate.Example
import Verif.GeoMap.Props2

/-!
# Point queries: three nested rectangles

The hypotheses of the theorems in `Query/Props.lean` hold for three nested rectangles; merging the two outer faces makes the boundary of the hole the first contour,
and `faceAt` then returns the infinite face for points of the merged face (`faceAt_violated`).
-/

namespace Verif.Query
open Verif Verif.GeoMap Verif.GeoMap.Props Verif.Polygon Verif.Scan Verif.LabelImage Verif.Locate

theorem nested_pts : (nested.edge 1).map (·.pts) = some (rect 0 0 12 12) ∧ (nested.edge 2).map (·.pts) = some (rect 1 1 11 11) ∧
    (nested.edge 3).map (·.pts) = some (rect 2 2 3 3) ∧ nested.edge 0 = none ∧ nested.nEdges = 4 := by decide +kernel

theorem nested_edges (l : Nat) (e : Edge ℚ) (h : nested.edge l = some e) :
    (l = 1 ∧ e.pts = rect 0 0 12 12) ∨ (l = 2 ∧ e.pts = rect 1 1 11 11) ∨ (l = 3 ∧ e.pts = rect 2 2 3 3) := by
  obtain ⟨h1, h2, h3, h0, h4⟩ := nested_pts
  have hlt : l < 4 := by
    have := nested_reach.reach.good.map.graph.labels.edge_lt l (by rw [h]; rfl)
    omega
  obtain rfl | rfl | rfl | rfl : l = 0 ∨ l = 1 ∨ l = 2 ∨ l = 3 := by omega
  · rw [h0] at h; cases h
  · rw [h] at h1; exact Or.inl ⟨rfl, Option.some.inj h1⟩
  · rw [h] at h2; exact Or.inr (Or.inl ⟨rfl, Option.some.inj h2⟩)
  · rw [h] at h3; exact Or.inr (Or.inr ⟨rfl, Option.some.inj h3⟩)

theorem nested_onEdge (c : Pt ℚ) : OnEdge nested c ↔ OnRect 0 0 12 12 c ∨ OnRect 1 1 11 11 c ∨ OnRect 2 2 3 3 c := by
  obtain ⟨h1, h2, h3, h0, h4⟩ := nested_pts
  constructor
  · rintro ⟨l, e, he, hc⟩
    rcases nested_edges l e he with ⟨-, h⟩ | ⟨-, h⟩ | ⟨-, h⟩
    · rw [h, onLine_rect (by norm_num) (by norm_num)] at hc; exact Or.inl hc
    · rw [h, onLine_rect (by norm_num) (by norm_num)] at hc; exact Or.inr (Or.inl hc)
    · rw [h, onLine_rect (by norm_num) (by norm_num)] at hc; exact Or.inr (Or.inr hc)
  · rintro (h | h | h)
    · obtain ⟨e, he, hp⟩ := Option.map_eq_some_iff.mp h1
      exact ⟨1, e, he, by rw [hp, onLine_rect (by norm_num) (by norm_num)]; exact h⟩
    · obtain ⟨e, he, hp⟩ := Option.map_eq_some_iff.mp h2
      exact ⟨2, e, he, by rw [hp, onLine_rect (by norm_num) (by norm_num)]; exact h⟩
    · obtain ⟨e, he, hp⟩ := Option.map_eq_some_iff.mp h3
      exact ⟨3, e, he, by rw [hp, onLine_rect (by norm_num) (by norm_num)]; exact h⟩

theorem nested_left : nested.left? 1 = some 1 ∧ nested.left? (-1) = some 0 ∧ nested.left? 2 = some 3 ∧ nested.left? (-2) = some 1 ∧ nested.left? 3 = some 5 ∧
    nested.left? (-3) = some 3 := by decide +kernel

theorem nested_dartWind (c : Pt ℚ) : dartWind nested c 1 = (if InRect 0 0 12 12 c then 1 else 0) ∧ dartWind nested c 2 = (if InRect 1 1 11 11 c then 1 else 0) ∧
    dartWind nested c 3 = if InRect 2 2 3 3 c then 1 else 0 := by
  obtain ⟨h1, h2, h3, h0, h4⟩ := nested_pts
  obtain ⟨e1, he1, hp1⟩ := Option.map_eq_some_iff.mp h1
  obtain ⟨e2, he2, hp2⟩ := Option.map_eq_some_iff.mp h2
  obtain ⟨e3, he3, hp3⟩ := Option.map_eq_some_iff.mp h3
  refine ⟨?_, ?_, ?_⟩
  · unfold dartWind
    rw [show (1 : Int).natAbs = 1 from rfl, he1]
    simp only [Edge.dartPts]
    rw [if_pos (by decide), hp1, winding_rect (by norm_num) (by norm_num)]
  · unfold dartWind
    rw [show (2 : Int).natAbs = 2 from rfl, he2]
    simp only [Edge.dartPts]
    rw [if_pos (by decide), hp2, winding_rect (by norm_num) (by norm_num)]
  · unfold dartWind
    rw [show (3 : Int).natAbs = 3 from rfl, he3]
    simp only [Edge.dartPts]
    rw [if_pos (by decide), hp3, winding_rect (by norm_num) (by norm_num)]

theorem nested_faceWind (c : Pt ℚ) (f : Nat) : faceWind nested c f =
    (if f = 1 then dartWind nested c 1 else 0) - (if f = 0 then dartWind nested c 1 else 0) + (if f = 3 then dartWind nested c 2 else 0) -
      (if f = 1 then dartWind nested c 2 else 0) + (if f = 5 then dartWind nested c 3 else 0) - if f = 3 then dartWind nested c 3 else 0 := by
  obtain ⟨-, -, -, h0, -⟩ := nested_pts
  obtain ⟨l1, l2, l3, l4, l5, l6⟩ := nested_left
  unfold faceWind
  rw [nested_darts]
  rw [Finset.sum_insert (by decide), Finset.sum_insert (by decide), Finset.sum_insert (by decide), Finset.sum_insert (by decide), Finset.sum_insert (by decide),
    Finset.sum_singleton, l1, l2, l3, l4, l5, l6, dartWind_neg h0, dartWind_neg h0, dartWind_neg h0]
  simp only [Option.some.injEq, eq_comm (b := f)]
  split_ifs <;> ring

theorem nested_faces (f : Nat) : (nested.face f).isSome = true ↔ f = 0 ∨ f = 1 ∨ f = 3 ∨ f = 5 := by
  constructor
  · intro h
    have hlt := nested_reach.reach.good.map.graph.labels.face_lt f h
    obtain ⟨h7, d2, d4, d6⟩ : nested.nFaces = 7 ∧ (nested.face 2).isSome = false ∧ (nested.face 4).isSome = false ∧ (nested.face 6).isSome = false := by decide +kernel
    have : f ≠ 2 := by rintro rfl; rw [d2] at h; cases h
    have : f ≠ 4 := by rintro rfl; rw [d4] at h; cases h
    have : f ≠ 6 := by rintro rfl; rw [d6] at h; cases h
    omega
  · rintro (rfl | rfl | rfl | rfl) <;> decide +kernel

/-- The face of a point of the three nested rectangles. -/
def nestedFace (c : Pt ℚ) : Nat := if InRect 2 2 3 3 c then 5 else if InRect 1 1 11 11 c then 3 else if InRect 0 0 12 12 c then 1 else 0

theorem in32 {c : Pt ℚ} : InRect 2 2 3 3 c → InRect 1 1 11 11 c := fun ⟨⟨h1, h2⟩, h3, h4⟩ => ⟨⟨by linarith, by linarith⟩, by linarith, by linarith⟩
theorem in21 {c : Pt ℚ} : InRect 1 1 11 11 c → InRect 0 0 12 12 c := fun ⟨⟨h1, h2⟩, h3, h4⟩ => ⟨⟨by linarith, by linarith⟩, by linarith, by linarith⟩

theorem nested_located (c : Pt ℚ) : Located nested c (nestedFace c) := by
  obtain ⟨w1, w2, w3⟩ := nested_dartWind c
  unfold nestedFace
  by_cases h3 : InRect 2 2 3 3 c
  · rw [if_pos h3]
    refine ⟨by rw [nested_faces]; simp, fun k hk => ?_⟩
    rw [nested_faceWind, w1, w2, w3, if_pos h3, if_pos (in32 h3), if_pos (in21 (in32 h3))]
    rcases (nested_faces k).mp hk with rfl | rfl | rfl | rfl <;> decide
  · rw [if_neg h3]
    by_cases h2 : InRect 1 1 11 11 c
    · rw [if_pos h2]
      refine ⟨by rw [nested_faces]; simp, fun k hk => ?_⟩
      rw [nested_faceWind, w1, w2, w3, if_neg h3, if_pos h2, if_pos (in21 h2)]
      rcases (nested_faces k).mp hk with rfl | rfl | rfl | rfl <;> decide
    · rw [if_neg h2]
      by_cases h1 : InRect 0 0 12 12 c
      · rw [if_pos h1]
        refine ⟨by rw [nested_faces]; simp, fun k hk => ?_⟩
        rw [nested_faceWind, w1, w2, w3, if_neg h3, if_neg h2, if_pos h1]
        rcases (nested_faces k).mp hk with rfl | rfl | rfl | rfl <;> decide
      · rw [if_neg h1]
        refine ⟨by rw [nested_faces]; simp, fun k hk => ?_⟩
        rw [nested_faceWind, w1, w2, w3, if_neg h3, if_neg h2, if_neg h1]
        rcases (nested_faces k).mp hk with rfl | rfl | rfl | rfl <;> decide

theorem nested_subdivision : Subdivision nested := by
  refine ⟨fun c _ => ⟨_, nested_located c⟩, ?_⟩
  intro d e he q hq ε hε
  have hm : 0 < min ε (1 / 2) := by simp [hε]
  obtain ⟨l1, l2, l3, l4, l5, l6⟩ := nested_left
  have fin : ∀ c f, nested.left? d = some f → |c.1 - q.1| < min ε (1 / 2) → |c.2 - q.2| < min ε (1 / 2) →
      ¬ (OnRect 0 0 12 12 c ∨ OnRect 1 1 11 11 c ∨ OnRect 2 2 3 3 c) → nestedFace c = f →
      ∃ c f, nested.left? d = some f ∧ |c.1 - q.1| < ε ∧ |c.2 - q.2| < ε ∧ ¬ OnEdge nested c ∧ Located nested c f := by
    intro c f h1 h2 h3 h4 h5
    exact ⟨c, f, h1, h2.trans_le (min_le_left _ _), h3.trans_le (min_le_left _ _), by rwa [nested_onEdge], h5 ▸ nested_located c⟩
  have half : ∀ x y : ℚ, |x - y| < min ε (1 / 2) → y - 1 / 2 < x ∧ x < y + 1 / 2 := by
    intro x y h
    have := abs_lt.mp (h.trans_le (min_le_right _ _))
    constructor <;> linarith [this.1, this.2]
  rcases nested_edges _ e he with ⟨hd, hp⟩ | ⟨hd, hp⟩ | ⟨hd, hp⟩
  · rw [hp, onLine_rect (by norm_num) (by norm_num)] at hq
    obtain ⟨⟨c, a1, a2, ⟨a3, a4⟩, a5, a6⟩, c', b1, b2, b3⟩ := near_rect (by norm_num) (by norm_num) hq hm
    obtain ⟨hx1, hx2⟩ := half _ _ a1
    obtain ⟨hy1, hy2⟩ := half _ _ a2
    obtain ⟨⟨q1, q2⟩, ⟨q3, q4⟩, hq⟩ := hq
    rcases Int.natAbs_eq d with h | h
    · rw [hd] at h
      have hd : d = 1 := h
      subst hd
      refine fin c 1 l1 a1 a2 ?_ ?_
      · rintro (⟨-, -, h | h | h | h⟩ | ⟨⟨r1, r2⟩, ⟨r3, r4⟩, -⟩ | ⟨⟨r1, r2⟩, ⟨r3, r4⟩, -⟩)
        · linarith
        · linarith
        · linarith
        · linarith
        · rcases hq with h | h | h | h <;> linarith
        · rcases hq with h | h | h | h <;> linarith
      · unfold nestedFace
        rw [if_neg, if_neg, if_pos ⟨⟨a3, a4.le⟩, a5, a6.le⟩]
        · rintro ⟨⟨r1, r2⟩, r3, r4⟩
          rcases hq with h | h | h | h <;> linarith
        · rintro ⟨⟨r1, r2⟩, r3, r4⟩
          rcases hq with h | h | h | h <;> linarith
    · rw [hd] at h
      have hd : d = -1 := h
      subst hd
      refine fin c' 0 l2 b1 b2 ?_ ?_
      · rintro (⟨⟨r1, r2⟩, ⟨r3, r4⟩, -⟩ | ⟨⟨r1, r2⟩, ⟨r3, r4⟩, -⟩ | ⟨⟨r1, r2⟩, ⟨r3, r4⟩, -⟩) <;> rcases b3 with h | h | h | h <;> linarith
      · unfold nestedFace
        rw [if_neg, if_neg, if_neg]
        all_goals
          rintro ⟨⟨r1, r2⟩, r3, r4⟩
          rcases b3 with h | h | h | h <;> linarith
  · rw [hp, onLine_rect (by norm_num) (by norm_num)] at hq
    have hq0 := hq
    obtain ⟨⟨q1, q2⟩, ⟨q3, q4⟩, hq⟩ := hq
    rcases Int.natAbs_eq d with h | h
    · rw [hd] at h
      have hd : d = 2 := h
      subst hd
      obtain ⟨⟨c, a1, a2, ⟨a3, a4⟩, a5, a6⟩, -⟩ := near_rect (by norm_num) (by norm_num) hq0 hm
      obtain ⟨hx1, hx2⟩ := half _ _ a1
      obtain ⟨hy1, hy2⟩ := half _ _ a2
      refine fin c 3 l3 a1 a2 ?_ ?_
      · rintro (⟨-, -, h | h | h | h⟩ | ⟨-, -, h | h | h | h⟩ | ⟨⟨r1, r2⟩, ⟨r3, r4⟩, -⟩)
        all_goals first | linarith | (rcases hq with h | h | h | h <;> linarith)
      · unfold nestedFace
        rw [if_neg, if_pos ⟨⟨a3, a4.le⟩, a5, a6.le⟩]
        rintro ⟨⟨r1, r2⟩, r3, r4⟩
        rcases hq with h | h | h | h <;> linarith
    · rw [hd] at h
      have hd : d = -2 := h
      subst hd
      obtain ⟨-, c', b1, b2, b3⟩ := near_rect (by norm_num) (by norm_num) hq0 hm
      obtain ⟨hx1, hx2⟩ := half _ _ b1
      obtain ⟨hy1, hy2⟩ := half _ _ b2
      refine fin c' 1 l4 b1 b2 ?_ ?_
      · rintro (⟨-, -, h | h | h | h⟩ | ⟨⟨r1, r2⟩, ⟨r3, r4⟩, -⟩ | ⟨⟨r1, r2⟩, ⟨r3, r4⟩, -⟩)
        all_goals first | linarith | (rcases b3 with h | h | h | h <;> linarith)
      · unfold nestedFace
        rw [if_neg, if_neg, if_pos]
        · exact ⟨⟨by linarith, by linarith⟩, by linarith, by linarith⟩
        · rintro ⟨⟨r1, r2⟩, r3, r4⟩
          rcases b3 with h | h | h | h <;> linarith
        · rintro ⟨⟨r1, r2⟩, r3, r4⟩
          rcases b3 with h | h | h | h <;> linarith
  · rw [hp, onLine_rect (by norm_num) (by norm_num)] at hq
    have hq0 := hq
    obtain ⟨⟨q1, q2⟩, ⟨q3, q4⟩, hq⟩ := hq
    rcases Int.natAbs_eq d with h | h
    · rw [hd] at h
      have hd : d = 3 := h
      subst hd
      obtain ⟨⟨c, a1, a2, ⟨a3, a4⟩, a5, a6⟩, -⟩ := near_rect (by norm_num) (by norm_num) hq0 hm
      refine fin c 5 l5 a1 a2 ?_ ?_
      · rintro (⟨-, -, h | h | h | h⟩ | ⟨-, -, h | h | h | h⟩ | ⟨-, -, h | h | h | h⟩) <;> linarith
      · unfold nestedFace
        rw [if_pos ⟨⟨a3, a4.le⟩, a5, a6.le⟩]
    · rw [hd] at h
      have hd : d = -3 := h
      subst hd
      obtain ⟨-, c', b1, b2, b3⟩ := near_rect (by norm_num) (by norm_num) hq0 hm
      obtain ⟨hx1, hx2⟩ := half _ _ b1
      obtain ⟨hy1, hy2⟩ := half _ _ b2
      refine fin c' 3 l6 b1 b2 ?_ ?_
      · rintro (⟨-, -, h | h | h | h⟩ | ⟨-, -, h | h | h | h⟩ | ⟨⟨r1, r2⟩, ⟨r3, r4⟩, -⟩)
        all_goals first | linarith | (rcases b3 with h | h | h | h <;> linarith)
      · unfold nestedFace
        rw [if_neg, if_pos]
        · exact ⟨⟨by linarith, by linarith⟩, by linarith, by linarith⟩
        · rintro ⟨⟨r1, r2⟩, r3, r4⟩
          rcases b3 with h | h | h | h <;> linarith

theorem nested_anchors : (nested.face 0).map (·.anchors) = some [-1] ∧ (nested.face 1).map (·.anchors) = some [1, -2] ∧
    (nested.face 3).map (·.anchors) = some [2, -3] ∧ (nested.face 5).map (·.anchors) = some [3] := by decide +kernel

theorem nested_phi : nested.phi 1 = 1 ∧ nested.phi (-1) = -1 ∧ nested.phi 2 = 2 ∧ nested.phi (-2) = -2 ∧ nested.phi 3 = 3 ∧ nested.phi (-3) = -3 := by decide +kernel

theorem nested_oriented : Oriented nested := by
  intro c _ f F hF
  obtain ⟨a0, a1, a3, a5⟩ := nested_anchors
  obtain ⟨p1, p1', p2, p2', p3, p3'⟩ := nested_phi
  obtain ⟨w1, w2, w3⟩ := nested_dartWind c
  have h0 : nested.edge 0 = none := nested_pts.2.2.2.1
  have cw : ∀ d, nested.phi d = d → d ∈ nested.darts → contourWind nested c d = dartWind nested c d := fun d h1 h2 => contourWind_loop h1 h2 c
  have c1 := cw 1 p1 (by rw [nested_darts]; simp)
  have c2 := cw 2 p2 (by rw [nested_darts]; simp)
  have c3 := cw 3 p3 (by rw [nested_darts]; simp)
  have c1' := cw (-1) p1' (by rw [nested_darts]; simp)
  have c2' := cw (-2) p2' (by rw [nested_darts]; simp)
  have c3' := cw (-3) p3' (by rw [nested_darts]; simp)
  rw [dartWind_neg h0] at c1' c2' c3'
  have b1 : dartWind nested c 1 = 0 ∨ dartWind nested c 1 = 1 := by rw [w1]; split_ifs <;> simp
  have b2 : dartWind nested c 2 = 0 ∨ dartWind nested c 2 = 1 := by rw [w2]; split_ifs <;> simp
  have b3 : dartWind nested c 3 = 0 ∨ dartWind nested c 3 = 1 := by rw [w3]; split_ifs <;> simp
  rcases (nested_faces f).mp (by rw [hF]; rfl) with rfl | rfl | rfl | rfl
  · rw [hF] at a0
    refine ⟨fun h => absurd rfl h, fun _ => ?_⟩
    rw [show F.anchors = [-1] from Option.some.inj a0]
    intro b hb
    rw [List.mem_singleton.mp hb, c1']
    omega
  · rw [hF] at a1
    refine ⟨fun _ => ⟨1, [-2], Option.some.inj a1, by rw [c1]; exact b1, fun b hb => ?_⟩, fun h => absurd h (by decide)⟩
    rw [List.mem_singleton.mp hb, c2']
    omega
  · rw [hF] at a3
    refine ⟨fun _ => ⟨2, [-3], Option.some.inj a3, by rw [c2]; exact b2, fun b hb => ?_⟩, fun h => absurd h (by decide)⟩
    rw [List.mem_singleton.mp hb, c3']
    omega
  · rw [hF] at a5
    refine ⟨fun _ => ⟨3, [], Option.some.inj a5, by rw [c3]; exact b3, fun b hb => by cases hb⟩, fun h => absurd h (by decide)⟩

/-- the three rectangles, without label image -/
def rects : LMap ℚ := LMap.ofMap nested 0 0 ⟨[], []⟩
/-- … after merging faces 1 and 3 -/
def rects2 : LMap ℚ := Example.val rects ((LOp.mergeFaces 2 : LOp ℚ).run Hooks.none rects)

theorem rects_drawn : QDrawn rects fun _ => none := .start nested_reach (by decide +kernel) nested_subdivision

/-- Hypotheses of C58a, C58b, C58d: a point of face 3. -/
example : ∃ b, faceContains rects (fun _ => none) 3 (6, 6) = .ok (true, b) ∧ QDrawn rects b := by
  have hc : ¬ OnEdge rects.g (6, 6) := by
    show ¬ OnEdge nested (6, 6)
    rw [nested_onEdge]; unfold OnRect; norm_num
  obtain ⟨r, b, h1, h2, h3⟩ := contains_exact rects_drawn nested_oriented hc (f := 3) (by decide +kernel)
  have : nestedFace (6, 6) = 3 := by decide +kernel
  have hl := nested_located (6, 6)
  rw [this] at hl
  rw [h2.mpr hl] at h1
  exact ⟨b, h1, h3⟩

/-- The box of face 1 is cached, then the face is merged. -/
example : ∃ b b', QDrawn rects b ∧ (b 1).isSome = true ∧ run Hooks.none rects b (.mergeFaces 2) = .ok (rects2, b') ∧ QDrawn rects2 b' := by
  obtain ⟨x, b, e, -, h⟩ := boundingBox_encloses rects_drawn nested_oriented (f := 1) (by decide) (by decide +kernel)
  have hb : (b 1).isSome = true := by
    unfold faceBox at e
    rw [if_neg (by decide)] at e
    obtain ⟨F, -, e⟩ := Outcome.bind_eq_ok.mp e
    split at e
    · cases e
    · obtain ⟨y, -, e⟩ := Outcome.bind_eq_ok.mp e
      cases e
      rw [Function.update_self]; rfl
  have e2 : (LOp.mergeFaces 2 : LOp ℚ).run Hooks.none rects = .ok rects2 := Example.ok_val (a := rects) (by decide +kernel)
  obtain ⟨b', h1⟩ := (boxes_transparent h Hooks.none (.mergeFaces 2) trivial trivial (fun _ => nested_oriented) rects2).mpr e2
  exact ⟨b, b', h, hb, h1, .call Hooks.none (.mergeFaces 2) h trivial trivial (fun _ => nested_oriented) h1⟩

/-- With a label image (two nested rectangles, see Locate/ImageProps.lean). -/
theorem shown1_qdrawn : QDrawn shown1 fun _ => none :=
  .on (.start (w := 8) (h := 8) (lut := ⟨[], []⟩) FaceStats.pair_reach (by decide +kernel) pair_subdivision) pair_zero pair_nested shown1_ok

set_option maxRecDepth 100000 in
theorem shown1_label : pixelLabel shown1 (7, 13 / 2) = some 1 := by decide +kernel

example : ∃ f, faceAt shown1 (fun _ => none) (7, 13 / 2) = .ok (f, fun _ => none) ∧ Located shown1.g (7, 13 / 2) f :=
  faceAt_image shown1_qdrawn (shown1_off (by unfold OnRect; norm_num)) shown1_label

/-- **C58h** Full property: `faceAt` returns the face of the point in every drawn map.  It does not: after merging the two outer faces of three nested rectangles
(all hypotheses held before), the first contour of the merged face 3 is the boundary of its hole, and `faceAt` returns the infinite face for a point of face 3. -/
theorem faceAt_violated : ∃ (m : LMap ℚ) (b : Boxes ℚ) (c : Pt ℚ), QDrawn m b ∧ ¬ OnEdge m.g c ∧ Located m.g c 3 ∧ (faceAt m b c).map (·.1) = .ok 0 := by
  have e2 : (LOp.mergeFaces 2 : LOp ℚ).run Hooks.none rects = .ok rects2 := Example.ok_val (a := rects) (by decide +kernel)
  obtain ⟨b', h1⟩ := (boxes_transparent rects_drawn Hooks.none (.mergeFaces 2) trivial trivial (fun _ => nested_oriented) rects2).mpr e2
  have hq : QDrawn rects2 b' := .call Hooks.none (.mergeFaces 2) rects_drawn trivial trivial (fun _ => nested_oriented) h1
  have hb : b' = fun _ => none := by
    obtain ⟨r, -, h2⟩ := Outcome.bind_eq_ok.mp h1
    obtain ⟨b'', h3, h2⟩ := Outcome.bind_eq_ok.mp h2
    have h2 : b'' = b' := congrArg Prod.snd (Outcome.ok.inj h2)
    subst h2
    have upd : ∀ k, Function.update (fun _ => none : Boxes ℚ) k none = fun _ => none := fun k => Function.update_eq_self_iff.mpr rfl
    unfold boxesAfter at h3
    split at h3
    · cases h3; rfl
    · obtain ⟨ed, -, h3⟩ := Outcome.bind_eq_ok.mp h3
      split_ifs at h3
      · cases h3; rfl
      · split at h3
        · cases h3
        · unfold mergeBoxes at h3
          cases h3
          exact upd _
  subst hb
  obtain ⟨⟨r, n, px⟩, e3, e4⟩ := map_ok (show (rects.mergeFaces Hooks.none 2).map (·.2.1) = .ok rects2 from e2)
  have hr : (rects.mergeFaces Hooks.none 2).map (·.1) = .ok (some 3) := by decide +kernel
  rw [e3] at hr
  have hr : r = some 3 := Outcome.ok.inj hr
  have e4 : n = rects2 := e4
  subst hr e4
  obtain ⟨g, e5, hpc, -⟩ := mergeFaces_pix e3
  have hP := rects_drawn.inv.placed
  have hgd : MapOK g := by
    rcases call_safe hP.good Hooks.none (.mergeFaces 2) trivial with e' | ⟨t', e', hg⟩
    · have e' : (rects.g.mergeFaces Hooks.none 2).map (·.2) = .precond := e'
      rw [e5] at e'; cases e'
    · have e' : (rects.g.mergeFaces Hooks.none 2).map (·.2) = .ok t' := e'
      rw [e5] at e'; cases e'
      exact (hg fun hn => absurd hP.init hn).map
  obtain ⟨ml, E, hm⟩ := mergeFaces_moves hP.good hgd e5
  have hm := hm.trans (pix_moves hgd hpc)
  have hoff : ¬ OnEdge rects.g (6, 6) := by
    show ¬ OnEdge nested (6, 6)
    rw [nested_onEdge]; unfold OnRect; norm_num
  have hf : nestedFace (6, 6) = 3 := by decide +kernel
  have hl := hm.loc (6, 6) 3 hoff (hf ▸ nested_located (6, 6))
  refine ⟨rects2, fun _ => none, (6, 6), hq, fun h => hoff (hm.onEdge h), ?_, by decide +kernel⟩
  simpa using hl

end Verif.Query
