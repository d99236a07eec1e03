import Verif.Resample.SplineLemmas
import Verif.Resample.GaussProps

/-! # Control points of splines: the properties of the integrals -/

namespace Verif.Resample
open Verif Verif.GeoMap Verif.DartPos

/-- **C90.** `spline3Integral(p1, p2, t1, t2)` is the integral of the cubic B-spline times the segment from `p1` at `t1` to `p2` at `t2`, for segments
that lie within one polynomial piece of the B-spline. -/
theorem spline3Integral_integral (p1 p2 : Pt ℝ) {t1 t2 : ℝ} (h0 : 0 ≤ t1) (h : t1 < t2) (hc : t2 ≤ 1 ∨ (1 ≤ t1 ∧ t2 ≤ 2)) :
    spline3Integral p1 p2 t1 t2 =
      (∫ t in t1..t2, bspline3 t * (p1.1 + (t - t1) / (t2 - t1) * (p2.1 - p1.1)), ∫ t in t1..t2, bspline3 t * (p1.2 + (t - t1) / (t2 - t1) * (p2.2 - p1.2))) := by
  have hd : t2 - t1 ≠ 0 := by linarith
  rw [spline3Integral_coords, piece_integral h.le _ _ h0 hc, piece_integral h.le _ _ h0 hc]
  refine Prod.ext ?_ ?_ <;>
  · simp only
    congr 1
    funext t
    congr 1
    field_simp
    ring

/-- A case: the segment from (1,0) at 0 to (1,2) at 1. -/
example : spline3Integral (1, 0) (1, 2) 0 1 = (11 / 24, 11 / 30) := by
  unfold spline3Integral
  rw [if_neg (by norm_num)]
  refine Prod.ext ?_ ?_ <;> norm_num

/-! ## Inserting the positions of the control points -/

section
variable {L : List (Pt ℝ)} {m : Nat} {sc : ℝ}

/-- The arrays while they are filled, up to arc length `a`. -/
structure Core (L : List (Pt ℝ)) (sc a : ℝ) (s : Aug) : Prop where
  length : s.poly.length = s.arc.length
  pos : 0 < s.arc.length
  last : s.arc[s.arc.length - 1]? = some a
  pts : ∀ (i : Nat) (x : ℝ), s.arc[i]? = some x → s.poly[i]? = some (along L (x / sc))
  segs : ∀ (i : Nat) (x y : ℝ), s.arc[i]? = some x → s.arc[i + 1]? = some y → x ≤ y ∧ ∃ k, k + 1 < L.length ∧ reach L k * sc ≤ x ∧ y ≤ reach L (k + 1) * sc

theorem Core.push {a x : ℝ} {s : Aug} (h : Core L sc a s) {p : Pt ℝ} (hp : p = along L (x / sc)) (hax : a ≤ x) {k : Nat} (hk : k + 1 < L.length)
    (h1 : reach L k * sc ≤ a) (h2 : x ≤ reach L (k + 1) * sc) (idx : List Nat) (l : Nat) : Core L sc x ⟨s.poly ++ [p], s.arc ++ [x], idx, l⟩ := by
  have hlen := h.length
  have hpos := h.pos
  refine ⟨by simp [hlen], by simp, by simp, ?_, ?_⟩
  · intro i y hy
    dsimp only at hy ⊢
    by_cases hi : i < s.arc.length
    · rw [List.getElem?_append_left hi] at hy
      rw [List.getElem?_append_left (by omega)]; exact h.pts i y hy
    · rw [List.getElem?_append_right (by omega), List.getElem?_singleton] at hy
      split_ifs at hy with h0
      cases hy
      rw [List.getElem?_append_right (by omega), List.getElem?_singleton, if_pos (by omega), hp]
  · intro i y z hy hz
    dsimp only at hy hz
    by_cases hi : i + 1 < s.arc.length
    · rw [List.getElem?_append_left (by omega)] at hy
      rw [List.getElem?_append_left hi] at hz
      exact h.segs i y z hy hz
    · rw [List.getElem?_append_right (by omega), List.getElem?_singleton] at hz
      split_ifs at hz with h0
      cases hz
      rw [List.getElem?_append_left (by omega), show i = s.arc.length - 1 by omega, h.last] at hy
      cases hy
      exact ⟨hax, k, hk, h1, h2⟩

/-- The indices: those below `l` point to their positions, the others are not set. -/
structure Idx (m : Nat) (a : ℝ) (s : Aug) : Prop where
  len : s.idx.length = m + 1
  one : 1 ≤ s.l
  lt : a < s.l
  le : (s.l : ℝ) - 1 ≤ a
  low : ∀ l < s.l, ∃ i, s.idx[l]? = some i ∧ s.arc[i]? = some (l : ℝ)
  high : ∀ l, s.l ≤ l → l ≤ m → s.idx[l]? = some 0

theorem Idx.hit {a : ℝ} {s : Aug} (h : Idx m a s) (hm : s.l ≤ m) (hlen : s.poly.length = s.arc.length) (p : Pt ℝ) :
    Idx m s.l ⟨s.poly ++ [p], s.arc ++ [(s.l : ℝ)], s.idx.set s.l s.poly.length, s.l + 1⟩ := by
  have hl := h.len
  refine ⟨by simp [hl], by simp, by push_cast; linarith, by push_cast; linarith, ?_, ?_⟩
  · intro l' hl'
    dsimp only at hl' ⊢
    by_cases he : l' = s.l
    · subst he
      exact ⟨s.poly.length, by rw [List.getElem?_set_self (by omega)], by rw [hlen]; simp⟩
    · obtain ⟨i, e1, e2⟩ := h.low l' (by omega)
      refine ⟨i, by rw [List.getElem?_set_ne (by omega)]; exact e1, ?_⟩
      rw [List.getElem?_append_left]
      · exact e2
      · by_contra hc
        rw [List.getElem?_eq_none (by omega)] at e2
        cases e2
  · intro l' h1 h2
    dsimp only at h1 ⊢
    rw [List.getElem?_set_ne (by omega)]
    exact h.high l' (by omega) h2

theorem Idx.miss {a d : ℝ} {s : Aug} (h : Idx m a s) (had : a ≤ d) (hd : d < s.l) (p : Pt ℝ) : Idx m d ⟨s.poly ++ [p], s.arc ++ [d], s.idx, s.l⟩ := by
  refine ⟨h.len, h.one, hd, by have := h.le; dsimp only; linarith, ?_, h.high⟩
  intro l' hl'
  obtain ⟨i, e1, e2⟩ := h.low l' hl'
  refine ⟨i, e1, ?_⟩
  dsimp only
  rw [List.getElem?_append_left]
  · exact e2
  · by_contra hc
    rw [List.getElem?_eq_none (by omega)] at e2
    cases e2

theorem seg_point {k : Nat} {p q : Pt ℝ} (hp : L[k]? = some p) (hq : L[k + 1]? = some q) (hsc : 0 < sc) {x : ℝ} (h1 : reach L k * sc ≤ x) (h2 : x ≤ reach L (k + 1) * sc)
    (hlt : reach L k * sc < reach L (k + 1) * sc) :
    (1 - (x - reach L k * sc) / (reach L (k + 1) * sc - reach L k * sc)) • p + ((x - reach L k * sc) / (reach L (k + 1) * sc - reach L k * sc)) • q = along L (x / sc) := by
  have hs := reach_succ hp hq
  have hd : 0 < reach L (k + 1) * sc - reach L k * sc := by linarith
  set o := (x - reach L k * sc) / (reach L (k + 1) * sc - reach L k * sc) with ho
  have h0 : 0 ≤ o := div_nonneg (by linarith) hd.le
  have h1' : o ≤ 1 := by rw [ho, div_le_one hd]; linarith
  have ha := along_seg hp hq h0 h1'
  have hx : x / sc = reach L k + o * mag (q - p) := by
    have hm : mag (q - p) = reach L (k + 1) - reach L k := by linarith
    have hne : reach L (k + 1) * sc - reach L k * sc ≠ 0 := hd.ne'
    have hox : o * (reach L (k + 1) * sc - reach L k * sc) = x - reach L k * sc := by rw [ho]; exact div_mul_cancel₀ _ hne
    rw [div_eq_iff hsc.ne', hm]
    linarith
  rw [hx, ha]
  refine Prod.ext ?_ ?_
  · simp only [Prod.fst_add, Prod.smul_fst, Prod.fst_sub, smul_eq_mul]; ring
  · simp only [Prod.snd_add, Prod.smul_snd, Prod.snd_sub, smul_eq_mul]; ring

theorem augWhile_spec {k : Nat} {p q : Pt ℝ} (hp : L[k]? = some p) (hq : L[k + 1]? = some q) (hsc : 0 < sc) (hm : reach L (k + 1) * sc ≤ m) {fuel : Nat} {s : Aug} {a : ℝ}
    (hf : m + 1 < fuel + s.l) (hs : Core L sc a s) (hi : Idx m a s) (h1 : reach L k * sc ≤ a) (h2 : a ≤ reach L (k + 1) * sc) :
    ∃ s' a', augWhile (reach L k * sc) (reach L (k + 1) * sc) p q fuel s = .ok s' ∧ Core L sc a' s' ∧ Idx m a' s' ∧ reach L k * sc ≤ a' ∧ a' ≤ reach L (k + 1) * sc ∧
      reach L (k + 1) * sc ≤ s'.l := by
  have hk : k + 1 < L.length := by
    by_contra hc
    rw [List.getElem?_eq_none (by omega)] at hq
    cases hq
  induction fuel generalizing s a with
  | zero =>
    exfalso
    have : ((m + 2 : Nat) : ℝ) ≤ (s.l : ℝ) := by exact_mod_cast (by omega : m + 2 ≤ s.l)
    have h3 := hi.le
    push_cast at this
    linarith
  | succ fuel ih =>
    rw [augWhile]
    by_cases hd : reach L (k + 1) * sc > s.l
    · have hl := hi.lt
      have hlm : s.l < m := by
        have : (s.l : ℝ) < m := by linarith
        exact_mod_cast this
      rw [if_pos hd, quot_ok (by linarith), Outcome.bind_ok, wr_lt _ (by rw [hi.len]; omega), Outcome.bind_ok]
      refine ih (s := ⟨_, _, _, _⟩) (a := s.l) (by dsimp only; omega) (hs.push (seg_point hp hq hsc (by linarith) hd.le (by linarith)) hl.le hk h1 hd.le _ _)
        (hi.hit hlm.le hs.length _) (by linarith) hd.le
    · rw [if_neg hd]
      exact ⟨s, a, rfl, hs, hi, h1, h2, not_lt.1 hd⟩

theorem augBody_spec {k : Nat} (hk : k + 1 < L.length) (hsc : 0 < sc) (hm : reach L (k + 1) * sc ≤ m) {fuel : Nat} {s : Aug} (hf : m < fuel)
    (hs : Core L sc (reach L k * sc) s) (hi : Idx m (reach L k * sc) s) :
    ∃ s', augBody ((arcLengthList L).map (· * sc)) L fuel (k + 1) s = .ok s' ∧ Core L sc (reach L (k + 1) * sc) s' ∧ Idx m (reach L (k + 1) * sc) s' := by
  have hp : L[k]? = some L[k] := by simp
  have hq : L[k + 1]? = some L[k + 1] := by simp [hk]
  have hmono : reach L k * sc ≤ reach L (k + 1) * sc := by
    have := reach_mono_succ L k hk
    gcongr
  have g1 : ((arcLengthList L).map (· * sc))[k + 1]? = some (reach L (k + 1) * sc) := by rw [List.getElem?_map, arc_get L _ hk]; rfl
  have g0 : ((arcLengthList L).map (· * sc))[k]? = some (reach L k * sc) := by rw [List.getElem?_map, arc_get L _ (by omega)]; rfl
  obtain ⟨s', a', e, c1, c2, c3, c4, c5⟩ := augWhile_spec (fuel := fuel) hp hq hsc hm (by have := hi.one; omega) hs hi le_rfl hmono
  have hpt : L[k + 1] = along L (reach L (k + 1) * sc / sc) := by
    rw [mul_div_cancel_right₀ _ hsc.ne', reach_succ hp hq]
    have := along_seg hp hq zero_le_one le_rfl
    rw [one_mul] at this
    rw [this]; simp
  unfold augBody
  rw [rd_ok g1, Outcome.bind_ok, Nat.add_sub_cancel, rd_ok g0, Outcome.bind_ok, rd_ok hp, Outcome.bind_ok, rd_ok hq, Outcome.bind_ok, e, Outcome.bind_ok]
  by_cases hd : reach L (k + 1) * sc = s'.l
  · have hlm : s'.l ≤ m := by
      have : (s'.l : ℝ) ≤ m := by rw [← hd]; exact hm
      exact_mod_cast this
    rw [if_pos hd, wr_lt _ (by rw [c2.len]; omega), Outcome.bind_ok]
    refine ⟨_, rfl, c1.push hpt c4 hk c3 le_rfl _ _, ?_⟩
    have := c2.hit hlm c1.length L[k + 1]
    rw [← hd] at this
    exact this
  · rw [if_neg hd]
    exact ⟨_, rfl, c1.push hpt c4 hk c3 le_rfl _ _, c2.miss c4 (lt_of_le_of_ne c5 hd) _⟩

/-- The whole first part. -/
theorem augment_gen (h4 : 4 ≤ L.length) (hpos : 0 < pathLen L) (hm : 1 ≤ m) {fuel : Nat} (hf : m < fuel) :
    ∃ s i0, augment fuel L m = .ok s ∧ Core L (m / pathLen L) m s ∧ s.idx.length = m + 1 ∧ s.idx[m]? = some i0 ∧ s.arc[i0]? = some (m : ℝ) ∧
      (∀ l, l < m → (l : ℝ) ≤ reach L (L.length - 2) * (m / pathLen L) → ∃ i, s.idx[l]? = some i ∧ s.arc[i]? = some (l : ℝ)) ∧
      (∀ l, l < m → reach L (L.length - 2) * (m / pathLen L) < l → s.idx[l]? = some 0) := by
  have hm0 : (0 : ℝ) < m := by exact_mod_cast hm
  have hsc : 0 < (m : ℝ) / pathLen L := by positivity
  have hlast : reach L (L.length - 1) = pathLen L := reach_last (by omega)
  have htot : pathLen L * (m / pathLen L) = m := by field_simp
  have hbound : ∀ k, reach L k * (m / pathLen L) ≤ m := by
    intro k
    have := reach_le (L := L) k
    calc reach L k * (m / pathLen L) ≤ pathLen L * (m / pathLen L) := by gcongr
      _ = m := htot
  have h0 : L[0]? = some (L[0]'(by omega)) := List.getElem?_eq_getElem _
  have ha0 : along L 0 = L[0]'(by omega) := by
    match L, h4 with
    | p :: l, _ => exact along_zero
  obtain ⟨s, e, c1, c2⟩ := forUp_inv (body := augBody ((arcLengthList L).map (· * (m / pathLen L))) L fuel)
    (fun k s => Core L (m / pathLen L) (reach L (k - 1) * (m / pathLen L)) s ∧ Idx m (reach L (k - 1) * (m / pathLen L)) s) (L.length - 2) 1
    ⟨[L[0]'(by omega)], [0], List.replicate (m + 1) 0, 1⟩ (by
      rw [Nat.sub_self, reach_zero, zero_mul]
      refine ⟨⟨rfl, by simp, rfl, ?_, ?_⟩, ⟨by simp, le_rfl, by simp, by simp, ?_, ?_⟩⟩
      · intro i x hx
        rw [List.getElem?_singleton] at hx
        split_ifs at hx with hi
        cases hx
        subst hi
        simp [ha0]
      · intro i x y hx hy
        simp at hy
      · intro l hl
        have : l = 0 := by dsimp only at hl; omega
        subst this
        exact ⟨0, by simp, by simp⟩
      · intro l h1 h2
        rw [List.getElem?_replicate, if_pos (by omega)]) (by
      rintro k s h1 h2 ⟨d1, d2⟩
      obtain ⟨k', rfl⟩ : ∃ k', k = k' + 1 := ⟨k - 1, by omega⟩
      rw [Nat.add_sub_cancel] at d1 d2
      obtain ⟨s', f1, f2, f3⟩ := augBody_spec (by omega) hsc (hbound _) hf d1 d2
      exact ⟨s', f1, f2, f3⟩)
  rw [show 1 + (L.length - 2) - 1 = L.length - 2 by omega] at c1 c2
  have hlp : L[L.length - 1]? = some (L[L.length - 1]'(by omega)) := List.getElem?_eq_getElem _
  have hpl : L[L.length - 1]'(by omega) = along L (m / (m / pathLen L)) := by
    rw [show (m : ℝ) / (m / pathLen L) = pathLen L by field_simp]
    exact (along_last (by rw [List.getLast?_eq_getElem?, hlp]) le_rfl).symm
  have hcore := c1.push hpl (x := m) (hbound _) (k := L.length - 2) (by omega) le_rfl (by rw [show L.length - 2 + 1 = L.length - 1 by omega, hlast, htot])
    (s.idx.set m s.poly.length) s.l
  refine ⟨_, s.poly.length, ?_, hcore, by simp [c2.len], ?_, ?_, ?_, ?_⟩
  · unfold augment
    rw [if_neg (by omega), rd_ok (arc_get L _ (by omega)), Outcome.bind_ok, hlast, quot_ok hpos.ne', Outcome.bind_ok, rd_ok h0, Outcome.bind_ok, e, Outcome.bind_ok,
      rd_ok hlp, Outcome.bind_ok, wr_lt _ (by rw [c2.len]; omega), Outcome.bind_ok]
  · dsimp only; rw [List.getElem?_set_self (by rw [c2.len]; omega)]
  · dsimp only; rw [c1.length]; simp
  · intro l hl hle
    have hll : l < s.l := by
      have : (l : ℝ) < s.l := lt_of_le_of_lt hle c2.lt
      exact_mod_cast this
    obtain ⟨i, f1, f2⟩ := c2.low l hll
    refine ⟨i, by dsimp only; rw [List.getElem?_set_ne (by omega)]; exact f1, ?_⟩
    dsimp only
    rw [List.getElem?_append_left]
    · exact f2
    · by_contra hc
      rw [List.getElem?_eq_none (by omega)] at f2
      cases f2
  · intro l hl hgt
    have hll : s.l ≤ l := by
      have h3 := c2.le
      have : (s.l : ℝ) < l + 1 := by linarith
      have h4 : s.l < l + 1 := by exact_mod_cast this
      omega
    dsimp only
    rw [List.getElem?_set_ne (by omega)]
    exact c2.high l hll (by omega)

/-- The polygon as a curve with `m` units of length. -/
noncomputable def unitCurve (L : List (Pt ℝ)) (m : Nat) (s : ℝ) : Pt ℝ := along L (s / (m / pathLen L))

theorem Core.follows {a : ℝ} {s : Aug} (hsc : 0 < sc) (h : Core L sc a s) : Follows (fun x => along L (x / sc)) s.arc s.poly := by
  refine ⟨h.length, fun i x y hx hy => (h.segs i x y hx hy).1, ?_⟩
  intro i x y p q hx hy hp hq z hz1 hz2
  have hxp := h.pts i x hx
  have hyq := h.pts (i + 1) y hy
  rw [hp] at hxp
  rw [hq] at hyq
  cases hxp
  cases hyq
  obtain ⟨-, k, hk, h1, h2⟩ := h.segs i x y hx hy
  have hP : L[k]? = some L[k] := by simp
  have hQ : L[k + 1]? = some L[k + 1] := by simp [hk]
  have hlt : reach L k * sc < reach L (k + 1) * sc := by linarith
  have ez := seg_point hP hQ hsc (x := z) (by linarith) (by linarith) hlt
  have ex := seg_point hP hQ hsc (x := x) h1 (by linarith) hlt
  have ey := seg_point hP hQ hsc (x := y) (by linarith) h2 hlt
  have hd : reach L (k + 1) * sc - reach L k * sc ≠ 0 := by linarith
  have hxy : y - x ≠ 0 := by linarith
  rw [← ez, ← ex, ← ey]
  refine Prod.ext ?_ ?_
  · simp only [lerp, Prod.fst_add, Prod.smul_fst, smul_eq_mul]
    field_simp
    ring
  · simp only [lerp, Prod.snd_add, Prod.smul_snd, smul_eq_mul]
    field_simp
    ring
end

/-- **C90, precondition.** Polygons with fewer than four points are refused, whatever the number of segments. -/
theorem augment_refuses {L : List (Pt ℝ)} (h : L.length < 4) (fuel m : Nat) : augment fuel L m = .precond := if_pos h

example (fuel : Nat) : augment fuel [⟨0, 0⟩, ⟨1, 0⟩, ⟨1, 1⟩] 5 = .precond := augment_refuses (by decide) fuel 5

/-- **C90.** If the polygon without its last segment covers all but the last of the `m` parts of equal length, then every position `0, …, m` is
found in the arrays, the polygon is not changed as a curve, and the right hand side computed for an inner control point `k` is the integral of the cubic B-spline
around `k` times the curve. -/
theorem augment_partial {L : List (Pt ℝ)} {m : Nat} (h4 : 4 ≤ L.length) (hpos : 0 < pathLen L) (hm : 1 ≤ m)
    (hlast : ((m : ℝ) - 1) * (pathLen L / m) ≤ reach L (L.length - 2)) {fuel : Nat} (hf : m < fuel) :
    ∃ s, augment fuel L m = .ok s ∧ Follows (unitCurve L m) s.arc s.poly ∧ s.arc[0]? = some 0 ∧
      (∀ l ≤ m, ∃ i, s.idx[l]? = some i ∧ s.arc[i]? = some (l : ℝ) ∧ s.poly[i]? = some (unitCurve L m l)) ∧
      ∀ k, 2 ≤ k → k + 2 ≤ m → innerIntegral s k =
        .ok (∫ t in ((k : ℝ) - 2)..(k + 2), bspline3 (t - k) * (unitCurve L m t).1, ∫ t in ((k : ℝ) - 2)..(k + 2), bspline3 (t - k) * (unitCurve L m t).2) := by
  have hm0 : (0 : ℝ) < m := by exact_mod_cast hm
  have hsc : 0 < (m : ℝ) / pathLen L := by positivity
  obtain ⟨s, i0, e, hc, -, g1, g2, g3, -⟩ := augment_gen h4 hpos hm hf
  have hfol := hc.follows hsc
  have hcov : (m : ℝ) - 1 ≤ reach L (L.length - 2) * (m / pathLen L) := by
    have := mul_le_mul_of_nonneg_right hlast hsc.le
    have e2 : ((m : ℝ) - 1) * (pathLen L / m) * (m / pathLen L) = m - 1 := by field_simp
    linarith
  have hall : ∀ l ≤ m, ∃ i, s.idx[l]? = some i ∧ s.arc[i]? = some (l : ℝ) := by
    intro l hl
    rcases Nat.eq_or_lt_of_le hl with rfl | hl
    · exact ⟨i0, g1, g2⟩
    · refine g3 l hl (le_trans ?_ hcov)
      have : (l : ℝ) + 1 ≤ m := by exact_mod_cast hl
      linarith
  refine ⟨s, e, hfol, ?_, fun l hl => ?_, ?_⟩
  · obtain ⟨i, -, f2⟩ := hall 0 (by omega)
    have h0 : s.arc[0]? = some (s.arc[0]'hc.pos) := List.getElem?_eq_getElem _
    have h1 := hfol.le (Nat.zero_le i) h0 f2
    have h2 : (0 : ℝ) ≤ s.arc[0]'hc.pos := by
      by_cases hlen : 1 < s.arc.length
      · obtain ⟨-, k, -, hk, -⟩ := hc.segs 0 _ _ h0 (List.getElem?_eq_getElem hlen)
        exact le_trans (mul_nonneg (reach_nonneg _ _) hsc.le) hk
      · have hl1 := hc.last
        have hp := hc.pos
        rw [show s.arc.length - 1 = 0 by omega, h0] at hl1
        rw [Option.some.inj hl1]; exact hm0.le
    rw [h0]
    simp only [Nat.cast_zero] at h1
    rw [le_antisymm h1 h2]
  · obtain ⟨i, f1, f2⟩ := hall l hl
    exact ⟨i, f1, f2, hc.pts i _ f2⟩
  · intro k hk2 hkm
    obtain ⟨a, a1, a2⟩ := hall (k - 2) (by omega)
    obtain ⟨b, b1, b2⟩ := hall (k - 1) (by omega)
    obtain ⟨c, c1, c2⟩ := hall k (by omega)
    obtain ⟨d, d1, d2⟩ := hall (k + 1) (by omega)
    obtain ⟨f, f1, f2⟩ := hall (k + 2) (by omega)
    rw [Nat.cast_sub (by omega)] at a2 b2
    push_cast at a2 b2 d2 f2
    rw [innerIntegral, rd_ok a1, Outcome.bind_ok, rd_ok c1, Outcome.bind_ok, rd_ok f1, Outcome.bind_ok, spline3Convolve_integral hfol a2 b2 c2 d2 f2]
    rfl

/-- The hypotheses are met: five points on a line, four parts. -/
example : ∃ L : List (Pt ℝ), 4 ≤ L.length ∧ 0 < pathLen L ∧ (((4 : Nat) : ℝ) - 1) * (pathLen L / (4 : Nat)) ≤ reach L (L.length - 2) := by
  refine ⟨[(0, 0), (1, 0), (2, 0), (3, 0), (4, 0)], by simp, ?_, ?_⟩
  · simp only [pathLen, Prod.mk_sub_mk, sub_zero]
    repeat rw [mag_axis (by norm_num)]
    norm_num
  · simp only [List.length_cons, List.length_nil, reach, List.take, pathLen, Prod.mk_sub_mk, sub_zero]
    repeat rw [mag_axis (by norm_num)]
    norm_num

/-- **C90, violated.** The positions inside of the last segment are never inserted: if the last segment is longer than one of the `m` parts, the index for
position `m - 1` stays 0, the start of the polygon. -/
theorem augment_violated {L : List (Pt ℝ)} {m : Nat} (h4 : 4 ≤ L.length) (hpos : 0 < pathLen L) (hm : 2 ≤ m)
    (hlast : reach L (L.length - 2) < ((m : ℝ) - 1) * (pathLen L / m)) {fuel : Nat} (hf : m < fuel) :
    ∃ s, augment fuel L m = .ok s ∧ s.idx[m - 1]? = some 0 := by
  have hm0 : (0 : ℝ) < m := by exact_mod_cast (by omega : 0 < m)
  have hsc : 0 < (m : ℝ) / pathLen L := by positivity
  obtain ⟨s, i0, e, hc, -, g1, g2, -, g4⟩ := augment_gen h4 hpos (by omega) hf
  refine ⟨s, e, g4 (m - 1) (by omega) ?_⟩
  rw [Nat.cast_sub (by omega)]
  have := mul_lt_mul_of_pos_right hlast hsc
  have e2 : ((m : ℝ) - 1) * (pathLen L / m) * (m / pathLen L) = m - 1 := by field_simp
  push_cast
  linarith

/-- The hypotheses are met: the points 0, 1, 2 and 6 of the axis, six parts. -/
example : ∃ L : List (Pt ℝ), 4 ≤ L.length ∧ 0 < pathLen L ∧ reach L (L.length - 2) < (((6 : Nat) : ℝ) - 1) * (pathLen L / (6 : Nat)) := by
  refine ⟨[(0, 0), (1, 0), (2, 0), (6, 0)], by simp, ?_, ?_⟩
  · simp only [pathLen, Prod.mk_sub_mk, sub_zero]
    repeat rw [mag_axis (by norm_num)]
    norm_num
  · simp only [List.length_cons, List.length_nil, reach, List.take, pathLen, Prod.mk_sub_mk, sub_zero]
    repeat rw [mag_axis (by norm_num)]
    norm_num

/-- **C90, violated (few segments).** `segmentCount` is not checked: with at most two segments the first index used for the ends is out of range (polygon.hxx:1583, 1616). -/
theorem augment_short_violated {L : List (Pt ℝ)} {m : Nat} (h4 : 4 ≤ L.length) (hpos : 0 < pathLen L) (hm : 1 ≤ m) (h2 : m ≤ 2) {fuel : Nat} (hf : m < fuel) :
    ∃ s, augment fuel L m = .ok s ∧ rd s.idx 3 = .ub := by
  obtain ⟨s, i0, e, -, hl, -⟩ := augment_gen h4 hpos hm hf
  exact ⟨s, e, by rw [rd, List.getElem?_eq_none (by omega)]⟩

end Verif.Resample
