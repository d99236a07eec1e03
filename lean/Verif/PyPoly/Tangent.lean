import Verif.PyPoly.Model
import Verif.Resample.Lemmas
import Verif.DartPos.Lemmas
import Mathlib.Tactic.Linarith
import Mathlib.Tactic.FieldSimp
import Mathlib.Algebra.Order.Floor.Ring

/-! # Continuous angles: specification and helper lemmas -/

namespace Verif.PyPoly
open Verif Verif.GeoMap Verif.DartPos Verif.Resample

/-! ## The specification -/

/-- The angles are the same up to full turns. -/
def SameAngle (a b : ℝ) : Prop := ∃ k : ℤ, a = b + k * (2 * Real.pi)

/-- Consecutive angles, beginning with `a`, differ by half a turn at most. -/
def Continuous' : ℝ → List ℝ → Prop
  | _, [] => True
  | a, b :: l => |b - a| ≤ Real.pi ∧ Continuous' b l

/-! ## Lemmas -/

theorem continuous'_append (a : ℝ) (l m : List ℝ) (c : ℝ) (hc : (a :: l).getLast? = some c) (h : Continuous' a l) (k : Continuous' c m) : Continuous' a (l ++ m) := by
  induction l generalizing a with
  | nil => simp at hc; subst hc; exact k
  | cons b l ih => exact ⟨h.1, ih b (by simpa using hc) h.2⟩

/-- the offset is a number of full turns -/
def Cont.OK (c : Cont) : Prop := SameAngle c.2 0

theorem Cont.step_spec {c : Cont} (hc : c.OK) (a : ℝ) : SameAngle (c.step a).1 a ∧ |(c.step a).1 - c.1| ≤ Real.pi ∧ (c.step a).2.1 = (c.step a).1 ∧ (c.step a).2.OK := by
  have hp := Real.pi_pos
  obtain ⟨k, hk⟩ := hc
  simp only [Cont.step]
  by_cases h : |a + c.2 - c.1| > Real.pi
  · rw [if_pos h]
    dsimp only
    set d := a + c.2 - c.1 with hd
    have h1 := Int.floor_le ((d + Real.pi) / (Real.pi * 2))
    have h2 := Int.lt_floor_add_one ((d + Real.pi) / (Real.pi * 2))
    set n := ⌊(d + Real.pi) / (Real.pi * 2)⌋ with hn
    rw [le_div_iff₀ (by positivity)] at h1
    rw [div_lt_iff₀ (by positivity)] at h2
    refine ⟨⟨k - n, ?_⟩, ?_, rfl, ⟨k - n, ?_⟩⟩
    · rw [hk]; push_cast; ring
    · rw [abs_le]; constructor <;> nlinarith
    · dsimp only; rw [hk]; push_cast; ring
  · rw [if_neg h]
    exact ⟨⟨k, by dsimp only; rw [hk]; ring⟩, not_lt.mp h, rfl, ⟨k, hk⟩⟩

theorem Cont.ok_new (a : ℝ) : Cont.OK (a, 0) := ⟨0, by simp⟩

/-- `l` is a continuous sequence of angles, the same as those of `m`; it starts from the state `c` and ends in the state `c'`. -/
structure Unwrapped (c c' : Cont) (m l : List ℝ) : Prop where
  same : List.Forall₂ SameAngle l m
  cont : Continuous' c.1 l
  last : (c.1 :: l).getLast? = some c'.1
  ok : c'.OK

theorem Unwrapped.nil {c : Cont} (h : c.OK) : Unwrapped c c [] [] := ⟨.nil, trivial, rfl, h⟩

theorem Unwrapped.append {c d e : Cont} {m m' l l' : List ℝ} (h : Unwrapped c d m l) (k : Unwrapped d e m' l') : Unwrapped c e (m ++ m') (l ++ l') := by
  refine ⟨List.rel_append h.same k.same, continuous'_append _ _ _ _ h.last h.cont k.cont, ?_, k.ok⟩
  rw [← List.cons_append, List.getLast?_append]
  have hl := k.last
  cases l' with
  | nil => simp at hl; simp [h.last, hl]
  | cons x t =>
    have : (x :: t).getLast? = some e.1 := by simpa using hl
    simp [this]

theorem Unwrapped.step {c : Cont} (h : c.OK) (a : ℝ) : Unwrapped c (c.step a).2 [a] [(c.step a).1] := by
  obtain ⟨h1, h2, h3, h4⟩ := Cont.step_spec h a
  exact ⟨.cons h1 .nil, ⟨h2, trivial⟩, by simp [h3], h4⟩

theorem appendFwd_spec (off : ℝ) (t : List (ℝ × ℝ)) : ∀ (c : Cont), c.OK →
    (appendFwd off c t).1.map Prod.fst = t.map (fun x => off + x.1) ∧ Unwrapped c (appendFwd off c t).2 (t.map Prod.snd) ((appendFwd off c t).1.map Prod.snd) := by
  induction t with
  | nil => intro c h; exact ⟨rfl, .nil h⟩
  | cons x t ih =>
    intro c h
    have hs := Unwrapped.step h x.2
    obtain ⟨h1, h2⟩ := ih (c.step x.2).2 hs.ok
    refine ⟨?_, by simpa [appendFwd] using hs.append h2⟩
    simp only [appendFwd, List.map_cons, h1, add_comm]

theorem appendBwd_spec (off : ℝ) (t : List (ℝ × ℝ)) : ∀ (c : Cont), c.OK →
    (appendBwd off c t).1.map Prod.fst = t.map (fun x => off - x.1) ∧ Unwrapped c (appendBwd off c t).2 (t.map fun x => x.2 + Real.pi) ((appendBwd off c t).1.map Prod.snd) := by
  induction t with
  | nil => intro c h; exact ⟨rfl, .nil h⟩
  | cons x t ih =>
    intro c h
    have hs := Unwrapped.step h (x.2 + Real.pi)
    obtain ⟨h1, h2⟩ := ih (c.step (x.2 + Real.pi)).2 hs.ok
    refine ⟨?_, by simpa [appendBwd] using hs.append h2⟩
    simp only [appendBwd, List.map_cons, h1]

/-- The arc lengths and directions along a sequence of darts: a dart of positive length contributes its entries, a dart of negative length is
traversed backwards; `off` is the length of the darts before. -/
noncomputable def alongDarts : ℝ → List (List (ℝ × ℝ) × ℝ) → List (ℝ × ℝ)
  | _, [] => []
  | off, (t, len) :: l =>
    (if 0 < len then t.map (fun x => (off + x.1, x.2)) else t.reverse.map (fun x => (off + (|len| - x.1), x.2 + Real.pi))) ++ alongDarts (off + |len|) l

theorem composeLoop_spec (l : List (List (ℝ × ℝ) × ℝ)) : ∀ (off : ℝ) (c : Cont), c.OK →
    (composeLoop off c l).map Prod.fst = (alongDarts off l).map Prod.fst ∧
      ∃ c', Unwrapped c c' ((alongDarts off l).map Prod.snd) ((composeLoop off c l).map Prod.snd) := by
  induction l with
  | nil => intro off c h; exact ⟨rfl, c, .nil h⟩
  | cons x l ih =>
    intro off c h
    obtain ⟨t, len⟩ := x
    simp only [composeLoop, alongDarts, appendTangentList]
    by_cases hl : len > 0
    · rw [if_pos hl, if_pos hl]
      dsimp only
      obtain ⟨h1, h2⟩ := appendFwd_spec off t c h
      obtain ⟨h3, c', h4⟩ := ih (off + len) (appendFwd off c t).2 h2.ok
      rw [abs_of_pos hl]
      refine ⟨?_, c', ?_⟩
      · rw [List.map_append, List.map_append, h1, h3, List.map_map]; rfl
      · rw [List.map_append, List.map_append, List.map_map]; exact h2.append h4
    · rw [if_neg hl, if_neg hl]
      dsimp only
      obtain ⟨h1, h2⟩ := appendBwd_spec (off + -len) t.reverse c h
      obtain ⟨h3, c', h4⟩ := ih (off + -len) (appendBwd (off + -len) c t.reverse).2 h2.ok
      rw [abs_of_nonpos (not_lt.mp hl)]
      refine ⟨?_, c', ?_⟩
      · rw [List.map_append, List.map_append, h1, h3, List.map_map]
        congr 1
        apply List.map_congr_left
        intro x _
        simp only [Function.comp_apply]; ring
      · rw [List.map_append, List.map_append, List.map_map]; exact h2.append h4

/-! ## Lists of tangents -/

theorem lenBody_spec {p : List (Pt ℝ)} {n : Nat} (h : n < p.length) : forUp (lenBody p) n 0 0 = .ok (reach p n) := by
  obtain ⟨s, e, P⟩ := forUp_inv (body := lenBody p) (fun k s => s = reach p k) n 0 0 (by
    cases p with
    | nil => simp at h
    | cons a t => simp [reach, pathLen]) (fun j s _ hj hs => by
    have h1 : j + 1 < p.length := by omega
    have h0 : j < p.length := by omega
    refine ⟨reach p (j + 1), ?_, rfl⟩
    simp only [lenBody, rd_lt h1, rd_lt h0, Outcome.bind]
    rw [reach_succ (List.getElem?_eq_getElem h0) (List.getElem?_eq_getElem h1), hs])
  rw [e, P]; simp

/-- the indices used by `tangentList` -/
noncomputable def tangIdx (p : List (Pt ℝ)) (dx k n : Nat) : List Nat := (List.range' k n).filter fun i => decide (1e-14 ≤ sqMag (p.getD (i + 2 * dx) 0 - p.getD i 0))

theorem tangIdx_succ (p : List (Pt ℝ)) (dx k n : Nat) : tangIdx p dx k (n + 1) =
    tangIdx p dx k n ++ if 1e-14 ≤ sqMag (p.getD (k + n + 2 * dx) 0 - p.getD (k + n) 0) then [k + n] else [] := by
  simp only [tangIdx, List.range'_concat, List.filter_append, Nat.one_mul, List.filter_cons, List.filter_nil, decide_eq_true_eq]

theorem tangLoop_spec {p : List (Pt ℝ)} {dx k n : Nat} (hdx : 0 < dx) (h : k + n + 2 * dx ≤ p.length) :
    ∃ s, forUp (tangBody p dx) n k (reach p (k + dx - 1), ((0, 0), [])) = .ok s ∧
      s.2.2.map Prod.fst = (tangIdx p dx k n).map (fun i => reach p (i + dx)) ∧
      Unwrapped (0, 0) s.2.1 ((tangIdx p dx k n).map fun i => Complex.arg ⟨(p.getD (i + 2 * dx) 0 - p.getD i 0).1, (p.getD (i + 2 * dx) 0 - p.getD i 0).2⟩) (s.2.2.map Prod.snd) := by
  obtain ⟨s, e, P⟩ := forUp_inv (body := tangBody p dx) (fun j s => s.1 = reach p (j + dx - 1) ∧
      s.2.2.map Prod.fst = (tangIdx p dx k (j - k)).map (fun i => reach p (i + dx)) ∧
      Unwrapped (0, 0) s.2.1 ((tangIdx p dx k (j - k)).map fun i => Complex.arg ⟨(p.getD (i + 2 * dx) 0 - p.getD i 0).1, (p.getD (i + 2 * dx) 0 - p.getD i 0).2⟩) (s.2.2.map Prod.snd))
    n k (reach p (k + dx - 1), ((0, 0), [])) (by
      refine ⟨rfl, ?_, ?_⟩
      · simp [tangIdx]
      · simpa [tangIdx] using Unwrapped.nil (Cont.ok_new 0))
    (fun j s hk hj hs => by
      obtain ⟨pos, c, res⟩ := s
      obtain ⟨h1, h2, h3⟩ := hs
      dsimp only at h1 h2 h3
      have i1 : j + 2 * dx < p.length := by omega
      have i2 : j < p.length := by omega
      have i3 : j + dx < p.length := by omega
      have i4 : j + dx - 1 < p.length := by omega
      have hr : reach p (j + dx) = reach p (j + dx - 1) + mag (p[j + dx] - p[j + dx - 1]) := by
        have := reach_succ (L := p) (k := j + dx - 1) (List.getElem?_eq_getElem i4) (q := p[j + dx]) (by rw [show j + dx - 1 + 1 = j + dx by omega]; exact List.getElem?_eq_getElem i3)
        rw [show j + dx - 1 + 1 = j + dx by omega] at this
        exact this
      have g1 : p.getD (j + 2 * dx) 0 = p[j + 2 * dx] := by simp [List.getD, i1]
      have g2 : p.getD j 0 = p[j] := by simp [List.getD, i2]
      have ht := tangIdx_succ p dx k (j - k)
      rw [show k + (j - k) = j by omega, g1, g2] at ht
      simp only [tangBody, rd_lt i1, rd_lt i2, rd_lt i3, rd_lt i4, Outcome.bind]
      rw [show j + 1 - k = j - k + 1 by omega, show j + 1 + dx - 1 = j + dx by omega]
      by_cases hd : sqMag (p[j + 2 * dx] - p[j]) < 1e-14
      · rw [if_pos hd]
        rw [if_neg (not_le.mpr hd), List.append_nil] at ht
        refine ⟨(pos + mag (p[j + dx] - p[j + dx - 1]), (c, res)), rfl, ?_, ?_, ?_⟩
        · dsimp only; rw [h1, hr]
        · rw [ht]; exact h2
        · rw [ht]; exact h3
      · rw [if_neg hd]
        rw [if_pos (not_lt.mp hd)] at ht
        have st := Unwrapped.step h3.ok (Complex.arg ⟨(p[j + 2 * dx] - p[j]).1, (p[j + 2 * dx] - p[j]).2⟩)
        refine ⟨(pos + mag (p[j + dx] - p[j + dx - 1]), ((c.step (Complex.arg ⟨(p[j + 2 * dx] - p[j]).1, (p[j + 2 * dx] - p[j]).2⟩)).2,
          res ++ [(pos + mag (p[j + dx] - p[j + dx - 1]), (c.step (Complex.arg ⟨(p[j + 2 * dx] - p[j]).1, (p[j + 2 * dx] - p[j]).2⟩)).1)])), rfl, ?_, ?_, ?_⟩
        · dsimp only; rw [h1, hr]
        · rw [ht]; simp [h2, h1, hr]
        · rw [ht, List.map_append, List.map_append]
          have := h3.append st
          simpa only [List.map_cons, List.map_nil, g1, g2] using this)
  refine ⟨s, e, ?_, ?_⟩
  · have := P.2.1; rwa [show k + n - k = n by omega] at this
  · have := P.2.2; rwa [show k + n - k = n by omega] at this

theorem u32_small {x : Int} (h0 : 0 ≤ x) (h : x < 2 ^ 32) : u32 x = x.toNat := by
  unfold u32; rw [Int.emod_eq_of_lt h0 h]

/-! ## Curvature -/

/-- The angle between two directions -/
noncomputable def turn (s t : Pt ℝ) : ℝ := Real.arccos (dot s t / (mag s * mag t))

/-- The turning angle at `b` on the way from `a` over `b` to `c`, divided by the mean of the distances; negative for turns to the right -/
noncomputable def turnPerLength (a b c : Pt ℝ) : ℝ :=
  (if (b - a).1 * (c - b).2 - (b - a).2 * (c - b).1 < 0 then -1 else 1) * (turn (b - a) (c - b) / ((mag (b - a) + mag (c - b)) / 2))

theorem sqMag_eq (v : Pt ℝ) : mag v * mag v = sqMag v := Real.mul_self_sqrt (by unfold sqMag; nlinarith [sq_nonneg v.1, sq_nonneg v.2])

theorem curvature_eq {a b c : Pt ℝ} (h1 : mag (b - a) ≠ 0) (h2 : mag (c - b) ≠ 0) : curvature (b - a) (c - b) (c - a) = turnPerLength a b c := by
  have p1 : 0 < mag (b - a) := lt_of_le_of_ne (mag_nonneg _) (Ne.symm h1)
  have p2 : 0 < mag (c - b) := lt_of_le_of_ne (mag_nonneg _) (Ne.symm h2)
  have hg : (sqMag (b - a) + sqMag (c - b) - sqMag (c - a)) / (2 * mag (b - a) * mag (c - b)) = -(dot (b - a) (c - b) / (mag (b - a) * mag (c - b))) := by
    have : sqMag (b - a) + sqMag (c - b) - sqMag (c - a) = -2 * dot (b - a) (c - b) := by
      simp only [sqMag, dot, Prod.fst_sub, Prod.snd_sub]; ring
    rw [this]; field_simp
  simp only [curvature, turnPerLength, turn]
  rw [hg, Real.arccos_neg]
  have hc : (b - a).1 * (c - a).2 - (c - a).1 * (b - a).2 = (b - a).1 * (c - b).2 - (b - a).2 * (c - b).1 := by
    simp only [Prod.fst_sub, Prod.snd_sub]; ring
  rw [hc]
  by_cases hx : -(dot (b - a) (c - b) / (mag (b - a) * mag (c - b))) > -1
  · rw [if_pos hx]
    split_ifs
    · have : mag (b - a) + mag (c - b) ≠ 0 := by positivity
      field_simp; ring
    · have : mag (b - a) + mag (c - b) ≠ 0 := by positivity
      field_simp; ring
  · rw [if_neg hx, Real.arccos_of_one_le (by linarith)]; simp

/-- the indices used by `curvatureList` -/
noncomputable def curvIdx (p : List (Pt ℝ)) (dx k n : Nat) : List Nat :=
  (List.range' k n).filter fun i => decide (1e-8 ≤ mag (p.getD (i + dx) 0 - p.getD i 0) ∧ 1e-8 ≤ mag (p.getD (i + 2 * dx) 0 - p.getD (i + dx) 0))

theorem curvIdx_succ (p : List (Pt ℝ)) (dx k n : Nat) : curvIdx p dx k (n + 1) =
    curvIdx p dx k n ++ if 1e-8 ≤ mag (p.getD (k + n + dx) 0 - p.getD (k + n) 0) ∧ 1e-8 ≤ mag (p.getD (k + n + 2 * dx) 0 - p.getD (k + n + dx) 0) then [k + n] else [] := by
  simp only [curvIdx, List.range'_concat, List.filter_append, Nat.one_mul, List.filter_cons, List.filter_nil, decide_eq_true_eq]

theorem curvLoop_spec {p : List (Pt ℝ)} {dx k n : Nat} (hdx : 0 < dx) (h : k + n + 2 * dx ≤ p.length) (hp : p.length < 2 ^ 32) :
    ∃ pos, forUp (curvBody p dx) n k (reach p (k + dx - 1), []) =
      .ok (pos, (curvIdx p dx k n).map fun i => (reach p (i + dx), turnPerLength (p.getD i 0) (p.getD (i + dx) 0) (p.getD (i + 2 * dx) 0))) := by
  obtain ⟨s, e, P⟩ := forUp_inv (body := curvBody p dx) (fun j s => s.1 = reach p (j + dx - 1) ∧
      s.2 = (curvIdx p dx k (j - k)).map (fun i => (reach p (i + dx), turnPerLength (p.getD i 0) (p.getD (i + dx) 0) (p.getD (i + 2 * dx) 0))))
    n k (reach p (k + dx - 1), []) (by
      refine ⟨rfl, ?_⟩
      simp [curvIdx])
    (fun j s hk hj hs => by
      obtain ⟨pos, res⟩ := s
      obtain ⟨h1, h2⟩ := hs
      dsimp only at h1 h2
      have i1 : j + 2 * dx < p.length := by omega
      have i2 : j < p.length := by omega
      have i3 : j + dx < p.length := by omega
      have i4 : j + dx - 1 < p.length := by omega
      have hr : reach p (j + dx) = reach p (j + dx - 1) + mag (p[j + dx] - p[j + dx - 1]) := by
        have := reach_succ (L := p) (k := j + dx - 1) (List.getElem?_eq_getElem i4) (q := p[j + dx]) (by rw [show j + dx - 1 + 1 = j + dx by omega]; exact List.getElem?_eq_getElem i3)
        rw [show j + dx - 1 + 1 = j + dx by omega] at this
        exact this
      have g1 : p.getD (j + 2 * dx) 0 = p[j + 2 * dx] := by simp [List.getD, i1]
      have g2 : p.getD j 0 = p[j] := by simp [List.getD, i2]
      have g3 : p.getD (j + dx) 0 = p[j + dx] := by simp [List.getD, i3]
      have u1 : u32 ((j : Int) + dx) = j + dx := by rw [u32_small (by omega) (by omega)]; omega
      have u2 : u32 ((j : Int) + 2 * dx) = j + 2 * dx := by rw [u32_small (by omega) (by omega)]; omega
      have u3 : u32 ((j : Int) + dx - 1) = j + dx - 1 := by rw [u32_small (by omega) (by omega)]; omega
      have ht := curvIdx_succ p dx k (j - k)
      rw [show k + (j - k) = j by omega, g1, g2, g3] at ht
      simp only [curvBody, u1, u2, u3, rd_lt i1, rd_lt i2, rd_lt i3, rd_lt i4, Outcome.bind]
      rw [show j + 1 - k = j - k + 1 by omega, show j + 1 + dx - 1 = j + dx by omega]
      by_cases hd : mag (p[j + dx] - p[j]) < 1e-8 ∨ mag (p[j + 2 * dx] - p[j + dx]) < 1e-8
      · rw [if_pos hd]
        rw [if_neg (by rw [← not_lt, ← not_lt]; tauto), List.append_nil] at ht
        refine ⟨(pos + mag (p[j + dx] - p[j + dx - 1]), res), rfl, ?_, ?_⟩
        · dsimp only; rw [h1, hr]
        · rw [ht]; exact h2
      · rw [if_neg hd]
        rw [if_pos (by rw [← not_lt, ← not_lt]; tauto)] at ht
        have n1 : mag (p[j + dx] - p[j]) ≠ 0 := by
          intro e; apply hd; left; rw [e]; norm_num
        have n2 : mag (p[j + 2 * dx] - p[j + dx]) ≠ 0 := by
          intro e; apply hd; right; rw [e]; norm_num
        rw [curvature_eq n1 n2]
        refine ⟨(pos + mag (p[j + dx] - p[j + dx - 1]), res ++ [(pos + mag (p[j + dx] - p[j + dx - 1]), turnPerLength p[j] p[j + dx] p[j + 2 * dx])]), rfl, ?_, ?_⟩
        · dsimp only; rw [h1, hr]
        · dsimp only
          rw [ht, List.map_append, List.map_cons, List.map_nil, g1, g2, g3, ← h2, h1, hr])
  refine ⟨s.1, ?_⟩
  rw [e]
  have := P.2
  rw [show k + n - k = n by omega] at this
  rw [← this]

end Verif.PyPoly
