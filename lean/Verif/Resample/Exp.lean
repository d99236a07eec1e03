import Verif.Resample.Lemmas
import Mathlib.Tactic.Linarith
import Mathlib.Tactic.Positivity
import Mathlib.Tactic.FieldSimp

/-! # `resamplePolygonExponentialFilter` -/

namespace Verif.Resample
open Verif Verif.GeoMap Verif.DartPos

theorem weights_length (scale : ℝ) (L : List (Pt ℝ)) : (weights scale L).length = L.length - 1 := by
  induction L with
  | nil => rfl
  | cons p l ih =>
    match l, ih with
    | [], _ => rfl
    | q :: l, ih => simp [weights, ih]

theorem weights_pos (scale : ℝ) (L : List (Pt ℝ)) : ∀ w ∈ weights scale L, 0 < w := by
  induction L with
  | nil => simp [weights]
  | cons p l ih =>
    match l, ih with
    | [], _ => simp [weights]
    | q :: l, ih =>
      intro w hw
      rw [weights, List.mem_cons] at hw
      rcases hw with rfl | hw
      · exact Real.exp_pos _
      · exact ih w hw

theorem forwardPass_length (scale : ℝ) (L : List (Pt ℝ)) (a : Acc) : (forwardPass scale a L).length = L.length := by
  induction L generalizing a with
  | nil => rfl
  | cons p l ih =>
    match l, ih with
    | [], _ => rfl
    | q :: l, ih => simp [forwardPass, ih]

theorem backwardPass_length (scale : ℝ) (L : List (Pt ℝ)) (a : Acc) : (backwardPass scale a L).length = L.length := by
  induction L with
  | nil => rfl
  | cons p l ih =>
    match l, ih with
    | [], _ => rfl
    | q :: l, ih => simp [backwardPass, ih]

section
variable {scale : ℝ} {P : Acc → Prop} {Q : Pt ℝ → Prop} (hadd : ∀ p w a, Q p → 0 < w → P a → P (Acc.add p w a))
include hadd

theorem sweep_inv (L : List (Pt ℝ)) (hQ : ∀ p ∈ L, Q p) (a : Acc) (ha : P a) : P (sweep scale a L) := by
  induction L generalizing a with
  | nil => exact ha
  | cons p l ih =>
    match l, ih, hQ with
    | [], _, _ => exact ha
    | q :: l, ih, hQ => exact ih (fun x hx => hQ x (by simp_all)) _ (hadd _ _ _ (hQ q (by simp)) (Real.exp_pos _) ha)

theorem sweepBack_inv (L : List (Pt ℝ)) (hQ : ∀ p ∈ L, Q p) (a : Acc) (ha : P a) : P (sweepBack scale a L) := by
  induction L with
  | nil => exact ha
  | cons p l ih =>
    match l, ih, hQ with
    | [], _, _ => exact ha
    | q :: l, ih, hQ => exact hadd _ _ _ (hQ p (by simp)) (Real.exp_pos _) (ih (fun x hx => hQ x (by simp_all)))

theorem forwardPass_inv (L : List (Pt ℝ)) (hQ : ∀ p ∈ L, Q p) (a : Acc) (ha : P a) : ∀ x ∈ forwardPass scale a L, P x := by
  induction L generalizing a with
  | nil => simp [forwardPass]
  | cons p l ih =>
    match l, ih, hQ with
    | [], _, _ => simpa [forwardPass] using ha
    | q :: l, ih, hQ =>
      intro x hx
      rw [forwardPass, List.mem_cons] at hx
      rcases hx with rfl | hx
      · exact ha
      · exact ih (fun x hx => hQ x (by simp_all)) _ (hadd _ _ _ (hQ q (by simp)) (Real.exp_pos _) ha) x hx

theorem backwardPass_inv (L : List (Pt ℝ)) (hQ : ∀ p ∈ L, Q p) (a : Acc) (ha : P a) : ∀ x ∈ backwardPass scale a L, P x := by
  induction L with
  | nil => simp [backwardPass]
  | cons p l ih =>
    match l, ih, hQ with
    | [], _, _ => simpa [backwardPass] using ha
    | q :: l, ih, hQ =>
      have hq : ∀ x ∈ q :: l, Q x := fun x hx => hQ x (by simp_all)
      intro x hx
      rw [backwardPass, List.mem_cons] at hx
      rcases hx with rfl | hx
      · exact hadd _ _ _ (hQ p (by simp)) (Real.exp_pos _) (sweepBack_inv hadd _ hq _ ha)
      · exact ih hq x hx

end

/-- The properties of the predicate on the sums that the loops need: positive weights and closure under means. -/
structure Conv (P : Acc → Prop) (R : Pt ℝ → Prop) : Prop where
  pos : ∀ a, P a → 0 < a.2
  mean : ∀ u v a b, 0 < u → 0 < v → P a → P b → R ((1 / (u * a.2 + v * b.2)) • (u • a.1 + v • b.1))

theorem blend_ok {P : Acc → Prop} {R : Pt ℝ → Prop} (h : Conv P R) {u v : ℝ} (hu : 0 < u) (hv : 0 < v) {a b : Acc} (ha : P a) (hb : P b) :
    ∃ p, blend u v a b = .ok p ∧ R p := by
  have := h.pos a ha
  have := h.pos b hb
  exact ⟨_, by rw [blend, if_neg (by positivity)], h.mean u v a b hu hv ha hb⟩

theorem getElem_mem' {α : Type} {l : List α} {i : Nat} (h : i < l.length) : l[i] ∈ l := List.getElem_mem h

/-- The arc lengths of the smoothed points -/
theorem smooth_loop {P : Acc → Prop} {R : Pt ℝ → Prop} (h : Conv P R) {size : Nat} (hs : 3 ≤ size) {fw bw : List Acc} {w : List ℝ}
    (lf : fw.length = size) (lb : bw.length = size) (lw : w.length = size - 1) (hf : ∀ x ∈ fw, P x) (hb : ∀ x ∈ bw, P x) (hw : ∀ x ∈ w, 0 < x) (p : Pt ℝ) :
    ∃ arc q l1, forUp (smoothBody fw bw w) (size - 2) 1 ([0], p) = .ok (arc, q) ∧ arc.length = size - 1 ∧ arc[0]? = some 0 ∧
      arc[size - 2]? = some l1 ∧ 0 ≤ l1 := by
  obtain ⟨⟨arc, q⟩, e, h1, h2, l1, h3, h4⟩ := forUp_inv (body := smoothBody fw bw w)
    (fun k (s : List ℝ × Pt ℝ) => s.1.length = k ∧ s.1[0]? = some 0 ∧ ∃ l1, s.1[k - 1]? = some l1 ∧ 0 ≤ l1) (size - 2) 1 ([0], p)
    ⟨by simp, by simp, 0, by simp, le_rfl⟩ (by
      rintro j ⟨arc, q⟩ h1 h2 ⟨a1, a2, l1, a3, a4⟩
      dsimp only at a1 a2 a3
      obtain ⟨pc, e1, _⟩ := blend_ok h one_pos (hw _ (getElem_mem' (show j < w.length by omega))) (hf _ (getElem_mem' (show j < fw.length by omega)))
        (hb _ (getElem_mem' (show j + 1 < bw.length by omega)))
      refine ⟨(arc ++ [l1 + mag (pc - q)], pc), ?_, by simp [a1], ?_, l1 + mag (pc - q), ?_, add_nonneg a4 (mag_nonneg _)⟩
      · rw [smoothBody, rd_lt (by omega), Outcome.bind_ok, rd_lt (by omega), Outcome.bind_ok, rd_lt (by omega), Outcome.bind_ok, e1, Outcome.bind_ok,
          rd_ok (x := l1) (by dsimp only; rw [a1]; exact a3), Outcome.bind_ok]
      · dsimp only
        rw [List.getElem?_append_left (by omega)]; exact a2
      · dsimp only
        rw [List.getElem?_append_right (by omega)]; simp [a1])
  dsimp only at h1 h2 h3
  exact ⟨arc, q, l1, e, by omega, h2, by rw [show size - 2 = 1 + (size - 2) - 1 by omega]; exact h3, h4⟩

/-- The samples -/
theorem exp_loop {P : Acc → Prop} {R : Pt ℝ → Prop} (h : Conv P R) {size : Nat} (hs : 3 ≤ size) {fw bw : List Acc} {w arc : List ℝ}
    (lf : fw.length = size) (lb : bw.length = size) (lw : w.length = size - 1) (hf : ∀ x ∈ fw, P x) (hb : ∀ x ∈ bw, P x) (hw : ∀ x ∈ w, 0 < x)
    (la : arc.length = size) (ha0 : arc[0]? = some 0) {len : ℝ} (ha1 : arc[size - 1]? = some len) {n : Nat} (hn : 1 ≤ n) (hlen : 0 < len) {p : Pt ℝ} (hp : R p) :
    ∃ r l, forUp (expBody size fw bw w arc (len / n)) (n - 1) 1 ([p], 1) = .ok (r, l) ∧ r.length = n ∧ r[0]? = some p ∧ ∀ q ∈ r, R q := by
  have hn0 : (0 : ℝ) < n := by exact_mod_cast hn
  have hstep : 0 < len / n := by positivity
  obtain ⟨⟨r, l⟩, e, h1, h2, h3, -⟩ := forUp_inv (body := expBody size fw bw w arc (len / n))
    (fun k (s : List (Pt ℝ) × Nat) => s.1.length = k ∧ s.1[0]? = some p ∧ (∀ q ∈ s.1, R q) ∧ 1 ≤ s.2 ∧ s.2 < size ∧
      ∃ y, arc[s.2 - 1]? = some y ∧ y ≤ (k - 1 : ℝ) * (len / n)) (n - 1) 1 ([p], 1)
    ⟨by simp, by simp, by simpa using hp, le_rfl, by simp; omega, 0, ha0, by simp⟩ (by
      rintro k ⟨s, l0⟩ h1 h2 ⟨a1, a2, a3, a4, a5, y0, a6, a7⟩
      dsimp only at a1 a2 a3 a4 a5 a6 a7
      have hcur : (k : ℝ) * (len / n) ≤ len := by
        rw [mul_div_assoc', div_le_iff₀ hn0, mul_comm]
        exact mul_le_mul_of_nonneg_left (by exact_mod_cast (by omega : k ≤ n)) hlen.le
      obtain ⟨j, x, b1, b2, b3, b4, b5, b6⟩ := search_spec (arc := arc) (cur := k * (len / n)) (size := size) (l := l0) (m := size - 1) la
        (by omega) (by omega) ⟨len, ha1, hcur⟩
      obtain ⟨y, hy, hy2⟩ : ∃ y, arc[j - 1]? = some y ∧ y < k * (len / n) := by
        rcases Nat.eq_or_lt_of_le b2 with e | e
        · exact ⟨y0, by rw [← e]; exact a6, by nlinarith⟩
        · exact b6 (j - 1) (by omega) (by omega)
      have hwp := hw _ (getElem_mem' (show j - 1 < w.length by omega))
      obtain ⟨q, e1, hq⟩ := blend_ok h (Real.rpow_pos_of_pos hwp (1 - (x - k * (len / n)) / (x - y))) (Real.rpow_pos_of_pos hwp ((x - k * (len / n)) / (x - y)))
        (hf _ (getElem_mem' (show j - 1 < fw.length by omega))) (hb _ (getElem_mem' (show j < bw.length by omega)))
      refine ⟨(s ++ [q], j), ?_, by simp [a1], ?_, ?_, by simp; omega, by simp; omega, y, hy, ?_⟩
      · rw [expBody, b1, Outcome.bind_ok, rd_lt (by omega), Outcome.bind_ok, rd_ok b4, Outcome.bind_ok, rd_ok hy, Outcome.bind_ok,
          quot_ok (by linarith), Outcome.bind_ok, rd_lt (by omega), Outcome.bind_ok, rd_lt (by omega), Outcome.bind_ok, e1, Outcome.bind_ok]
      · dsimp only
        rw [List.getElem?_append_left (by omega)]; exact a2
      · intro x hx
        rcases List.mem_append.1 hx with hx | hx
        · exact a3 x hx
        · rw [List.mem_singleton.1 hx]; exact hq
      · push_cast; linarith)
  dsimp only at h1 h2 h3
  exact ⟨r, l, e, by omega, h2, h3⟩

/-- The whole function, for a predicate that the sums of the two passes have. -/
theorem exponentialFilter_gen {P : Acc → Prop} {R : Pt ℝ → Prop} (h : Conv P R) {poly : List (Pt ℝ)} {scale dist : ℝ} (hs : 3 ≤ poly.length)
    (hscale : scale ≠ 0) (hd : 0 < dist) {first last : Pt ℝ} (hf : poly[0]? = some first) (hl : poly[poly.length - 1]? = some last)
    (hP : let i := if last ≠ first then openInit first last (sweep scale (first, 1) poly) (sweepBack scale (last, 1) poly)
        else (sweep scale (first, 1) poly, sweepBack scale (last, 1) poly)
      (∀ x ∈ forwardPass scale i.1 poly, P x) ∧ ∀ x ∈ backwardPass scale i.2 poly, P x) :
    ∃ r p e, exponentialFilter poly [] scale dist = .ok (r ++ [e]) ∧ r[0]? = some p ∧ (∀ q ∈ r, R q) ∧ R e ∧ (last = first → e = p) ∧
      ∃ a x b, (forwardPass scale (if last ≠ first then openInit first last (sweep scale (first, 1) poly) (sweepBack scale (last, 1) poly)
        else (sweep scale (first, 1) poly, sweepBack scale (last, 1) poly)).1 poly)[0]? = some a ∧ (weights scale poly)[0]? = some x ∧
        (backwardPass scale (if last ≠ first then openInit first last (sweep scale (first, 1) poly) (sweepBack scale (last, 1) poly)
        else (sweep scale (first, 1) poly, sweepBack scale (last, 1) poly)).2 poly)[1]? = some b ∧ blend 1 x a b = .ok p := by
  set i := if last ≠ first then openInit first last (sweep scale (first, 1) poly) (sweepBack scale (last, 1) poly)
        else (sweep scale (first, 1) poly, sweepBack scale (last, 1) poly) with hi
  obtain ⟨hfw, hbw⟩ := hP
  have lf := forwardPass_length scale poly i.1
  have lb := backwardPass_length scale poly i.2
  have lw := weights_length scale poly
  have hw := weights_pos scale poly
  set fw := forwardPass scale i.1 poly
  set bw := backwardPass scale i.2 poly
  set w := weights scale poly
  obtain ⟨p, e1, hp⟩ := blend_ok h one_pos (hw _ (getElem_mem' (show 0 < w.length by omega))) (hfw _ (getElem_mem' (show 0 < fw.length by omega)))
    (hbw _ (getElem_mem' (show 1 < bw.length by omega)))
  obtain ⟨pe, e2, hpe, hce⟩ : ∃ pe, (if last ≠ first then blend (w[poly.length - 2]'(by omega)) 1 (fw[poly.length - 2]'(by omega)) (bw[poly.length - 1]'(by omega))
      else .ok p) = Outcome.ok pe ∧ R pe ∧ (last = first → pe = p) := by
    by_cases hc : last = first
    · exact ⟨p, by rw [if_neg (by simpa using hc)], hp, fun _ => rfl⟩
    · obtain ⟨pe, e2, hpe⟩ := blend_ok h (hw _ (getElem_mem' (show poly.length - 2 < w.length by omega))) one_pos
        (hfw _ (getElem_mem' (show poly.length - 2 < fw.length by omega))) (hbw _ (getElem_mem' (show poly.length - 1 < bw.length by omega)))
      exact ⟨pe, by rw [if_pos hc, e2], hpe, fun x => absurd x hc⟩
  obtain ⟨arc, q, l1, e3, la, ha0, ha1, hl1⟩ := smooth_loop h hs lf lb lw hfw hbw hw p
  set arc' := arc ++ [l1 + mag (q - pe)] with harc'
  have la' : arc'.length = poly.length := by simp [harc', la]; omega
  have ha0' : arc'[0]? = some 0 := by rw [harc', List.getElem?_append_left (by omega)]; exact ha0
  have ha1' : arc'[poly.length - 1]? = some (l1 + mag (q - pe)) := by
    rw [harc', List.getElem?_append_right (by omega)]
    simp [la]
  set len := l1 + mag (q - pe) with hlen
  have hlen0 : 0 ≤ len := add_nonneg hl1 (mag_nonneg _)
  obtain ⟨r, l, e4, hr0, hr⟩ : ∃ r l, forUp (expBody poly.length fw bw w arc' (len / ⌊len / dist + 0.5⌋)) (⌊len / dist + 0.5⌋ - 1).toNat 1 ([] ++ [p], 1) = .ok (r, l) ∧
      r[0]? = some p ∧ ∀ q ∈ r, R q := by
    by_cases hn : ⌊len / dist + 0.5⌋ ≤ 1
    · exact ⟨[p], 1, by rw [show (⌊len / dist + 0.5⌋ - 1).toNat = 0 by omega]; rfl, rfl, by simpa using hp⟩
    · obtain ⟨n, hn'⟩ : ∃ n : Nat, ⌊len / dist + 0.5⌋ = n := ⟨⌊len / dist + 0.5⌋.toNat, by omega⟩
      have hpos : 0 < len := by
        rcases hlen0.lt_or_eq with h | h
        · exact h
        · exfalso
          rw [← h, zero_div, zero_add] at hn
          have : ⌊(0.5 : ℝ)⌋ = 0 := by rw [Int.floor_eq_iff]; norm_num
          omega
      obtain ⟨r, l, e4, hr1, hr2, hr3⟩ := exp_loop h hs lf lb lw hfw hbw hw la' ha0' ha1' (n := n) (by omega) hpos hp
      refine ⟨r, l, ?_, hr2, hr3⟩
      rw [hn', show ((n : Int) - 1).toNat = n - 1 by omega, List.nil_append, Int.cast_natCast]
      exact e4
  refine ⟨r, p, pe, ?_, hr0, hr, hpe, hce, _, _, _, List.getElem?_eq_getElem _, List.getElem?_eq_getElem _, List.getElem?_eq_getElem _, e1⟩
  unfold exponentialFilter
  rw [if_neg (by omega), if_neg hscale, rd_ok hl, Outcome.bind_ok, rd_ok hf, Outcome.bind_ok]
  dsimp only
  rw [← hi, rd_lt (show 0 < fw.length by omega), Outcome.bind_ok, rd_lt (show 0 < w.length by omega), Outcome.bind_ok,
    rd_lt (show 1 < bw.length by omega), Outcome.bind_ok, e1, Outcome.bind_ok, rd_lt (show poly.length - 2 < w.length by omega), Outcome.bind_ok,
    rd_lt (show poly.length - 2 < fw.length by omega), Outcome.bind_ok, rd_lt (show poly.length - 1 < bw.length by omega), Outcome.bind_ok, e2,
    Outcome.bind_ok, e3, Outcome.bind_ok]
  dsimp only
  rw [rd_ok (x := l1) (by rw [la, show poly.length - 1 - 1 = poly.length - 2 by omega]; exact ha1), Outcome.bind_ok, ← hlen, ← harc', rd_ok ha1', Outcome.bind_ok, quot_ok hd.ne', Outcome.bind_ok, e4, Outcome.bind_ok]

end Verif.Resample
