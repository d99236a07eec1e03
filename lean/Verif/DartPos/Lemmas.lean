import Verif.DartPos.Spec
import Mathlib.Algebra.Module.Prod

namespace Verif.DartPos
open Verif Verif.GeoMap Verif.PointIter

variable {L : List (Pt ℝ)} {s : DP}

theorem sqMag_nonneg (v : Pt ℝ) : 0 ≤ sqMag v := by unfold sqMag; nlinarith [mul_self_nonneg v.1, mul_self_nonneg v.2]

theorem mag_nonneg (v : Pt ℝ) : 0 ≤ mag v := Real.sqrt_nonneg _

theorem mag_mul_self (v : Pt ℝ) : mag v * mag v = sqMag v := Real.mul_self_sqrt (sqMag_nonneg v)

theorem sqMag_eq_zero {v : Pt ℝ} : sqMag v = 0 ↔ v = 0 := by
  unfold sqMag
  constructor
  · intro h
    have h1 : v.1 = 0 := by nlinarith [mul_self_nonneg v.1, mul_self_nonneg v.2]
    have h2 : v.2 = 0 := by nlinarith [mul_self_nonneg v.1, mul_self_nonneg v.2]
    exact Prod.ext h1 h2
  · rintro rfl
    simp

theorem mag_eq_zero {v : Pt ℝ} : mag v = 0 ↔ v = 0 := by
  rw [← sqMag_eq_zero, ← mag_mul_self]
  simp

theorem mag_smul (t : ℝ) (v : Pt ℝ) (ht : 0 ≤ t) : mag (t • v) = t * mag v := by
  unfold mag
  have : sqMag (t • v) = t ^ 2 * sqMag v := by
    simp only [sqMag, Prod.smul_fst, Prod.smul_snd, smul_eq_mul]; ring
  rw [this, Real.sqrt_mul (sq_nonneg t), Real.sqrt_sq ht]

theorem mag_le {v : Pt ℝ} {r : ℝ} (hr : 0 ≤ r) (h : ¬ sqMag v > r * r) : mag v ≤ r := by
  rw [← mag_mul_self] at h
  by_contra hc
  push Not at hc h
  nlinarith [mag_nonneg v]

theorem lt_mag {v : Pt ℝ} {r : ℝ} (h : sqMag v > r * r) : r < mag v := by
  rw [← mag_mul_self] at h
  by_contra hc
  push Not at hc
  nlinarith [mag_nonneg v]

theorem pathLen_nonneg (L : List (Pt ℝ)) : 0 ≤ pathLen L := by
  induction L using pathLen.induct with
  | case1 p q l ih => simp only [pathLen]; linarith [mag_nonneg (q - p)]
  | case2 L h => 
    match L with
    | [] => simp [pathLen]
    | [p] => simp [pathLen]
    | p :: q :: l => exact absurd rfl (h p q l)

theorem reach_zero (L : List (Pt ℝ)) : reach L 0 = 0 := by
  match L with
  | [] => simp [reach, pathLen]
  | p :: l => simp [reach, pathLen]

theorem reach_cons (p q : Pt ℝ) (l : List (Pt ℝ)) (k : Nat) : reach (p :: q :: l) (k + 1) = mag (q - p) + reach (q :: l) k := by
  simp [reach, pathLen]

theorem reach_succ {k : Nat} {p q : Pt ℝ} (hp : L[k]? = some p) (hq : L[k + 1]? = some q) :
    reach L (k + 1) = reach L k + mag (q - p) := by
  induction k generalizing L with
  | zero =>
    match L with
    | [] => simp at hp
    | [x] => simp at hq
    | x :: y :: l =>
      simp only [List.getElem?_cons_zero, Option.some.injEq, List.getElem?_cons_succ] at hp hq
      subst hp hq
      rw [reach_cons, reach_zero, reach_zero]; ring
  | succ k ih =>
    match L with
    | [] => simp at hp
    | [x] => simp at hq
    | x :: y :: l =>
      rw [reach_cons, reach_cons, ih (by simpa using hp) (by simpa using hq)]; ring

theorem reach_last {n : Nat} (h : L.length = n + 1) : reach L n = pathLen L := by
  rw [reach, ← h, List.take_length]

theorem reach_nonneg (L : List (Pt ℝ)) (k : Nat) : 0 ≤ reach L k := pathLen_nonneg _

theorem reach_le (k : Nat) : reach L k ≤ pathLen L := by
  induction L generalizing k with
  | nil => simp [reach, pathLen]
  | cons p l ih =>
    match l, k with
    | [], k => simp [reach, pathLen]
    | q :: l, 0 => rw [reach_zero]; exact pathLen_nonneg _
    | q :: l, k + 1 => rw [reach_cons, pathLen]; have := ih k; linarith

theorem along_seg {k : Nat} {p q : Pt ℝ} (hp : L[k]? = some p) (hq : L[k + 1]? = some q) {t : ℝ} (h0 : 0 ≤ t) (h1 : t ≤ 1) :
    along L (reach L k + t * mag (q - p)) = p + t • (q - p) := by
  induction L generalizing k t p q with
  | nil => simp at hp
  | cons x l ih =>
    match l, k with
    | [], k => simp at hq
    | y :: l, 0 =>
      simp only [List.getElem?_cons_zero, Option.some.injEq, List.getElem?_cons_succ] at hp hq
      subst hp hq
      rw [reach_zero, zero_add, along]
      -- the start of the rest
      have hs : along (y :: l) 0 = y := by
        match l with
        | [] => simp [along]
        | z :: l =>
          have := ih (k := 0) (p := y) (q := z) (by simp) (by simp) (t := 0) le_rfl zero_le_one
          rw [reach_zero] at this
          simpa using this
      by_cases hm : mag (y - x) = 0
      · have hxy : y - x = 0 := mag_eq_zero.1 hm
        have : y = x := sub_eq_zero.1 hxy
        subst this
        rw [if_neg (by rw [hm]; simp), hm]
        simp [hs]
      · have hpos : 0 < mag (y - x) := lt_of_le_of_ne (mag_nonneg _) (Ne.symm hm)
        by_cases ht : t = 1
        · subst ht
          rw [if_neg (by simp)]
          simp [hs]
        · have : t < 1 := lt_of_le_of_ne h1 ht
          rw [if_pos (by nlinarith)]
          rw [mul_div_assoc, div_self hm, mul_one]
    | y :: l, k + 1 =>
      rw [reach_cons, along, if_neg]
      · rw [show mag (y - x) + reach (y :: l) k + t * mag (q - p) - mag (y - x) = reach (y :: l) k + t * mag (q - p) by ring]
        exact ih (by simpa using hp) (by simpa using hq) h0 h1
      · have := reach_nonneg (y :: l) k
        have := mul_nonneg h0 (mag_nonneg (q - p))
        push Not
        linarith

theorem along_last {a : ℝ} {p : Pt ℝ} (hp : L.getLast? = some p) (h : pathLen L ≤ a) : along L a = p := by
  induction L generalizing a with
  | nil => simp at hp
  | cons x l ih =>
    match l with
    | [] => simpa [along] using hp
    | y :: l =>
      rw [pathLen] at h
      rw [along, if_neg (by have := pathLen_nonneg (y :: l); push Not; linarith)]
      exact ih (by simpa using hp) (by linarith)

theorem mag_add_le (u v : Pt ℝ) : mag (u + v) ≤ mag u + mag v := by
  have hd : dot u v ≤ mag u * mag v := by
    rw [mag, mag, ← Real.sqrt_mul (sqMag_nonneg u)]
    refine Real.le_sqrt_of_sq_le ?_
    simp only [sqMag, dot]
    nlinarith [sq_nonneg (u.1 * v.2 - u.2 * v.1)]
  rw [mag, Real.sqrt_le_left (add_nonneg (mag_nonneg u) (mag_nonneg v))]
  have e : sqMag (u + v) = sqMag u + 2 * dot u v + sqMag v := by
    simp only [sqMag, dot, Prod.fst_add, Prod.snd_add]; ring
  rw [e, ← mag_mul_self u, ← mag_mul_self v]
  nlinarith

theorem mag_neg (v : Pt ℝ) : mag (-v) = mag v := by
  simp [mag, sqMag]

theorem along_zero {p : Pt ℝ} {l : List (Pt ℝ)} : along (p :: l) 0 = p := by
  match l with
  | [] => rfl
  | q :: l =>
    have := along_seg (L := p :: q :: l) (k := 0) (p := p) (q := q) rfl rfl (t := 0) le_rfl zero_le_one
    simpa [reach_zero] using this

/-- arc lengths are not smaller than distances -/
theorem along_lip {a b : ℝ} (ha : 0 ≤ a) (hab : a ≤ b) : mag (along L b - along L a) ≤ b - a := by
  induction L generalizing a b with
  | nil => simp only [along, sub_self]; rw [mag_eq_zero.2 rfl]; linarith
  | cons p l ih =>
    match l with
    | [] => simp only [along, sub_self]; rw [mag_eq_zero.2 rfl]; linarith
    | q :: l =>
      simp only [along]
      by_cases hb : b < mag (q - p)
      · have hm : 0 < mag (q - p) := by linarith
        rw [if_pos hb, if_pos (by linarith)]
        rw [show p + (b / mag (q - p)) • (q - p) - (p + (a / mag (q - p)) • (q - p)) = ((b - a) / mag (q - p)) • (q - p) by
          rw [sub_div, sub_smul]; abel]
        rw [mag_smul _ _ (div_nonneg (by linarith) hm.le), div_mul_cancel₀ _ hm.ne']
      · push Not at hb
        rw [if_neg (by linarith)]
        by_cases hc : a < mag (q - p)
        · have hm : 0 < mag (q - p) := by linarith
          rw [if_pos hc]
          have h1 := ih (a := 0) (b := b - mag (q - p)) le_rfl (by linarith)
          rw [along_zero] at h1
          have h2 : q - (p + (a / mag (q - p)) • (q - p)) = ((mag (q - p) - a) / mag (q - p)) • (q - p) := by
            rw [sub_div, div_self hm.ne', sub_smul, one_smul]; abel
          have h3 := mag_add_le (along (q :: l) (b - mag (q - p)) - q) (q - (p + (a / mag (q - p)) • (q - p)))
          rw [sub_add_sub_cancel, h2, mag_smul _ _ (div_nonneg (by linarith) hm.le), div_mul_cancel₀ _ hm.ne'] at h3
          linarith
        · push Not at hc
          rw [if_neg (by linarith)]
          have := ih (a := a - mag (q - p)) (b := b - mag (q - p)) (by linarith) (by linarith)
          linarith

/-- The iterator `i` stands at point number `k` of the dart with the points `L`. -/
def At (L : List (Pt ℝ)) (i : DPI ℝ) (k : Nat) : Prop :=
  (i.pts = L ∧ i.inc = 1 ∧ i.fin = L.length ∧ i.index = k) ∨
    (i.pts = L.reverse ∧ i.inc = -1 ∧ i.fin = -1 ∧ i.index = L.length - 1 - k)

variable {i : DPI ℝ} {k : Nat}

theorem At.length (h : At L i k) : i.pts.length = L.length := by
  obtain ⟨h, -⟩ | ⟨h, -⟩ := h <;> simp [h]

theorem At.next (h : At L i k) : At L i.next (k + 1) := by
  obtain ⟨h1, h2, h3, h4⟩ | ⟨h1, h2, h3, h4⟩ := h
  · left; refine ⟨h1, h2, h3, ?_⟩; simp [DPI.next, h2, h4]
  · right; refine ⟨h1, h2, h3, ?_⟩; simp [DPI.next, h2, h4]; ring

theorem At.back (h : At L i (k + 1)) : At L i.reverse.next.reverse k := by
  obtain ⟨h1, h2, h3, h4⟩ | ⟨h1, h2, h3, h4⟩ := h
  · left; simp [DPI.reverse, DPI.next, h1, h2, h4]
  · right
    refine ⟨?_, ?_, ?_, ?_⟩ <;> simp [DPI.reverse, DPI.next, h1, h2, h4]
    ring

theorem At.atEnd (h : At L i k) : i.atEnd = true ↔ k = L.length := by
  obtain ⟨h1, h2, h3, h4⟩ | ⟨h1, h2, h3, h4⟩ := h
  · simp [DPI.atEnd, h3, h4]
  · simp [DPI.atEnd, h3, h4]; omega

theorem At.deref (h : At L i k) {p : Pt ℝ} (hp : L[k]? = some p) : i.deref = .ok p := by
  have hk : k < L.length := by
    by_contra hc
    rw [List.getElem?_eq_none (by omega)] at hp
    cases hp
  obtain ⟨h1, h2, h3, h4⟩ | ⟨h1, h2, h3, h4⟩ := h
  · simp [DPI.deref, h4, h1, hp]
  · rw [DPI.deref, if_neg (by omega), h1, h4, show ((L.length : Int) - 1 - k).toNat = L.length - 1 - k by omega,
      List.getElem?_reverse (by omega), show L.length - 1 - (L.length - 1 - k) = k by omega, hp]

theorem At.deref_none (h : At L i k) (hp : L[k]? = none) : i.deref = .ub := by
  have hk : L.length ≤ k := by simpa using hp
  obtain ⟨h1, h2, h3, h4⟩ | ⟨h1, h2, h3, h4⟩ := h
  · simp [DPI.deref, h4, h1, hp]
  · rw [DPI.deref, if_pos (by omega)]

/-- The position stands in segment number `k` of the dart with the points `L`. -/
structure Track (L : List (Pt ℝ)) (s : DP) (k : Nat) : Prop where
  it : At L s.it (k + 1)
  lt : k + 1 < L.length
  seg : s.seg = k
  p1 : L[k]? = some s.p1
  p2 : L[k + 1]? = some s.p2
  arc : s.arc = reach L k

/-- The position stands at the end of the dart with the points `L`. -/
structure Done (L : List (Pt ℝ)) (s : DP) : Prop where
  it : At L s.it L.length
  seg : s.seg + 2 = L.length
  p1 : L.getLast? = some s.p1
  p2 : s.p2 = s.p1
  arc : s.arc = pathLen L

theorem Track.atEnd (h : Track L s k) : s.it.atEnd = false := by
  rw [← Bool.not_eq_true, h.it.atEnd]
  have := h.lt
  omega

theorem Done.atEnd (h : Done L s) : s.it.atEnd = true := h.it.atEnd.2 rfl

theorem Done.next (h : Done L s) : s.next = .ok (false, s) := by
  rw [DP.next, if_pos h.atEnd]

/-- the next segment -/
theorem Track.next (h : Track L s k) (hk : k + 2 < L.length) :
    ∃ s', s.next = .ok (true, s') ∧ Track L s' (k + 1) ∧ s'.p1 = s.p2 ∧ s'.pos = s.pos ∧ s'.part = s.part := by
  have hn := h.it.next
  obtain ⟨q, hq⟩ : ∃ q, L[k + 2]? = some q := ⟨_, List.getElem?_eq_getElem hk⟩
  refine ⟨{ s with
      arc := s.arc + mag (s.p2 - s.p1), p1 := s.p2, it := s.it.next, p2 := q, seg := s.seg + 1 }, ?_, ?_, rfl, rfl, rfl⟩
  · rw [DP.next, h.atEnd, if_neg (by simp), if_neg, hn.deref hq]
    · rfl
    · rw [hn.atEnd]; omega
  · exact ⟨hn, hk, by simp [h.seg], h.p2, hq, by simp only; rw [reach_succ h.p1 h.p2, h.arc]⟩

/-- the last segment -/
theorem Track.last (h : Track L s k) (hk : k + 2 = L.length) :
    ∃ s', s.next = .ok (false, s') ∧ Done L s' ∧ s'.p1 = s.p2 ∧ s'.pos = s.pos ∧ s'.part = s.part := by
  have hn := h.it.next
  refine ⟨{ s with arc := s.arc + mag (s.p2 - s.p1), p1 := s.p2, it := s.it.next }, ?_, ?_, rfl, rfl, rfl⟩
  · rw [DP.next, h.atEnd, if_neg (by simp), if_pos]
    rw [hn.atEnd]; omega
  · refine ⟨by rw [← hk]; exact hn, by simp [h.seg, hk], ?_, rfl, ?_⟩
    · rw [List.getLast?_eq_getElem?, ← hk]; simpa using h.p2
    · simp only
      rw [h.arc, ← reach_succ h.p1 h.p2, reach_last (by omega)]

/-- The position lies in the current segment, at the reported arc length. -/
def InSeg (s : DP) : Prop := ∃ u : ℝ, 0 ≤ u ∧ u ≤ 1 ∧ s.pos = s.p1 + u • (s.p2 - s.p1) ∧ s.part = u * mag (s.p2 - s.p1)

/-- The result of `gotoArcLength a`. -/
structure Arrived (L : List (Pt ℝ)) (a : ℝ) (b : Bool) (s : DP) : Prop where
  here : if a < pathLen L then b = true ∧ (∃ k, Track L s k) ∧ s.arcLength = a ∧ s.arc ≤ a ∧ InSeg s
    else b = false ∧ Done L s ∧ s.part = 0
  pos : s.pos = along L a

theorem Done.fwd (h : Done L s) {a : ℝ} (ha : pathLen L ≤ a) {n : Nat} :
    ∃ s', fwdLoop a (n + 1) s = .ok (false, s') ∧ Arrived L a false s' := by
  refine ⟨{ s with pos := s.p1, part := 0 }, ?_, ?_⟩
  · rw [fwdLoop, if_neg, h.next]
    · rfl
    · rw [h.p2]; simp [sqMag]; nlinarith
  · refine ⟨?_, (along_last h.p1 ha).symm⟩
    rw [if_neg (by linarith)]
    exact ⟨rfl, ⟨h.it, h.seg, h.p1, h.p2, h.arc⟩, rfl⟩

theorem Track.fwd {a : ℝ} {n : Nat} (h : Track L s k) (ha : s.arc ≤ a) (hn : L.length ≤ n + k) :
    ∃ b s', fwdLoop a n s = .ok (b, s') ∧ Arrived L a b s' := by
  induction n generalizing s k with
  | zero => have := h.lt; omega
  | succ n ih =>
    by_cases hb : sqMag (s.p2 - s.p1) > (a - s.arc) * (a - s.arc)
    · refine ⟨_, _, by rw [fwdLoop, if_pos hb], ?_⟩
      have hl := lt_mag hb
      have hm : mag (s.p2 - s.p1) ≠ 0 := by
        intro h0
        rw [h0] at hl
        linarith
      have hpos : 0 < mag (s.p2 - s.p1) := lt_of_le_of_ne (mag_nonneg _) (Ne.symm hm)
      have ht := along_seg h.p1 h.p2 (t := (a - s.arc) / mag (s.p2 - s.p1)) (div_nonneg (by linarith) hpos.le)
        (by rw [div_le_one hpos]; linarith)
      rw [div_mul_cancel₀ _ hm, ← h.arc, add_sub_cancel] at ht
      refine ⟨?_, ht.symm⟩
      have : reach L (k + 1) ≤ pathLen L := reach_le _
      rw [reach_succ h.p1 h.p2, ← h.arc] at this
      rw [if_pos (by linarith)]
      refine ⟨rfl, ⟨k, h.it, h.lt, h.seg, h.p1, h.p2, h.arc⟩, ?_, ha, ?_⟩
      · simp [DP.arcLength]
      · exact ⟨(a - s.arc) / mag (s.p2 - s.p1), div_nonneg (by linarith) hpos.le, by rw [div_le_one hpos]; linarith, rfl,
          (div_mul_cancel₀ _ hm).symm⟩
    · have hle := mag_le (by linarith) hb
      rw [fwdLoop, if_neg hb]
      rcases Nat.lt_or_ge (k + 2) L.length with hk | hk
      · obtain ⟨s', e, t, -⟩ := h.next hk
        rw [e]
        have : s'.arc ≤ a := by
          rw [t.arc, reach_succ h.p1 h.p2, ← h.arc]; linarith
        exact ih t this (by omega)
      · have := h.lt
        obtain ⟨s', e, t, -⟩ := h.last (by omega)
        have hd : pathLen L ≤ a := by
          rw [← reach_last (n := k + 1) (by omega), reach_succ h.p1 h.p2, ← h.arc]; linarith
        refine ⟨_, _, by rw [e]; rfl, ?_, (along_last t.p1 hd).symm⟩
        rw [if_neg (by linarith)]
        exact ⟨rfl, ⟨t.it, t.seg, t.p1, t.p2, t.arc⟩, rfl⟩

theorem back_none {a : ℝ} (ha : s.arc ≤ a) (n : Nat) : backLoop a (n + 1) s = .ok (true, s) := by
  rw [backLoop, if_neg (by linarith)]

/-- the loop that leaves a circle -/
theorem Track.circle {c : Pt ℝ} {r2 : ℝ} {n : Nat} (h : Track L s k) (hn : L.length ≤ n + k) :
    ∃ b s', circleLoop c r2 n s = .ok (b, s') ∧ s'.part = s.part ∧ s'.pos = s.pos ∧
      if b then ∃ k', k ≤ k' ∧ Track L s' k' ∧ r2 ≤ sqMag (s'.p2 - c) ∧ (k' = k ∨ sqMag (s'.p1 - c) < r2) ∧
          (∀ j p, k < j → j ≤ k' → L[j]? = some p → sqMag (p - c) < r2)
      else Done L s' ∧ ∀ j p, k < j → L[j]? = some p → sqMag (p - c) < r2 := by
  induction n generalizing s k with
  | zero => have := h.lt; omega
  | succ n ih =>
    by_cases hb : sqMag (s.p2 - c) < r2
    · rw [circleLoop, if_pos hb]
      have hat : ∀ p, L[k + 1]? = some p → sqMag (p - c) < r2 := by
        intro p hp
        rw [h.p2] at hp
        rw [← Option.some.inj hp]; exact hb
      rcases Nat.lt_or_ge (k + 2) L.length with hk | hk
      · obtain ⟨s1, e, t, t1, t2, t3⟩ := h.next hk
        rw [e]
        obtain ⟨b, s', e', u1, u2, u3⟩ := ih t (by omega)
        refine ⟨b, s', e', by rw [u1, t3], by rw [u2, t2], ?_⟩
        cases b with
        | true =>
          simp only [if_true] at u3 ⊢
          obtain ⟨k', hk', w1, w2, w3, w4⟩ := u3
          refine ⟨k', by omega, w1, w2, Or.inr ?_, ?_⟩
          · rcases w3 with rfl | w3
            · exact hat _ w1.p1
            · exact w3
          · intro j p hj hj' hp
            rcases Nat.lt_or_ge (k + 1) j with g | g
            · exact w4 j p g hj' hp
            · obtain rfl : j = k + 1 := by omega
              exact hat p hp
        | false =>
          simp only [Bool.false_eq_true, if_false] at u3 ⊢
          refine ⟨u3.1, ?_⟩
          intro j p hj hp
          rcases Nat.lt_or_ge (k + 1) j with g | g
          · exact u3.2 j p g hp
          · obtain rfl : j = k + 1 := by omega
            exact hat p hp
      · have := h.lt
        obtain ⟨s', e, t, -, t2, t3⟩ := h.last (by omega)
        refine ⟨false, s', by rw [e]; rfl, t3, t2, ?_⟩
        simp only [Bool.false_eq_true, if_false]
        refine ⟨t, ?_⟩
        intro j p hj hp
        have : j < L.length := by
          by_contra hc
          rw [List.getElem?_eq_none (by omega)] at hp
          cases hp
        obtain rfl : j = k + 1 := by omega
        exact hat p hp
    · refine ⟨true, s, by rw [circleLoop, if_neg hb], rfl, rfl, ?_⟩
      simp only [if_true]
      exact ⟨k, le_rfl, h, not_lt.1 hb, Or.inl rfl, fun j p h1 h2 _ => by omega⟩

theorem Done.circle {c : Pt ℝ} {r2 : ℝ} {n : Nat} (h : Done L s) :
    circleLoop c r2 (n + 1) s = .ok (decide (r2 ≤ sqMag (s.p2 - c)), s) := by
  rw [circleLoop]
  by_cases hb : sqMag (s.p2 - c) < r2
  · rw [if_pos hb, h.next]
    simp [hb]
  · rw [if_neg hb]
    simp [not_lt.1 hb]

/-- intersecting a circle from the inside, from the point at the fraction `u` of the segment -/
theorem lambda_from {c p q : Pt ℝ} {r2 u : ℝ} (hu : u < 1) (hp : sqMag (p + u • (q - p) - c) ≤ r2) (hq : r2 ≤ sqMag (q - c)) :
    u ≤ lambda c r2 p q ∧ lambda c r2 p q ≤ 1 ∧ sqMag (p + lambda c r2 p q • (q - p) - c) = r2 := by
  -- `D` is the squared length of the segment, `B` the scalar product, `R` the radicand
  set D := sqMag (q - p) with hD
  set B := dot (q - p) (p - c) with hB
  set R := radicand c r2 p q with hR
  have hDn : 0 ≤ D := sqMag_nonneg _
  have key : R = B * B + D * (r2 - sqMag (p - c)) := by
    rw [hR, hB, hD]
    simp only [radicand, sqMag, dot, Prod.fst_sub, Prod.snd_sub]
    ring
  have hpt : ∀ t : ℝ, sqMag (p + t • (q - p) - c) = sqMag (p - c) + 2 * t * B + t * t * D := by
    intro t
    rw [hB, hD]
    simp only [sqMag, dot, Prod.fst_sub, Prod.snd_sub, Prod.fst_add, Prod.snd_add, Prod.smul_fst, Prod.smul_snd, smul_eq_mul]
    ring
  have hqp : sqMag (q - c) = sqMag (p - c) + 2 * B + D := by
    have := hpt 1
    rw [one_smul, add_sub_cancel] at this
    linarith
  rw [hpt] at hp
  have hsq : (B + u * D) * (B + u * D) ≤ R := by
    rw [key]; nlinarith
  have hRn : 0 ≤ R := le_trans (mul_self_nonneg _) hsq
  by_cases h0 : D = 0
  · have hv : q - p = 0 := sqMag_eq_zero.1 h0
    have hqp' : q = p := sub_eq_zero.1 hv
    rw [lambda, if_pos (Or.inl h0)]
    refine ⟨hu.le, le_rfl, ?_⟩
    rw [one_smul, add_sub_cancel]
    refine le_antisymm ?_ hq
    have hB0 : B = 0 := by
      rw [hB, hv]; simp [dot]
    rw [hqp, hB0, h0]
    rw [hB0, h0] at hp
    linarith
  · have hDp : 0 < D := lt_of_le_of_ne hDn (Ne.symm h0)
    rw [lambda, if_neg (by rintro (h | h); exacts [h0 h, absurd h (not_lt.2 hRn)])]
    set w := Real.sqrt R with hw
    have hw0 : 0 ≤ w := Real.sqrt_nonneg _
    have hww : w * w = R := Real.mul_self_sqrt hRn
    have hBw : B + u * D ≤ w := by
      rw [hw]
      exact Real.le_sqrt_of_sq_le (by nlinarith)
    have hwD : w ≤ B + D := by
      rw [hw]
      have hBD : 0 ≤ B + D := by
        by_contra hc
        push Not at hc
        -- the distance from the centre would shrink along the segment
        have h2 : B + u * D ≤ B + D := by nlinarith
        have h3 : sqMag (p - c) + 2 * B + D ≤ sqMag (p - c) + 2 * u * B + u * u * D := by nlinarith
        have h4 : sqMag (p - c) + 2 * u * B + u * u * D = sqMag (p - c) + 2 * B + D := by linarith
        have h5 : (1 - u) * (2 * B + (1 + u) * D) = 0 := by nlinarith
        rcases mul_eq_zero.1 h5 with h | h
        · linarith
        · nlinarith
      rw [Real.sqrt_le_left hBD]
      rw [key]; nlinarith
    refine ⟨by rw [le_div_iff₀ hDp]; linarith, by rw [div_le_one hDp]; linarith, ?_⟩
    rw [hpt, ← hB, ← hD]
    field_simp
    nlinarith [hww, key]

/-- intersecting a circle from the inside -/
theorem lambda_spec {c p q : Pt ℝ} {r2 : ℝ} (hp : sqMag (p - c) ≤ r2) (hq : r2 ≤ sqMag (q - c)) :
    0 ≤ lambda c r2 p q ∧ lambda c r2 p q ≤ 1 ∧ sqMag (p + lambda c r2 p q • (q - p) - c) = r2 :=
  lambda_from zero_lt_one (by simpa using hp) hq

theorem Track.along (h : Track L s k) (hs : InSeg s) : s.pos = along L s.arcLength ∧ 0 ≤ s.arcLength := by
  obtain ⟨u, h0, h1, hp, hpart⟩ := hs
  rw [DP.arcLength, h.arc, hpart]
  exact ⟨by rw [along_seg h.p1 h.p2 h0 h1, hp], add_nonneg (reach_nonneg _ _) (mul_nonneg h0 (mag_nonneg _))⟩

/-- intersecting a circle from a position on the dart -/
theorem Track.intersect {c : Pt ℝ} {r2 : ℝ} (h : Track L s k) :
    ∃ b s', s.intersectCircle c r2 = .ok (b, s') ∧
      if b then ∃ k', k ≤ k' ∧ Track L s' k' ∧
        ((∀ j p, k < j → j ≤ k' → L[j]? = some p → sqMag (p - c) < r2) ∧ r2 ≤ sqMag (s'.p2 - c)) ∧
        (sqMag (s.p1 - c) ≤ r2 ∨ (InSeg s ∧ sqMag (s.pos - c) < r2) → InSeg s' ∧ sqMag (s'.pos - c) = r2) ∧
        (InSeg s ∧ sqMag (s.pos - c) < r2 → s.arcLength ≤ s'.arcLength)
      else Done L s' ∧ s'.pos = s'.p1 ∧ s'.part = s.part ∧ ∀ j p, k < j → L[j]? = some p → sqMag (p - c) < r2 := by
  obtain ⟨b, s1, e, hpt, hps, h1⟩ := h.circle (c := c) (r2 := r2) (n := L.length + 1) (by omega)
  have hl := h.it.length
  cases b with
  | false =>
    simp only [Bool.false_eq_true, if_false] at h1
    refine ⟨_, _, by rw [DP.intersectCircle, hl, e]; rfl, ?_⟩
    simp only [Bool.false_eq_true, if_false]
    exact ⟨⟨h1.1.it, h1.1.seg, h1.1.p1, h1.1.p2, h1.1.arc⟩, h1.1.p2, hpt, h1.2⟩
  | true =>
    simp only [if_true] at h1
    obtain ⟨k', hk, t, ho, hi, hin⟩ := h1
    refine ⟨_, _, by rw [DP.intersectCircle, hl, e]; rfl, ?_⟩
    simp only [if_true]
    have same : k' = k → s1.p1 = s.p1 ∧ s1.p2 = s.p2 ∧ s1.arc = s.arc := by
      rintro rfl
      have h1 := t.p1
      have h2 := t.p2
      rw [h.p1] at h1
      rw [h.p2] at h2
      exact ⟨(Option.some.inj h1).symm, (Option.some.inj h2).symm, by rw [t.arc, h.arc]⟩
    have inside : InSeg s ∧ sqMag (s.pos - c) < r2 → ∃ u, 0 ≤ u ∧ u < 1 ∧ sqMag (s1.p1 + u • (s1.p2 - s1.p1) - c) ≤ r2 ∧
        s.arcLength ≤ s1.arc + u * mag (s1.p2 - s1.p1) := by
      rintro ⟨⟨u, u0, u1, up, upart⟩, hlt⟩
      by_cases hk' : k' = k
      · obtain ⟨e1, e2, e3⟩ := same hk'
        refine ⟨u, u0, lt_of_le_of_ne u1 ?_, by rw [e1, e2, ← up]; exact hlt.le, by rw [DP.arcLength, upart, e1, e2, e3]⟩
        rintro rfl
        rw [one_smul, add_sub_cancel] at up
        rw [up, ← e2] at hlt
        linarith
      · refine ⟨0, le_rfl, zero_lt_one, by simpa using (hi.resolve_left hk').le, ?_⟩
        rw [DP.arcLength, upart, t.arc]
        have : reach L (k + 1) ≤ reach L k' := by
          have := reach_le (L := L.take (k' + 1)) (k + 1)
          rw [reach, List.take_take, Nat.min_eq_left (by omega)] at this
          exact this
        rw [reach_succ h.p1 h.p2, ← h.arc] at this
        nlinarith [mag_nonneg (s.p2 - s.p1)]
    have fromU : ∀ u, 0 ≤ u → u < 1 → sqMag (s1.p1 + u • (s1.p2 - s1.p1) - c) ≤ r2 →
        u ≤ lambda c r2 s1.p1 s1.p2 ∧ lambda c r2 s1.p1 s1.p2 ≤ 1 ∧
        sqMag (s1.p1 + lambda c r2 s1.p1 s1.p2 • (s1.p2 - s1.p1) - c) = r2 := fun u _ h1 h2 => lambda_from h1 h2 ho
    refine ⟨k', hk, ⟨t.it, t.lt, t.seg, t.p1, t.p2, t.arc⟩, ⟨hin, ho⟩, ?_, ?_⟩
    · intro hh
      obtain ⟨u, u0, u1, hu⟩ : ∃ u : ℝ, 0 ≤ u ∧ u < 1 ∧ sqMag (s1.p1 + u • (s1.p2 - s1.p1) - c) ≤ r2 := by
        rcases hh with hh | hh
        · refine ⟨0, le_rfl, zero_lt_one, ?_⟩
          rw [zero_smul, add_zero]
          rcases hi with hk' | hi
          · rw [(same hk').1]; exact hh
          · exact hi.le
        · obtain ⟨u, u0, u1, hu, -⟩ := inside hh
          exact ⟨u, u0, u1, hu⟩
      obtain ⟨l0, l1, l2⟩ := fromU u u0 u1 hu
      exact ⟨⟨_, le_trans u0 l0, l1, rfl, mag_smul _ _ (le_trans u0 l0)⟩, l2⟩
    · intro hh
      obtain ⟨u, u0, u1, hu, hle⟩ := inside hh
      obtain ⟨l0, l1, l2⟩ := fromU u u0 u1 hu
      refine le_trans hle ?_
      simp only [DP.arcLength]
      rw [mag_smul _ _ (le_trans u0 l0)]
      nlinarith [mag_nonneg (s1.p2 - s1.p1)]

/-- intersecting a circle at the end of the dart -/
theorem Done.intersect {c : Pt ℝ} {r2 : ℝ} (h : Done L s) :
    ∃ b s', s.intersectCircle c r2 = .ok (b, s') ∧ Done L s' ∧ s'.pos = s'.p1 ∧ (s'.part = 0 ∨ s'.part = s.part) := by
  have hl := h.it.length
  by_cases hb : r2 ≤ sqMag (s.p2 - c)
  · have hz : s.p2 - s.p1 = 0 := by rw [h.p2]; simp
    refine ⟨true, { s with
        pos := s.p1 + lambda c r2 s.p1 s.p2 • (s.p2 - s.p1), part := mag (lambda c r2 s.p1 s.p2 • (s.p2 - s.p1)) },
      by rw [DP.intersectCircle, hl, h.circle, Outcome.bind_ok, if_pos (by simpa using hb)], ⟨h.it, h.seg, h.p1, h.p2, h.arc⟩, ?_, Or.inl ?_⟩
    · simp [hz]
    · simp only [hz, smul_zero]; exact mag_eq_zero.2 rfl
  · exact ⟨false, { s with pos := s.p2 }, by rw [DP.intersectCircle, hl, h.circle, Outcome.bind_ok, if_neg (by simpa using hb)],
      ⟨h.it, h.seg, h.p1, h.p2, h.arc⟩, h.p2, Or.inr rfl⟩

end Verif.DartPos
