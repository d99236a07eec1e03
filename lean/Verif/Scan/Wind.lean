import Verif.Scan.Spec
import Verif.Scan.Rows
import Mathlib.Tactic.FieldSimp
import Mathlib.Tactic.Ring
import Mathlib.Tactic.Linarith
import Mathlib.Tactic.Push

/-! # The directions of the scanned segments count windings -/

set_option linter.unusedSectionVars false

namespace Verif.Scan
open Verif Verif.GeoMap Verif.Polygon

variable {K : Type} [Field K] [LinearOrder K] [IsStrictOrderedRing K]

/-- Below (0) or not below (1) the centre line of line `L`. -/
def side (L : Int) (y : K) : Int := if y < L then 0 else 1

theorem turn_eq (m L : Int) (p q : Pt K) :
    turn (centre m L) p q =
      if intersectX p q (L : K) < m then side L q.2 - side L p.2 else 0 := by
  unfold turn intersectX side centre
  by_cases h : p.1 + (q.1 - p.1) * ((L : K) - p.2) / (q.2 - p.2) < (m : K)
  · simp only [if_pos h]
    by_cases h1 : p.2 < (L : K) <;> by_cases h2 : q.2 < (L : K) <;>
      simp [h1, h2, not_le.mpr, not_lt.mp]
  · simp only [if_neg h]

theorem intersectX_affine (p q : Pt K) (y : K) :
    intersectX p q y = (p.1 - (q.1 - p.1) / (q.2 - p.2) * p.2) + (q.1 - p.1) / (q.2 - p.2) * y := by
  unfold intersectX
  ring

theorem intersectX_left (p q : Pt K) : intersectX p q p.2 = p.1 := by
  simp [intersectX]

theorem intersectX_right {p q : Pt K} (h : p.2 ≠ q.2) : intersectX p q q.2 = q.1 := by
  have : q.2 - p.2 ≠ 0 := sub_ne_zero.mpr (Ne.symm h)
  unfold intersectX
  field_simp
  ring

/-- A point between two others on a line is left (right) of `c` if they are. -/
theorem between_lt {p q : Pt K} {y1 y2 y c : K} (h1 : intersectX p q y1 < c)
    (h2 : intersectX p q y2 < c) (hy : (y1 ≤ y ∧ y ≤ y2) ∨ (y2 ≤ y ∧ y ≤ y1)) :
    intersectX p q y < c := by
  rw [intersectX_affine] at *
  set a := p.1 - (q.1 - p.1) / (q.2 - p.2) * p.2
  set b := (q.1 - p.1) / (q.2 - p.2)
  rcases le_total 0 b with hb | hb <;> rcases hy with ⟨h3, h4⟩ | ⟨h3, h4⟩
  · have := mul_le_mul_of_nonneg_left h4 hb; linarith
  · have := mul_le_mul_of_nonneg_left h4 hb; linarith
  · have := mul_le_mul_of_nonpos_left h3 hb; linarith
  · have := mul_le_mul_of_nonpos_left h3 hb; linarith

theorem between_gt {p q : Pt K} {y1 y2 y c : K} (h1 : c < intersectX p q y1)
    (h2 : c < intersectX p q y2) (hy : (y1 ≤ y ∧ y ≤ y2) ∨ (y2 ≤ y ∧ y ≤ y1)) :
    c < intersectX p q y := by
  rw [intersectX_affine] at *
  set a := p.1 - (q.1 - p.1) / (q.2 - p.2) * p.2
  set b := (q.1 - p.1) / (q.2 - p.2)
  rcases le_total 0 b with hb | hb <;> rcases hy with ⟨h3, h4⟩ | ⟨h3, h4⟩
  · have := mul_le_mul_of_nonneg_left h3 hb; linarith
  · have := mul_le_mul_of_nonneg_left h3 hb; linarith
  · have := mul_le_mul_of_nonpos_left h4 hb; linarith
  · have := mul_le_mul_of_nonpos_left h4 hb; linarith

theorem side_cases (L : Int) (y1 y2 : K) :
    side L y1 = side L y2 ∨ (y1 ≤ (L : K) ∧ (L : K) ≤ y2) ∨ (y2 ≤ (L : K) ∧ (L : K) ≤ y1) := by
  unfold side
  by_cases h1 : y1 < (L : K) <;> by_cases h2 : y2 < (L : K)
  · simp [h1, h2]
  · exact .inr (.inl ⟨h1.le, not_lt.mp h2⟩)
  · exact .inr (.inr ⟨h2.le, not_lt.mp h1⟩)
  · simp [h1, h2]

theorem side_below {L : Int} {y : K} (h : y ≤ (L : K) - 1 / 2) : side L y = 0 := by
  unfold side
  rw [if_pos (by linarith)]

theorem side_above {L : Int} {y : K} (h : (L : K) + 1 / 2 ≤ y) : side L y = 1 := by
  unfold side
  rw [if_neg (by linarith)]

variable [FloorRing K]

theorem kline_even {y : K} {j : Int} (h : kline y = 2 * j) :
    (j : K) - 1 / 2 < y ∧ y < (j : K) + 1 / 2 ∧ ⌊y + 1 / 2⌋ = j := by
  unfold kline at h
  by_cases hc : y + 1 / 2 = ((⌊y + 1 / 2⌋ : Int) : K)
  · simp only [if_pos hc] at h
    omega
  · simp only [if_neg hc] at h
    have hj : ⌊y + 1 / 2⌋ = j := by omega
    have h1 := Int.floor_le (y + 1 / 2)
    have h2 := Int.lt_floor_add_one (y + 1 / 2)
    rw [hj] at h1 h2 hc
    have : (j : K) < y + 1 / 2 := lt_of_le_of_ne h1 (Ne.symm hc)
    exact ⟨by linarith, by linarith, hj⟩

theorem kline_odd {y : K} (h : kline y % 2 = 1) : y = (kline y : K) / 2 := by
  have hk : kline y % 2 = 1 := h
  unfold kline at h ⊢
  by_cases hc : y + 1 / 2 = ((⌊y + 1 / 2⌋ : Int) : K)
  · simp only [if_pos hc] at h ⊢
    push_cast
    linarith
  · simp only [if_neg hc] at h
    omega

/-- A segment is left or right of pixel `m`. -/
def Clear (m : Int) (s : Seg) : Prop := ¬ s.Covers m

/-- An interval whose rounding does not cover `m` is strictly left or right of `m`. -/
theorem clear_round {m : Int} {s e : K} {d : Int} (hse : s ≤ e) (h : Clear m (Seg.round s d e)) :
    (e < m ∧ (Seg.round s d e).e ≤ m) ∨ ((m : K) < s ∧ ¬ (Seg.round s d e).e ≤ m) := by
  simp only [Clear, Seg.Covers, Seg.round, not_and, not_lt] at h
  simp only [Seg.round]
  by_cases h1 : ⌊s + 1 / 2⌋ ≤ m
  · left
    have h2 := h h1
    have := Int.ceil_le.mp h2
    exact ⟨by linarith, h2⟩
  · right
    have h2 : m + 1 ≤ ⌊s + 1 / 2⌋ := by omega
    have h3 := Int.le_floor.mp h2
    push_cast at h3
    refine ⟨by linarith, fun h4 => ?_⟩
    have h5 := Int.ceil_le.mp h4
    linarith

/-- The current interval of the state, if the state is in line `L`, does not cover `m`. -/
def Pend (m L : Int) (t : St K) : Prop := t.k = 2 * L → Clear m (Seg.round t.s 0 t.e)

theorem clear_dir {m : Int} {s e : K} {d d' : Int} (h : Clear m (Seg.round s d e)) :
    Clear m (Seg.round s d' e) := h

theorem clear_sub {m : Int} {s e s' e' : K} {d d' : Int} (hse : s ≤ e) (h1 : s' ≤ s) (h2 : e ≤ e')
    (h : Clear m (Seg.round s' d e')) : Clear m (Seg.round s d' e) := by
  have := clear_round (h1.trans (hse.trans h2)) h
  simp only [Clear, Seg.Covers, Seg.round, not_and, not_lt] at h this ⊢
  intro h3
  rcases this with ⟨h4, h5⟩ | ⟨h4, h5⟩
  · exact (Int.ceil_le_ceil (by linarith)).trans h5
  · exfalso
    apply h5
    apply h
    exact (Int.floor_le_floor (by linarith)).trans h3

/-- Position inside a segment `p q` that leaves lines in direction `σ`: `r` is the place on
the line through `p` and `q` that has been reached. -/
structure Mid (p q : Pt K) (σ : Int) (t : St K) (r : Pt K) : Prop where
  p_eq : t.p = p
  on : r.1 = intersectX p q r.2
  odd : t.k % 2 = 1 → r.2 = (t.k : K) / 2 ∧ 2 * t.line = t.k - σ
  even : ∀ j, t.k = 2 * j → (j : K) - 1 / 2 ≤ r.2 ∧ r.2 ≤ (j : K) + 1 / 2 ∧ t.s ≤ r.1 ∧ r.1 ≤ t.e ∧
    t.line = j

/-- `2 * W`, minus `c`, is accounted for by the segments left of `m` and the current one. -/
def Acc (m L : Int) (c : Int) (t : St K) (r : Pt K) (W : Int) : Prop :=
  2 * W = leftSum (t.out.row L) m +
    (if t.k = 2 * L ∧ r.1 < (m : K) then t.step + (2 * side L r.2 - 1) else 0) - c

theorem ite_min (a b : K) : (if a > b then b else a) = min a b := by
  by_cases h : a > b
  · rw [if_pos h, min_eq_right h.le]
  · rw [if_neg h, min_eq_left (not_lt.mp h)]

theorem ite_max (a b : K) : (if a < b then b else a) = max a b := by
  by_cases h : a < b
  · rw [if_pos h, max_eq_right h.le]
  · rw [if_neg h, max_eq_left (not_lt.mp h)]

theorem leave_ix {p q : Pt K} {t : St K} (h : t.p = p) (σ : Int) :
    t.p.1 + (q.1 - t.p.1) * (((t.line : K) + 1 / 2 * σ) - t.p.2) / (q.2 - t.p.2) =
      intersectX p q ((t.line : K) + 1 / 2 * σ) := by
  rw [h]
  rfl

theorem leave_even {p q : Pt K} {σ : Int} {t : St K} {r : Pt K} (h : Mid p q σ t r) {j : Int}
    (hj : t.k = 2 * j) :
    leave q σ t = { t with
      s := min t.s (intersectX p q ((j : K) + 1 / 2 * σ))
      e := max t.e (intersectX p q ((j : K) + 1 / 2 * σ))
      out := t.out.append j (Seg.round (min t.s (intersectX p q ((j : K) + 1 / 2 * σ))) (σ + t.step)
        (max t.e (intersectX p q ((j : K) + 1 / 2 * σ))))
      k := 2 * j + σ
      step := σ } := by
  obtain ⟨-, -, -, -, hl⟩ := h.even j hj
  have hix := leave_ix (q := q) h.p_eq σ
  rw [hl] at hix
  unfold leave
  simp only [ite_min, ite_max, hl, hj, hix]
  rw [if_pos (by omega), show 2 * j / 2 = j by omega]

theorem leave_odd {p q : Pt K} {σ : Int} {t : St K} {r : Pt K} (h : Mid p q σ t r)
    (hk : t.k % 2 = 1) :
    leave q σ t = { t with
      s := r.1
      e := r.1
      line := t.line + σ
      k := t.k + σ
      step := σ } := by
  obtain ⟨h1, h2⟩ := h.odd hk
  have hy : (t.line : K) + 1 / 2 * σ = r.2 := by
    rw [h1]
    have : (2 * t.line : K) = t.k - σ := by exact_mod_cast h2
    linarith
  have hix := leave_ix (q := q) h.p_eq σ
  rw [hy, ← h.on] at hix
  unfold leave
  rw [hy]
  simp only [hix]
  rw [if_neg (by omega)]

/-- Points of one closed line other than `L` are on the same side. -/
theorem side_row {L j : Int} (hj : j ≠ L) {y y' : K} (h1 : (j : K) - 1 / 2 ≤ y)
    (h2 : y ≤ (j : K) + 1 / 2) (h1' : (j : K) - 1 / 2 ≤ y') (h2' : y' ≤ (j : K) + 1 / 2) :
    side L y = side L y' := by
  rcases lt_or_gt_of_ne hj with h | h
  · have : (j : K) + 1 ≤ L := by exact_mod_cast h
    rw [side_below (by linarith), side_below (by linarith)]
  · have : (L : K) + 1 ≤ j := by exact_mod_cast h
    rw [side_above (by linarith), side_above (by linarith)]

theorem leave_acc {p q : Pt K} {σ : Int} (hσ : σ = 1 ∨ σ = -1) {t : St K} {r : Pt K}
    (h : Mid p q σ t r) {m L : Int} (hL : t.out.In L) {c W : Int} (ha : Acc m L c t r W)
    (hc : ∀ s ∈ (leave q σ t).out.row L, Clear m s) :
    ∃ r', Mid p q σ (leave q σ t) r' ∧ Acc m L c (leave q σ t) r'
      (W + if intersectX p q (L : K) < m then side L r'.2 - side L r.2 else 0) := by
  rcases Int.emod_two_eq_zero_or_one t.k with hk | hk
  · obtain ⟨j, hj⟩ : ∃ j, t.k = 2 * j := ⟨t.k / 2, by omega⟩
    obtain ⟨b1, b2, b3, b4, b5⟩ := h.even j hj
    set y' : K := (j : K) + 1 / 2 * σ with hy'
    have hyb : (j : K) - 1 / 2 ≤ y' ∧ y' ≤ (j : K) + 1 / 2 := by
      rcases hσ with e | e <;> rw [hy', e] <;> push_cast <;> constructor <;> linarith
    have hlv := leave_even h hj
    rw [← hy'] at hlv
    refine ⟨(intersectX p q y', y'), ?_, ?_⟩
    · rw [hlv]
      refine ⟨h.p_eq, rfl, fun _ => ?_, fun i hi => ?_⟩
      · simp only [b5]
        refine ⟨?_, by omega⟩
        rw [hy']
        push_cast
        ring
      · simp only at hi
        omega
    · rw [hlv] at hc ⊢
      simp only [Acc] at ha ⊢
      rw [Lines.row_append hL] at hc ⊢
      have hodd : ¬ 2 * j + σ = 2 * L := by omega
      simp only [hodd, false_and, if_false]
      by_cases hjL : j = L
      · subst hjL
        simp only [if_true] at hc ⊢
        rw [leftSum_append]
        have hcl := hc _ (List.mem_append_right _ (List.mem_singleton_self _))
        have hle : min t.s (intersectX p q y') ≤ max t.e (intersectX p q y') :=
          (min_le_right _ _).trans (le_max_right _ _)
        have hsy : 2 * side j y' - 1 = σ := by
          rcases hσ with e | e
          · rw [side_above (by rw [hy', e]; push_cast; linarith), e]
            rfl
          · rw [side_below (by rw [hy', e]; push_cast; linarith), e]
            rfl
        rcases clear_round hle hcl with ⟨c1, c2⟩ | ⟨c1, c2⟩
        · have hr : r.1 < (m : K) := lt_of_le_of_lt (b4.trans (le_max_left _ _)) c1
          have hi : intersectX p q y' < (m : K) := lt_of_le_of_lt (le_max_right _ _) c1
          simp only [leftSum_cons, leftSum_nil, if_pos c2]
          rw [if_pos ⟨hj, hr⟩] at ha
          have key : (if intersectX p q (j : K) < (m : K) then side j y' - side j r.2 else 0) =
              side j y' - side j r.2 := by
            rcases side_cases j r.2 y' with e | e
            · rw [e]; simp
            · rw [if_pos (between_lt (by rw [← h.on]; exact hr) hi e)]
          rw [key]
          simp only [Seg.round]
          omega
        · have hr : ¬ r.1 < (m : K) := by
            have := (min_le_left t.s (intersectX p q y')).trans b3
            exact not_lt.mpr (by linarith)
          have hi : (m : K) < intersectX p q y' := lt_of_lt_of_le c1 (min_le_right _ _)
          simp only [leftSum_cons, leftSum_nil, if_neg c2]
          rw [if_neg (fun h => hr h.2)] at ha
          have key : (if intersectX p q (j : K) < (m : K) then side j y' - side j r.2 else 0) = 0 := by
            rcases side_cases j r.2 y' with e | e
            · rw [e]; simp
            · refine if_neg (not_lt.mpr (le_of_lt (between_gt ?_ hi e)))
              rw [← h.on]
              have := (min_le_left t.s (intersectX p q y')).trans b3
              linarith
          rw [key]
          omega
      · simp only [if_neg hjL]
        rw [if_neg (by omega)] at ha
        have : side L y' = side L r.2 := side_row hjL hyb.1 hyb.2 b1 b2
        rw [this]
        simp only [sub_self, ite_self]
        omega
  · obtain ⟨o1, o2⟩ := h.odd hk
    have hlv := leave_odd h hk
    refine ⟨r, ?_, ?_⟩
    · rw [hlv]
      refine ⟨h.p_eq, h.on, fun ho => ?_, fun i hi => ?_⟩
      · simp only at ho
        omega
      · simp only at hi ⊢
        have e1 : (t.k : K) = 2 * i - σ := by
          have : t.k = 2 * i - σ := by omega
          rw [this]
          push_cast
          ring
        rw [o1, e1]
        refine ⟨?_, ?_, le_rfl, le_rfl, by omega⟩ <;>
        · rcases hσ with e | e <;> rw [e] <;> push_cast <;> linarith
    · rw [hlv]
      simp only [Acc] at ha ⊢
      rw [if_neg (by omega)] at ha
      have hside : t.k + σ = 2 * L → σ + (2 * side L r.2 - 1) = 0 := by
        intro hk'
        rcases hσ with e | e
        · rw [side_below, e]; rfl
          rw [o1]
          have : t.k = 2 * L - 1 := by omega
          rw [this]
          push_cast
          linarith
        · rw [side_above, e]; rfl
          rw [o1]
          have : t.k = 2 * L + 1 := by omega
          rw [this]
          push_cast
          linarith
      simp only [sub_self, ite_self, add_zero]
      by_cases hk' : t.k + σ = 2 * L ∧ r.1 < (m : K)
      · rw [if_pos hk', hside hk'.1]
        omega
      · rw [if_neg hk']
        omega

theorem leave_in {q : Pt K} {σ : Int} {t : St K} {L : Int} (h : t.out.In L) :
    (leave q σ t).out.In L ∧ ∀ s ∈ t.out.row L, s ∈ (leave q σ t).out.row L := by
  unfold leave
  simp only
  split
  · refine ⟨(Lines.append_in _ _ _ _).mpr h, fun s hs => ?_⟩
    simp only
    rw [Lines.row_append h]
    split
    · exact List.mem_append_left _ hs
    · exact hs
  · exact ⟨h, fun s hs => hs⟩

theorem leaves_in {q : Pt K} {σ : Int} (n : Nat) {t : St K} {L : Int} (h : t.out.In L) :
    (leaves q σ n t).out.In L ∧ ∀ s ∈ t.out.row L, s ∈ (leaves q σ n t).out.row L := by
  induction n generalizing t with
  | zero => exact ⟨h, fun s hs => hs⟩
  | succ n ih =>
    obtain ⟨h1, h2⟩ := leave_in (q := q) (σ := σ) h
    obtain ⟨h3, h4⟩ := ih h1
    exact ⟨h3, fun s hs => h4 s (h2 s hs)⟩

theorem leave_k (q : Pt K) (σ : Int) (t : St K) : (leave q σ t).k = t.k + σ := by
  unfold leave
  simp only
  split <;> rfl

theorem leaves_k (q : Pt K) (σ : Int) (n : Nat) (t : St K) :
    (leaves q σ n t).k = t.k + n * σ := by
  induction n generalizing t with
  | zero => simp [leaves]
  | succ n ih =>
    rw [leaves, ih, leave_k]
    push_cast
    ring

theorem leaves_acc {p q : Pt K} {σ : Int} (hσ : σ = 1 ∨ σ = -1) {m L c : Int} (n : Nat) {t : St K}
    {r : Pt K} {W : Int} (h : Mid p q σ t r) (hL : t.out.In L) (ha : Acc m L c t r W)
    (hc : ∀ s ∈ (leaves q σ n t).out.row L, Clear m s) :
    ∃ r', Mid p q σ (leaves q σ n t) r' ∧ Acc m L c (leaves q σ n t) r'
      (W + if intersectX p q (L : K) < m then side L r'.2 - side L r.2 else 0) := by
  induction n generalizing t r W with
  | zero => exact ⟨r, h, by simpa [leaves] using ha⟩
  | succ n ih =>
    obtain ⟨h1, h2⟩ := leave_in (q := q) (σ := σ) hL
    obtain ⟨h3, h4⟩ := leaves_in (q := q) (σ := σ) n h1
    obtain ⟨r1, e1, e2⟩ := leave_acc hσ h hL ha fun s hs => hc s (h4 s hs)
    obtain ⟨r2, e3, e4⟩ := ih e1 h1 e2 hc
    refine ⟨r2, e3, ?_⟩
    have e : W + (if intersectX p q (L : K) < m then side L r2.2 - side L r.2 else 0) =
        (W + if intersectX p q (L : K) < m then side L r1.2 - side L r.2 else 0) +
          if intersectX p q (L : K) < m then side L r2.2 - side L r1.2 else 0 := by
      split <;> ring
    rw [e]
    exact e4

/-- The state between two points. -/
structure Ready (t : St K) : Prop where
  k : t.k = kline t.p.2
  line : t.line = ⌊t.p.2 + 1 / 2⌋
  s : t.s ≤ t.p.1
  e : t.p.1 ≤ t.e

theorem Ready.se {t : St K} (h : Ready t) : t.s ≤ t.e := h.s.trans h.e

theorem change_same {q : Pt K} {t : St K} (h : kline q.2 = t.k) : change q t = t := by
  unfold change
  simp only [if_pos h]

/-- The direction of leaving. -/
def dirTo (q : Pt K) (t : St K) : Int := if kline q.2 > t.k then 1 else -1

/-- The state at the beginning of the leaving loop. -/
def enter (q : Pt K) (t : St K) : St K :=
  if t.k % 2 = 0 then t else { t with line := (t.k - dirTo q t) / 2 }

theorem change_other {q : Pt K} {t : St K} (h : kline q.2 ≠ t.k) :
    change q t = { leaves q (dirTo q t) (kline q.2 - t.k).natAbs (enter q t) with
      line := ⌊q.2 + 1 / 2⌋ } := by
  unfold change
  simp only [if_neg h]
  rfl

theorem enter_mid {q : Pt K} {t : St K} (h : Ready t) : Mid t.p q (dirTo q t) (enter q t) t.p := by
  unfold enter
  by_cases hk : t.k % 2 = 0
  · rw [if_pos hk]
    refine ⟨rfl, (intersectX_left _ _).symm, fun h1 => absurd h1 (by omega), fun j hj => ?_⟩
    obtain ⟨h1, h2, h3⟩ := kline_even (h.k.symm.trans hj)
    exact ⟨h1.le, h2.le, h.s, h.e, h.line.trans h3⟩
  · rw [if_neg hk]
    have hk1 : t.k % 2 = 1 := by omega
    refine ⟨rfl, (intersectX_left _ _).symm, fun _ => ⟨?_, ?_⟩, fun j hj => ?_⟩
    · have := kline_odd (y := t.p.2) (by rw [← h.k]; exact hk1)
      rw [← h.k] at this
      exact this
    · simp only [dirTo]
      split <;> omega
    · simp only at hj
      omega

theorem dirTo_cases (q : Pt K) (t : St K) : dirTo q t = 1 ∨ dirTo q t = -1 := by
  unfold dirTo
  split
  · exact .inl rfl
  · exact .inr rfl

theorem enter_out (q : Pt K) (t : St K) : (enter q t).out = t.out := by
  unfold enter
  split <;> rfl

theorem enter_k (q : Pt K) (t : St K) : (enter q t).k = t.k := by
  unfold enter
  split <;> rfl

theorem enter_step (q : Pt K) (t : St K) : (enter q t).step = t.step := by
  unfold enter
  split <;> rfl

theorem enter_se (q : Pt K) (t : St K) : (enter q t).s = t.s ∧ (enter q t).e = t.e := by
  unfold enter
  split <;> exact ⟨rfl, rfl⟩

theorem end_k {q : Pt K} {t : St K} :
    (leaves q (dirTo q t) (kline q.2 - t.k).natAbs (enter q t)).k = kline q.2 := by
  rw [leaves_k, enter_k]
  unfold dirTo
  split <;> omega

theorem scanStep_in {q : Pt K} {t : St K} {L : Int} (h : t.out.In L) :
    (scanStep t q).out.In L ∧ ∀ s ∈ t.out.row L, s ∈ (scanStep t q).out.row L := by
  unfold scanStep addPoint
  simp only
  by_cases hk : kline q.2 = t.k
  · rw [change_same hk]
    exact ⟨h, fun s hs => hs⟩
  · rw [change_other hk]
    have := leaves_in (q := q) (σ := dirTo q t) (kline q.2 - t.k).natAbs
      (t := enter q t) (L := L) (by rw [enter_out]; exact h)
    rw [enter_out] at this
    exact this

theorem scanStep_p (t : St K) (q : Pt K) : (scanStep t q).p = q := rfl

theorem scanStep_ready {q : Pt K} {t : St K} (h : Ready t) : Ready (scanStep t q) := by
  unfold scanStep addPoint
  refine ⟨?_, ?_, ?_, ?_⟩
  · simp only
    by_cases hk : kline q.2 = t.k
    · rw [change_same hk, hk]
    · rw [change_other hk]
      exact end_k
  · simp only
    by_cases hk : kline q.2 = t.k
    · rw [change_same hk, h.line]
      have e : kline t.p.2 = kline q.2 := by rw [← h.k, hk]
      rcases Int.emod_two_eq_zero_or_one (kline q.2) with h0 | h0
      · obtain ⟨j, hj⟩ : ∃ j, kline q.2 = 2 * j := ⟨kline q.2 / 2, by omega⟩
        rw [(kline_even hj).2.2, (kline_even (e.trans hj)).2.2]
      · rw [kline_odd h0, kline_odd (y := t.p.2) (by rw [e]; exact h0), e]
    · rw [change_other hk]
  · simp only [ite_min]
    exact min_le_right _ _
  · simp only [ite_max]
    exact le_max_right _ _

/-- One point: the account is kept. -/
theorem scanStep_acc {q : Pt K} {t : St K} (h : Ready t) {m L c W : Int} (hL : t.out.In L)
    (ha : Acc m L c t t.p W) (hc : ∀ s ∈ (scanStep t q).out.row L, Clear m s)
    (hp : Pend m L (scanStep t q)) :
    Acc m L c (scanStep t q) q (W + turn (centre m L) t.p q) := by
  rw [turn_eq]
  -- the state reached before the new point is included
  obtain ⟨u, r, hu, huL, hur, hua, hue, huo, hon⟩ : ∃ (u : St K) (r : Pt K),
      scanStep t q = addPoint q { u with line := (change q t).line } ∧ u.out.In L ∧ u.k = kline q.2 ∧
      Acc m L c u r
        (W + if intersectX t.p q (L : K) < m then side L r.2 - side L t.p.2 else 0) ∧
      (∀ j, u.k = 2 * j → (j : K) - 1 / 2 ≤ r.2 ∧ r.2 ≤ (j : K) + 1 / 2 ∧ u.s ≤ r.1 ∧ r.1 ≤ u.e) ∧
      (u.k % 2 = 1 → r.2 = (u.k : K) / 2) ∧ (r = t.p ∨ r.1 = intersectX t.p q r.2 ∧ t.p.2 ≠ q.2) := by
    by_cases hk : kline q.2 = t.k
    · refine ⟨t, t.p, by rw [scanStep, change_same hk], hL, hk.symm, by simpa using ha,
        fun j hj => ?_, fun h1 => ?_, .inl rfl⟩
      · obtain ⟨h1, h2, h3⟩ := kline_even (h.k.symm.trans hj)
        exact ⟨h1.le, h2.le, h.s, h.e⟩
      · have := kline_odd (y := t.p.2) (by rw [← h.k]; exact h1)
        rw [← h.k] at this
        exact this
    · have hc' : ∀ s ∈ (leaves q (dirTo q t) (kline q.2 - t.k).natAbs (enter q t)).out.row L,
          Clear m s := by
        intro s hs
        apply hc
        unfold scanStep addPoint
        rw [change_other hk]
        exact hs
      have ha' : Acc m L c (enter q t) t.p W := by
        unfold Acc at ha ⊢
        rw [enter_out, enter_k, enter_step]
        exact ha
      obtain ⟨r, e1, e2⟩ := leaves_acc (dirTo_cases q t) _ (enter_mid h)
        (by rw [enter_out]; exact hL) ha' hc'
      refine ⟨_, r, ?_, (leaves_in _ (by rw [enter_out]; exact hL)).1, end_k, e2, fun j hj => ?_,
        fun h1 => (e1.odd h1).1, .inr ⟨e1.on, ?_⟩⟩
      · rw [scanStep, change_other hk]
      · obtain ⟨a1, a2, a3, a4, -⟩ := e1.even j hj
        exact ⟨a1, a2, a3, a4⟩
      · intro e
        apply hk
        rw [h.k, e]
  rw [hu] at hp ⊢
  simp only [Acc, addPoint] at hua ⊢
  have hsd : side L r.2 = side L q.2 ∨ (r.1 = intersectX t.p q r.2 ∧ q.1 = intersectX t.p q q.2) := by
    by_cases he : t.p.2 = q.2
    · left
      rcases hon with h1 | h1
      · rw [h1, he]
      · exact absurd he h1.2
    · right
      refine ⟨?_, (intersectX_right he).symm⟩
      rcases hon with h1 | h1
      · rw [h1, intersectX_left]
      · exact h1.1
  by_cases hk : u.k = 2 * L
  · have hcl := hp hk
    simp only [addPoint, ite_min, ite_max] at hcl
    obtain ⟨r1, r2, r3, r4⟩ := hue L hk
    have hle : min u.s q.1 ≤ max u.e q.1 := (min_le_right _ _).trans (le_max_right _ _)
    rcases clear_round hle hcl with ⟨c1, -⟩ | ⟨c1, -⟩
    · have hr : r.1 < (m : K) := lt_of_le_of_lt (r4.trans (le_max_left _ _)) c1
      have hq : q.1 < (m : K) := lt_of_le_of_lt (le_max_right _ _) c1
      rw [if_pos (show u.k = 2 * L ∧ r.1 < (m : K) from ⟨hk, hr⟩)] at hua
      rw [if_pos (show u.k = 2 * L ∧ q.1 < (m : K) from ⟨hk, hq⟩)]
      have key : (if intersectX t.p q (L : K) < (m : K) then side L q.2 - side L t.p.2 else 0) =
          (if intersectX t.p q (L : K) < (m : K) then side L r.2 - side L t.p.2 else 0) +
            (side L q.2 - side L r.2) := by
        rcases hsd with e | ⟨e1, e2⟩
        · rw [e]; simp
        · rcases side_cases L r.2 q.2 with e | e
          · rw [e]; simp
          · have := between_lt (by rw [← e1]; exact hr) (by rw [← e2]; exact hq) e
            rw [if_pos this, if_pos this]
            ring
      rw [key]
      omega
    · have hr : (m : K) < r.1 := lt_of_lt_of_le c1 ((min_le_left _ _).trans r3)
      have hq : (m : K) < q.1 := lt_of_lt_of_le c1 (min_le_right _ _)
      rw [if_neg (show ¬ (u.k = 2 * L ∧ r.1 < (m : K)) from fun h => lt_asymm h.2 hr)] at hua
      rw [if_neg (show ¬ (u.k = 2 * L ∧ q.1 < (m : K)) from fun h => lt_asymm h.2 hq)]
      have key : (if intersectX t.p q (L : K) < (m : K) then side L q.2 - side L t.p.2 else 0) =
          (if intersectX t.p q (L : K) < (m : K) then side L r.2 - side L t.p.2 else 0) := by
        rcases hsd with e | ⟨e1, e2⟩
        · rw [e]
        · rcases side_cases L r.2 q.2 with e | e
          · rw [e]
          · have := between_gt (by rw [← e1]; exact hr) (by rw [← e2]; exact hq) e
            rw [if_neg (lt_asymm this), if_neg (lt_asymm this)]
      rw [key]
      exact hua
  · rw [if_neg (show ¬ (u.k = 2 * L ∧ r.1 < (m : K)) from fun h => hk h.1)] at hua
    rw [if_neg (show ¬ (u.k = 2 * L ∧ q.1 < (m : K)) from fun h => hk h.1)]
    have : side L r.2 = side L q.2 := by
      rcases Int.emod_two_eq_zero_or_one u.k with h0 | h0
      · obtain ⟨j, hj⟩ : ∃ j, u.k = 2 * j := ⟨u.k / 2, by omega⟩
        obtain ⟨r1, r2, -, -⟩ := hue j hj
        obtain ⟨q1, q2, -⟩ := kline_even (hur.symm.trans hj)
        exact side_row (by omega) r1 r2 q1.le q2.le
      · rw [huo h0, hur, ← kline_odd (by rw [← hur]; exact h0)]
    rw [← this]
    exact hua

theorem scanEnd_row {L : Int} {t : St K} (hL : t.out.In L) :
    (scanEnd t).row L =
      t.out.row L ++ if t.k = 2 * L then [Seg.round t.s t.step t.e] else [] := by
  unfold scanEnd
  by_cases h2 : t.k % 2 = 0
  · rw [if_pos h2, Lines.row_append hL]
    by_cases hk : t.k = 2 * L
    · rw [if_pos (show t.k / 2 = L by omega), if_pos hk]
    · rw [if_neg (show ¬ t.k / 2 = L by omega), if_neg hk, List.append_nil]
  · rw [if_neg h2, if_neg (show ¬ t.k = 2 * L by omega), List.append_nil]

theorem mem_final {L : Int} {s : Seg} (l : List (Pt K)) (u : St K) (hu : u.out.In L)
    (hs : s ∈ u.out.row L) : s ∈ (scanEnd (l.foldl scanStep u)).row L := by
  induction l generalizing u with
  | nil =>
    rw [List.foldl_nil, scanEnd_row hu]
    exact List.mem_append_left _ hs
  | cons a l ihl =>
    obtain ⟨h3, h4⟩ := scanStep_in (q := a) hu
    exact ihl _ h3 (h4 s hs)

/-- The current interval ends up inside a segment of the final line. -/
theorem pend_final {m L : Int} (pts : List (Pt K)) {t : St K} (h : Ready t) (hL : t.out.In L)
    (hc : ∀ s ∈ (scanEnd (pts.foldl scanStep t)).row L, Clear m s) : Pend m L t := by
  induction pts generalizing t with
  | nil =>
    intro hk
    rw [List.foldl_nil, scanEnd_row hL, if_pos hk] at hc
    exact clear_dir (hc _ (List.mem_append_right _ (List.mem_singleton_self _)))
  | cons q pts ih =>
    intro hk
    have hL' := (scanStep_in (q := q) hL).1
    have hp := ih (scanStep_ready h) hL' hc
    by_cases hq : kline q.2 = t.k
    · have hk' : (scanStep t q).k = 2 * L := by
        rw [← hk]
        unfold scanStep addPoint
        rw [change_same hq]
      have := hp hk'
      unfold scanStep addPoint at this
      rw [change_same hq] at this
      simp only [ite_min, ite_max] at this
      exact clear_sub h.se (min_le_left _ _) (le_max_left _ _) this
    · -- the interval is stored when the line is left
      have hmem : ∀ s ∈ (leave q (dirTo q t) (enter q t)).out.row L, Clear m s := by
        intro s hs
        refine hc s ?_
        have h1 : s ∈ (scanStep t q).out.row L := by
          unfold scanStep addPoint
          rw [change_other hq]
          simp only
          obtain ⟨n, hn⟩ : ∃ n, (kline q.2 - t.k).natAbs = n + 1 :=
            Nat.exists_eq_succ_of_ne_zero (by omega)
          rw [hn, leaves]
          refine (leaves_in n ?_).2 s hs
          exact (leave_in (by rw [enter_out]; exact hL)).1
        exact mem_final pts _ hL' h1
      have hm := enter_mid (q := q) h
      have hk' : (enter q t).k = 2 * L := by rw [enter_k, hk]
      rw [leave_even hm hk'] at hmem
      simp only at hmem
      rw [Lines.row_append (by rw [enter_out]; exact hL), if_pos rfl] at hmem
      have := hmem _ (List.mem_append_right _ (List.mem_singleton_self _))
      rw [(enter_se q t).1, (enter_se q t).2] at this
      exact clear_sub h.se (min_le_left _ _) (le_max_left _ _) this

/-- The account of an end point of an open polygon line. -/
def endTerm (m L : Int) (p : Pt K) : Int :=
  if kline p.2 = 2 * L ∧ p.1 < (m : K) then 2 * side L p.2 - 1 else 0

theorem fold_acc {m L c : Int} (pts : List (Pt K)) {t : St K} (h : Ready t) (hL : t.out.In L) {W : Int}
    (ha : Acc m L c t t.p W)
    (hc : ∀ s ∈ (scanEnd (pts.foldl scanStep t)).row L, Clear m s) :
    2 * (W + winding (centre m L) (t.p :: pts)) =
      leftSum ((scanEnd (pts.foldl scanStep t)).row L) m +
        endTerm m L ((t.p :: pts).getLast (List.cons_ne_nil _ _)) - c := by
  induction pts generalizing t W with
  | nil =>
    have hp := pend_final [] h hL hc
    rw [List.foldl_nil, scanEnd_row hL, leftSum_append]
    show 2 * (W + 0) = _ + _ + endTerm m L t.p - c
    simp only [Acc] at ha
    unfold endTerm
    rw [← h.k]
    by_cases hk : t.k = 2 * L
    · rw [if_pos hk]
      simp only [leftSum_cons, leftSum_nil]
      rcases clear_round h.se (hp hk) with ⟨c1, c2⟩ | ⟨c1, c2⟩
      · have hx : t.p.1 < (m : K) := lt_of_le_of_lt h.e c1
        have c2' : (Seg.round t.s t.step t.e).e ≤ m := c2
        rw [if_pos (show t.k = 2 * L ∧ t.p.1 < (m : K) from ⟨hk, hx⟩)] at ha ⊢
        rw [if_pos c2']
        simp only [Seg.round]
        omega
      · have hx : ¬ t.p.1 < (m : K) := lt_asymm (lt_of_lt_of_le c1 h.s)
        have c2' : ¬ (Seg.round t.s t.step t.e).e ≤ m := c2
        rw [if_neg (show ¬ (t.k = 2 * L ∧ t.p.1 < (m : K)) from fun h => hx h.2)] at ha ⊢
        rw [if_neg c2']
        omega
    · rw [if_neg hk]
      rw [if_neg (show ¬ (t.k = 2 * L ∧ t.p.1 < (m : K)) from fun h => hk h.1)] at ha ⊢
      simp only [leftSum_nil]
      omega
  | cons q pts ih =>
    have hL' := (scanStep_in (q := q) hL).1
    have hr := scanStep_ready (q := q) h
    have hp : Pend m L (scanStep t q) := pend_final pts hr hL' hc
    have hs : ∀ s ∈ (scanStep t q).out.row L, Clear m s := fun s hs =>
      hc s (mem_final pts _ hL' hs)
    have ha' := scanStep_acc h hL ha hs hp
    rw [← scanStep_p t q] at ha'
    have := ih hr hL' ha' hc
    simp only [scanStep_p] at this
    simp only [List.foldl_cons, winding, pathSum] at this ⊢
    rw [List.getLast_cons (List.cons_ne_nil _ _), ← this]
    ring

/-- Open polygon lines: the directions of the segments left of an uncovered pixel count the
winding, up to terms for the two ends. -/
theorem scanRaw_wind {m L : Int} {p : Pt K} {l : List (Pt K)} {count : Nat} {start : Int}
    (hL : start ≤ L ∧ L < start + count) (hc : ¬ Cov ((scanRaw (p :: l) count start).row L) m) :
    2 * winding (centre m L) (p :: l) = leftSum ((scanRaw (p :: l) count start).row L) m +
      endTerm m L ((p :: l).getLast (List.cons_ne_nil _ _)) - endTerm m L p := by
  have hr : Ready (scanInit (Lines.empty start count) p) := ⟨rfl, rfl, le_rfl, le_rfl⟩
  have hI : (scanInit (Lines.empty start count) p).out.In L := (Lines.empty_in start count L).mpr hL
  have ha : Acc m L (endTerm m L p) (scanInit (Lines.empty start count) p) p 0 := by
    simp [Acc, scanInit, Lines.row_empty, endTerm]
  have := fold_acc l hr hI ha fun s hs h => hc ⟨s, hs, h⟩
  simpa [scanInit, scanRaw] using this

end Verif.Scan
