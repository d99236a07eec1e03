import Verif.Scan.Fill
import Mathlib.Tactic.FieldSimp

/-! # Lemmas: the covered pixels are the pixels the polygon line passes through -/

set_option linter.unusedSectionVars false

namespace Verif.Scan
open Verif Verif.GeoMap Verif.Polygon

variable {K : Type} [Field K] [LinearOrder K] [IsStrictOrderedRing K] [FloorRing K]

/-- inside the open line -/
def Open (L : Int) (y : K) : Prop := (L : K) - 1 / 2 < y ∧ y < (L : K) + 1 / 2

/-- inside the closed line -/
def Closed (L : Int) (y : K) : Prop := (L : K) - 1 / 2 ≤ y ∧ y ≤ (L : K) + 1 / 2

theorem Open.closed {L : Int} {y : K} (h : Open L y) : Closed L y := ⟨h.1.le, h.2.le⟩

theorem round_covers (s e : K) (d m : Int) :
    (Seg.round s d e).Covers m ↔ s < (m : K) + 1 / 2 ∧ (m : K) - 1 / 2 < e := by
  simp only [Seg.Covers, Seg.round]
  refine and_congr ?_ ?_
  · rw [← Int.lt_add_one_iff, Int.floor_lt]
    push_cast
    constructor <;> intro h <;> linarith
  · rw [Int.lt_ceil]
    constructor <;> intro h <;> linarith

/-- Every open interval that meets `[s, e]` contains the abscissa of a point of `S` in line
`L`. -/
def Hits (S : Pt K → Prop) (L : Int) (s e : K) : Prop :=
  ∀ a b, a < b → s < b → a < e → ∃ x, S x ∧ a < x.1 ∧ x.1 < b ∧ Open L x.2

theorem strictly_between {u v a b : K} (hab : a < b) (h1 : min u v < b) (h2 : a < max u v) :
    ∃ τ, 0 < τ ∧ τ < 1 ∧ a < u + τ * (v - u) ∧ u + τ * (v - u) < b := by
  rcases lt_trichotomy u v with h | h | h
  · rw [min_eq_left h.le] at h1
    rw [max_eq_right h.le] at h2
    have h3 : max a u < min b v := by
      rw [max_lt_iff, lt_min_iff, lt_min_iff]
      exact ⟨⟨hab, h2⟩, h1, h⟩
    obtain ⟨c, c1, c2⟩ := exists_between h3
    have hd : 0 < v - u := by linarith
    rw [max_lt_iff] at c1
    rw [lt_min_iff] at c2
    have e : u + (c - u) / (v - u) * (v - u) = c := by
      rw [div_mul_cancel₀ _ hd.ne']
      ring
    refine ⟨(c - u) / (v - u), div_pos (by linarith) hd, ?_, ?_, ?_⟩
    · rw [div_lt_one hd]
      linarith
    · rw [e]; exact c1.1
    · rw [e]; exact c2.1
  · subst h
    rw [min_self] at h1
    rw [max_self] at h2
    exact ⟨1 / 2, by norm_num, by norm_num, by linarith, by linarith⟩
  · rw [min_eq_right h.le] at h1
    rw [max_eq_left h.le] at h2
    have h3 : max a v < min b u := by
      rw [max_lt_iff, lt_min_iff, lt_min_iff]
      exact ⟨⟨hab, h2⟩, h1, h⟩
    obtain ⟨c, c1, c2⟩ := exists_between h3
    have hd : 0 < u - v := by linarith
    rw [max_lt_iff] at c1
    rw [lt_min_iff] at c2
    have e : u + (u - c) / (u - v) * (v - u) = c := by
      have : (u - c) / (u - v) * (u - v) = u - c := div_mul_cancel₀ _ hd.ne'
      linarith
    refine ⟨(u - c) / (u - v), div_pos (by linarith) hd, ?_, ?_, ?_⟩
    · rw [div_lt_one hd]
      linarith
    · rw [e]; exact c1.1
    · rw [e]; exact c2.1

theorem open_between {L : Int} {y y' τ : K} (h : Closed L y) (h' : Closed L y')
    (hne : y ≠ y' ∨ Open L y) (h0 : 0 < τ) (h1 : τ < 1) : Open L (y + τ * (y' - y)) := by
  obtain ⟨a1, a2⟩ := h
  obtain ⟨b1, b2⟩ := h'
  have key : ∀ c : K, y + τ * (y' - y) - c = (1 - τ) * (y - c) + τ * (y' - c) := fun c => by ring
  have hτ : 0 < 1 - τ := by linarith
  have lower : 0 < y + τ * (y' - y) - ((L : K) - 1 / 2) := by
    rw [key]
    rcases a1.lt_or_eq with h | h
    · have := mul_pos hτ (show 0 < y - ((L : K) - 1 / 2) by linarith)
      have := mul_nonneg h0.le (show 0 ≤ y' - ((L : K) - 1 / 2) by linarith)
      linarith
    · have hy : y' ≠ (L : K) - 1 / 2 := by
        intro e
        rcases hne with h3 | h3
        · exact h3 (by rw [e, h])
        · have := h3.1
          linarith
      have h4 : (L : K) - 1 / 2 < y' := lt_of_le_of_ne b1 (Ne.symm hy)
      have := mul_nonneg hτ.le (show 0 ≤ y - ((L : K) - 1 / 2) by linarith)
      have := mul_pos h0 (show 0 < y' - ((L : K) - 1 / 2) by linarith)
      linarith
  have upper : y + τ * (y' - y) - ((L : K) + 1 / 2) < 0 := by
    rw [key]
    rcases a2.lt_or_eq with h | h
    · have := mul_pos hτ (show 0 < ((L : K) + 1 / 2) - y by linarith)
      have := mul_nonneg h0.le (show 0 ≤ ((L : K) + 1 / 2) - y' by linarith)
      linarith
    · have hy : y' ≠ (L : K) + 1 / 2 := by
        intro e
        rcases hne with h3 | h3
        · exact h3 (by rw [e, h])
        · have := h3.2
          linarith
      have h4 : y' < (L : K) + 1 / 2 := lt_of_le_of_ne b2 hy
      have := mul_nonneg hτ.le (show 0 ≤ ((L : K) + 1 / 2) - y by linarith)
      have := mul_pos h0 (show 0 < ((L : K) + 1 / 2) - y' by linarith)
      linarith
  exact ⟨by linarith, by linarith⟩

/-- Extending the interval from the place `r` to the place `r'`. -/
theorem hits_ext {S : Pt K → Prop} {L : Int} {r r' : Pt K} {s e : K}
    (hS : ∀ τ, 0 < τ → τ < 1 → S (r.1 + τ * (r'.1 - r.1), r.2 + τ * (r'.2 - r.2)))
    (h : Closed L r.2) (h' : Closed L r'.2) (hne : r.2 ≠ r'.2 ∨ Open L r.2)
    (hs : s ≤ r.1) (he : r.1 ≤ e) (hh : Hits S L s e ∨ (s = r.1 ∧ e = r.1)) :
    Hits S L (min s r'.1) (max e r'.1) := by
  intro a b hab h1 h2
  by_cases h3 : Hits S L s e ∧ s < b ∧ a < e
  · exact h3.1 a b hab h3.2.1 h3.2.2
  · have h4 : min r.1 r'.1 < b ∧ a < max r.1 r'.1 := by
      rcases hh with hh | ⟨rfl, rfl⟩
      · have h5 : ¬ (s < b ∧ a < e) := fun h => h3 ⟨hh, h⟩
        rw [not_and_or, not_lt, not_lt] at h5
        rw [min_lt_iff] at h1 ⊢
        rw [lt_max_iff] at h2 ⊢
        rcases h5 with h5 | h5
        · rcases h1 with h1 | h1
          · linarith
          · exact ⟨.inr h1, .inl (by linarith)⟩
        · rcases h2 with h2 | h2
          · linarith
          · exact ⟨.inl (by linarith), .inr h2⟩
      · exact ⟨h1, h2⟩
    obtain ⟨τ, t0, t1, t2, t3⟩ := strictly_between hab h4.1 h4.2
    exact ⟨_, hS τ t0 t1, t2, t3, open_between h h' hne t0 t1⟩

/-! ## The leaving loop -/

/-- `a` comes before `b` in direction `σ`. -/
def Along (σ : Int) (a b : K) : Prop := (σ = 1 ∧ a ≤ b) ∨ (σ = -1 ∧ b ≤ a)

theorem Along.trans {σ : Int} {a b c : K} (h : Along σ a b) (h' : Along σ b c) : Along σ a c := by
  rcases h with ⟨e, h⟩ | ⟨e, h⟩ <;> rcases h' with ⟨e', h'⟩ | ⟨e', h'⟩
  · exact .inl ⟨e, h.trans h'⟩
  · omega
  · omega
  · exact .inr ⟨e, h'.trans h⟩

theorem kline_ge {y : K} {j : Int} (h : 2 * j < kline y) : (j : K) + 1 / 2 ≤ y := by
  unfold kline at h
  simp only at h
  have hf := Int.floor_le (y + 1 / 2)
  split at h
  · have h1 : j + 1 ≤ ⌊y + 1 / 2⌋ := by omega
    have h2 := Int.le_floor.mp h1
    push_cast at h2
    linarith
  · have h1 : j + 1 ≤ ⌊y + 1 / 2⌋ := by omega
    have h2 := Int.le_floor.mp h1
    push_cast at h2
    linarith

theorem kline_le {y : K} {j : Int} (h : kline y < 2 * j) : y ≤ (j : K) - 1 / 2 := by
  unfold kline at h
  simp only at h
  split at h
  · rename_i he
    have h1 : ⌊y + 1 / 2⌋ ≤ j := by omega
    have h2 : ((⌊y + 1 / 2⌋ : Int) : K) ≤ j := by exact_mod_cast h1
    linarith
  · have h1 : ⌊y + 1 / 2⌋ < j := by omega
    have h2 := Int.floor_lt.mp h1
    linarith

theorem leave_mid_even {p q : Pt K} {σ : Int} (hσ : σ = 1 ∨ σ = -1) {t : St K} {r : Pt K}
    (h : Mid p q σ t r) {j : Int} (hj : t.k = 2 * j) :
    Mid p q σ (leave q σ t) (intersectX p q ((j : K) + 1 / 2 * σ), (j : K) + 1 / 2 * σ) := by
  obtain ⟨b1, b2, b3, b4, b5⟩ := h.even j hj
  rw [leave_even h hj]
  refine ⟨h.p_eq, rfl, fun _ => ?_, fun i hi => ?_⟩
  · simp only [b5]
    refine ⟨?_, by omega⟩
    push_cast
    ring
  · simp only at hi
    omega

theorem leave_mid_odd {p q : Pt K} {σ : Int} (hσ : σ = 1 ∨ σ = -1) {t : St K} {r : Pt K}
    (h : Mid p q σ t r) (hk : t.k % 2 = 1) : Mid p q σ (leave q σ t) r := by
  obtain ⟨h1, h2⟩ := h.odd hk
  rw [leave_odd h hk]
  refine ⟨h.p_eq, h.on, fun h3 => ?_, fun i hi => ?_⟩
  · simp only at h3
    omega
  · simp only at hi ⊢
    have e : (t.k : K) + σ = 2 * i := by exact_mod_cast hi
    refine ⟨?_, ?_, le_rfl, le_rfl, by omega⟩
    · rw [h1]
      rcases hσ with rfl | rfl <;> push_cast at e <;> linarith
    · rw [h1]
      rcases hσ with rfl | rfl <;> push_cast at e <;> linarith

theorem intersectX_between (p q : Pt K) (y y' τ : K) :
    intersectX p q (y + τ * (y' - y)) =
      intersectX p q y + τ * (intersectX p q y' - intersectX p q y) := by
  rw [intersectX_affine, intersectX_affine p q y, intersectX_affine p q y']
  ring

/-- Everything stored or pending has been met by points of `S`. -/
structure Snd (S : Pt K → Prop) (L σ : Int) (t : St K) (r : Pt K) : Prop where
  out : ∀ s ∈ t.out.row L, ∀ m, s.Covers m → ∃ x, S x ∧ InPixel m L x
  pend : t.k = 2 * L → (Open L r.2 ∧ Hits S L t.s t.e) ∨
    (t.s = r.1 ∧ t.e = r.1 ∧ r.2 = (L : K) - 1 / 2 * σ)

theorem hits_pixel {S : Pt K → Prop} {L m d : Int} {s e : K} (h : Hits S L s e)
    (hc : (Seg.round s d e).Covers m) : ∃ x, S x ∧ InPixel m L x := by
  rw [round_covers] at hc
  obtain ⟨x, h1, h2, h3, h4⟩ := h ((m : K) - 1 / 2) ((m : K) + 1 / 2) (by linarith) hc.1 hc.2
  exact ⟨x, h1, h2, h3, h4⟩

theorem leave_snd {S : Pt K → Prop} {L σ : Int} (hσ : σ = 1 ∨ σ = -1) {p q : Pt K} {t : St K}
    {r : Pt K} (hS : ∀ y, Along σ p.2 y → Along σ y q.2 → S (intersectX p q y, y))
    (h : Mid p q σ t r) (h1 : Along σ p.2 r.2) (h2 : Along σ r.2 q.2)
    (hk : (σ = 1 ∧ t.k < kline q.2) ∨ (σ = -1 ∧ kline q.2 < t.k))
    (hL : t.out.In L) (hs : Snd S L σ t r) :
    ∃ r', Mid p q σ (leave q σ t) r' ∧ Along σ p.2 r'.2 ∧ Along σ r'.2 q.2 ∧
      Snd S L σ (leave q σ t) r' := by
  rcases Int.emod_two_eq_zero_or_one t.k with hk2 | hk2
  · obtain ⟨j, hj⟩ : ∃ j, t.k = 2 * j := ⟨t.k / 2, by omega⟩
    obtain ⟨b1, b2, b3, b4, b5⟩ := h.even j hj
    have a1 : Along σ r.2 ((j : K) + 1 / 2 * σ) := by
      rcases hσ with e | e
      · left; rw [e]; push_cast; exact ⟨trivial, by linarith⟩
      · right; rw [e]; push_cast; exact ⟨trivial, by linarith⟩
    have a2 : Along σ ((j : K) + 1 / 2 * σ) q.2 := by
      rcases hk with ⟨e, hk⟩ | ⟨e, hk⟩
      · left; rw [e]; push_cast
        have := kline_ge (j := j) (by omega : 2 * j < kline q.2)
        exact ⟨trivial, by linarith⟩
      · right; rw [e]; push_cast
        have := kline_le (j := j) (by omega : kline q.2 < 2 * j)
        exact ⟨trivial, by linarith⟩
    refine ⟨_, leave_mid_even hσ h hj, h1.trans a1, a2, ?_⟩
    rw [leave_even h hj]
    refine ⟨?_, fun hk3 => ?_⟩
    · simp only
      rw [Lines.row_append hL]
      by_cases hjL : j = L
      · subst hjL
        rw [if_pos rfl]
        intro s hs' m hm
        rcases List.mem_append.mp hs' with hs' | hs'
        · exact hs.out s hs' m hm
        · rw [List.mem_singleton] at hs'
          rw [hs'] at hm
          refine hits_pixel ?_ hm
          have hcl : Closed j ((j : K) + 1 / 2 * σ) := by
            rcases hσ with e | e <;> rw [e] <;> push_cast <;> constructor <;> linarith
          refine hits_ext (r := r) (r' := (intersectX p q ((j : K) + 1 / 2 * σ), (j : K) + 1 / 2 * σ))
            ?_ ⟨b1, b2⟩ hcl ?_ b3 b4 ?_
          · intro τ t0 t1
            have hy : Along σ p.2 (r.2 + τ * (((j : K) + 1 / 2 * σ) - r.2)) ∧
                Along σ (r.2 + τ * (((j : K) + 1 / 2 * σ) - r.2)) q.2 := by
              have : ∀ d : K, 0 ≤ d → 0 ≤ τ * d ∧ τ * d ≤ d := fun d hd =>
                ⟨mul_nonneg t0.le hd, mul_le_of_le_one_left hd t1.le⟩
              rcases hσ with e | e
              · rcases a1 with ⟨-, a1⟩ | ⟨e', -⟩
                · obtain ⟨c1, c2⟩ := this (((j : K) + 1 / 2 * σ) - r.2) (by linarith)
                  constructor
                  · exact h1.trans (.inl ⟨e, by linarith⟩)
                  · exact Along.trans (.inl ⟨e, by linarith⟩) a2
                · omega
              · rcases a1 with ⟨e', -⟩ | ⟨-, a1⟩
                · omega
                · obtain ⟨c1, c2⟩ := this (r.2 - ((j : K) + 1 / 2 * σ)) (by linarith)
                  have e3 : τ * (((j : K) + 1 / 2 * σ) - r.2) =
                    - (τ * (r.2 - ((j : K) + 1 / 2 * σ))) := by ring
                  constructor
                  · exact h1.trans (.inr ⟨e, by linarith⟩)
                  · exact Along.trans (.inr ⟨e, by linarith⟩) a2
            have := hS _ hy.1 hy.2
            rw [intersectX_between, ← h.on] at this
            exact this
          · rcases hs.pend hj with ⟨h3, -⟩ | ⟨-, -, h3⟩
            · exact .inr h3
            · left
              rw [h3]
              rcases hσ with e | e <;> rw [e] <;> push_cast <;> intro h4 <;> linarith
          · rcases hs.pend hj with ⟨-, h3⟩ | ⟨h3, h4, -⟩
            · exact .inl h3
            · exact .inr ⟨h3, h4⟩
      · rw [if_neg hjL]
        exact hs.out
    · simp only at hk3
      omega
  · refine ⟨r, leave_mid_odd hσ h hk2, h1, h2, ?_⟩
    obtain ⟨o1, o2⟩ := h.odd hk2
    rw [leave_odd h hk2]
    refine ⟨hs.out, fun hk3 => .inr ⟨rfl, rfl, ?_⟩⟩
    simp only at hk3
    have e : (t.k : K) + σ = 2 * L := by exact_mod_cast hk3
    rw [o1]
    linarith

theorem leaves_snd {S : Pt K → Prop} {L σ : Int} (hσ : σ = 1 ∨ σ = -1) {p q : Pt K}
    (hS : ∀ y, Along σ p.2 y → Along σ y q.2 → S (intersectX p q y, y)) (n : Nat) {t : St K}
    {r : Pt K} (h : Mid p q σ t r) (h1 : Along σ p.2 r.2) (h2 : Along σ r.2 q.2)
    (hk : t.k + n * σ = kline q.2) (hL : t.out.In L) (hs : Snd S L σ t r) :
    ∃ r', Mid p q σ (leaves q σ n t) r' ∧ Along σ p.2 r'.2 ∧ Along σ r'.2 q.2 ∧
      Snd S L σ (leaves q σ n t) r' := by
  induction n generalizing t r with
  | zero => exact ⟨r, h, h1, h2, hs⟩
  | succ n ih =>
    have hk' : (σ = 1 ∧ t.k < kline q.2) ∨ (σ = -1 ∧ kline q.2 < t.k) := by
      rcases hσ with e | e
      · left; rw [e] at hk; push_cast at hk; omega
      · right; rw [e] at hk; push_cast at hk; omega
    obtain ⟨r1, c1, c2, c3, c4⟩ := leave_snd hσ hS h h1 h2 hk' hL hs
    exact ih c1 c2 c3 (by rw [leave_k]; push_cast at hk ⊢; linarith) (leave_in hL).1 c4

/-- The invariant between two points. -/
structure SndR (S : Pt K → Prop) (L : Int) (t : St K) : Prop where
  out : ∀ s ∈ t.out.row L, ∀ m, s.Covers m → ∃ x, S x ∧ InPixel m L x
  pend : t.k = 2 * L → Hits S L t.s t.e

theorem dirTo_along {q : Pt K} {t : St K} (h : Ready t) (hk : kline q.2 ≠ t.k) :
    Along (dirTo q t) t.p.2 q.2 := by
  have mono : ∀ {a b : K}, kline a < kline b → a ≤ b := by
    intro a b hab
    by_contra hc
    push Not at hc
    unfold kline at hab
    simp only at hab
    have hf : ⌊b + 1 / 2⌋ ≤ ⌊a + 1 / 2⌋ := Int.floor_le_floor (by linarith)
    have ha := Int.floor_le (a + 1 / 2)
    have hb := Int.lt_floor_add_one (b + 1 / 2)
    have hb' := Int.floor_le (b + 1 / 2)
    split at hab
    · split at hab
      · omega
      · rename_i e1 e2
        have : ⌊a + 1 / 2⌋ = ⌊b + 1 / 2⌋ := by omega
        rw [this] at e1
        linarith
    · split at hab <;> omega
  unfold dirTo
  split
  · rename_i hg
    left
    exact ⟨rfl, mono (by rw [← h.k]; exact hg)⟩
  · right
    exact ⟨rfl, mono (by rw [← h.k]; omega)⟩

theorem onSegment_between {p q : Pt K} {y : K} (hpq : p.2 ≠ q.2)
    (h : (p.2 ≤ y ∧ y ≤ q.2) ∨ (q.2 ≤ y ∧ y ≤ p.2)) : OnSegment p q (intersectX p q y, y) := by
  have hne : q.2 - p.2 ≠ 0 := sub_ne_zero.mpr (Ne.symm hpq)
  refine ⟨(y - p.2) / (q.2 - p.2), ?_, ?_, ?_⟩
  · rcases h with ⟨h1, h2⟩ | ⟨h1, h2⟩
    · exact div_nonneg (by linarith) (by linarith)
    · exact div_nonneg_of_nonpos (by linarith) (by linarith)
  · rcases h with ⟨h1, h2⟩ | ⟨h1, h2⟩
    · have : 0 < q.2 - p.2 := lt_of_le_of_ne (by linarith) (Ne.symm hne)
      rw [div_le_one this]
      linarith
    · have : q.2 - p.2 < 0 := lt_of_le_of_ne (by linarith) hne
      rw [div_le_one_of_neg this]
      linarith
  · refine Prod.ext ?_ ?_
    · simp only [intersectX]
      field_simp
    · simp only
      field_simp
      ring

theorem scanStep_snd {S : Pt K → Prop} {L : Int} {q : Pt K} {t : St K} (h : Ready t)
    (hL : t.out.In L) (hS : ∀ x, OnSegment t.p q x → S x) (hs : SndR S L t) :
    SndR S L (scanStep t q) := by
  by_cases hk : kline q.2 = t.k
  · unfold scanStep addPoint
    rw [change_same hk]
    refine ⟨hs.out, fun hk2 => ?_⟩
    simp only at hk2
    obtain ⟨p1, p2, -⟩ := kline_even (h.k.symm.trans hk2)
    obtain ⟨q1, q2, -⟩ := kline_even (hk.trans hk2)
    simp only [ite_min, ite_max]
    exact hits_ext (r := t.p) (fun τ t0 t1 => hS _ ⟨τ, t0.le, t1.le, rfl⟩) ⟨p1.le, p2.le⟩
      ⟨q1.le, q2.le⟩ (.inr ⟨p1, p2⟩) h.s h.e (.inl (hs.pend hk2))
  · have hal := dirTo_along h hk
    have hpq : t.p.2 ≠ q.2 := fun e => hk (by rw [h.k, e])
    have hS' : ∀ y, Along (dirTo q t) t.p.2 y → Along (dirTo q t) y q.2 →
        S (intersectX t.p q y, y) := by
      intro y y1 y2
      refine hS _ (onSegment_between hpq ?_)
      rcases y1 with ⟨e, y1⟩ | ⟨e, y1⟩ <;> rcases y2 with ⟨e', y2⟩ | ⟨e', y2⟩
      · exact .inl ⟨y1, y2⟩
      · omega
      · omega
      · exact .inr ⟨y2, y1⟩
    have hself : Along (dirTo q t) t.p.2 t.p.2 := by
      rcases dirTo_cases q t with e | e
      · exact .inl ⟨e, le_rfl⟩
      · exact .inr ⟨e, le_rfl⟩
    have hsn : Snd S L (dirTo q t) (enter q t) t.p := by
      refine ⟨by rw [enter_out]; exact hs.out, fun hk2 => .inl ?_⟩
      rw [enter_k] at hk2
      obtain ⟨p1, p2, -⟩ := kline_even (h.k.symm.trans hk2)
      rw [(enter_se q t).1, (enter_se q t).2]
      exact ⟨⟨p1, p2⟩, hs.pend hk2⟩
    have hke : (enter q t).k + ((kline q.2 - t.k).natAbs : Int) * dirTo q t = kline q.2 := by
      rw [enter_k]
      unfold dirTo
      split <;> omega
    obtain ⟨r, m1, m2, m3, m4⟩ := leaves_snd (dirTo_cases q t) hS' _ (enter_mid h) hself hal hke
      (by rw [enter_out]; exact hL) hsn
    unfold scanStep addPoint
    rw [change_other hk]
    refine ⟨m4.out, fun hk2 => ?_⟩
    simp only at hk2
    simp only [ite_min, ite_max]
    obtain ⟨b1, b2, b3, b4, -⟩ := m1.even L hk2
    obtain ⟨q1, q2, -⟩ := kline_even (end_k.symm.trans hk2 : kline q.2 = 2 * L)
    refine hits_ext (r := r) ?_ ⟨b1, b2⟩ ⟨q1.le, q2.le⟩ ?_ b3 b4 ?_
    · intro τ t0 t1
      have hb : ∀ d : K, 0 ≤ d → 0 ≤ τ * d ∧ τ * d ≤ d := fun d hd =>
        ⟨mul_nonneg t0.le hd, mul_le_of_le_one_left hd t1.le⟩
      have hy : Along (dirTo q t) t.p.2 (r.2 + τ * (q.2 - r.2)) ∧
          Along (dirTo q t) (r.2 + τ * (q.2 - r.2)) q.2 := by
        rcases m3 with ⟨e, m3⟩ | ⟨e, m3⟩
        · obtain ⟨c1, c2⟩ := hb (q.2 - r.2) (by linarith)
          exact ⟨m2.trans (.inl ⟨e, by linarith⟩), .inl ⟨e, by linarith⟩⟩
        · obtain ⟨c1, c2⟩ := hb (r.2 - q.2) (by linarith)
          have e3 : τ * (q.2 - r.2) = - (τ * (r.2 - q.2)) := by ring
          exact ⟨m2.trans (.inr ⟨e, by linarith⟩), .inr ⟨e, by linarith⟩⟩
      have := hS' _ hy.1 hy.2
      rw [intersectX_between, intersectX_right hpq, ← m1.on] at this
      exact this
    · rcases m4.pend hk2 with ⟨h3, -⟩ | ⟨-, -, h3⟩
      · exact .inr h3
      · left
        rw [h3]
        intro h4
        rcases dirTo_cases q t with e | e <;> rw [e] at h4 <;> push_cast at h4 <;> linarith
    · rcases m4.pend hk2 with ⟨-, h3⟩ | ⟨h3, h4, -⟩
      · exact .inl h3
      · exact .inr ⟨h3, h4⟩

theorem fold_snd {S : Pt K → Prop} {L : Int} (l : List (Pt K)) {t : St K} (h : Ready t)
    (hL : t.out.In L) (hS : ∀ x, OnLine (t.p :: l) x → S x) (hs : SndR S L t) :
    SndR S L (l.foldl scanStep t) := by
  induction l generalizing t with
  | nil => exact hs
  | cons q l ih =>
    refine ih (scanStep_ready h) (scanStep_in hL).1 ?_ (scanStep_snd h hL ?_ hs)
    · intro x hx
      rw [scanStep_p] at hx
      apply hS
      rcases hx with hx | ⟨a, b, hab, hx⟩
      · exact .inl (List.mem_cons_of_mem _ hx)
      · exact .inr ⟨a, b, hab.trans (List.suffix_cons _ _).isInfix, hx⟩
    · intro x hx
      exact hS x (.inr ⟨t.p, q, ⟨[], l, rfl⟩, hx⟩)

/-- Soundness: a covered pixel is passed. -/
theorem scanRaw_sound {pts : List (Pt K)} {count : Nat} {start m L : Int}
    (hL : start ≤ L ∧ L < start + count) (hc : Cov ((scanRaw pts count start).row L) m) :
    Passes pts m L := by
  cases pts with
  | nil =>
    rw [scanRaw, Lines.row_empty] at hc
    exact absurd hc (cov_nil _)
  | cons p l =>
    have hr : Ready (scanInit (Lines.empty start count) p) := ⟨rfl, rfl, le_rfl, le_rfl⟩
    have hI : (scanInit (Lines.empty start count) p).out.In L := (Lines.empty_in start count L).mpr hL
    have h0 : SndR (OnLine (p :: l)) L (scanInit (Lines.empty start count) p) := by
      refine ⟨fun s hs => ?_, fun hk a b hab h1 h2 => ?_⟩
      · simp only [scanInit, Lines.row_empty] at hs
        cases hs
      · obtain ⟨p1, p2, -⟩ := kline_even (show kline p.2 = 2 * L from hk)
        exact ⟨p, .inl List.mem_cons_self, h2, h1, p1, p2⟩
    have h := fold_snd l hr hI (fun x hx => hx) h0
    have hI' : ∀ (l : List (Pt K)) (t : St K), t.out.In L → (l.foldl scanStep t).out.In L := by
      intro l
      induction l with
      | nil => exact fun t h => h
      | cons q l ih => exact fun t h => ih _ (scanStep_in h).1
    rw [scanRaw, scanEnd_row (hI' l _ hI)] at hc
    obtain ⟨s, hs, hc⟩ := hc
    rcases List.mem_append.mp hs with hs | hs
    · exact h.out s hs m hc
    · split at hs
      · rename_i hk
        rw [List.mem_singleton] at hs
        rw [hs] at hc
        exact hits_pixel (h.pend hk) hc
      · cases hs

/-! ## Completeness -/

/-- The pixel is covered by something stored or pending. -/
def CovT (m L : Int) (t : St K) : Prop :=
  Cov (t.out.row L) m ∨ (t.k = 2 * L ∧ t.s < (m : K) + 1 / 2 ∧ (m : K) - 1 / 2 < t.e)

theorem leave_covT {m L σ : Int} {p q : Pt K} {t : St K} {r : Pt K}
    (h : Mid p q σ t r) (hL : t.out.In L) (hc : CovT m L t) : CovT m L (leave q σ t) := by
  rcases hc with ⟨s, hs, hc⟩ | ⟨hk, h1, h2⟩
  · exact .inl ⟨s, (leave_in hL).2 s hs, hc⟩
  · left
    rw [leave_even h hk]
    simp only
    rw [Lines.row_append hL, if_pos rfl]
    refine ⟨_, List.mem_append_right _ (List.mem_singleton_self _), ?_⟩
    rw [round_covers]
    exact ⟨lt_of_le_of_lt (min_le_left _ _) h1, lt_of_lt_of_le h2 (le_max_left _ _)⟩

theorem leaves_covT {m L σ : Int} (hσ : σ = 1 ∨ σ = -1) {p q : Pt K} (n : Nat) {t : St K} {r : Pt K}
    (h : Mid p q σ t r) (hL : t.out.In L) (hc : CovT m L t) : CovT m L (leaves q σ n t) := by
  induction n generalizing t r with
  | zero => exact hc
  | succ n ih =>
    rcases Int.emod_two_eq_zero_or_one t.k with hk | hk
    · obtain ⟨j, hj⟩ : ∃ j, t.k = 2 * j := ⟨t.k / 2, by omega⟩
      exact ih (leave_mid_even hσ h hj) (leave_in hL).1 (leave_covT h hL hc)
    · exact ih (leave_mid_odd hσ h hk) (leave_in hL).1 (leave_covT h hL hc)

theorem addPoint_covT {m L : Int} {q : Pt K} {t : St K} (hc : CovT m L t) :
    CovT m L (addPoint q t) := by
  rcases hc with hc | ⟨hk, h1, h2⟩
  · exact .inl hc
  · right
    simp only [addPoint, ite_min, ite_max]
    exact ⟨hk, lt_of_le_of_lt (min_le_left _ _) h1, lt_of_lt_of_le h2 (le_max_left _ _)⟩

theorem scanStep_covT {m L : Int} {q : Pt K} {t : St K} (h : Ready t) (hL : t.out.In L)
    (hc : CovT m L t) : CovT m L (scanStep t q) := by
  unfold scanStep
  refine addPoint_covT ?_
  by_cases hk : kline q.2 = t.k
  · rw [change_same hk]
    exact hc
  · rw [change_other hk]
    have : CovT m L (leaves q (dirTo q t) (kline q.2 - t.k).natAbs (enter q t)) := by
      refine leaves_covT (dirTo_cases q t) _ (enter_mid h) (by rw [enter_out]; exact hL) ?_
      unfold CovT
      rw [enter_out, enter_k, (enter_se q t).1, (enter_se q t).2]
      exact hc
    exact this

/-- A place between two others has its abscissa between theirs. -/
theorem hull_of_between {p q : Pt K} {y y0 y1 a b s e : K}
    (hx : a < intersectX p q y ∧ intersectX p q y < b)
    (hbt : (y0 ≤ y ∧ y ≤ y1) ∨ (y1 ≤ y ∧ y ≤ y0)) (hs : s ≤ intersectX p q y0)
    (he : intersectX p q y0 ≤ e) :
    min s (intersectX p q y1) < b ∧ a < max e (intersectX p q y1) := by
  rw [intersectX_affine p q y] at hx
  rw [intersectX_affine p q y0] at hs he
  rw [intersectX_affine p q y1]
  set b' := (q.1 - p.1) / (q.2 - p.2)
  constructor
  · by_contra hcc
    push Not at hcc
    rw [le_min_iff] at hcc
    have c1 := hcc.1
    have c2 := hcc.2
    have hx2 := hx.2
    rcases le_total 0 b' with hb | hb <;> rcases hbt with ⟨h3, h4⟩ | ⟨h3, h4⟩
    · have := mul_le_mul_of_nonneg_left h3 hb; linarith
    · have := mul_le_mul_of_nonneg_left h3 hb; linarith
    · have := mul_le_mul_of_nonpos_left h4 hb; linarith
    · have := mul_le_mul_of_nonpos_left h4 hb; linarith
  · by_contra hcc
    push Not at hcc
    rw [max_le_iff] at hcc
    have c1 := hcc.1
    have c2 := hcc.2
    have hx1 := hx.1
    rcases le_total 0 b' with hb | hb <;> rcases hbt with ⟨h3, h4⟩ | ⟨h3, h4⟩
    · have := mul_le_mul_of_nonneg_left h4 hb; linarith
    · have := mul_le_mul_of_nonneg_left h4 hb; linarith
    · have := mul_le_mul_of_nonpos_left h3 hb; linarith
    · have := mul_le_mul_of_nonpos_left h3 hb; linarith

/-- The part of the segment that the loop walks along is covered. -/
theorem leaves_new {m L σ : Int} (hσ : σ = 1 ∨ σ = -1) {p q : Pt K} {y : K} (hy : Open L y)
    (hx : (m : K) - 1 / 2 < intersectX p q y ∧ intersectX p q y < (m : K) + 1 / 2) (n : Nat)
    {t : St K} {r : Pt K} (h : Mid p q σ t r) (hL : t.out.In L) (hr : Along σ r.2 y) :
    ∃ r', Mid p q σ (leaves q σ n t) r' ∧
      (CovT m L (leaves q σ n t) ∨ Along σ r'.2 y) := by
  induction n generalizing t r with
  | zero => exact ⟨r, h, .inr hr⟩
  | succ n ih =>
    rcases Int.emod_two_eq_zero_or_one t.k with hk | hk
    · obtain ⟨j, hj⟩ : ∃ j, t.k = 2 * j := ⟨t.k / 2, by omega⟩
      have hm := leave_mid_even hσ h hj
      have hL' := (leave_in (q := q) (σ := σ) hL).1
      by_cases hal : Along σ ((j : K) + 1 / 2 * σ) y
      · exact ih hm hL' hal
      · -- `y` is passed in this line
        obtain ⟨b1, b2, b3, b4, -⟩ := h.even j hj
        have hjL : j = L := by
          obtain ⟨y1, y2⟩ := hy
          have hb : (j : K) - 1 / 2 ≤ y ∧ y ≤ (j : K) + 1 / 2 := by
            rcases hσ with e | e
            · rcases hr with ⟨-, hr⟩ | ⟨e', -⟩
              · have : ¬ (j : K) + 1 / 2 ≤ y := fun h => hal (.inl ⟨e, by rw [e]; push_cast; linarith⟩)
                push Not at this
                exact ⟨by linarith, by linarith⟩
              · omega
            · rcases hr with ⟨e', -⟩ | ⟨-, hr⟩
              · omega
              · have : ¬ y ≤ (j : K) - 1 / 2 := fun h => hal (.inr ⟨e, by rw [e]; push_cast; linarith⟩)
                push Not at this
                exact ⟨by linarith, by linarith⟩
          have e1 : (j : K) < L + 1 := by linarith
          have e2 : (L : K) < j + 1 := by linarith
          have e1' : j < L + 1 := by exact_mod_cast e1
          have e2' : L < j + 1 := by exact_mod_cast e2
          omega
        subst hjL
        have hbt : (r.2 ≤ y ∧ y ≤ (j : K) + 1 / 2 * σ) ∨ ((j : K) + 1 / 2 * σ ≤ y ∧ y ≤ r.2) := by
          rcases hr with ⟨e, hr⟩ | ⟨e, hr⟩
          · left
            refine ⟨hr, ?_⟩
            by_contra hcc
            exact hal (.inl ⟨e, by linarith⟩)
          · right
            refine ⟨?_, hr⟩
            by_contra hcc
            exact hal (.inr ⟨e, by linarith⟩)
        have hcov : CovT m j (leave q σ t) := by
          left
          rw [leave_even h hj]
          simp only
          rw [Lines.row_append hL, if_pos rfl]
          refine ⟨_, List.mem_append_right _ (List.mem_singleton_self _), ?_⟩
          rw [round_covers]
          exact hull_of_between hx hbt (by rw [← h.on]; exact b3) (by rw [← h.on]; exact b4)
        have hmid : ∀ (n : Nat) (t : St K) (r : Pt K), Mid p q σ t r →
            ∃ r', Mid p q σ (leaves q σ n t) r' := by
          intro n
          induction n with
          | zero => exact fun t r h => ⟨r, h⟩
          | succ n ih =>
            intro t r h
            rcases Int.emod_two_eq_zero_or_one t.k with hk | hk
            · obtain ⟨j, hj⟩ : ∃ j, t.k = 2 * j := ⟨t.k / 2, by omega⟩
              exact ih _ _ (leave_mid_even hσ h hj)
            · exact ih _ _ (leave_mid_odd hσ h hk)
        obtain ⟨r', hr'⟩ := hmid n _ _ hm
        exact ⟨r', hr', .inl (leaves_covT hσ n hm hL' hcov)⟩
    · exact ih (leave_mid_odd hσ h hk) (leave_in hL).1 hr

theorem line_unique {j L : Int} {y : K} (h1 : Closed j y) (h2 : Open L y) : j = L := by
  obtain ⟨a1, a2⟩ := h1
  obtain ⟨y1, y2⟩ := h2
  have e1 : (j : K) < L + 1 := by linarith
  have e2 : (L : K) < j + 1 := by linarith
  have e1' : j < L + 1 := by exact_mod_cast e1
  have e2' : L < j + 1 := by exact_mod_cast e2
  omega

theorem scanStep_new {m L : Int} {q x : Pt K} {t : St K} (h : Ready t) (hL : t.out.In L)
    (hx : OnSegment t.p q x) (hp : InPixel m L x) : CovT m L (scanStep t q) := by
  obtain ⟨τ, t0, t1, rfl⟩ := hx
  obtain ⟨x1, x2, y1, y2⟩ := hp
  simp only at x1 x2 y1 y2
  by_cases hk : kline q.2 = t.k
  · have hkL : t.k = 2 * L := by
      rcases Int.emod_two_eq_zero_or_one t.k with h0 | h0
      · obtain ⟨j, hj⟩ : ∃ j, t.k = 2 * j := ⟨t.k / 2, by omega⟩
        obtain ⟨p1, p2, -⟩ := kline_even (h.k.symm.trans hj)
        obtain ⟨q1, q2, -⟩ := kline_even (hk.trans hj)
        have e : j = L := line_unique (y := t.p.2 + τ * (q.2 - t.p.2)) (by
          have e0 : ∀ c : K, t.p.2 + τ * (q.2 - t.p.2) - c =
              (1 - τ) * (t.p.2 - c) + τ * (q.2 - c) := fun c => by ring
          constructor
          · have := e0 ((j : K) - 1 / 2)
            have := mul_nonneg (show 0 ≤ 1 - τ by linarith) (show 0 ≤ t.p.2 - ((j : K) - 1 / 2) by linarith)
            have := mul_nonneg t0 (show 0 ≤ q.2 - ((j : K) - 1 / 2) by linarith)
            linarith
          · have := e0 ((j : K) + 1 / 2)
            have := mul_nonneg (show 0 ≤ 1 - τ by linarith) (show 0 ≤ ((j : K) + 1 / 2) - t.p.2 by linarith)
            have := mul_nonneg t0 (show 0 ≤ ((j : K) + 1 / 2) - q.2 by linarith)
            linarith) ⟨y1, y2⟩
        rw [hj, e]
      · exfalso
        have ep := kline_odd (y := t.p.2) (by rw [← h.k]; exact h0)
        have eq := kline_odd (y := q.2) (by rw [hk]; exact h0)
        rw [← h.k] at ep
        rw [hk] at eq
        rw [eq, ep, sub_self, mul_zero, add_zero] at y1 y2
        have e1 : ((2 * L - 1 : Int) : K) < t.k := by push_cast; linarith
        have e2 : ((t.k : Int) : K) < ((2 * L + 1 : Int) : K) := by push_cast; linarith
        have e1' : 2 * L - 1 < t.k := by exact_mod_cast e1
        have e2' : t.k < 2 * L + 1 := by exact_mod_cast e2
        omega
    right
    unfold scanStep addPoint
    rw [change_same hk]
    simp only [ite_min, ite_max]
    refine ⟨hkL, ?_, ?_⟩
    · by_contra hcc
      push Not at hcc
      rw [le_min_iff] at hcc
      have e0 : t.p.1 + τ * (q.1 - t.p.1) - ((m : K) + 1 / 2) =
          (1 - τ) * (t.p.1 - ((m : K) + 1 / 2)) + τ * (q.1 - ((m : K) + 1 / 2)) := by ring
      have h1 := h.s
      have c1 := hcc.1
      have c2 := hcc.2
      have := mul_nonneg (show 0 ≤ 1 - τ by linarith) (show 0 ≤ t.p.1 - ((m : K) + 1 / 2) by linarith)
      have := mul_nonneg t0 (show 0 ≤ q.1 - ((m : K) + 1 / 2) by linarith)
      linarith
    · by_contra hcc
      push Not at hcc
      rw [max_le_iff] at hcc
      have e0 : t.p.1 + τ * (q.1 - t.p.1) - ((m : K) - 1 / 2) =
          (1 - τ) * (t.p.1 - ((m : K) - 1 / 2)) + τ * (q.1 - ((m : K) - 1 / 2)) := by ring
      have h1 := h.e
      have c1 := hcc.1
      have c2 := hcc.2
      have := mul_nonneg (show 0 ≤ 1 - τ by linarith) (show 0 ≤ ((m : K) - 1 / 2) - t.p.1 by linarith)
      have := mul_nonneg t0 (show 0 ≤ ((m : K) - 1 / 2) - q.1 by linarith)
      linarith
  · have hal := dirTo_along h hk
    have hpq : t.p.2 ≠ q.2 := fun e => hk (by rw [h.k, e])
    have hne : q.2 - t.p.2 ≠ 0 := sub_ne_zero.mpr (Ne.symm hpq)
    set y : K := t.p.2 + τ * (q.2 - t.p.2) with hy
    have hX : t.p.1 + τ * (q.1 - t.p.1) = intersectX t.p q y := by
      rw [hy]
      unfold intersectX
      field_simp
      ring
    rw [hX] at x1 x2
    have hb : ∀ d : K, 0 ≤ d → 0 ≤ τ * d ∧ τ * d ≤ d := fun d hd =>
      ⟨mul_nonneg t0 hd, mul_le_of_le_one_left hd t1⟩
    have hy1 : Along (dirTo q t) t.p.2 y ∧ Along (dirTo q t) y q.2 := by
      rcases hal with ⟨e, h1⟩ | ⟨e, h1⟩
      · obtain ⟨c1, c2⟩ := hb (q.2 - t.p.2) (by linarith)
        exact ⟨.inl ⟨e, by linarith⟩, .inl ⟨e, by linarith⟩⟩
      · obtain ⟨c1, c2⟩ := hb (t.p.2 - q.2) (by linarith)
        have e3 : τ * (q.2 - t.p.2) = - (τ * (t.p.2 - q.2)) := by ring
        exact ⟨.inr ⟨e, by linarith⟩, .inr ⟨e, by linarith⟩⟩
    obtain ⟨r, m1, m2⟩ := leaves_new (dirTo_cases q t) (L := L) (m := m) ⟨y1, y2⟩ ⟨x1, x2⟩
      (kline q.2 - t.k).natAbs (enter_mid h) (by rw [enter_out]; exact hL) hy1.1
    have hke := end_k (q := q) (t := t)
    unfold scanStep
    rw [change_other hk]
    rcases m2 with m2 | m2
    · exact addPoint_covT m2
    · -- the place is between the last boundary and the new point
      have hbt : (r.2 ≤ y ∧ y ≤ q.2) ∨ (q.2 ≤ y ∧ y ≤ r.2) := by
        rcases m2 with ⟨e, m2⟩ | ⟨e, m2⟩ <;> rcases hy1.2 with ⟨e', h1⟩ | ⟨e', h1⟩
        · exact .inl ⟨m2, h1⟩
        · omega
        · omega
        · exact .inr ⟨h1, m2⟩
      have hkL : (leaves q (dirTo q t) (kline q.2 - t.k).natAbs (enter q t)).k = 2 * L := by
        rcases Int.emod_two_eq_zero_or_one
          (leaves q (dirTo q t) (kline q.2 - t.k).natAbs (enter q t)).k with h0 | h0
        · obtain ⟨j, hj⟩ : ∃ j, (leaves q (dirTo q t) (kline q.2 - t.k).natAbs (enter q t)).k = 2 * j :=
            ⟨(leaves q (dirTo q t) (kline q.2 - t.k).natAbs (enter q t)).k / 2, by omega⟩
          obtain ⟨b1, b2, -, -, -⟩ := m1.even j hj
          obtain ⟨q1, q2, -⟩ := kline_even (hke.symm.trans hj)
          have e : j = L := line_unique (y := y) (by
            rcases hbt with ⟨h1, h2⟩ | ⟨h1, h2⟩
            · exact ⟨by linarith, by linarith⟩
            · exact ⟨by linarith, by linarith⟩) ⟨y1, y2⟩
          rw [hj, e]
        · exfalso
          have er := (m1.odd h0).1
          have eq := kline_odd (y := q.2) (by rw [← hke]; exact h0)
          rw [hke] at er
          have ey : y = (kline q.2 : K) / 2 := by
            rcases hbt with ⟨h1, h2⟩ | ⟨h1, h2⟩ <;> linarith
          have e1 : ((2 * L - 1 : Int) : K) < (kline q.2 : K) := by push_cast; linarith
          have e2 : ((kline q.2 : Int) : K) < ((2 * L + 1 : Int) : K) := by push_cast; linarith
          have e1' : 2 * L - 1 < kline q.2 := by exact_mod_cast e1
          have e2' : kline q.2 < 2 * L + 1 := by exact_mod_cast e2
          rw [hke] at h0
          omega
      obtain ⟨-, -, b3, b4, -⟩ := m1.even L hkL
      rw [m1.on] at b3 b4
      have := hull_of_between ⟨x1, x2⟩ hbt b3 b4
      rw [intersectX_right hpq] at this
      right
      simp only [addPoint, ite_min, ite_max]
      exact ⟨hkL, this.1, this.2⟩

theorem fold_covT {m L : Int} (l : List (Pt K)) {t : St K} (h : Ready t) (hL : t.out.In L)
    (hc : CovT m L t ∨ ∃ a b x, [a, b] <:+: t.p :: l ∧ OnSegment a b x ∧ InPixel m L x) :
    CovT m L (l.foldl scanStep t) := by
  induction l generalizing t with
  | nil =>
    rcases hc with hc | ⟨a, b, x, hab, -⟩
    · exact hc
    · have := hab.length_le
      simp at this
  | cons q l ih =>
    refine ih (scanStep_ready h) (scanStep_in hL).1 ?_
    rcases hc with hc | ⟨a, b, x, hab, hx, hp⟩
    · exact .inl (scanStep_covT h hL hc)
    · rcases List.infix_cons_iff.mp hab with hpre | hin
      · left
        obtain ⟨r, hr⟩ := hpre
        simp only [List.cons_append, List.nil_append, List.cons.injEq] at hr
        rw [hr.1, hr.2.1] at hx
        exact scanStep_new h hL hx hp
      · right
        rw [scanStep_p]
        exact ⟨a, b, x, hin, hx, hp⟩

/-- Completeness: a pixel that is passed is covered. -/
theorem scanRaw_complete {pts : List (Pt K)} {count : Nat} {start m L : Int}
    (hL : start ≤ L ∧ L < start + count) (hp : Passes pts m L) :
    Cov ((scanRaw pts count start).row L) m := by
  obtain ⟨x, hx, hm⟩ := hp
  cases pts with
  | nil =>
    rcases hx with hx | ⟨a, b, hab, -⟩
    · cases hx
    · have := hab.length_le
      simp at this
  | cons p l =>
    have hr : Ready (scanInit (Lines.empty start count) p) := ⟨rfl, rfl, le_rfl, le_rfl⟩
    have hI : (scanInit (Lines.empty start count) p).out.In L := (Lines.empty_in start count L).mpr hL
    have hI' : ∀ (l : List (Pt K)) (t : St K), t.out.In L → (l.foldl scanStep t).out.In L := by
      intro l
      induction l with
      | nil => exact fun t h => h
      | cons q l ih => exact fun t h => ih _ (scanStep_in h).1
    have h : CovT m L (l.foldl scanStep (scanInit (Lines.empty start count) p)) := by
      refine fold_covT l hr hI ?_
      rcases hx with hx | ⟨a, b, hab, hx⟩
      · -- a vertex: the first one, or the end of a segment
        rcases List.mem_cons.mp hx with rfl | hx
        · left
          right
          obtain ⟨x1, x2, y1, y2⟩ := hm
          refine ⟨?_, x2, x1⟩
          show kline x.2 = 2 * L
          rcases Int.emod_two_eq_zero_or_one (kline x.2) with h0 | h0
          · obtain ⟨j, hj⟩ : ∃ j, kline x.2 = 2 * j := ⟨kline x.2 / 2, by omega⟩
            obtain ⟨p1, p2, -⟩ := kline_even hj
            rw [hj, line_unique (y := x.2) ⟨p1.le, p2.le⟩ ⟨y1, y2⟩]
          · exfalso
            have ep := kline_odd h0
            have e1 : ((2 * L - 1 : Int) : K) < (kline x.2 : K) := by push_cast; linarith
            have e2 : ((kline x.2 : Int) : K) < ((2 * L + 1 : Int) : K) := by push_cast; linarith
            have e1' : 2 * L - 1 < kline x.2 := by exact_mod_cast e1
            have e2' : kline x.2 < 2 * L + 1 := by exact_mod_cast e2
            omega
        · right
          have : ∀ (p : Pt K) (l : List (Pt K)), x ∈ l → ∃ a, [a, x] <:+: p :: l := by
            intro p l
            induction l generalizing p with
            | nil => intro h; cases h
            | cons q l ih =>
              intro h
              rcases List.mem_cons.mp h with rfl | h
              · exact ⟨p, [], l, rfl⟩
              · obtain ⟨a, ha⟩ := ih q h
                exact ⟨a, ha.trans (List.suffix_cons _ _).isInfix⟩
          obtain ⟨a, ha⟩ := this p l hx
          exact ⟨a, x, x, ha, ⟨1, zero_le_one, le_rfl, by ext <;> simp⟩, hm⟩
      · exact .inr ⟨a, b, x, hab, hx, hm⟩
    rw [scanRaw, scanEnd_row (hI' l _ hI)]
    rcases h with ⟨s, hs, hc⟩ | ⟨hk, h1, h2⟩
    · exact ⟨s, List.mem_append_left _ hs, hc⟩
    · rw [if_pos hk]
      refine ⟨_, List.mem_append_right _ (List.mem_singleton_self _), ?_⟩
      rw [round_covers]
      exact ⟨h1, h2⟩

end Verif.Scan
