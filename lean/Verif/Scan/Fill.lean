import Verif.Scan.Wind

/-! # Lemmas about filling and drawing -/

namespace Verif.Scan
open Verif Verif.GeoMap Verif.Polygon

/-! ## The segments of a scan are well formed -/

section wf
variable {K : Type} [Field K] [LinearOrder K] [IsStrictOrderedRing K] [FloorRing K]

/-- All segments end behind their begin. -/
def Wf (l : Lines) : Prop := ∀ y, ∀ s ∈ l.row y, s.b ≤ s.e

theorem Wf.append {l : Lines} (h : Wf l) (y : Int) {s : Seg} (hs : s.b ≤ s.e) :
    Wf (l.append y s) := by
  intro z t ht
  by_cases hz : l.In z
  · rw [Lines.row_append hz] at ht
    split at ht
    · rcases List.mem_append.mp ht with ht | ht
      · exact h z t ht
      · rw [List.mem_singleton] at ht
        rw [ht]
        exact hs
    · exact h z t ht
  · rw [Lines.row_out (fun h => hz ((Lines.append_in _ _ _ _).mp h))] at ht
    cases ht

theorem round_wf {s e : K} (h : s ≤ e) (d : Int) : (Seg.round s d e).b ≤ (Seg.round s d e).e := by
  simp only [Seg.round]
  have h1 : ⌊s + 1 / 2⌋ ≤ ⌈s + 1 / 2⌉ := Int.floor_le_ceil _
  exact h1.trans (Int.ceil_le_ceil (by linarith))

/-- The invariant of scanning. -/
def Good (t : St K) : Prop := t.s ≤ t.e ∧ Wf t.out

theorem leave_good {q : Pt K} {σ : Int} {t : St K} (h : Good t) : Good (leave q σ t) := by
  unfold leave
  simp only [ite_min, ite_max]
  split
  · have : min t.s (t.p.1 + (q.1 - t.p.1) * (↑t.line + 1 / 2 * ↑σ - t.p.2) / (q.2 - t.p.2)) ≤
      max t.e (t.p.1 + (q.1 - t.p.1) * (↑t.line + 1 / 2 * ↑σ - t.p.2) / (q.2 - t.p.2)) :=
      (min_le_right _ _).trans (le_max_right _ _)
    exact ⟨this, h.2.append _ (round_wf this _)⟩
  · exact ⟨le_rfl, h.2⟩

theorem leaves_good {q : Pt K} {σ : Int} (n : Nat) {t : St K} (h : Good t) :
    Good (leaves q σ n t) := by
  induction n generalizing t with
  | zero => exact h
  | succ n ih => exact ih (leave_good h)

theorem scanStep_good {q : Pt K} {t : St K} (h : Good t) : Good (scanStep t q) := by
  have h1 : Good (change q t) := by
    by_cases hk : kline q.2 = t.k
    · rw [change_same hk]
      exact h
    · rw [change_other hk]
      have : Good (enter q t) := by
        unfold enter
        split <;> exact h
      exact leaves_good _ this
  refine ⟨?_, h1.2⟩
  simp only [scanStep, addPoint, ite_min, ite_max]
  exact (min_le_right _ _).trans (le_max_right _ _)

theorem scanRaw_wf (pts : List (Pt K)) (count : Nat) (start : Int) :
    Wf (scanRaw pts count start) := by
  cases pts with
  | nil =>
    intro y s hs
    rw [scanRaw, Lines.row_empty] at hs
    cases hs
  | cons p l =>
    have h0 : Good (scanInit (Lines.empty start count) p) := by
      refine ⟨le_rfl, fun y s hs => ?_⟩
      simp only [scanInit, Lines.row_empty] at hs
      cases hs
    have h : ∀ (l : List (Pt K)) (t : St K), Good t → Good (l.foldl scanStep t) := by
      intro l
      induction l with
      | nil => exact fun t h => h
      | cons q l ih => exact fun t h => ih _ (scanStep_good h)
    have h1 := h l _ h0
    simp only [scanRaw, scanEnd]
    split
    · exact h1.2.append _ (round_wf h1.1 _)
    · exact h1.2

theorem scanRaw_in (pts : List (Pt K)) (count : Nat) (start y : Int) :
    (scanRaw pts count start).In y ↔ start ≤ y ∧ y < start + count := by
  cases pts with
  | nil => exact Lines.empty_in _ _ _
  | cons p l =>
    have e : ∀ (l : List (Pt K)) (t : St K), (l.foldl scanStep t).out.In y ↔ t.out.In y := by
      have el : ∀ (q : Pt K) (σ : Int) (n : Nat) (t : St K),
          (leaves q σ n t).out.In y ↔ t.out.In y := by
        intro q σ n
        induction n with
        | zero => exact fun t => Iff.rfl
        | succ n ih =>
          intro t
          rw [leaves, ih]
          unfold leave
          simp only
          split
          · exact Lines.append_in _ _ _ _
          · exact Iff.rfl
      intro l
      induction l with
      | nil => exact fun t => Iff.rfl
      | cons q l ih =>
        intro t
        rw [List.foldl_cons, ih]
        simp only [scanStep, addPoint]
        by_cases hk : kline q.2 = t.k
        · rw [change_same hk]
        · rw [change_other hk]
          simp only
          rw [el, enter_out]
    simp only [scanRaw, scanEnd]
    have e1 := e l (scanInit (Lines.empty start count) p)
    rw [← Lines.empty_in start count y]
    split
    · rw [Lines.append_in]
      exact e1
    · exact e1

end wf

/-! ## Sums over separated lines -/

/-- Disjoint, increasing and not touching. -/
abbrev Sep (l : List Seg) : Prop := l.Pairwise fun s t => s.e < t.b

theorem leftSum_eq_dirSum {l : List Seg} {x : Int} (h : ∀ s ∈ l, s.e ≤ x) :
    leftSum l x = dirSum l := by
  induction l with
  | nil => rfl
  | cons s l ih =>
    rw [leftSum_cons, dirSum_cons, if_pos (h s List.mem_cons_self),
      ih fun t ht => h t (List.mem_cons_of_mem _ ht)]

theorem leftSum_eq_zero {l : List Seg} {x : Int} (h : ∀ s ∈ l, x < s.e) : leftSum l x = 0 := by
  induction l with
  | nil => rfl
  | cons s l ih =>
    rw [leftSum_cons, if_neg (by have := h s List.mem_cons_self; omega),
      ih fun t ht => h t (List.mem_cons_of_mem _ ht)]
    rfl

/-- A pixel right of everything. -/
theorem exists_right (l : List Seg) (n : Int) : ∃ x, n ≤ x ∧ ∀ s ∈ l, s.e ≤ x := by
  induction l with
  | nil => exact ⟨n, le_rfl, fun s hs => by cases hs⟩
  | cons s l ih =>
    obtain ⟨x, hx, h⟩ := ih
    refine ⟨max x s.e, hx.trans (le_max_left _ _), fun t ht => ?_⟩
    rcases List.mem_cons.mp ht with rfl | ht
    · exact le_max_right _ _
    · exact (h t ht).trans (le_max_left _ _)

/-! ## Columns -/

theorem mem_cols {x b m : Int} : m ∈ cols x b ↔ x ≤ m ∧ m < b := by
  simp only [cols, List.mem_map, List.mem_range]
  constructor
  · rintro ⟨i, hi, rfl⟩
    omega
  · intro h
    exact ⟨(m - x).toNat, by omega, by omega⟩

theorem cols_sorted (x b : Int) : (cols x b).Pairwise (· < ·) := by
  simp only [cols, List.pairwise_map]
  refine List.pairwise_lt_range.imp fun h => ?_
  omega

theorem fillRow_snd (w inside x : Int) (l : List Seg) :
    (fillRow w inside x l).2 = inside + dirSum l := by
  induction l generalizing inside x with
  | nil => simp [fillRow]
  | cons s l ih =>
    simp only [fillRow, ih, dirSum_cons]
    omega

theorem clip_fst {w : Int} (hw : 0 ≤ w) {s : Seg} (hs : s.b ≤ s.e) :
    (clip w s).1 = max 0 (min s.b w) := by
  simp only [clip]
  split <;> split <;> (try split) <;> simp only at * <;> omega

theorem clip_snd {w : Int} (hw : 0 ≤ w) {s : Seg} (hs : s.b ≤ s.e) :
    (clip w s).2 = max 0 (min s.e w) := by
  simp only [clip]
  split <;> split <;> (try split) <;> simp only at * <;> omega

theorem fillRow_spec {w : Int} (hw : 0 ≤ w) (l : List Seg) (hs : Sep l) (hf : ∀ s ∈ l, s.b ≤ s.e)
    (inside x : Int) (hx : 0 ≤ x) (hl : ∀ s ∈ l, x ≤ max 0 (min s.b w)) :
    (∀ m, m ∈ (fillRow w inside x l).1 ↔ x ≤ m ∧ m < w ∧ (∃ s ∈ l, m < s.b) ∧ ¬ Cov l m ∧
      0 < inside + leftSum l m) ∧ (fillRow w inside x l).1.Pairwise (· < ·) := by
  induction l generalizing inside x with
  | nil => simp [fillRow]
  | cons s l ih =>
    obtain ⟨h1, h2⟩ := List.pairwise_cons.mp hs
    have hsb := hf s List.mem_cons_self
    have hft : ∀ t ∈ l, t.b ≤ t.e := fun t ht => hf t (List.mem_cons_of_mem _ ht)
    have hxs := hl s List.mem_cons_self
    have e1 := clip_fst hw hsb
    have e2 := clip_snd hw hsb
    obtain ⟨i1, i2⟩ := ih h2 hft (inside + s.d) (clip w s).2 (by omega) (by
      intro t ht
      have := h1 t ht
      omega)
    simp only [fillRow]
    constructor
    · intro m
      rw [List.mem_append, i1]
      have hA : m ∈ (if inside > 0 then cols x (clip w s).1 else []) ↔
          0 < inside ∧ x ≤ m ∧ m < s.b ∧ m < w := by
        split
        · rw [mem_cols]
          omega
        · simp
          omega
      rw [hA]
      constructor
      · rintro (⟨a1, a2, a3, a4⟩ | ⟨a1, a2, ⟨t, ht, a3⟩, a4, a5⟩)
        · refine ⟨a2, a4, ⟨s, List.mem_cons_self, a3⟩, ?_, ?_⟩
          · rw [cov_cons]
            rintro (⟨c1, c2⟩ | ⟨t, ht, c1, c2⟩)
            · omega
            · have := h1 t ht
              omega
          · rw [leftSum_eq_zero]
            · omega
            · intro t ht
              rcases List.mem_cons.mp ht with rfl | ht
              · omega
              · have := h1 t ht
                have := hft t ht
                omega
        · refine ⟨by omega, a2, ⟨t, List.mem_cons_of_mem _ ht, a3⟩, ?_, ?_⟩
          · rw [cov_cons]
            rintro (⟨c1, c2⟩ | c)
            · omega
            · exact a4 c
          · rw [leftSum_cons, if_pos (by omega)]
            omega
      · rintro ⟨a1, a2, a3, a4, a5⟩
        rw [cov_cons, not_or] at a4
        obtain ⟨a4, a6⟩ := a4
        simp only [Seg.Covers, not_and, not_lt] at a4
        by_cases hm : m < s.b
        · left
          rw [leftSum_eq_zero] at a5
          · exact ⟨by omega, a1, hm, a2⟩
          · intro t ht
            rcases List.mem_cons.mp ht with rfl | ht
            · omega
            · have := h1 t ht
              have := hft t ht
              omega
        · right
          have hse := a4 (by omega)
          rw [leftSum_cons, if_pos hse] at a5
          refine ⟨by omega, a2, ?_, a6, by omega⟩
          obtain ⟨t, ht, a3⟩ := a3
          rcases List.mem_cons.mp ht with rfl | ht
          · omega
          · exact ⟨t, ht, a3⟩
    · rw [List.pairwise_append]
      refine ⟨?_, i2, ?_⟩
      · split
        · exact cols_sorted _ _
        · exact List.Pairwise.nil
      · intro a ha b hb
        have hb' := ((i1 b).mp hb).1
        split at ha
        · rw [mem_cols] at ha
          omega
        · cases ha

/-- A closed line: the pixels that are not covered and have a positive account. -/
theorem fillRow_closed {w : Int} (hw : 0 ≤ w) {l : List Seg} (hs : Sep l) (hf : ∀ s ∈ l, s.b ≤ s.e)
    (h0 : dirSum l = 0) (m : Int) :
    m ∈ (fillRow w 0 0 l).1 ↔ 0 ≤ m ∧ m < w ∧ ¬ Cov l m ∧ 0 < leftSum l m := by
  rw [(fillRow_spec hw l hs hf 0 0 le_rfl (fun s _ => le_max_left _ _)).1]
  constructor
  · rintro ⟨a1, a2, -, a3, a4⟩
    exact ⟨a1, a2, a3, by omega⟩
  · rintro ⟨a1, a2, a3, a4⟩
    refine ⟨a1, a2, ?_, a3, by omega⟩
    by_contra hc
    push Not at hc
    have : leftSum l m = dirSum l := leftSum_eq_dirSum fun s hs' => by
      by_contra h
      exact a3 ⟨s, hs', hc s hs', by omega⟩
    omega

theorem drawRow_spec {w : Int} {l : List Seg} (hs : Sep l) (hf : ∀ s ∈ l, s.b ≤ s.e) :
    (∀ m, m ∈ drawRow w l ↔ 0 ≤ m ∧ m < w ∧ Cov l m) ∧ (drawRow w l).Pairwise (· < ·) := by
  induction l with
  | nil => simp [drawRow]
  | cons s l ih =>
    obtain ⟨h1, h2⟩ := List.pairwise_cons.mp hs
    have hsb := hf s List.mem_cons_self
    have hft : ∀ t ∈ l, t.b ≤ t.e := fun t ht => hf t (List.mem_cons_of_mem _ ht)
    obtain ⟨i1, i2⟩ := ih h2 hft
    simp only [drawRow]
    constructor
    · intro m
      rw [List.mem_append, mem_cols, i1, cov_cons]
      simp only [Seg.Covers]
      constructor
      · rintro (⟨a1, a2⟩ | ⟨a1, a2, a3⟩)
        · split at a1 <;> split at a2 <;> refine ⟨by omega, by omega, .inl ⟨by omega, by omega⟩⟩
        · exact ⟨a1, a2, .inr a3⟩
      · rintro ⟨a1, a2, ⟨a3, a4⟩ | a3⟩
        · left
          split <;> split <;> omega
        · exact .inr ⟨a1, a2, a3⟩
    · rw [List.pairwise_append]
      refine ⟨cols_sorted _ _, i2, fun a ha b hb => ?_⟩
      rw [mem_cols] at ha
      obtain ⟨-, -, t, ht, b1, b2⟩ := (i1 b).mp hb
      have := h1 t ht
      have ha2 := ha.2
      split at ha2 <;> omega

/-! ## Images -/

theorem mem_clipRows {l : Lines} {h y : Int} : y ∈ clipRows l h ↔ 0 ≤ y ∧ y < h ∧ l.In y := by
  simp only [clipRows, mem_cols, Lines.In]
  omega

theorem nodup_of_rows {α : Type} {ys : List Int} {f : Int → List α} {g : α → Int}
    (hy : ys.Pairwise (· < ·)) (hf : ∀ y ∈ ys, (f y).Nodup) (hg : ∀ y ∈ ys, ∀ a ∈ f y, g a = y) :
    (ys.flatMap f).Nodup := by
  rw [List.nodup_flatMap]
  refine ⟨hf, ?_⟩
  refine hy.imp_of_mem fun {a b} ha hb hab => ?_
  intro z hz hz'
  have := hg a ha z hz
  have := hg b hb z hz'
  omega

/-- A polygon line that is completely left of the half line turns by the difference of its
ends. -/
theorem winding_right {K : Type} [Field K] [LinearOrder K] [IsStrictOrderedRing K] [FloorRing K]
    (m L : Int) (p : Pt K) (l : List (Pt K))
    (h : ∀ r ∈ p :: l, r.1 < (m : K)) :
    winding (centre m L) (p :: l) =
      side L ((p :: l).getLast (List.cons_ne_nil _ _)).2 - side L p.2 := by
  induction l generalizing p with
  | nil => simp [winding, pathSum]
  | cons q l ih =>
    have ih' := ih q fun r hr => h r (List.mem_cons_of_mem _ hr)
    simp only [winding, pathSum] at ih' ⊢
    rw [ih', List.getLast_cons (List.cons_ne_nil _ _), turn_eq]
    have hp := h p List.mem_cons_self
    have hq := h q (List.mem_cons_of_mem _ List.mem_cons_self)
    by_cases hx : intersectX p q (L : K) < m
    · rw [if_pos hx]
      ring
    · rw [if_neg hx]
      have : side L p.2 = side L q.2 := by
        by_contra hne
        apply hx
        have hpq : p.2 ≠ q.2 := fun h => hne (by rw [h])
        refine between_lt (y1 := p.2) (y2 := q.2) (by rw [intersectX_left]; exact hp)
          (by rw [intersectX_right hpq]; exact hq) ?_
        simp only [side] at hne
        split at hne <;> split at hne <;> simp at hne
        · left; constructor <;> linarith
        · right; constructor <;> linarith
      rw [this]
      ring

end Verif.Scan
