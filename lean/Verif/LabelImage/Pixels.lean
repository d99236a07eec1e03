import Verif.LabelImage.Model
import Verif.Scan.Props
import Mathlib.Tactic.FieldSimp
import Mathlib.Tactic.Ring

/-! # Pixel loops, scanlines of edges, and polygon lines -/

set_option linter.unusedSectionVars false

namespace Verif.LabelImage
open Verif Verif.GeoMap Verif.Scan

/-! ## Pixel loops -/

theorem fold_update (f : Int → Int) (im : Img) {px : List (Int × Int)} (h : px.Nodup) (q : Int × Int) :
    px.foldl (fun im p => Function.update im p (f (im p))) im q = if q ∈ px then f (im q) else im q := by
  induction px generalizing im with
  | nil => simp
  | cons p px ih =>
    obtain ⟨h1, h2⟩ := List.nodup_cons.mp h
    rw [List.foldl_cons, ih _ h2]
    by_cases hq : q = p
    · subst hq
      simp [h1]
    · simp [hq]

theorem rawAdd_apply (d : Int) (im : Img) {px : List (Int × Int)} (h : px.Nodup) (q : Int × Int) :
    rawAdd d im px q = if q ∈ px then im q + d else im q := fold_update (· + d) im h q

theorem markEdge_apply (im : Img) {px : List (Int × Int)} (h : px.Nodup) (q : Int × Int) :
    markEdge im px q = if q ∈ px then (if 0 ≤ im q then -1 else im q - 1) else im q :=
  fold_update (fun v => if 0 ≤ v then -1 else v - 1) im h q

theorem fillImg_apply (l : Nat) (im : Img) {px : List (Int × Int)} (q : Int × Int) :
    fillImg l im px q = if q ∈ px then (l : Int) else im q := by
  unfold fillImg
  induction px generalizing im with
  | nil => simp
  | cons p px ih =>
    rw [List.foldl_cons, ih]
    by_cases hq : q = p
    · subst hq
      simp
    · simp [hq]

theorem unmark_fold (l : Nat) (im : Img) (out : List (Int × Int)) {px : List (Int × Int)} (h : px.Nodup) :
    (∀ q, (px.foldl (fun r p =>
      if r.1 p ≠ -1 then (Function.update r.1 p (r.1 p + 1), r.2)
      else (Function.update r.1 p (l : Int), r.2 ++ [p])) (im, out)).1 q =
        if q ∈ px then (if im q = -1 then (l : Int) else im q + 1) else im q) ∧
    (px.foldl (fun r p =>
      if r.1 p ≠ -1 then (Function.update r.1 p (r.1 p + 1), r.2)
      else (Function.update r.1 p (l : Int), r.2 ++ [p])) (im, out)).2 =
        out ++ px.filter fun q => im q = -1 := by
  induction px generalizing im out with
  | nil => simp
  | cons p px ih =>
    obtain ⟨h1, h2⟩ := List.nodup_cons.mp h
    rw [List.foldl_cons]
    by_cases hp : im p = -1
    · rw [if_neg (by simpa using hp)]
      obtain ⟨i1, i2⟩ := ih (Function.update im p (l : Int)) (out ++ [p]) h2
      refine ⟨fun q => ?_, ?_⟩
      · rw [i1]
        by_cases hq : q = p
        · subst hq; simp [h1, hp]
        · simp [hq]
      · rw [i2, List.filter_cons, if_pos (by simpa using hp), List.append_assoc]
        simp only [List.singleton_append]
        congr 2
        refine List.filter_congr fun q hq => ?_
        rw [Function.update_of_ne (by rintro rfl; exact h1 hq)]
    · rw [if_pos (by simpa using hp)]
      obtain ⟨i1, i2⟩ := ih (Function.update im p (im p + 1)) out h2
      refine ⟨fun q => ?_, ?_⟩
      · rw [i1]
        by_cases hq : q = p
        · subst hq; simp [h1, hp]
        · simp [hq]
      · rw [i2, List.filter_cons, if_neg (by simpa using hp)]
        congr 1
        refine List.filter_congr fun q hq => ?_
        rw [Function.update_of_ne (by rintro rfl; exact h1 hq)]

theorem unmarkEdge_apply (l : Nat) (im : Img) {px : List (Int × Int)} (h : px.Nodup) (q : Int × Int) :
    (unmarkEdge l im px).1 q = if q ∈ px then (if im q = -1 then (l : Int) else im q + 1) else im q :=
  (unmark_fold l im [] h).1 q

theorem unmarkEdge_out (l : Nat) (im : Img) {px : List (Int × Int)} (h : px.Nodup) :
    (unmarkEdge l im px).2 = px.filter fun q => im q = -1 := by
  rw [unmarkEdge, (unmark_fold l im [] h).2, List.nil_append]

/-! ## Polygon lines -/

section line
variable {K : Type} [Field K] [LinearOrder K]

theorem onSegment_left [IsStrictOrderedRing K] (p q : Pt K) : OnSegment p q p := ⟨0, le_rfl, zero_le_one, by simp⟩

theorem onSegment_right [IsStrictOrderedRing K] (p q : Pt K) : OnSegment p q q := ⟨1, zero_le_one, le_rfl, by simp⟩

theorem onSegment_symm [IsStrictOrderedRing K] {p q r : Pt K} (h : OnSegment p q r) : OnSegment q p r := by
  obtain ⟨t, h0, h1, rfl⟩ := h
  exact ⟨1 - t, by linarith, by linarith, by ext <;> simp only <;> ring⟩

theorem onLine_nil (r : Pt K) : ¬ OnLine ([] : List (Pt K)) r := by
  rintro (h | ⟨p, q, h, -⟩)
  · simp at h
  · simp at h

theorem onLine_single (p r : Pt K) : OnLine [p] r ↔ r = p := by
  constructor
  · rintro (h | ⟨a, b, h, -⟩)
    · simpa using h
    · have := h.length_le
      simp at this
  · rintro rfl
    exact Or.inl (by simp)

theorem pair_infix_cons {α : Type} (p q x y : α) (l : List α) :
    [p, q] <:+: x :: y :: l ↔ (p = x ∧ q = y) ∨ [p, q] <:+: y :: l := by
  rw [List.infix_cons_iff]
  refine or_congr ?_ Iff.rfl
  simp only [List.cons_prefix_cons, List.nil_prefix, and_true]

theorem onLine_cons [IsStrictOrderedRing K] (x y : Pt K) (l : List (Pt K)) (r : Pt K) :
    OnLine (x :: y :: l) r ↔ OnSegment x y r ∨ OnLine (y :: l) r := by
  constructor
  · rintro (h | ⟨p, q, h, hs⟩)
    · rcases List.mem_cons.mp h with rfl | h
      · exact Or.inl (onSegment_left _ _)
      · exact Or.inr (Or.inl h)
    · rcases (pair_infix_cons _ _ _ _ _).mp h with ⟨rfl, rfl⟩ | h
      · exact Or.inl hs
      · exact Or.inr (Or.inr ⟨p, q, h, hs⟩)
  · rintro (h | h | ⟨p, q, h, hs⟩)
    · exact Or.inr ⟨x, y, (pair_infix_cons _ _ _ _ _).mpr (Or.inl ⟨rfl, rfl⟩), h⟩
    · exact Or.inl (List.mem_cons_of_mem _ h)
    · exact Or.inr ⟨p, q, (pair_infix_cons _ _ _ _ _).mpr (Or.inr h), hs⟩

theorem onLine_join [IsStrictOrderedRing K] (a : List (Pt K)) (c : Pt K) (b : List (Pt K)) (r : Pt K) :
    OnLine (a ++ c :: b) r ↔ OnLine (a ++ [c]) r ∨ OnLine (c :: b) r := by
  induction a with
  | nil =>
    simp only [List.nil_append]
    refine ⟨Or.inr, ?_⟩
    rintro (h | h)
    · rw [onLine_single] at h
      exact Or.inl (by simp [h])
    · exact h
  | cons x a ih =>
    cases a with
    | nil =>
      simp only [List.cons_append, List.nil_append]
      rw [onLine_cons, onLine_cons, onLine_single]
      constructor
      · rintro (h | h)
        · exact Or.inl (Or.inl h)
        · exact Or.inr h
      · rintro ((h | h) | h)
        · exact Or.inl h
        · exact Or.inl (h ▸ onSegment_right _ _)
        · exact Or.inr h
    | cons y a =>
      simp only [List.cons_append] at ih ⊢
      rw [onLine_cons, onLine_cons, ih, or_assoc]

theorem onLine_append [IsStrictOrderedRing K] {a b : List (Pt K)} (ha : a ≠ []) (h : a.getLast? = b.head?) (r : Pt K) :
    OnLine (a.dropLast ++ b) r ↔ OnLine a r ∨ OnLine b r := by
  cases b with
  | nil => simp [ha] at h
  | cons c b =>
    have hc : a = a.dropLast ++ [c] := by
      rw [List.getLast?_eq_getLast_of_ne_nil ha] at h
      simp only [List.head?_cons, Option.some.injEq] at h
      rw [← h, List.dropLast_append_getLast ha]
    rw [onLine_join]
    conv_rhs => rw [hc]

theorem onLine_reverse [IsStrictOrderedRing K] (l : List (Pt K)) (r : Pt K) : OnLine l.reverse r ↔ OnLine l r := by
  have key : ∀ l : List (Pt K), OnLine l r → OnLine l.reverse r := by
    rintro l (h | ⟨p, q, h, hs⟩)
    · exact Or.inl (List.mem_reverse.mpr h)
    · refine Or.inr ⟨q, p, ?_, onSegment_symm hs⟩
      have := List.reverse_infix.mpr h
      simpa using this
  refine ⟨fun h => ?_, key l⟩
  have := key _ h
  rwa [List.reverse_reverse] at this

theorem onLine_split [IsStrictOrderedRing K] {l : List (Pt K)} {i : Nat} (h : i < l.length) (r : Pt K) :
    OnLine l r ↔ OnLine (l.take (i + 1)) r ∨ OnLine (l.drop i) r := by
  conv_lhs => rw [← List.take_append_drop i l, List.drop_eq_getElem_cons h]
  rw [onLine_join, List.drop_eq_getElem_cons h, List.take_succ_eq_append_getElem h]

theorem onSegment_insert [IsStrictOrderedRing K] {a b p : Pt K} (h : OnSegment a b p) (r : Pt K) :
    OnSegment a p r ∨ OnSegment p b r ↔ OnSegment a b r := by
  obtain ⟨s, s0, s1, rfl⟩ := h
  constructor
  · rintro (⟨t, t0, t1, rfl⟩ | ⟨t, t0, t1, rfl⟩)
    · refine ⟨t * s, mul_nonneg t0 s0, mul_le_one₀ t1 s0 s1, ?_⟩
      ext <;> simp only <;> ring
    · refine ⟨s + t * (1 - s), by have := mul_nonneg t0 (sub_nonneg.mpr s1); linarith, ?_, ?_⟩
      · have := mul_le_mul_of_nonneg_right t1 (sub_nonneg.mpr s1); linarith
      · ext <;> simp only <;> ring
  · rintro ⟨t, t0, t1, rfl⟩
    rcases le_total t s with hts | hts
    · left
      by_cases hs : s = 0
      · subst hs
        have : t = 0 := le_antisymm hts t0
        subst this
        exact ⟨0, le_rfl, zero_le_one, by ext <;> simp⟩
      · refine ⟨t / s, div_nonneg t0 s0, div_le_one_of_le₀ hts s0, ?_⟩
        ext <;> simp only <;> field_simp <;> ring
    · right
      by_cases hs : s = 1
      · subst hs
        have : t = 1 := le_antisymm t1 hts
        subst this
        exact ⟨0, le_rfl, zero_le_one, by ext <;> simp⟩
      · have h1 : (1 - s) ≠ 0 := fun h => hs (by linarith)
        refine ⟨(t - s) / (1 - s), div_nonneg (by linarith) (by linarith), div_le_one_of_le₀ (by linarith) (by linarith), ?_⟩
        ext <;> simp only <;> field_simp <;> ring

theorem onLine_insert [IsStrictOrderedRing K] {l : List (Pt K)} {i : Nat} {a b p : Pt K} (ha : l[i]? = some a) (hb : l[i + 1]? = some b)
    (h : OnSegment a b p) (r : Pt K) : OnLine (l.insertIdx (i + 1) p) r ↔ OnLine l r := by
  induction i generalizing l with
  | zero =>
    match l, ha, hb with
    | x :: y :: l, ha, hb =>
      simp only [List.getElem?_cons_zero, Option.some.injEq, zero_add, List.getElem?_cons_succ] at ha hb
      subst ha; subst hb
      simp only [zero_add, List.insertIdx_succ_cons, List.insertIdx_zero]
      rw [onLine_cons, onLine_cons, onLine_cons, ← onSegment_insert h r, or_assoc]
  | succ i ih =>
    match l, ha, hb with
    | x :: y :: l, ha, hb =>
      simp only [List.getElem?_cons_succ] at ha hb
      have := ih (l := y :: l) ha hb
      simp only [List.insertIdx_succ_cons] at this ⊢
      rw [onLine_cons, onLine_cons, this]

theorem passes_congr {a b : List (Pt K)} (h : ∀ r, OnLine a r ↔ OnLine b r) (x y : Int) :
    Passes a x y ↔ Passes b x y := by
  simp only [Passes, h]

theorem passes_or {a b c : List (Pt K)} (h : ∀ r, OnLine a r ↔ OnLine b r ∨ OnLine c r) (x y : Int) :
    Passes a x y ↔ Passes b x y ∨ Passes c x y := by
  simp only [Passes, h, or_and_right, exists_or]

end line

/-! ## Scanlines of edges -/

section scan
variable {K : Type} [Field K] [LinearOrder K] [IsStrictOrderedRing K] [FloorRing K]

/-- The lines are those of the points: they cover the pixels that the polygon line passes through. -/
structure ScanOK (l : Lines) (pts : List (Pt K)) : Prop where
  cov : ∀ x y, Cov (l.row y) x ↔ Passes pts x y
  sep : ∀ y, (l.row y).Pairwise fun s t => s.e < t.b
  wf : ∀ y, ∀ s ∈ l.row y, s.b ≤ s.e

/-- The pixel lies in the image. -/
def InImage (w h : Nat) (p : Int × Int) : Prop := 0 ≤ p.1 ∧ p.1 < w ∧ 0 ≤ p.2 ∧ p.2 < h

instance (w h : Nat) (p : Int × Int) : Decidable (InImage w h p) := inferInstanceAs (Decidable (_ ∧ _))

theorem ScanOK.pixels {l : Lines} {pts : List (Pt K)} (h : ScanOK l pts) (w ht : Nat) :
    (drawScannedPoly l w ht).Nodup ∧
      ∀ p, p ∈ drawScannedPoly l w ht ↔ InImage w ht p ∧ Passes pts p.1 p.2 := by
  have hrow := fun y => drawRow_spec (w := (w : Int)) (h.sep y) (h.wf y)
  refine ⟨?_, ?_⟩
  · refine nodup_of_rows (g := Prod.snd) (cols_sorted _ _) (fun y _ => ?_) (fun y _ a ha => ?_)
    · rw [List.nodup_map_iff (fun a b hab => (Prod.mk.inj hab).1)]
      exact (hrow y).2.imp fun h => ne_of_lt h
    · obtain ⟨x, -, rfl⟩ := List.mem_map.mp ha
      rfl
  · rintro ⟨x, y⟩
    have hmem : (x, y) ∈ drawScannedPoly l w ht ↔ y ∈ clipRows l ht ∧ x ∈ drawRow w (l.row y) := by
      simp only [drawScannedPoly, List.mem_flatMap, List.mem_map]
      constructor
      · rintro ⟨z, hz, x', hx', he⟩
        simp only [Prod.mk.injEq] at he
        rw [← he.1, ← he.2]
        exact ⟨hz, hx'⟩
      · rintro ⟨h1, h2⟩
        exact ⟨y, h1, x, h2, rfl⟩
    rw [hmem, mem_clipRows, (hrow y).1, h.cov]
    unfold InImage
    constructor
    · rintro ⟨⟨h1, h2, h3⟩, h4, h5, h6⟩
      exact ⟨⟨h4, h5, h1, h2⟩, h6⟩
    · rintro ⟨⟨h4, h5, h1, h2⟩, h6⟩
      refine ⟨⟨h1, h2, ?_⟩, h4, h5, h6⟩
      by_contra hn
      have hc := (h.cov x y).mpr h6
      rw [Lines.row_out hn] at hc
      exact cov_nil _ hc

theorem foldl_min_le (l : List (Pt K)) (a : K) :
    l.foldl (fun a q => min a q.2) a ≤ a ∧ ∀ q ∈ l, l.foldl (fun a q => min a q.2) a ≤ q.2 := by
  induction l generalizing a with
  | nil => simp
  | cons p l ih =>
    obtain ⟨h1, h2⟩ := ih (min a p.2)
    refine ⟨h1.trans (min_le_left _ _), fun q hq => ?_⟩
    rcases List.mem_cons.mp hq with rfl | hq
    · exact h1.trans (min_le_right _ _)
    · exact h2 q hq

theorem le_foldl_max (l : List (Pt K)) (a : K) :
    a ≤ l.foldl (fun a q => max a q.2) a ∧ ∀ q ∈ l, q.2 ≤ l.foldl (fun a q => max a q.2) a := by
  induction l generalizing a with
  | nil => simp
  | cons p l ih =>
    obtain ⟨h1, h2⟩ := ih (max a p.2)
    refine ⟨(le_max_left _ _).trans h1, fun q hq => ?_⟩
    rcases List.mem_cons.mp hq with rfl | hq
    · exact (le_max_right _ _).trans h1
    · exact h2 q hq

theorem y_range {pts : List (Pt K)} : yMin pts ≤ yMax pts ∧ ∀ p ∈ pts, yMin pts ≤ p.2 ∧ p.2 ≤ yMax pts := by
  cases pts with
  | nil => simp [yMin, yMax]
  | cons p l =>
    obtain ⟨a1, a2⟩ := foldl_min_le l p.2
    obtain ⟨b1, b2⟩ := le_foldl_max l p.2
    refine ⟨a1.trans b1, fun q hq => ?_⟩
    rcases List.mem_cons.mp hq with rfl | hq
    · exact ⟨a1, b1⟩
    · exact ⟨a2 q hq, b2 q hq⟩

theorem edgeLines_ok (pts : List (Pt K)) : ScanOK (edgeLines pts) pts :=
  ⟨fun x y => scanBox_covers y_range.1 y_range.2 x y, fun y => (scan_disjoint pts _ _ y).1,
    fun y => (scan_disjoint pts _ _ y).2⟩

theorem ScanOK.congr {l : Lines} {a b : List (Pt K)} (h : ScanOK l a) (hab : ∀ x y, Passes a x y ↔ Passes b x y) :
    ScanOK l b := ⟨fun x y => (h.cov x y).trans (hab x y), h.sep, h.wf⟩

theorem concatLines_ok {l k : Lines} {a b c : List (Pt K)} (hl : ScanOK l a) (hk : ScanOK k b)
    (hc : ∀ x y, Passes c x y ↔ Passes a x y ∨ Passes b x y) (rev : Bool) : ScanOK (LMap.concatLines l k rev) c := by
  have hcov : ∀ x y, Cov ((if rev then k.reverse else k).row y) x ↔ Passes b x y := by
    intro x y
    cases rev
    · exact hk.cov x y
    · simp only [if_true]
      rw [(reverse_directions k y x).2]
      exact hk.cov x y
  have hwf : ∀ y, ∀ s ∈ (if rev then k.reverse else k).row y, s.b ≤ s.e := by
    intro y
    cases rev
    · exact hk.wf y
    · simp only [if_true]
      rw [Lines.row_reverse]
      intro s hs
      obtain ⟨t, ht, rfl⟩ := List.mem_map.mp hs
      exact hk.wf y t ht
  have hm : ∀ y, ∀ s ∈ (l.merge (if rev then k.reverse else k)).row y, s.b ≤ s.e := by
    intro y s hs
    rw [Lines.row_merge] at hs
    rcases List.mem_append.mp hs with hs | hs
    · exact hl.wf y s hs
    · exact hwf y s hs
  refine ⟨fun x y => ?_, fun y => normalize_disjoint hm y, fun y => ?_⟩
  · unfold LMap.concatLines
    rw [add_unites, hl.cov, hcov, hc]
  · unfold LMap.concatLines Lines.add
    rw [Lines.row_normalize]
    exact normRow_wf (hm y)

end scan

end Verif.LabelImage
