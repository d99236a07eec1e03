import Verif.Scan.Cover
import Verif.Scan.Iter
import Verif.Polygon.Contains
import Mathlib.Data.Rat.Floor
import Mathlib.Algebra.Ring.Int.Parity

/-!
# Properties of scanning, filling, drawing and iterating

`Spec.lean` says what it means that a polygon line passes through a pixel and how often it winds
around a pixel centre.
-/

set_option linter.unusedSectionVars false

namespace Verif.Scan
open Verif Verif.GeoMap Verif.Polygon

/-! ## Normalisation (C35) -/

/-- `normalize` keeps the covered pixels of every line. -/
theorem normalize_covers (l : Lines) (y x : Int) : Cov (l.normalize.row y) x ↔ Cov (l.row y) x := by
  rw [Lines.row_normalize]
  exact normRow_cov _ _

/-- After `normalize` the segments of a line are increasing, disjoint and do not touch. -/
theorem normalize_disjoint {l : Lines} (h : ∀ y, ∀ s ∈ l.row y, s.b ≤ s.e) (y : Int) :
    (l.normalize.row y).Pairwise fun s t => s.e < t.b := by
  rw [Lines.row_normalize]
  exact normRow_separated (h y)

/-- `normalize` keeps the sum of the directions left of every pixel that is not covered, and of the
whole line. -/
theorem normalize_directions {l : Lines} (h : ∀ y, ∀ s ∈ l.row y, s.b ≤ s.e) (y : Int) :
    (∀ x, ¬ Cov (l.row y) x → leftSum (l.normalize.row y) x = leftSum (l.row y) x) ∧
      dirSum (l.normalize.row y) = dirSum (l.row y) := by
  rw [Lines.row_normalize]
  exact ⟨fun x hx => normRow_leftSum (h y) hx, normRow_dirSum _⟩

/-- The result does not depend on how the sorting algorithm orders segments with the same begin. -/
theorem normalize_any_sort {r sorted : List Seg} (h : ∀ s ∈ r, s.b ≤ s.e) (hp : sorted.Perm r)
    (hs : sorted.Pairwise fun s t => s.b ≤ t.b) : joinAll sorted = normRow r := by
  refine joinAll_perm (hp.trans (normRow_perm r).symm) hs (normRow_sorted r) ?_
  exact fun s hs => h s (hp.mem_iff.mp hs)

/-- `reverse` negates the directions and keeps the covered pixels. -/
theorem reverse_directions (l : Lines) (y x : Int) :
    leftSum (l.reverse.row y) x = - leftSum (l.row y) x ∧ (Cov (l.reverse.row y) x ↔ Cov (l.row y) x) := by
  rw [Lines.row_reverse]
  constructor
  · induction l.row y with
    | nil => rfl
    | cons s r ih =>
      simp only [List.map_cons, leftSum_cons, ih]
      split <;> omega
  · simp only [Cov, List.mem_map, exists_exists_and_eq_and]
    rfl

/-- `merge` (and `+=`) unite the covered pixels and add the directions. -/
theorem merge_unites (l o : Lines) (y x : Int) :
    (Cov ((l.merge o).row y) x ↔ Cov (l.row y) x ∨ Cov (o.row y) x) ∧
      leftSum ((l.merge o).row y) x = leftSum (l.row y) x + leftSum (o.row y) x := by
  rw [Lines.row_merge]
  exact ⟨cov_append _ _ _, leftSum_append _ _ _⟩

theorem add_unites (l o : Lines) (y x : Int) :
    Cov ((l.add o).row y) x ↔ Cov (l.row y) x ∨ Cov (o.row y) x := by
  rw [Lines.add, normalize_covers]
  exact (merge_unites l o y x).1

/-! ## Scanning (C53) -/

section scan
variable {K : Type} [Field K] [LinearOrder K] [IsStrictOrderedRing K] [FloorRing K]

theorem scanPoly_row (pts : List (Pt K)) (count : Nat) (start y : Int) :
    (scanPoly pts count start).row y = normRow ((scanRaw pts count start).row y) := by
  cases pts with
  | nil =>
    simp only [scanPoly, scanRaw, Lines.row_empty]
    rfl
  | cons p l =>
    simp only [scanPoly]
    rw [Lines.row_normalize]

theorem scanPoly_in (pts : List (Pt K)) (count : Nat) (start y : Int) :
    (scanPoly pts count start).In y ↔ start ≤ y ∧ y < start + count := by
  cases pts with
  | nil => exact Lines.empty_in _ _ _
  | cons p l =>
    simp only [scanPoly]
    rw [Lines.normalize_in, scanRaw_in]

/-- C53: the pixels covered by the scanned lines are exactly those the polygon line passes
through. -/
theorem scan_covers (pts : List (Pt K)) (count : Nat) (start : Int) (x y : Int)
    (hy : start ≤ y ∧ y < start + count) :
    Cov ((scanPoly pts count start).row y) x ↔ Passes pts x y := by
  rw [scanPoly_row, normRow_cov]
  exact ⟨scanRaw_sound hy, scanRaw_complete hy⟩

/-- Lines out of range have no segments. -/
theorem scan_out_of_range (pts : List (Pt K)) (count : Nat) (start : Int) (y : Int)
    (hy : ¬ (start ≤ y ∧ y < start + count)) : (scanPoly pts count start).row y = [] :=
  Lines.row_out fun h => hy ((scanPoly_in _ _ _ _).mp h)

/-- The segments of each scanned line are increasing, disjoint and do not touch. -/
theorem scan_disjoint (pts : List (Pt K)) (count : Nat) (start : Int) (y : Int) :
    ((scanPoly pts count start).row y).Pairwise (fun s t => s.e < t.b) ∧
      ∀ s ∈ (scanPoly pts count start).row y, s.b ≤ s.e := by
  rw [scanPoly_row]
  exact ⟨normRow_separated (scanRaw_wf _ _ _ y), normRow_wf (scanRaw_wf _ _ _ y)⟩

theorem onLine_range {pts : List (Pt K)} {lo hi : K} (h : ∀ p ∈ pts, lo ≤ p.2 ∧ p.2 ≤ hi) {r : Pt K}
    (hr : OnLine pts r) : lo ≤ r.2 ∧ r.2 ≤ hi := by
  rcases hr with hr | ⟨p, q, hpq, τ, t0, t1, rfl⟩
  · exact h r hr
  · have hp := h p (hpq.subset (by simp))
    have hq := h q (hpq.subset (by simp))
    have e0 : ∀ c : K, p.2 + τ * (q.2 - p.2) - c = (1 - τ) * (p.2 - c) + τ * (q.2 - c) :=
      fun c => by ring
    constructor
    · have := e0 lo
      have := mul_nonneg (show 0 ≤ 1 - τ by linarith) (show 0 ≤ p.2 - lo by linarith)
      have := mul_nonneg t0 (show 0 ≤ q.2 - lo by linarith)
      simp only
      linarith
    · have := e0 hi
      have := mul_nonneg (show 0 ≤ 1 - τ by linarith) (show 0 ≤ hi - p.2 by linarith)
      have := mul_nonneg t0 (show 0 ≤ hi - q.2 by linarith)
      simp only
      linarith

theorem box_range {lo hi : K} {y : Int} (hlh : lo ≤ hi) :
    (⌊lo + 1 / 2⌋ ≤ y ∧ y < ⌊lo + 1 / 2⌋ + ((⌊hi + 1 / 2⌋ - ⌊lo + 1 / 2⌋ + 1).toNat : Int)) ∨
      hi < (y : K) - 1 / 2 ∨ (y : K) + 1 / 2 ≤ lo := by
  have hf : ⌊lo + 1 / 2⌋ ≤ ⌊hi + 1 / 2⌋ := Int.floor_le_floor (by linarith)
  by_cases h1 : ⌊lo + 1 / 2⌋ ≤ y
  · by_cases h2 : y ≤ ⌊hi + 1 / 2⌋
    · left
      omega
    · right; left
      have := Int.floor_lt.mp (show ⌊hi + 1 / 2⌋ < y by omega)
      linarith
  · right; right
    have := Int.le_floor.mp (show y + 1 ≤ ⌊lo + 1 / 2⌋ by omega)
    push_cast at this
    linarith

/-- C53 for `scanPoly(poly)`, which takes the range of lines from the bounding box: no pixel is
missed. -/
theorem scanBox_covers {pts : List (Pt K)} {lo hi : K} (hlh : lo ≤ hi)
    (h : ∀ p ∈ pts, lo ≤ p.2 ∧ p.2 ≤ hi) (x y : Int) :
    Cov ((scanPolyBox pts lo hi).row y) x ↔ Passes pts x y := by
  rcases box_range (y := y) hlh with h1 | h1
  · exact scan_covers pts _ _ x y h1
  · have hno : ¬ Passes pts x y := by
      rintro ⟨r, hr, -, -, r1, r2⟩
      obtain ⟨a, b⟩ := onLine_range h hr
      rcases h1 with h1 | h1 <;> linarith
    refine ⟨fun hc => ?_, fun hp => absurd hp hno⟩
    by_cases hin : ⌊lo + 1 / 2⌋ ≤ y ∧
        y < ⌊lo + 1 / 2⌋ + ((⌊hi + 1 / 2⌋ - ⌊lo + 1 / 2⌋ + 1).toNat : Int)
    · exact (scan_covers pts _ _ x y hin).mp hc
    · unfold scanPolyBox at hc
      rw [scan_out_of_range pts _ _ y hin] at hc
      exact absurd hc (cov_nil _)

/-! ## Filling (C54) -/

/-- The polygon line is closed. -/
def IsClosed (pts : List (Pt K)) : Prop := pts ≠ [] ∧ pts.head? = pts.getLast?

theorem closed_sums {pts : List (Pt K)} (hc : IsClosed pts) {count : Nat} {start y : Int}
    (hy : start ≤ y ∧ y < start + count) :
    (∀ x, ¬ Cov ((scanPoly pts count start).row y) x →
      leftSum ((scanPoly pts count start).row y) x = 2 * winding (centre x y) pts) ∧
      dirSum ((scanPoly pts count start).row y) = 0 := by
  obtain ⟨hne, hhl⟩ := hc
  cases pts with
  | nil => exact absurd rfl hne
  | cons p l =>
    have hlast : (p :: l).getLast (List.cons_ne_nil _ _) = p := by
      rw [List.head?_cons, List.getLast?_eq_getLast_of_ne_nil (List.cons_ne_nil _ _)] at hhl
      exact (Option.some.inj hhl).symm
    have hraw : ∀ x, ¬ Cov ((scanRaw (p :: l) count start).row y) x →
        leftSum ((scanRaw (p :: l) count start).row y) x = 2 * winding (centre x y) (p :: l) := by
      intro x hx
      have := scanRaw_wind hy hx
      rw [hlast] at this
      omega
    have hwf := scanRaw_wf (p :: l) count start y
    rw [scanPoly_row]
    refine ⟨fun x hx => ?_, ?_⟩
    · have hx' : ¬ Cov ((scanRaw (p :: l) count start).row y) x := fun h => hx ((normRow_cov _ _).mpr h)
      rw [normRow_leftSum hwf hx']
      exact hraw x hx'
    · rw [normRow_dirSum]
      -- look at a pixel far on the right
      obtain ⟨b, hb⟩ : ∃ b : Int, ∀ r ∈ p :: l, r.1 < (b : K) := by
        have : ∀ l : List (Pt K), ∃ b : Int, ∀ r ∈ l, r.1 < (b : K) := by
          intro l
          induction l with
          | nil => exact ⟨0, fun r hr => by cases hr⟩
          | cons q l ih =>
            obtain ⟨b, hb⟩ := ih
            refine ⟨max b (⌊q.1⌋ + 1), fun r hr => ?_⟩
            rcases List.mem_cons.mp hr with rfl | hr
            · refine lt_of_lt_of_le (Int.lt_floor_add_one r.1) ?_
              exact_mod_cast le_max_right b (⌊r.1⌋ + 1)
            · refine lt_of_lt_of_le (hb r hr) ?_
              exact_mod_cast le_max_left b (⌊q.1⌋ + 1)
        exact this _
      obtain ⟨x, hx1, hx2⟩ := exists_right ((scanRaw (p :: l) count start).row y) b
      have hx' : ¬ Cov ((scanRaw (p :: l) count start).row y) x := by
        rintro ⟨s, hs, h1, h2⟩
        have := hx2 s hs
        omega
      have e := hraw x hx'
      rw [leftSum_eq_dirSum hx2, winding_right x y p l (fun r hr => lt_of_lt_of_le (hb r hr)
        (by exact_mod_cast hx1)), hlast] at e
      omega

/-- C54: filling a scanned closed polygon writes, exactly once each, the pixels of the image (in the
range of the scan) that the polygon line does not pass through and whose centre it winds around
a positive number of times; it returns their number and does not throw. -/
theorem fill_interior {pts : List (Pt K)} (hc : IsClosed pts) (count : Nat) (start : Int) {w h : Int}
    (hw : 0 ≤ w) :
    let r := fillScannedPoly (scanPoly pts count start) w h
    (∀ x y, (x, y) ∈ r.1 ↔ (0 ≤ x ∧ x < w) ∧ (0 ≤ y ∧ y < h) ∧ (start ≤ y ∧ y < start + count) ∧
      ¬ Passes pts x y ∧ 0 < winding (centre x y) pts) ∧
    r.1.Nodup ∧ r.2 = .ok r.1.length := by
  intro r
  have hrow : ∀ y, start ≤ y ∧ y < start + count → _ := fun y hy =>
    fillRow_closed hw (scan_disjoint pts count start y).1 (scan_disjoint pts count start y).2
      (closed_sums hc hy).2
  refine ⟨fun x y => ?_, ?_, ?_⟩
  · have hmem : (x, y) ∈ r.1 ↔ y ∈ clipRows (scanPoly pts count start) h ∧
        x ∈ (fillRow w 0 0 ((scanPoly pts count start).row y)).1 := by
      simp only [r, fillScannedPoly, List.mem_flatMap, List.mem_map, exists_exists_and_eq_and]
      constructor
      · rintro ⟨z, hz, x', hx', he⟩
        simp only [Prod.mk.injEq] at he
        rw [← he.1, ← he.2]
        exact ⟨hz, hx'⟩
      · rintro ⟨h1, h2⟩
        exact ⟨y, h1, x, h2, rfl⟩
    rw [hmem, mem_clipRows, scanPoly_in]
    constructor
    · rintro ⟨⟨h1, h2, h3⟩, h4⟩
      obtain ⟨a1, a2, a3, a4⟩ := (hrow y h3 x).mp h4
      rw [(closed_sums hc h3).1 x a3] at a4
      refine ⟨⟨a1, a2⟩, ⟨h1, h2⟩, h3, fun hp => a3 ((scan_covers pts count start x y h3).mpr hp), by omega⟩
    · rintro ⟨⟨a1, a2⟩, ⟨h1, h2⟩, h3, h4, h5⟩
      refine ⟨⟨h1, h2, h3⟩, (hrow y h3 x).mpr ⟨a1, a2, ?_, ?_⟩⟩
      · exact fun hcv => h4 ((scan_covers pts count start x y h3).mp hcv)
      · rw [(closed_sums hc h3).1 x fun hcv => h4 ((scan_covers pts count start x y h3).mp hcv)]
        omega
  · have e : r.1 = (clipRows (scanPoly pts count start) h).flatMap fun y =>
        (fillRow w 0 0 ((scanPoly pts count start).row y)).1.map fun x => (x, y) := by
      simp only [r, fillScannedPoly, List.flatMap_map]
    rw [e]
    refine nodup_of_rows (g := Prod.snd) (cols_sorted _ _) (fun y _ => ?_) (fun y _ a ha => ?_)
    · have := (fillRow_spec hw _ (scan_disjoint pts count start y).1
        (scan_disjoint pts count start y).2 0 0 le_rfl (fun s _ => le_max_left _ _)).2
      rw [List.nodup_map_iff (fun a b hab => (Prod.mk.inj hab).1)]
      exact this.imp fun h => ne_of_lt h
    · obtain ⟨x, -, rfl⟩ := List.mem_map.mp ha
      rfl
  · simp only [r, fillScannedPoly]
    rw [if_pos]
    rw [List.all_eq_true]
    intro z hz
    obtain ⟨y, hy, rfl⟩ := List.mem_map.mp hz
    simp only [decide_eq_true_eq]
    rw [fillRow_snd, (closed_sums hc ((scanPoly_in _ _ _ _).mp (mem_clipRows.mp hy).2.2)).2]
    rfl

theorem winding_far {pts : List (Pt K)} {L : Int}
    (h : (∀ p ∈ pts, p.2 < (L : K)) ∨ ∀ p ∈ pts, (L : K) ≤ p.2) (m : Int) :
    winding (centre m L) pts = 0 := by
  induction pts with
  | nil => rfl
  | cons p l ih =>
    have ih' := ih (h.imp (fun h q hq => h q (List.mem_cons_of_mem _ hq))
      (fun h q hq => h q (List.mem_cons_of_mem _ hq)))
    cases l with
    | nil => rfl
    | cons q l =>
      simp only [winding, pathSum] at ih' ⊢
      rw [ih', turn_eq]
      have : side L p.2 = side L q.2 := by
        rcases h with h | h
        · have h1 := h p List.mem_cons_self
          have h2 := h q (List.mem_cons_of_mem _ List.mem_cons_self)
          simp [side, h1, h2]
        · have h1 := h p List.mem_cons_self
          have h2 := h q (List.mem_cons_of_mem _ List.mem_cons_self)
          simp [side, not_lt.mpr h1, not_lt.mpr h2]
      rw [this]
      simp

/-- C54 for `scanPoly(poly)`: all pixels of the interior are filled. -/
theorem fillBox_interior {pts : List (Pt K)} (hc : IsClosed pts) {lo hi : K} (hlh : lo ≤ hi)
    (hb : ∀ p ∈ pts, lo ≤ p.2 ∧ p.2 ≤ hi) {w h : Int} (hw : 0 ≤ w) :
    let r := fillScannedPoly (scanPolyBox pts lo hi) w h
    (∀ x y, (x, y) ∈ r.1 ↔ (0 ≤ x ∧ x < w) ∧ (0 ≤ y ∧ y < h) ∧ ¬ Passes pts x y ∧
      0 < winding (centre x y) pts) ∧
    r.1.Nodup ∧ r.2 = .ok r.1.length := by
  intro r
  obtain ⟨h1, h2, h3⟩ := fill_interior hc (⌊hi + 1 / 2⌋ - ⌊lo + 1 / 2⌋ + 1).toNat ⌊lo + 1 / 2⌋ (h := h) hw
  refine ⟨fun x y => ?_, h2, h3⟩
  refine (h1 x y).trans ⟨fun ⟨a1, a2, _, a3⟩ => ⟨a1, a2, a3⟩, fun ⟨a1, a2, a3, a4⟩ => ⟨a1, a2, ?_, a3, a4⟩⟩
  rcases box_range (y := y) hlh with h4 | h4
  · exact h4
  · rw [winding_far ?_ x] at a4
    · omega
    · rcases h4 with h4 | h4
      · left
        intro p hp
        have := (hb p hp).2
        linarith
      · right
        intro p hp
        have := (hb p hp).1
        linarith

/-- Drawing a scanned polygon line writes, exactly once each, the pixels of the image it passes
through. -/
theorem draw_passes (pts : List (Pt K)) (count : Nat) (start : Int) (w h : Int) :
    let px := drawScannedPoly (scanPoly pts count start) w h
    (∀ x y, (x, y) ∈ px ↔ (0 ≤ x ∧ x < w) ∧ (0 ≤ y ∧ y < h) ∧ (start ≤ y ∧ y < start + count) ∧
      Passes pts x y) ∧ px.Nodup := by
  intro px
  have hrow := fun y => drawRow_spec (w := w) (scan_disjoint pts count start y).1
    (scan_disjoint pts count start y).2
  refine ⟨fun x y => ?_, ?_⟩
  · have hmem : (x, y) ∈ px ↔ y ∈ clipRows (scanPoly pts count start) h ∧
        x ∈ drawRow w ((scanPoly pts count start).row y) := by
      simp only [px, drawScannedPoly, List.mem_flatMap, List.mem_map]
      constructor
      · rintro ⟨z, hz, x', hx', he⟩
        simp only [Prod.mk.injEq] at he
        rw [← he.1, ← he.2]
        exact ⟨hz, hx'⟩
      · rintro ⟨h1, h2⟩
        exact ⟨y, h1, x, h2, rfl⟩
    rw [hmem, mem_clipRows, scanPoly_in, (hrow y).1]
    constructor
    · rintro ⟨⟨h1, h2, h3⟩, h4, h5, h6⟩
      exact ⟨⟨h4, h5⟩, ⟨h1, h2⟩, h3, (scan_covers pts count start x y h3).mp h6⟩
    · rintro ⟨⟨h4, h5⟩, ⟨h1, h2⟩, h3, h6⟩
      exact ⟨⟨h1, h2, h3⟩, h4, h5, (scan_covers pts count start x y h3).mpr h6⟩
  · refine nodup_of_rows (g := Prod.snd) (cols_sorted _ _) (fun y _ => ?_) (fun y _ a ha => ?_)
    · rw [List.nodup_map_iff (fun a b hab => (Prod.mk.inj hab).1)]
      exact (hrow y).2.imp fun h => ne_of_lt h
    · obtain ⟨x, -, rfl⟩ := List.mem_map.mp ha
      rfl

end scan

/-! ## What the winding number means -/

section winding
variable {K : Type} [Field K] [LinearOrder K] [IsStrictOrderedRing K]

/-- The winding number is odd iff `Polygon::contains` (C32) says that the centre is inside. -/
theorem winding_odd_iff_contains {p : Poly K} (hc : IsClosed p.pts) (x : Pt K) :
    p.contains x = .ok (decide (winding x p.pts % 2 = 1)) := by
  obtain ⟨hne, hhl⟩ := hc
  cases hp : p.pts with
  | nil => exact absurd hp hne
  | cons a l =>
    have hcl : p.closed = .ok true := by
      rw [hp, List.head?_cons] at hhl
      simp only [Poly.closed, hp, List.head?_cons, ← hhl]
      simp
    have hpar : ∀ (l : List (Pt K)) (a : Pt K),
        (crossings x (decide (a.2 < x.2)) (a :: l) : Int) % 2 = winding x (a :: l) % 2 := by
      intro l
      induction l with
      | nil => intro a; rfl
      | cons q l ih =>
        intro a
        have ih' := ih q
        simp only [winding, pathSum] at ih' ⊢
        rw [crossings]
        rw [show turn x a q = if intersectX a q x.2 < x.1 then
          if a.2 < x.2 ∧ x.2 ≤ q.2 then 1 else if q.2 < x.2 ∧ x.2 ≤ a.2 then -1 else 0 else 0 from rfl]
        by_cases h1 : a.2 < x.2 <;> by_cases h2 : q.2 < x.2
        · have h3 : ¬ x.2 ≤ q.2 := not_le.mpr h2
          have h4 : ¬ x.2 ≤ a.2 := not_le.mpr h1
          simp only [h1, h2, h3, h4, and_false, if_false, ite_self, zero_add]
          simp only [h2] at ih'
          simpa using ih'
        · have h3 : x.2 ≤ q.2 := not_lt.mp h2
          simp only [h1, h2, h3, and_true, if_true]
          simp only [h2] at ih'
          simp only [decide_true, decide_false, ne_eq, Bool.false_eq_true, not_false_eq_true, if_true]
          push_cast
          simp only [decide_false] at ih'
          split <;> omega
        · have h3 : x.2 ≤ a.2 := not_lt.mp h1
          simp only [h1, h2, h3, false_and, and_true, if_true, if_false]
          simp only [h2] at ih'
          simp only [decide_true, decide_false, ne_eq, Bool.true_eq_false, not_false_eq_true, if_true]
          push_cast
          simp only [decide_true] at ih'
          split <;> omega
        · simp only [h1, h2, false_and, if_false, ite_self, zero_add]
          simp only [h2] at ih'
          simpa using ih'
    have hpa := hpar l a
    have he : p.contains x =
        Outcome.ok (decide (crossings x (decide (a.2 < x.2)) (a :: l) % 2 ≠ 0)) := by
      unfold Poly.contains
      rw [hcl]
      simp [bind, Outcome.bind, hp]
    rw [he]
    congr 1
    rw [decide_eq_decide]
    omega

theorem turn_swap {c p q : Pt K} : turn c q p = - turn c p q := by
  by_cases hpq : p.2 = q.2
  · unfold turn
    have h1 : ¬ (q.2 < c.2 ∧ c.2 ≤ p.2) := fun h => by linarith [h.1, h.2]
    have h2 : ¬ (p.2 < c.2 ∧ c.2 ≤ q.2) := fun h => by linarith [h.1, h.2]
    simp [h1, h2]
  · have e : q.1 + (p.1 - q.1) * (c.2 - q.2) / (p.2 - q.2) =
        p.1 + (q.1 - p.1) * (c.2 - p.2) / (q.2 - p.2) := by
      have h1 : p.2 - q.2 ≠ 0 := sub_ne_zero.mpr hpq
      have h2 : q.2 - p.2 ≠ 0 := sub_ne_zero.mpr (Ne.symm hpq)
      field_simp
      ring
    unfold turn
    rw [e]
    by_cases h : p.1 + (q.1 - p.1) * (c.2 - p.2) / (q.2 - p.2) < c.1
    · simp only [if_pos h]
      by_cases h1 : q.2 < c.2 ∧ c.2 ≤ p.2
      · have h2 : ¬ (p.2 < c.2 ∧ c.2 ≤ q.2) := fun h2 => by linarith [h1.1, h2.2]
        rw [if_pos h1, if_neg h2, if_pos h1]
        rfl
      · by_cases h2 : p.2 < c.2 ∧ c.2 ≤ q.2
        · rw [if_neg h1, if_pos h2, if_pos h2]
        · rw [if_neg h1, if_neg h2, if_neg h2, if_neg h1]
          rfl
    · simp only [if_neg h]
      rfl

/-- Traversing a polygon line backwards negates its winding number: of a simple closed polygon,
one orientation is filled and the other is not. -/
theorem winding_reverse (c : Pt K) (pts : List (Pt K)) :
    winding c pts.reverse = - winding c pts := by
  have app : ∀ (l : List (Pt K)) (p q : Pt K),
      winding c (l ++ [p, q]) = winding c (l ++ [p]) + turn c p q := by
    intro l
    induction l with
    | nil => intro p q; simp [winding, pathSum]
    | cons a l ih =>
      intro p q
      cases l with
      | nil => simp [winding, pathSum]
      | cons b l =>
        have := ih p q
        simp only [winding, List.cons_append, pathSum] at this ⊢
        omega
  induction pts with
  | nil => rfl
  | cons p l ih =>
    cases l with
    | nil => rfl
    | cons q l =>
      rw [List.reverse_cons, List.reverse_cons, List.append_assoc]
      show winding c (l.reverse ++ [q, p]) = _
      rw [app, ← List.reverse_cons, ih, turn_swap]
      simp only [winding, pathSum]
      omega

end winding

/-! ## Iterating (C55) -/

/-- The pixels of all segments, line by line. -/
def linePixels (l : Lines) : List (Int × Int) :=
  (cols l.start l.stop).flatMap fun y => (l.row y).flatMap fun s => (cols s.b s.e).map fun x => (x, y)

/-- C55: iterating over scanlines with at least one segment visits the pixels of all segments in
order, and ends. -/
theorem iter_visits {l : Lines} (h : ∃ y, l.row y ≠ []) {n : Nat} (hn : (linePixels l).length < n) :
    visit l n = .ok (linePixels l) := by
  have e : pixels (segsFrom l l.start 0) = linePixels l := by
    have hlt : l.start < l.stop := by
      obtain ⟨y, hy⟩ := h
      by_contra hc
      exact hy (Lines.row_out fun h => hc (lt_of_le_of_lt h.1 h.2))
    unfold linePixels segsFrom pixels
    rw [cols_cons hlt]
    simp only [List.drop_zero, List.flatMap_append, List.flatMap_cons, List.flatMap_assoc,
      List.flatMap_map]
  obtain ⟨it, h1, h2, h3⟩ := init_spec h
  rw [e] at h3
  unfold visit
  rw [h1]
  show collect l n it = _
  rw [collect_spec n h2, h3]
  rw [← h3] at hn
  split at hn
  · rw [if_pos (by assumption)]
    simpa using hn
  · rw [if_neg (by assumption)]
    exact hn

/-- C55: an iterator over the scanlines of a polygon line that has a segment visits exactly the
pixels it passes through, each once. -/
theorem iter_passes {K : Type} [Field K] [LinearOrder K] [IsStrictOrderedRing K] [FloorRing K]
    (pts : List (Pt K)) (count : Nat) (start : Int)
    (h : ∃ y, (scanPoly pts count start).row y ≠ []) :
    ∃ px, (∃ n0, ∀ n, n0 < n → visit (scanPoly pts count start) n = .ok px) ∧ px.Nodup ∧
      ∀ x y, (x, y) ∈ px ↔ (start ≤ y ∧ y < start + count) ∧ Passes pts x y := by
  refine ⟨linePixels (scanPoly pts count start), ⟨_, fun n hn => iter_visits h hn⟩, ?_, fun x y => ?_⟩
  · unfold linePixels
    refine nodup_of_rows (g := Prod.snd) (cols_sorted _ _) (fun y _ => ?_) (fun y _ a ha => ?_)
    · rw [List.nodup_flatMap]
      refine ⟨fun s _ => ?_, ?_⟩
      · rw [List.nodup_map_iff (fun a b hab => (Prod.mk.inj hab).1)]
        exact (cols_sorted _ _).imp fun h => ne_of_lt h
      · refine (scan_disjoint pts count start y).1.imp fun {s t} hst z hz hz' => ?_
        obtain ⟨a, ha, rfl⟩ := List.mem_map.mp hz
        obtain ⟨b, hb, he⟩ := List.mem_map.mp hz'
        rw [mem_cols] at ha hb
        have := (Prod.mk.inj he).1
        omega
    · obtain ⟨s, -, ha⟩ := List.mem_flatMap.mp ha
      obtain ⟨x, -, rfl⟩ := List.mem_map.mp ha
      rfl
  · have : (x, y) ∈ linePixels (scanPoly pts count start) ↔
        (scanPoly pts count start).In y ∧ Cov ((scanPoly pts count start).row y) x := by
      simp only [linePixels, List.mem_flatMap, List.mem_map, mem_cols, Cov, Seg.Covers, Lines.In]
      constructor
      · rintro ⟨z, hz, s, hs, x', hx', he⟩
        simp only [Prod.mk.injEq] at he
        rw [← he.1, ← he.2]
        exact ⟨hz, s, hs, hx'⟩
      · rintro ⟨h1, s, hs, h2⟩
        exact ⟨y, h1, s, hs, x, h2, rfl⟩
    rw [this, scanPoly_in]
    constructor
    · rintro ⟨h1, h2⟩
      exact ⟨h1, (scan_covers pts count start x y h1).mp h2⟩
    · rintro ⟨h1, h2⟩
      exact ⟨h1, (scan_covers pts count start x y h1).mpr h2⟩

/-- Constructing an iterator over scanlines without any segment reads out of bounds.  (The scanlines
of a polygon line that runs between two lines of pixels are like this.) -/
theorem iter_empty_violated {l : Lines} (h : ∀ y, l.row y = []) (n : Nat) : visit l n = .ub := by
  unfold visit It.init
  simp only
  have hs : ∀ y i, seg? l y i = none := fun y i => by simp [seg?, h]
  rw [hs]
  unfold ensureValid settle
  simp only
  rw [hs]
  rfl

/-! ## Examples -/

namespace Example

/-- a square with corners (1, 1) and (4, 4), upwards on its left side -/
def square : List (Pt ℚ) := [(1, 1), (1, 4), (4, 4), (4, 1), (1, 1)]

example : IsClosed square := ⟨by decide, by decide⟩

example : fillScannedPoly (scanPoly square 6 0) 6 6 =
    ([(2, 2), (3, 2), (2, 3), (3, 3)], .ok 4) := by decide +kernel

example : fillScannedPoly (scanPoly square.reverse 6 0) 6 6 = ([], .ok 0) := by decide +kernel

example : drawScannedPoly (scanPoly square 6 0) 6 6 =
    [(1, 1), (2, 1), (3, 1), (4, 1), (1, 2), (4, 2), (1, 3), (4, 3), (1, 4), (2, 4), (3, 4), (4, 4)] := by
  decide +kernel

example : visit (scanPoly square 6 0) 13 = .ok
    [(1, 1), (2, 1), (3, 1), (4, 1), (1, 2), (4, 2), (1, 3), (4, 3), (1, 4), (2, 4), (3, 4), (4, 4)] := by
  decide +kernel

/-- the part of a large polygon that is in the image is filled -/
example : (fillScannedPoly (scanPoly ([(-5, -5), (-5, 9), (9, 9), (9, -5), (-5, -5)] : List (Pt ℚ)) 2 0) 2 2).1 =
    [(0, 0), (1, 0), (0, 1), (1, 1)] := by decide +kernel

/-- a polygon line that runs exactly between two pixel lines has no segments -/
def between : List (Pt ℚ) := [(1, 1 / 2), (4, 1 / 2)]

example : visit (scanPolyBox between (1 / 2) (1 / 2)) 100 = .ub := by decide +kernel

/-- joining touching segments: sorted differently, the same result -/
example : joinAll [⟨1, 1, 3⟩, ⟨1, -2, 2⟩, ⟨3, 1, 5⟩] = [⟨1, 0, 5⟩] ∧
    joinAll [⟨1, -2, 2⟩, ⟨1, 1, 3⟩, ⟨3, 1, 5⟩] = [⟨1, 0, 5⟩] := by decide

end Example

end Verif.Scan
