import Verif.PyPoly.Image
import Verif.PyPoly.Tangent
import Verif.PyPoly.Parabola
import Verif.PyPoly.Cut
import Mathlib.Tactic.NormNum

/-!
# Properties C70–C75: the polygon functions of the Python module

The specifications are in the first lines of Image.lean (`Lines.cover`), Tangent.lean (`SameAngle`, `Continuous'`, `alongDarts`, `turnPerLength`),
Parabola.lean (`sqErr`) and Cut.lean (`side`, `Run`, `IsPart`).
-/

namespace Verif.PyPoly
open Verif Verif.GeoMap Verif.DartPos Verif.Polygon Verif.Resample

/-! ## C70: indices -/

section
variable {K : Type} [Field K] [LinearOrder K] (dist : Pt K → Pt K → K)

/-- The place that a Python index means in a sequence of `n` elements: negative numbers count from the end. -/
def pyPlace (n : Nat) (i : Int) : Int := if i < 0 then n + i else i

theorem check_ok {i : Int} {n : Nat} (h : 0 ≤ pyPlace n i ∧ pyPlace n i < n) : checkPythonIndex i n = .ok (pyPlace n i).toNat := by
  unfold pyPlace at *
  simp only [checkPythonIndex]
  by_cases h0 : i < 0
  · rw [if_pos h0] at h ⊢; rw [if_pos h0, if_neg (by omega)]; congr 1; omega
  · rw [if_neg h0] at h ⊢; rw [if_neg h0, if_neg (by omega)]

theorem check_bad {i : Int} {n : Nat} (h : ¬ (0 ≤ pyPlace n i ∧ pyPlace n i < n)) : checkPythonIndex i n = .precond := by
  unfold pyPlace at *
  simp only [checkPythonIndex]
  by_cases h0 : i < 0
  · rw [if_pos h0] at h ⊢; rw [if_pos (by omega)]
  · rw [if_neg h0] at h ⊢; rw [if_pos (by omega)]

/-- C70: reading and writing a point of a polygon follows Python: with `-n ≤ i < n` the point that Python means is read or replaced, all other
indices raise an `IndexError`.  Splitting at an index inside of this range never fails either. -/
theorem index_read_write (p : Poly K) (i : Int) (x : Pt K) :
    (-(p.pts.length : Int) ≤ i ∧ i < p.pts.length →
      (∃ q, getItem p i = .ok q ∧ p.pts[(pyPlace p.pts.length i).toNat]? = some q) ∧
      (∃ p', setItem dist p i x = .ok p' ∧ p'.pts = p.pts.set (pyPlace p.pts.length i).toNat x) ∧
      ∃ a b, pySplit p i = .ok (a, b) ∧ a.pts = p.pts.take ((pyPlace p.pts.length i).toNat + 1) ∧ b.pts = p.pts.drop (pyPlace p.pts.length i).toNat) ∧
    (¬ (-(p.pts.length : Int) ≤ i ∧ i < p.pts.length) → getItem p i = .precond ∧ setItem dist p i x = .precond ∧ pySplit p i = .precond) := by
  constructor
  · intro h
    have hp : 0 ≤ pyPlace p.pts.length i ∧ pyPlace p.pts.length i < p.pts.length := by
      unfold pyPlace; split <;> omega
    have hc := check_ok hp
    have hl : (pyPlace p.pts.length i).toNat < p.pts.length := by omega
    have hg := List.getElem?_eq_getElem hl
    refine ⟨⟨p.pts[(pyPlace p.pts.length i).toNat], ?_, hg⟩, ?_, ?_⟩
    · simp only [getItem, hc, Outcome.bind]; exact rd_lt hl
    · simp only [setItem, hc, Outcome.bind, Poly.setPoint, hg]
      exact ⟨_, rfl, rfl⟩
    · simp only [pySplit, hc, Outcome.bind, Poly.split, hg]
      by_cases h0 : (pyPlace p.pts.length i).toNat = 0
      · rw [if_pos h0]
        refine ⟨_, _, rfl, ?_, ?_⟩
        · simp only [h0]
          rw [List.take_add_one, List.getElem?_eq_getElem (by omega)]
          simp
        · rw [h0]; rfl
      · rw [if_neg h0]; exact ⟨_, _, rfl, rfl, rfl⟩
  · intro h
    have hp : ¬ (0 ≤ pyPlace p.pts.length i ∧ pyPlace p.pts.length i < p.pts.length) := by
      unfold pyPlace; split <;> omega
    have hc := check_bad hp
    simp only [getItem, setItem, pySplit, hc, Outcome.bind]
    exact ⟨trivial, trivial, trivial⟩

example : getItem (Poly.ofPoints [((0 : ℚ), (0 : ℚ)), (1, 0), (2, 0)]) (-1) = .ok (2, 0) := by decide +kernel

/-- C70: inserting at a place `0 ≤ i ≤ n` and deleting the element `0 ≤ i < n` do what Python does, and inserting is never undefined. -/
theorem index_insert_delete_partial (p : Poly K) (i : Nat) (x : Pt K) :
    (i ≤ p.pts.length → ∃ p', pyInsert dist p i x = .ok p' ∧ p'.pts = p.pts.insertIdx i x) ∧
    (i < p.pts.length → ∃ p', delItem p i = .ok p' ∧ p'.pts = p.pts.eraseIdx i) ∧
    ∀ j : Int, pyInsert dist p j x ≠ .ub := by
  refine ⟨fun h => ?_, fun h => ?_, fun j => ?_⟩
  · have hp : pyPlace (p.pts.length + 1) i = i := by unfold pyPlace; rw [if_neg (by omega)]
    have hc := check_ok (i := i) (n := p.pts.length + 1) (by rw [hp]; push_cast; omega)
    simp only [pyInsert, hc, hp, Outcome.bind, Int.toNat_natCast, Poly.insert, if_pos h]
    exact ⟨_, rfl, rfl⟩
  · have hp : pyPlace (p.pts.length + 1) i = i := by unfold pyPlace; rw [if_neg (by omega)]
    have hc := check_ok (i := i) (n := p.pts.length + 1) (by rw [hp]; push_cast; omega)
    simp only [delItem, hc, hp, Outcome.bind, Int.toNat_natCast, Poly.erase, List.getElem?_eq_getElem h]
    exact ⟨_, rfl, rfl⟩
  · by_cases h : 0 ≤ pyPlace (p.pts.length + 1) j ∧ pyPlace (p.pts.length + 1) j < (p.pts.length + 1 : Nat)
    · simp only [pyInsert, check_ok h, Outcome.bind, Poly.insert]
      rw [if_pos (by omega)]
      simp
    · simp only [pyInsert, check_bad h, Outcome.bind]
      simp

/-- C70, violated for negative indices: `p.insert(i, x)` inserts one place behind the one that Python means, for every polygon and every negative index. -/
theorem index_insert_negative_violated (p : Poly K) (i : Int) (x : Pt K) (h0 : i < 0) (h : -(p.pts.length : Int) ≤ i) :
    ∃ p', pyInsert dist p i x = .ok p' ∧ p'.pts = p.pts.insertIdx ((pyPlace p.pts.length i).toNat + 1) x := by
  have hp : pyPlace (p.pts.length + 1) i = pyPlace p.pts.length i + 1 := by unfold pyPlace; rw [if_pos h0, if_pos h0]; push_cast; omega
  have hb : 0 ≤ pyPlace p.pts.length i := by unfold pyPlace; rw [if_pos h0]; omega
  have hb2 : pyPlace p.pts.length i < p.pts.length := by unfold pyPlace; rw [if_pos h0]; omega
  have hc := check_ok (i := i) (n := p.pts.length + 1) (by rw [hp]; push_cast; omega)
  simp only [pyInsert, hc, hp, Outcome.bind, Poly.insert]
  rw [if_pos (by omega)]
  refine ⟨_, rfl, ?_⟩
  simp only
  congr 1; omega

omit [Field K] in
/-- C70, violated: `del p[-1]` and `del p[len(p)]` are undefined for every polygon, and any other negative index deletes the point behind the one
that Python means. -/
theorem index_delete_violated (p : Poly K) :
    delItem p (-1) = .ub ∧ delItem p p.pts.length = .ub ∧
    ∀ i : Int, -(p.pts.length : Int) ≤ i → i < -1 → ∃ p', delItem p i = .ok p' ∧ p'.pts = p.pts.eraseIdx ((pyPlace p.pts.length i).toNat + 1) := by
  have hend : (p.pts[p.pts.length]?) = none := List.getElem?_eq_none le_rfl
  refine ⟨?_, ?_, fun i h h0 => ?_⟩
  · have hp : pyPlace (p.pts.length + 1) (-1) = p.pts.length := by unfold pyPlace; rw [if_pos (by omega)]; push_cast; omega
    have hc := check_ok (i := -1) (n := p.pts.length + 1) (by rw [hp]; push_cast; omega)
    simp only [delItem, hc, hp, Outcome.bind, Int.toNat_natCast, Poly.erase, hend]
  · have hp : pyPlace (p.pts.length + 1) p.pts.length = p.pts.length := by unfold pyPlace; rw [if_neg (by omega)]
    have hc := check_ok (i := p.pts.length) (n := p.pts.length + 1) (by rw [hp]; push_cast; omega)
    simp only [delItem, hc, hp, Outcome.bind, Int.toNat_natCast, Poly.erase, hend]
  · have hp : pyPlace (p.pts.length + 1) i = pyPlace p.pts.length i + 1 := by unfold pyPlace; rw [if_pos (by omega), if_pos (by omega)]; push_cast; omega
    have hb : 0 ≤ pyPlace p.pts.length i := by unfold pyPlace; rw [if_pos (by omega)]; omega
    have hb2 : pyPlace p.pts.length i + 1 < p.pts.length := by unfold pyPlace; rw [if_pos (by omega)]; omega
    have hc := check_ok (i := i) (n := p.pts.length + 1) (by rw [hp]; push_cast; omega)
    have hl : (pyPlace p.pts.length i + 1).toNat < p.pts.length := by omega
    simp only [delItem, hc, hp, Outcome.bind, Poly.erase, List.getElem?_eq_getElem hl]
    refine ⟨_, rfl, ?_⟩
    simp only
    congr 1; omega

end

/-! ## C71: cutting a polygon at a line -/

/-- C71: if no run inside of the polygon is entered and left by points at the same distance from the line, `intersectLine` succeeds; its parts are
made of the maximal runs of points in the half-plane, each exactly once and in order.  A part begins with the exact point where the polygon enters the
half-plane.  Missing: the point where it leaves (see `intersectLine_leave_violated`), which is on the line only in a special case. -/
theorem intersectLine_runs_partial {a b : Pt ℝ} {poly : List (Pt ℝ)} (hab : a ≠ b) (hne : poly ≠ []) (hu : Uneven a b poly) :
    ∃ parts rs, intersectLine poly a b = .ok parts ∧ List.Forall₂ (IsPart a b poly) rs parts ∧ rs.Pairwise (fun x y => x.2 < y.1) ∧
      ∀ m, m < poly.length → 0 ≤ side a b (pt poly m) → ∃ r ∈ rs, r.1 ≤ m ∧ m < r.2 := cut_spec hab hne hu

/-- C71: if the polygon never leaves the half-plane, the result is exact: one part, beginning where the polygon enters. -/
theorem intersectLine_enter {a b : Pt ℝ} {poly : List (Pt ℝ)} (hab : a ≠ b) (i : Nat) (hi : i < poly.length)
    (hout : ∀ m, m < i → side a b (pt poly m) < 0) (hin : ∀ m, i ≤ m → m < poly.length → 0 ≤ side a b (pt poly m)) :
    ∃ pre, intersectLine poly a b = .ok [pre ++ poly.drop i] ∧ Enter a b poly i pre := by
  have hne : poly ≠ [] := by intro e; subst e; simp at hi
  have huniq : ∀ j k, Run a b poly j k → j = i ∧ k = poly.length := by
    intro j k r
    have h1 : i ≤ j := by
      rcases Nat.lt_or_ge j i with h | h
      · exact absurd (hout j h) (not_lt.mpr (r.inside j le_rfl r.lt))
      · exact h
    have hjl := r.lt
    have hkl := r.le
    have h2 : j = i := by
      rcases r.before with h | h
      · omega
      · rcases Nat.lt_or_ge i j with h' | h'
        · exact absurd h (not_lt.mpr (hin (j - 1) (by omega) (by omega)))
        · omega
    refine ⟨h2, ?_⟩
    rcases r.after with h | h
    · exact h
    · by_contra hc
      exact absurd h (not_lt.mpr (hin k (by omega) (by omega)))
  obtain ⟨parts, rs, h1, h2, h3, h4⟩ := cut_spec hab hne (fun j k _ hk r => by have := (huniq j k r).2; omega)
  have hall : ∀ r ∈ rs, r = (i, poly.length) := by
    intro r hr
    obtain ⟨n, hn, rfl⟩ := List.getElem_of_mem hr
    have hlen := h2.length_eq
    have := (List.forall₂_iff_get.1 h2).2 n hn (by omega)
    obtain ⟨e1, e2⟩ := huniq _ _ this.1
    exact Prod.ext e1 e2
  obtain ⟨r, hr, _, _⟩ := h4 i hi (hin i le_rfl hi)
  match rs, h2, h3, hall, hr with
  | [x], .cons hx .nil, _, hall, _ =>
    have hx' := hall x (by simp)
    subst hx'
    obtain ⟨_, pre, post, he, hE, hL⟩ := hx
    simp only [Leave, if_true] at hL
    refine ⟨pre, ?_, hE⟩
    rw [h1, he, hL]
    congr 2
    rw [List.append_nil]
    congr 1
    apply List.take_of_length_le
    simp
  | x :: y :: t, _, h3, hall, _ =>
    have hx' := hall x (by simp)
    have hy' := hall y (by simp)
    have := (List.pairwise_cons.1 h3).1 y (by simp)
    rw [hx', hy'] at this
    dsimp only at this
    omega

/-- the hypotheses can be met: a polygon that comes from the other side -/
example : ∃ pre, intersectLine [(0, 1), (0, -1), (0, -2)] (0, 0) (1, 0) = .ok [pre ++ [(0, -1), (0, -2)]] ∧ Enter (0, 0) (1, 0) [(0, 1), (0, -1), (0, -2)] 1 pre :=
  intersectLine_enter (by intro e; have := congrArg Prod.fst e; norm_num at this) 1 (by simp)
    (fun m hm => by
      obtain rfl : m = 0 := by omega
      norm_num [side, pt])
    (fun m h1 h2 => by
      simp only [List.length_cons, List.length_nil] at h2
      obtain rfl | rfl : m = 1 ∨ m = 2 := by omega
      · norm_num [side, pt]
      · norm_num [side, pt])

theorem runs_all {a b : Pt ℝ} {poly : List (Pt ℝ)} {rs : List (Nat × Nat)} {parts : List (List (Pt ℝ))} (h2 : List.Forall₂ (IsPart a b poly) rs parts)
    (h4 : ∀ m, m < poly.length → 0 ≤ side a b (pt poly m) → ∃ r ∈ rs, r.1 ≤ m ∧ m < r.2) {i j : Nat} (hr : Run a b poly i j) : ∃ part ∈ parts, IsPart a b poly (i, j) part := by
  obtain ⟨r, hm, e1, e2⟩ := h4 i (by have := hr.lt; have := hr.le; omega) (hr.inside i le_rfl hr.lt)
  obtain ⟨n, hn, hg⟩ := List.getElem_of_mem hm
  have hlen := h2.length_eq
  have hp := (List.forall₂_iff_get.1 h2).2 n hn (by omega)
  have hge : rs.get ⟨n, hn⟩ = r := hg
  rw [hge] at hp
  have hr' := hp.1
  have a1 := hr.lt; have a2 := hr.le; have b1 := hr'.lt; have b2 := hr'.le
  have ei : r.1 = i := by
    rcases Nat.lt_or_ge r.1 i with h | h
    · rcases hr.before with h' | h'
      · omega
      · exact absurd h' (not_lt.mpr (hr'.inside (i - 1) (by omega) (by omega)))
    · omega
  have ej : r.2 = j := by
    rcases Nat.lt_trichotomy r.2 j with h | h | h
    · rcases hr'.after with h' | h'
      · omega
      · exact absurd h' (not_lt.mpr (hr.inside r.2 (by omega) h))
    · exact h
    · rcases hr.after with h' | h'
      · omega
      · exact absurd h' (not_lt.mpr (hr'.inside j (by omega) h))
  have : r = (i, j) := Prod.ext ei ej
  rw [this] at hp
  exact ⟨_, List.get_mem _ _, hp⟩

/-- C71, violated: whenever the polygon leaves the half-plane after it has entered it, the end point of the part is not on the line. -/
theorem intersectLine_leave_violated {a b : Pt ℝ} {poly : List (Pt ℝ)} (hab : a ≠ b) (hu : Uneven a b poly) {i j : Nat} (hi : 0 < i) (hj : j < poly.length)
    (hr : Run a b poly i j) : ∃ parts, intersectLine poly a b = .ok parts ∧ ∃ part ∈ parts, ∃ l z, part = l ++ [z] ∧ (∀ k, i ≤ k → k < j → pt poly k ∈ l) ∧ side a b z ≠ 0 := by
  have hne : poly ≠ [] := by intro e; subst e; simp at hj
  obtain ⟨parts, rs, h1, h2, h3, h4⟩ := cut_spec hab hne hu
  obtain ⟨part, hm, _, pre, post, he, hE, hL⟩ := runs_all h2 h4 hr
  refine ⟨parts, h1, part, hm, ?_⟩
  simp only [Leave] at hL
  rw [if_neg (by omega)] at hL
  obtain ⟨z, hz, _, hside⟩ := hL
  refine ⟨pre ++ (poly.drop i).take (j - i), z, by rw [he, hz], fun k h5 h6 => ?_, ?_⟩
  · apply List.mem_append_right
    rw [List.mem_iff_getElem?]
    refine ⟨k - i, ?_⟩
    rw [List.getElem?_take, if_pos (by omega), List.getElem?_drop, show i + (k - i) = k by omega]
    simp [pt, List.getD, show k < poly.length by omega]
  · intro e; have := (hside.1 e).1; omega

/-- the hypotheses can be met: distances -1, 1 and -2 -/
example : ∃ parts, intersectLine [(0, 1), (1, -1), (2, 2)] (0, 0) (1, 0) = .ok parts ∧ ∃ part ∈ parts, ∃ l z, part = l ++ [z] ∧
    (∀ k, 1 ≤ k → k < 2 → pt [(0, 1), (1, -1), (2, 2)] k ∈ l) ∧ side (0, 0) (1, 0) z ≠ 0 := by
  have hs : ∀ x y : ℝ, side (0, 0) (1, 0) (x, y) = -y := by intro x y; norm_num [side]
  refine intersectLine_leave_violated (by intro e; have := congrArg Prod.fst e; norm_num at this) (fun i j hi hj r => ?_) (by norm_num) (by simp) ⟨by norm_num, by simp, ?_, ?_, ?_⟩
  · have := r.lt
    simp only [List.length_cons, List.length_nil] at hj
    obtain ⟨rfl, rfl⟩ : i = 1 ∧ j = 2 := by omega
    norm_num [pt, hs]
  · intro k h1 h2
    obtain rfl : k = 1 := by omega
    norm_num [pt, hs]
  · right; norm_num [pt, hs]
  · right; norm_num [pt, hs]

theorem mag_unit : mag ((0, -1) : Pt ℝ) = 1 := by
  rw [show ((0, -1) : Pt ℝ) = -(0, 1) by ext <;> simp, mag_neg]
  unfold mag sqMag; norm_num

/-- C71, violated: a division by zero for the points at distances -1, 1 and -1 from the line. -/
theorem intersectLine_division_violated : intersectLine [(0, 1), (1, -1), (2, 1)] (0, 0) (1, 0) = .ub := by
  have h0 : mag (((((1, 0) : Pt ℝ) - (0, 0)).2, -(((1, 0) : Pt ℝ) - (0, 0)).1) : Pt ℝ) = 1 := by
    have e : (((((1, 0) : Pt ℝ) - (0, 0)).2, -(((1, 0) : Pt ℝ) - (0, 0)).1) : Pt ℝ) = (0, -1) := by ext <;> simp
    exact (congrArg mag e).trans mag_unit
  have hd : ∀ x y : ℝ, lineDist (0, 0) (1, 0) (x, y) = -y := by
    intro x y
    simp only [lineDist, h0]
    norm_num [dot]
  simp only [intersectLine, List.length_cons, List.length_nil, h0]
  norm_num [rd, Outcome.bind, forUp, cutBody, hd, cutPoint, prevPt, quot]

/-- C71, violated: the segment from (1, -1) to (2, 1) is cut at the line y = 0; the result ends at (1, -1) instead of (3/2, 0). -/
theorem intersectLine_end_violated : intersectLine [(1, -1), (2, 1)] (0, 0) (1, 0) = .ok [[(1, -1), (1, -1)]] := by
  have h0 : mag (((((1, 0) : Pt ℝ) - (0, 0)).2, -(((1, 0) : Pt ℝ) - (0, 0)).1) : Pt ℝ) = 1 := by
    have e : (((((1, 0) : Pt ℝ) - (0, 0)).2, -(((1, 0) : Pt ℝ) - (0, 0)).1) : Pt ℝ) = (0, -1) := by ext <;> simp
    exact (congrArg mag e).trans mag_unit
  have hd : ∀ x y : ℝ, lineDist (0, 0) (1, 0) (x, y) = -y := by
    intro x y
    simp only [lineDist, h0]
    norm_num [dot]
  simp only [intersectLine, List.length_cons, List.length_nil, h0]
  norm_num [rd, Outcome.bind, forUp, cutBody, hd, cutPoint, prevPt, quot]

/-! ## C72: edges in a label image -/

/-- C72: marking an edge never leaves the image; a pixel of a label that is covered becomes minus the number of segments over it, a pixel that is already
marked is decreased by that number, and all others stay. -/
theorem markEdge_pixels (l : Lines) (img : Img) : ∃ img', markEdge l img = .ok img' ∧ img'.w = img.w ∧ img'.h = img.h ∧
    ∀ x y, img'.px x y = if l.cover img x y = 0 then img.px x y else if img.px x y < 0 then img.px x y - l.cover img x y else -l.cover img x y := by
  obtain ⟨s, e, A⟩ := imgLoop_all markVal l img
  refine ⟨s.1, by simp only [markEdge, e, Outcome.bind], A.1, A.2.1, fun x y => ?_⟩
  rw [A.2.2.1, iter_mark]

/-- A history of calls on an image of labels: the edges are marked and removed in any order, an edge is only removed as often as it was marked, and
the new labels are not negative.  `Shown img0 es img last`: `es` are the edges that are marked now and `last x y` is the newest label of the pixel. -/
inductive Shown (img0 : Img) : List Lines → Img → (Int → Int → Int) → Prop
  | start : (∀ x y, 0 ≤ img0.px x y) → Shown img0 [] img0 img0.px
  | mark {es img img' last} (l : Lines) : Shown img0 es img last → markEdge l img = .ok img' → Shown img0 (l :: es) img' last
  | remove {es es' img img' out last} (l : Lines) (sub : Int) : Shown img0 es img last → es.Perm (l :: es') → 0 ≤ sub → removeEdge l sub img = .ok (img', out) →
      Shown img0 es' img' (fun x y => if 0 < l.cover img0 x y ∧ (es'.map fun e => e.cover img0 x y).sum = 0 then sub else last x y)

theorem cover_congr {a b : Img} (hw : a.w = b.w) (hh : a.h = b.h) (l : Lines) (x y : Int) : l.cover a x y = l.cover b x y := by
  unfold Lines.cover; rw [hw, hh]

theorem Shown.size {img0 : Img} {es : List Lines} {img : Img} {last : Int → Int → Int} (h : Shown img0 es img last) : img.w = img0.w ∧ img.h = img0.h := by
  induction h with
  | start => exact ⟨rfl, rfl⟩
  | mark l _ e ih =>
    obtain ⟨i, e', hw, hh, _⟩ := markEdge_pixels l _
    rw [e] at e'; cases e'
    exact ⟨hw.trans ih.1, hh.trans ih.2⟩
  | remove l sub _ _ _ e ih =>
    obtain ⟨s, e', A⟩ := imgLoop_all (removeVal sub) l _
    rw [removeEdge, e'] at e; cases e
    exact ⟨A.1.trans ih.1, A.2.1.trans ih.2⟩

theorem shown_px {img0 : Img} {es : List Lines} {img : Img} {last : Int → Int → Int} (h : Shown img0 es img last) :
    ∀ x y, 0 ≤ last x y ∧ img.px x y = if (es.map fun e => e.cover img0 x y).sum = 0 then last x y else -((es.map fun e => e.cover img0 x y).sum : Nat) := by
  induction h with
  | start h0 => intro x y; exact ⟨h0 x y, by simp⟩
  | @mark es img img' last l hs e ih =>
    intro x y
    obtain ⟨i, e', hw, hh, hp⟩ := markEdge_pixels l img
    rw [e] at e'; cases e'
    have hc := cover_congr hs.size.1 hs.size.2 l x y
    obtain ⟨i1, i2⟩ := ih x y
    refine ⟨i1, ?_⟩
    rw [hp, hc, i2, List.map_cons, List.sum_cons]
    split_ifs <;> omega
  | @remove es es' img img' out last l sub hs hperm hsub e ih =>
    intro x y
    obtain ⟨s, e', A⟩ := imgLoop_all (removeVal sub) l img
    rw [removeEdge, e'] at e; cases e
    have hc := cover_congr hs.size.1 hs.size.2 l x y
    obtain ⟨i1, i2⟩ := ih x y
    have hsum : (es.map fun e => e.cover img0 x y).sum = l.cover img0 x y + (es'.map fun e => e.cover img0 x y).sum := by
      rw [(hperm.map fun e => e.cover img0 x y).sum_eq, List.map_cons, List.sum_cons]
    rw [hsum] at i2
    have hpx := A.2.2.1 x y
    dsimp only at hpx
    rw [hc, i2] at hpx
    refine ⟨by dsimp only; split <;> omega, ?_⟩
    rw [hpx]
    dsimp only
    by_cases h0 : l.cover img0 x y = 0
    · rw [h0]; simp [iter]
    · by_cases h1 : (es'.map fun e => e.cover img0 x y).sum = 0
      · rw [if_neg (by omega), if_pos h1, if_pos ⟨by omega, h1⟩]
        exact (iter_remove_last sub _ _ (by omega) (by omega)).1
      · rw [if_neg (by omega), if_neg h1, iter_remove _ _ _ (by omega)]
        omega

/-- C72: after any history, a pixel shows minus the number of marked segments that cover it, and its newest label if there are none. -/
theorem label_image_history {img0 : Img} {es : List Lines} {img : Img} {last : Int → Int → Int} (h : Shown img0 es img last) (x y : Int) :
    img.px x y = if (es.map fun e => e.cover img0 x y).sum = 0 then last x y else -((es.map fun e => e.cover img0 x y).sum : Nat) := (shown_px h x y).2

/-- C72: removing an edge in such a history never leaves the image, and it returns exactly the pixels that are covered by this edge and by no other, each once. -/
theorem removeEdge_returns {img0 : Img} {es es' : List Lines} {img : Img} {last : Int → Int → Int} (h : Shown img0 es img last) {l : Lines} (hl : es.Perm (l :: es'))
    (sub : Int) : ∃ img' out, removeEdge l sub img = .ok (img', out) ∧ out.Nodup ∧
      ∀ x y, (x, y) ∈ out ↔ 0 < l.cover img0 x y ∧ ∀ e ∈ es', e.cover img0 x y = 0 := by
  obtain ⟨s, e', A⟩ := imgLoop_all (removeVal sub) l img
  have hcount : ∀ x y, s.2.count (x, y) = if 0 < l.cover img0 x y ∧ (es'.map fun e => e.cover img0 x y).sum = 0 then 1 else 0 := by
    intro x y
    have hc := cover_congr h.size.1 h.size.2 l x y
    obtain ⟨i1, i2⟩ := shown_px h x y
    have hsum : (es.map fun e => e.cover img0 x y).sum = l.cover img0 x y + (es'.map fun e => e.cover img0 x y).sum := by
      rw [(hl.map fun e => e.cover img0 x y).sum_eq, List.map_cons, List.sum_cons]
    rw [hsum] at i2
    have hpx := A.2.2.2 x y
    dsimp only at hpx
    rw [hc, i2] at hpx
    rw [hpx, List.count_nil, Nat.zero_add]
    by_cases h0 : l.cover img0 x y = 0
    · rw [h0]; simp [outs]
    · by_cases h1 : (es'.map fun e => e.cover img0 x y).sum = 0
      · rw [if_neg (by omega), if_pos ⟨by omega, h1⟩]
        exact (iter_remove_last sub _ _ (by omega) (by omega)).2
      · rw [if_neg (by omega), if_neg (fun h => h1 h.2), outs_remove _ _ _ (by omega)]
  refine ⟨s.1, s.2, e', ?_, fun x y => ?_⟩
  · rw [List.nodup_iff_count_le_one]
    intro ⟨x, y⟩
    rw [hcount]; split <;> omega
  · rw [← List.count_pos_iff, hcount]
    have : (es'.map fun e => e.cover img0 x y).sum = 0 ↔ ∀ e ∈ es', e.cover img0 x y = 0 := by
      rw [List.sum_eq_zero_iff]; simp
    rw [← this]
    split <;> simp_all

/-- an edge over two pixels of a 3 × 2 image -/
def line0 : Lines := ⟨0, 1, fun y => if y = 0 then [(1, 5)] else []⟩
/-- an image with label 7 -/
def img7 : Img := ⟨3, 2, fun _ _ => 7⟩

example : ∃ img, Shown img7 [line0, line0] img img7.px ∧ img.px 1 0 = -2 ∧ img.px 0 0 = 7 := by
  obtain ⟨i1, e1, _⟩ := markEdge_pixels line0 img7
  obtain ⟨i2, e2, _⟩ := markEdge_pixels line0 i1
  have hs : Shown img7 [line0, line0] i2 img7.px := .mark line0 (.mark line0 (.start fun _ _ => by simp [img7]) e1) e2
  exact ⟨i2, hs, by rw [label_image_history hs]; decide, by rw [label_image_history hs]; decide⟩

/-! ## C73: tangents and curvature -/

/-- C73: for `dx ≥ 1` and enough points, `tangentList` never fails; it has one entry for every index `i` whose two neighbours at distance `dx` are not (almost)
the same: the arc length of the middle point and the direction from the first to the last point, and consecutive angles differ by at most half a turn. -/
theorem tangentList_exact (p : List (Pt ℝ)) (dx skip : Nat) (hdx : 0 < dx) (hl : 2 * dx + 2 * skip ≤ p.length) (h32 : p.length < 2 ^ 32) :
    ∃ res idx, tangentList p dx skip = .ok res ∧
      idx = (List.range' skip (p.length - 2 * dx - 2 * skip)).filter (fun i => decide (1e-14 ≤ sqMag (p.getD (i + 2 * dx) 0 - p.getD i 0))) ∧
      res.map Prod.fst = idx.map (fun i => reach p (i + dx)) ∧
      List.Forall₂ SameAngle (res.map Prod.snd) (idx.map fun i => Complex.arg ⟨(p.getD (i + 2 * dx) 0 - p.getD i 0).1, (p.getD (i + 2 * dx) 0 - p.getD i 0).2⟩) ∧
      Continuous' 0 (res.map Prod.snd) := by
  have hlen := lenBody_spec (p := p) (n := skip + dx - 1) (by omega)
  obtain ⟨s, e, h1, h2⟩ := tangLoop_spec (p := p) (dx := dx) (k := skip) (n := p.length - 2 * dx - 2 * skip) hdx (by omega)
  refine ⟨s.2.2, _, ?_, rfl, h1, h2.same, h2.cont⟩
  simp only [tangentList]
  rw [if_neg (by rw [u32_small (by omega) (by omega)]; omega), if_neg (by omega), Int.toNat_natCast, show dx + skip - 1 = skip + dx - 1 by omega, hlen]
  simp only [Outcome.bind]
  rw [show p.length - 2 * dx - skip - skip = p.length - 2 * dx - 2 * skip by omega, e]

/-- C73: for `dx ≥ 1` and enough points, `curvatureList` never fails; it has one entry for every index `i` whose distances are not (almost) 0: the arc
length of the middle point, and the turning angle there per mean distance, negative for turns to the right. -/
theorem curvatureList_exact_partial (p : List (Pt ℝ)) (dx skip : Nat) (hdx : 0 < dx) (hl : 2 * dx + 2 * skip ≤ p.length) (h32 : p.length < 2 ^ 32) :
    curvatureList p dx skip = .ok (((List.range' skip (p.length - 2 * dx - 2 * skip)).filter fun i =>
        decide (1e-8 ≤ mag (p.getD (i + dx) 0 - p.getD i 0) ∧ 1e-8 ≤ mag (p.getD (i + 2 * dx) 0 - p.getD (i + dx) 0))).map
      fun i => (reach p (i + dx), turnPerLength (p.getD i 0) (p.getD (i + dx) 0) (p.getD (i + 2 * dx) 0))) := by
  have hlen := lenBody_spec (p := p) (n := skip + dx - 1) (by omega)
  obtain ⟨pos, e⟩ := curvLoop_spec (p := p) (dx := dx) (k := skip) (n := p.length - 2 * dx - 2 * skip) hdx (by omega) h32
  simp only [curvatureList]
  rw [if_neg (by rw [u32_small (by omega) (by omega)]; omega), show u32 ((dx : Int) + skip - 1) = skip + dx - 1 by rw [u32_small (by omega) (by omega)]; omega, hlen]
  simp only [Outcome.bind]
  rw [show u32 ((p.length : Int) - 2 * dx - skip) - skip = p.length - 2 * dx - 2 * skip by rw [u32_small (by omega) (by omega)]; omega, e]
  rfl

example : ∃ (res : List (ℝ × ℝ)) (idx : List Nat), tangentList [(0, 0), (1, 0), (1, 1), (0, 1)] 1 0 = .ok res ∧ idx.length = 2 ∧ res.map Prod.fst = idx.map (fun i => reach [(0, 0), (1, 0), (1, 1), (0, 1)] (i + 1)) := by
  obtain ⟨res, idx, h1, h2, h3, _⟩ := tangentList_exact [(0, 0), (1, 0), (1, 1), (0, 1)] 1 0 (by norm_num) (by simp) (by simp)
  refine ⟨res, idx, h1, ?_, h3⟩
  rw [h2]
  simp only [List.length_cons, List.length_nil]
  norm_num [List.range', sqMag]

/-- C73: a step below 1 is refused by `tangentList`. -/
theorem tangentList_step (p : List (Pt ℝ)) (dx : Int) (skip : Nat) (h : dx < 1) : tangentList p dx skip = .precond := by
  simp only [tangentList]; split
  · rfl
  · rfl

theorem forUp_ub {p : List (Pt ℝ)} (n : Nat) (k : Nat) (s : ℝ) (h : p.length ≤ k + n) (hn : 0 < n) : forUp (lenBody p) n k s = .ub := by
  induction n generalizing k s with
  | zero => omega
  | succ n ih =>
    simp only [forUp]
    by_cases hk : k + 1 < p.length
    · simp only [lenBody, rd_lt hk, rd_lt (show k < p.length by omega), Outcome.bind]
      exact ih (k + 1) _ (by omega) (by omega)
    · have : rd p (k + 1) = .ub := by simp [rd, List.getElem?_eq_none (show p.length ≤ k + 1 by omega)]
      simp only [lenBody, this, Outcome.bind]

/-- C73, violated: `curvatureList(p, 0)` is undefined for every polygon (`tangentList` refuses it). -/
theorem curvatureList_step_violated (p : List (Pt ℝ)) (h32 : p.length < 2 ^ 32) : curvatureList p 0 0 = .ub := by
  simp only [curvatureList]
  have h1 : u32 (2 * 0 + 2 * ((0 : Nat) : Int)) = 0 := by decide
  have h2 : u32 (0 + ((0 : Nat) : Int) - 1) = 2 ^ 32 - 1 := by decide
  rw [h1, if_neg (by omega), h2, forUp_ub _ _ _ (by omega) (by norm_num)]
  rfl

/-! ## C74: composed tangents -/

/-- C74: `composeTangentLists` gives the arc lengths and directions along the darts one after the other, darts of negative length being traversed
backwards (with the opposite direction); angles are the same up to full turns, and consecutive angles differ by at most half a turn. -/
theorem composeTangentLists_exact (l : List (List (ℝ × ℝ) × ℝ)) :
    (composeTangentLists l).map Prod.fst = (alongDarts 0 l).map Prod.fst ∧
    List.Forall₂ SameAngle ((composeTangentLists l).map Prod.snd) ((alongDarts 0 l).map Prod.snd) ∧
    Continuous' 0 ((composeTangentLists l).map Prod.snd) := by
  obtain ⟨h1, c, h2⟩ := composeLoop_spec l 0 (0, 0) (Cont.ok_new 0)
  exact ⟨h1, h2.same, h2.cont⟩

theorem alongDarts_ge (l : List (List (ℝ × ℝ) × ℝ)) (h : ∀ x ∈ l, x.1.Pairwise (fun a b => a.1 ≤ b.1) ∧ ∀ a ∈ x.1, 0 ≤ a.1 ∧ a.1 ≤ |x.2|) :
    ∀ off, ((alongDarts off l).map Prod.fst).Pairwise (· ≤ ·) ∧ ∀ a ∈ (alongDarts off l).map Prod.fst, off ≤ a := by
  induction l with
  | nil => intro off; simp [alongDarts]
  | cons x l ih =>
    intro off
    obtain ⟨t, len⟩ := x
    obtain ⟨hs, hb⟩ := h (t, len) (by simp)
    obtain ⟨i1, i2⟩ := ih (fun y hy => h y (List.mem_cons_of_mem _ hy)) (off + |len|)
    dsimp only at hs hb
    simp only [alongDarts, List.map_append]
    have hfirst : ((if 0 < len then t.map (fun x => (off + x.1, x.2)) else t.reverse.map (fun x => (off + (|len| - x.1), x.2 + Real.pi))).map Prod.fst).Pairwise (· ≤ ·) ∧
        ∀ a ∈ ((if 0 < len then t.map (fun x => (off + x.1, x.2)) else t.reverse.map (fun x => (off + (|len| - x.1), x.2 + Real.pi))).map Prod.fst), off ≤ a ∧ a ≤ off + |len| := by
      by_cases hl : 0 < len
      · rw [if_pos hl, List.map_map]
        refine ⟨?_, ?_⟩
        · rw [List.pairwise_map]
          exact hs.imp (fun h => by simp only [Function.comp_apply]; linarith)
        · intro a ha
          obtain ⟨y, hy, rfl⟩ := List.mem_map.1 ha
          have := hb y hy
          simp only [Function.comp_apply]; constructor <;> linarith
      · rw [if_neg hl, List.map_map]
        refine ⟨?_, ?_⟩
        · rw [List.pairwise_map, List.pairwise_reverse]
          exact hs.imp (fun h => by simp only [Function.comp_apply]; linarith)
        · intro a ha
          obtain ⟨y, hy, rfl⟩ := List.mem_map.1 ha
          have := hb y (List.mem_reverse.1 hy)
          simp only [Function.comp_apply]; constructor <;> linarith
    refine ⟨List.pairwise_append.2 ⟨hfirst.1, i1, fun a ha b hb => (hfirst.2 a ha).2.trans (i2 b hb)⟩, fun a ha => ?_⟩
    rcases List.mem_append.1 ha with ha | ha
    · exact (hfirst.2 a ha).1
    · have := i2 a ha
      have := abs_nonneg len
      linarith

/-- C74: if the arc lengths of every list ascend from 0 to the length of the dart at most, those of the composed list ascend. -/
theorem composeTangentLists_ascending (l : List (List (ℝ × ℝ) × ℝ)) (h : ∀ x ∈ l, x.1.Pairwise (fun a b => a.1 ≤ b.1) ∧ ∀ a ∈ x.1, 0 ≤ a.1 ∧ a.1 ≤ |x.2|) :
    ((composeTangentLists l).map Prod.fst).Pairwise (· ≤ ·) := by
  rw [(composeTangentLists_exact l).1]; exact (alongDarts_ge l h 0).1

example : (composeTangentLists [([(1, 0)], 2), ([(0, 1), (1, 1)], -3)]).map Prod.fst = [1, 4, 5] := by
  rw [(composeTangentLists_exact _).1]; norm_num [alongDarts]

/-! ## C75: fitting a parabola -/

/-- C75: after any lists of tangents have been added, there are angles `θ`, the same as the given ones up to full turns and continuous, such that
every solution of the linear system is a parabola with the least sum of squared errors, and `sumOfSquaredErrors0` is this sum. -/
theorem parabolaFit_exact (ls : List (List (ℝ × ℝ))) : ∃ θ : List ℝ, List.Forall₂ SameAngle θ (ls.flatten.map Prod.snd) ∧ Continuous' 0 θ ∧
    ∀ p0 p1 p2, (addLists ls).Solves p0 p1 p2 →
      (addLists ls).sumOfSquaredErrors0 p0 p1 p2 = sqErr (List.zip (ls.flatten.map Prod.fst) θ) p0 p1 p2 ∧
      ∀ q0 q1 q2, sqErr (List.zip (ls.flatten.map Prod.fst) θ) p0 p1 p2 ≤ sqErr (List.zip (ls.flatten.map Prod.fst) θ) q0 q1 q2 := by
  obtain ⟨θ, h1, h2, h3⟩ := addLists_spec ls .new [] Sums.new (Cont.ok_new 0) rfl
  rw [List.nil_append] at h1
  have hl : θ.length = ls.flatten.length := by have := h2.same.length_eq; rwa [List.length_map] at this
  have hn : (addLists ls).count = (List.zip (ls.flatten.map Prod.fst) θ).length := by
    rw [List.length_zip, List.length_map, hl]; unfold addLists; rw [h3]; simp
  refine ⟨θ, h2.same, h2.cont, fun p0 p1 p2 hs => ⟨?_, fun q0 q1 q2 => minimal h1 hn hs q0 q1 q2⟩⟩
  unfold ParabolaFit.sumOfSquaredErrors0
  by_cases h0 : (addLists ls).count = 0
  · rw [if_pos h0]
    have : List.zip (ls.flatten.map Prod.fst) θ = [] := by
      rw [← List.length_eq_zero_iff, ← hn]; exact h0
    rw [this]; simp [sqErr]
  · rw [if_neg h0, sqErr_eq, ← hn]
    have h1' : Sums (addLists ls) (List.zip (ls.flatten.map Prod.fst) θ) := h1
    rw [← h1'.a4, ← h1'.a3, ← h1'.a2, ← h1'.a1, ← h1'.t2, ← h1'.t1, ← h1'.t0, ← h1'.tt]

/-- C75: with three different arc lengths the linear system has exactly one solution. -/
theorem parabolaFit_unique (ls : List (List (ℝ × ℝ))) {x y z : ℝ × ℝ} (hx : x ∈ ls.flatten) (hy : y ∈ ls.flatten) (hz : z ∈ ls.flatten)
    (hxy : x.1 ≠ y.1) (hxz : x.1 ≠ z.1) (hyz : y.1 ≠ z.1) : ∃! p : ℝ × ℝ × ℝ, (addLists ls).Solves p.1 p.2.1 p.2.2 := by
  obtain ⟨θ, h1, h2, h3⟩ := addLists_spec ls .new [] Sums.new (Cont.ok_new 0) rfl
  rw [List.nil_append] at h1
  have hl : θ.length = ls.flatten.length := by have := h2.same.length_eq; rwa [List.length_map] at this
  have hn : (addLists ls).count = (List.zip (ls.flatten.map Prod.fst) θ).length := by
    rw [List.length_zip, List.length_map, hl]; unfold addLists; rw [h3]; simp
  have key : ∀ w ∈ ls.flatten, ∃ t, (w.1, t) ∈ List.zip (ls.flatten.map Prod.fst) θ := by
    intro w hw
    obtain ⟨n, hn', rfl⟩ := List.getElem_of_mem hw
    refine ⟨θ[n]'(by omega), ?_⟩
    rw [List.mem_iff_getElem]
    exact ⟨n, by rw [List.length_zip, List.length_map, hl]; omega, by rw [List.getElem_zip, List.getElem_map]⟩
  obtain ⟨tx, mx⟩ := key x hx
  obtain ⟨ty, my⟩ := key y hy
  obtain ⟨tz, mz⟩ := key z hz
  exact solvable h1 hn mx my mz hxy hxz hyz

example : ∃! p : ℝ × ℝ × ℝ, (addLists [[(0, 0), (1, 1)], [(2, 1)]]).Solves p.1 p.2.1 p.2.2 :=
  parabolaFit_unique _ (x := (0, 0)) (y := (1, 1)) (z := (2, 1)) (by simp) (by simp) (by simp) (by norm_num) (by norm_num) (by norm_num)

end Verif.PyPoly
