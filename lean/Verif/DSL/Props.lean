import Verif.DSL.Loop
import Mathlib.Tactic.FieldSimp

/-!
# C42: digital straight lines

`L.contains x y` is the observable: the point set of the line.
-/

namespace Verif.DSL.Props

open Verif.DSL

/-- C42: `mirrorX` reflects the point set at the y axis, for 4- and 8-connected lines. -/
theorem mirrorX_points (L : Line) (x y : Int) :
    L.mirrorX.contains x y = L.contains (-x) y := by
  rw [Bool.eq_iff_iff, contains_iff, contains_iff]
  simp only [Line.mirrorX, Line.eval, Line.width, abs_neg]
  rw [show -L.a * x = L.a * -x by ring]

/-- C42: `mirrorXY` reflects the point set at the origin. -/
theorem mirrorXY_points (L : Line) (x y : Int) :
    L.mirrorXY.contains x y = L.contains (-x) (-y) := by
  rw [Bool.eq_iff_iff, contains_iff, contains_iff]
  have hw : L.mirrorXY.width = L.width := rfl
  rw [hw]
  simp only [Line.mirrorXY, Line.eval]
  rw [show L.a * -x - L.b * -y = -(L.a * x - L.b * y) by ring]
  omega

/-- C42: `mirrorY` reflects the point set at the x axis. -/
theorem mirrorY_points (L : Line) (x y : Int) :
    L.mirrorY.contains x y = L.contains x (-y) := by
  rw [Line.mirrorY, mirrorXY_points, mirrorX_points, neg_neg]

/-- C42: mirroring twice restores the line. -/
theorem mirror_involutive (L : Line) :
    L.mirrorX.mirrorX = L ∧ L.mirrorXY.mirrorXY = L ∧ L.mirrorY.mirrorY = L := by
  obtain ⟨e, a, b, p⟩ := L
  refine ⟨by simp [Line.mirrorX], ?_, ?_⟩
  · simp only [Line.mirrorXY, Line.width, Line.mk.injEq, true_and]; ring
  · simp only [Line.mirrorY, Line.mirrorXY, Line.mirrorX, Line.width, abs_neg, neg_neg,
      Line.mk.injEq, true_and]
    ring

/-- C42: `convertToFourConnected` of an 8-connected line of the first octant shears the
point set: a diagonal step becomes a vertical one.  A 4-connected line is unchanged. -/
theorem convert_points (L : Line) (h : L.eight = true → 0 ≤ L.a ∧ L.a ≤ L.b) (x y : Int) :
    L.convertToFourConnected.contains x y =
      if L.eight then L.contains (x + y) y else L.contains x y := by
  obtain ⟨e, a, b, p⟩ := L
  cases e with
  | false => simp [Line.convertToFourConnected]
  | true =>
    obtain ⟨h1, h2⟩ := h rfl
    simp only at h1 h2
    rw [Bool.eq_iff_iff, if_pos rfl, contains_iff, contains_iff]
    simp only [Line.convertToFourConnected, if_true, Line.eval, Line.width,
      Bool.false_eq_true, if_false]
    rw [abs_of_nonneg h1, abs_of_nonneg (show 0 ≤ b - a by omega),
      abs_of_nonneg (show 0 ≤ b by omega), max_eq_right h2,
      show a * (x + y) - b * y = a * x - (b - a) * y by ring, show a + (b - a) = b by ring]

/-- C42: outside the first octant the conversion is not the shear. -/
theorem convert_points_octant_needed :
    ∃ (L : Line) (x y : Int), L.eight = true ∧
      L.convertToFourConnected.contains x y ≠ L.contains (x + y) y :=
  ⟨⟨true, 2, 1, 0⟩, 1, 0, by decide⟩

/-- C42: with positive `b`, the line contains exactly the integer points between its
lower and upper leaning lines as given by `slope` and `axisIntercept`. -/
theorem leaning_lines (L : Line) (hb : 0 < L.b) (x y : Int) :
    L.contains x y = true ↔
      L.slope * x + L.axisIntercept .lower ≤ y ∧ (y : ℚ) ≤ L.slope * x + L.axisIntercept .upper := by
  have hbq : (0 : ℚ) < L.b := by exact_mod_cast hb
  rw [contains_iff]
  simp only [Line.slope, Line.axisIntercept, Line.eval]
  rw [show (L.a : ℚ) / L.b * x + -((L.pos : ℚ) + ((L.width - 1 : Int) : ℚ)) / L.b =
      ((L.a * x - L.pos - (L.width - 1) : Int) : ℚ) / L.b by push_cast; field_simp; ring,
    show (L.a : ℚ) / L.b * x + -(L.pos : ℚ) / L.b = ((L.a * x - L.pos : Int) : ℚ) / L.b by
      push_cast; field_simp; ring,
    div_le_iff₀ hbq, le_div_iff₀ hbq]
  have e : ∀ m : Int, ((y : ℚ) * L.b ≤ (m : ℚ) ↔ y * L.b ≤ m) := by intro m; norm_cast
  have e' : ∀ m : Int, ((m : ℚ) ≤ (y : ℚ) * L.b ↔ m ≤ y * L.b) := by intro m; norm_cast
  rw [e, e', mul_comm y L.b]
  omega

/-- C42: the center line runs half way between the leaning lines. -/
theorem center_line (L : Line) :
    L.axisIntercept .center = (L.axisIntercept .lower + L.axisIntercept .upper) / 2 := by
  simp only [Line.axisIntercept]; ring

/-- C42: whenever `addPoint` returns true the point is contained afterwards; whenever it
returns false, the point was not contained and the line is unchanged.  No assumption on
the line or the point. -/
theorem addPoint_sound (L L' : Line) (x y : Int) (r : Bool)
    (h : addPoint L x y = .ok (r, L')) :
    (r = true → L'.contains x y = true) ∧ (r = false → L' = L ∧ L.contains x y = false) := by
  simp only [addPoint] at h
  by_cases hpre : L.eight = true ∧ L.b ≥ L.a ∧ L.a ≥ 0
  swap
  · rw [if_pos hpre] at h; cases h
  rw [if_neg (not_not.2 hpre)] at h
  have hw : L.width = L.b := by
    simp only [Line.width, hpre.1, if_true]
    rw [abs_of_nonneg hpre.2.2, abs_of_nonneg (le_trans hpre.2.2 hpre.2.1)]
    exact max_eq_right hpre.2.1
  by_cases hin : 0 ≤ L.eval x y - L.pos ∧ L.eval x y - L.pos < L.b
  · rw [if_pos hin] at h
    cases h
    refine ⟨fun _ => ?_, fun h => by cases h⟩
    rw [contains_iff, hw]; exact hin
  rw [if_neg hin] at h
  by_cases hfar : L.eval x y - L.pos ≠ -1 ∧ L.eval x y - L.pos ≠ L.b
  · rw [if_pos hfar] at h
    cases h
    refine ⟨fun h => by (cases h), fun _ => ⟨rfl, ?_⟩⟩
    rw [Bool.eq_false_iff, ne_eq, contains_iff, hw]; exact hin
  rw [if_neg hfar] at h
  by_cases hs : decide (x < 0) = decide (y < 0)
  swap
  · rw [if_pos hs] at h; cases h
  rw [if_neg (not_not.2 hs)] at h
  simp only [addOutside] at h
  by_cases hb : L.b = 0
  · rw [if_pos hb] at h; cases h
  rw [if_neg hb] at h
  generalize (⟨L.eight, _, _, _⟩ : Line) = M at h
  by_cases hc : M.contains x y = true
  · rw [if_pos hc] at h; cases h; exact ⟨fun _ => hc, fun h => by cases h⟩
  · rw [if_neg hc] at h; cases h

/-- C42: the recognition step.  Take a line of the first octant with coprime slope whose
denominator does not exceed the distance of the new point.  If the point lies just
outside (one step above the upper or below the lower leaning line), and the slope can be
changed within the octant, then `addPoint` succeeds; the new line contains the new point
and every point the old line had between the origin and the new point; and it is again
a line of the first octant with coprime slope. -/
theorem addPoint_extends (L : Line) (hL : Octant L) (x y : Int)
    (hv : L.eval x y - L.pos = -1 ∨ L.eval x y - L.pos = L.b)
    (hxb : L.b ≤ |x|) (hxy : x < 0 ∧ y < 0 ∨ 0 ≤ x ∧ 0 ≤ y) (ha : 0 < L.a) (hab : L.a < L.b) :
    ∃ L', addPoint L x y = .ok (true, L') ∧ Octant L' ∧ L'.b ≤ |x| ∧ L'.contains x y = true ∧
      ∀ p q, Between p x → L.contains p q = true → L'.contains p q = true := by
  have hb := hL.b_pos
  have hpos : L.eval x y - L.pos = L.b → L.eval x y - L.pos ≠ -1 := by intro h; omega
  obtain ⟨L', he, hO, h1, h2, -, h3⟩ := addOutside_spec hL (x := x) (y := y)
    (above := decide (L.eval x y - L.pos = -1))
    (by
      by_cases hm : L.eval x y - L.pos = -1
      · simp [hm]
      · simp only [hm, decide_false, Bool.false_eq_true, if_false]; exact hv.resolve_left hm)
    hxb hxy (by split <;> first | exact hab | exact ha | (split <;> first | exact hab | exact ha))
  refine ⟨L', ?_, hO, h1, h2, h3⟩
  simp only [addPoint]
  rw [if_neg (by simpa using ⟨hL.eight, hL.a_le, hL.a_nonneg⟩), if_neg (by omega),
    if_neg (by omega), if_neg, he]
  rw [not_not]
  rcases hxy with ⟨a, b⟩ | ⟨a, b⟩
  · simp [a, b]
  · rw [decide_eq_false (by omega), decide_eq_false (by omega)]

/-- C42: `addPoint` on the degenerate line `a = b = 0` divides by zero. -/
theorem addPoint_degenerate_violated : addPoint ⟨true, 0, 0, 0⟩ 1 1 = .ub := by decide

/-- C42: `tangentDSL` returns a distance `d` and leaves the output line alone (`d = 0`),
or a line that contains every point of the chain at most `d` steps away from the given
point, in both directions; these steps use only two Freeman codes.  For all code
sequences, indices, open and closed chains, with or without assertions. -/
theorem tangent_contains (asserts : Bool) (fuel : Nat) (codes : List Nat) (idx : Nat)
    (closed : Bool) (dsl0 L : Line) (d : Nat) (h : Int → Int) (hp : IsPath codes idx h)
    (he : tangentDSL asserts fuel codes idx closed dsl0 = .ok (d, L)) :
    (d = 0 ∧ L = dsl0) ∨
    (1 ≤ d ∧ (∀ i : Int, -d ≤ i → i ≤ d → L.contains i (h i) = true) ∧
      (0 ≤ L.a ∧ L.a ≤ L.b ∧ IsCoprime L.a L.b ∧ L.b ≤ 2 * d) ∧
      ∃ c1 c2, ∀ i : Int, -d ≤ i → i < d → codeAt codes idx i = c1 ∨ codeAt codes idx i = c2) := by
  simp only [tangentDSL] at he
  split at he
  · cases he
  next hpre =>
  have hpre := not_not.1 hpre
  split at he
  · cases he
  next hne =>
  have hv : closed = true ∧ 0 < codes.length ∨ closed = false ∧ 0 < idx ∧ idx < codes.length := by
    cases closed
    · right; simpa using hpre
    · left; simp at hne; exact ⟨rfl, List.length_pos_iff.2 hne⟩
  have hsi := start_index hv
  simp only at hsi
  obtain ⟨hs1, hb1⟩ := hsi
  rw [code_eq hs1.1, code_eq hb1.1] at he
  simp only [Outcome.bind_ok] at he
  obtain ⟨r, hr, he⟩ := Outcome.bind_eq_ok.1 he
  cases r with
  | none => left; cases he; exact ⟨rfl, rfl⟩
  | some c =>
    obtain ⟨c1, c2⟩ := c
    simp only at he
    rcases tangentLoop_spec (closed := closed) (c1 := c1) (c2 := c2) hp fuel _
      (linv_init (c := codes.getD (if closed then idx % codes.length else idx) 0) hp dsl0 hs1 hb1)
      with e | ⟨d', L', e, hst⟩
    · rw [e] at he; cases he
    · rw [e] at he; cases he
      rcases hst with hst | ⟨hd, hT, hcodes⟩
      · left; exact hst
      · right
        refine ⟨hd, ?_, ⟨hT.oct.a_nonneg, hT.oct.a_le, hT.oct.cop, ?_⟩, c1, c2, hcodes⟩
        · intro i h1 h2
          rw [contains_iff, hT.oct.width]
          exact hT.mem i h1 h2
        · rcases hT.short with h1 | h1 <;> omega

/-- C42: with assertions compiled out, `tangentDSL` on a non-empty closed chain or at an
inner point of an open chain never throws and never reads outside the sequence; on an
open chain it also terminates. -/
theorem tangent_defined (fuel : Nat) (codes : List Nat) (idx : Nat) (closed : Bool)
    (dsl0 : Line)
    (hv : closed = true ∧ codes ≠ [] ∨ closed = false ∧ 0 < idx ∧ idx < codes.length) :
    (tangentDSL false fuel codes idx closed dsl0 = .hang ∨
      ∃ d L, tangentDSL false fuel codes idx closed dsl0 = .ok (d, L)) ∧
    (closed = false → codes.length ≤ fuel → tangentDSL false fuel codes idx closed dsl0 ≠ .hang) := by
  have hv' : closed = true ∧ 0 < codes.length ∨ closed = false ∧ 0 < idx ∧ idx < codes.length := by
    rcases hv with ⟨h1, h2⟩ | h1
    · exact Or.inl ⟨h1, List.length_pos_iff.2 h2⟩
    · exact Or.inr h1
  have hsi := start_index hv'
  simp only at hsi
  obtain ⟨hs1, hb1⟩ := hsi
  obtain ⟨h, hp⟩ : ∃ h, IsPath codes idx h := by
    refine ⟨fun i => if 0 ≤ i then ((List.range i.toNat).map fun j =>
        ((codeAt codes idx (j : Nat) % 2 : Nat) : Int)).sum else
        -((List.range (-i).toNat).map fun j =>
          ((codeAt codes idx (-1 - (j : Nat)) % 2 : Nat) : Int)).sum, by simp, ?_⟩
    intro i
    by_cases h0 : 0 ≤ i
    · obtain ⟨n, rfl⟩ := Int.eq_ofNat_of_zero_le h0
      have h1 : (0 : Int) ≤ (n : Int) + 1 := by omega
      simp only [h0, h1, if_true, Int.toNat_natCast]
      rw [show ((n : Int) + 1).toNat = n + 1 by omega, List.range_succ]
      simp
    · obtain ⟨n, rfl⟩ : ∃ n : Nat, i = -(n : Int) - 1 := ⟨(-1 - i).toNat, by omega⟩
      simp only [h0, if_false, sub_add_cancel]
      rw [show (-(-(n : Int) - 1)).toNat = n + 1 by omega, List.range_succ]
      by_cases h1 : 0 ≤ -(n : Int)
      · obtain rfl : n = 0 := by omega
        simp
      · simp only [h1, if_false, neg_neg, Int.toNat_natCast, List.map_append, List.map_cons,
          List.map_nil, List.sum_append, List.sum_cons, List.sum_nil]
        rw [show -1 - (n : Int) = -(n : Int) - 1 by ring]
        ring
  have hpre : closed = true ∨ idx > 0 ∧ idx < codes.length := by
    rcases hv with h | h
    · exact Or.inl h.1
    · exact Or.inr h.2
  have hne : ¬ (closed = true ∧ codes.length = 0) := by
    rcases hv' with h | h
    · omega
    · simp [h.1]
  constructor
  · simp only [tangentDSL]
    rw [if_neg (not_not.2 hpre), if_neg hne, code_eq hs1.1, code_eq hb1.1]
    simp only [Outcome.bind_ok]
    rcases findCodes_defined (closed := closed)
      (start := if closed then idx % codes.length else idx) fuel
      (codes.getD (if closed then idx % codes.length else idx) 0) _ _ _ hs1.1 hb1.1 with e | ⟨r, e⟩
    · left; rw [e]; rfl
    · rw [e]
      simp only [Outcome.bind_ok]
      cases r with
      | none => right; exact ⟨_, _, rfl⟩
      | some c =>
        obtain ⟨c1, c2⟩ := c
        rcases tangentLoop_spec (closed := closed) (c1 := c1) (c2 := c2) hp fuel _
          (linv_init (c := codes.getD (if closed then idx % codes.length else idx) 0) hp dsl0 hs1 hb1)
          with e | ⟨d', L', e, -⟩
        · left; exact e
        · right; exact ⟨d', L', e⟩
  · intro hc hfu
    subst hc
    simp only [Bool.false_eq_true, if_false] at hs1 hb1
    have hpos : 0 < idx := by simp at hpre; exact hpre.1
    simp only [tangentDSL]
    rw [if_neg (not_not.2 hpre), if_neg hne]
    simp only [Bool.false_eq_true, if_false]
    rw [code_eq hs1.1, code_eq hb1.1]
    simp only [Outcome.bind_ok]
    have h1 := findCodes_open (start := idx) fuel (codes.getD idx 0)
      (codes.getD ((if idx = 0 then codes.length else idx) - 1) 0) idx _ hs1.1 hb1.1 (by omega)
    rcases findCodes_defined (closed := false) (start := idx) fuel (codes.getD idx 0)
      (codes.getD ((if idx = 0 then codes.length else idx) - 1) 0) idx _ hs1.1 hb1.1 with e | ⟨r, e⟩
    · exact absurd e h1
    · rw [e]
      simp only [Outcome.bind_ok]
      cases r with
      | none => simp
      | some c =>
        obtain ⟨c1, c2⟩ := c
        exact tangentLoop_open hp fuel _ (linv_init hp dsl0 hs1 hb1)
          (by simp only [tangentInit]; omega)

/-- C42: with assertions enabled, `tangentDSL` throws at every inner point of an open chain
whose two neighbouring steps have the same code and that has two steps before and
one more after it: the assertion at dsl.hxx:254 is the wrong way round. -/
theorem tangent_assert_violated (fuel : Nat) (codes : List Nat) (idx : Nat) (dsl0 : Line)
    (h2 : 2 ≤ idx) (hn : idx + 1 < codes.length) (hc : codes[idx]? = codes[idx - 1]?) :
    tangentDSL true (fuel + 1) codes idx false dsl0 = .precond := by
  simp only [tangentDSL]
  rw [if_neg (not_not.2 (Or.inr ⟨by omega, by omega⟩)), if_neg (by simp)]
  simp only [Bool.false_eq_true, if_false]
  rw [if_neg (by omega), code_eq (by omega), code_eq (by omega)]
  simp only [Outcome.bind_ok]
  have e : codes.getD (idx - 1) 0 = codes.getD idx 0 := by simp [List.getD, hc]
  rw [findCodes, if_neg (not_not.2 e)]
  have e1 : fwd codes.length false idx = some (idx + 1) := by
    simp only [fwd]; rw [if_neg (by omega)]
  have e2 : bwd codes.length false (idx - 1) = some (idx - 2) := by
    simp only [bwd]; rw [if_neg (by omega)]; rfl
  rw [e1, e2]
  simp only [true_and]
  rw [if_neg (by omega), if_pos (by omega)]
  rfl

/-- Non-vacuity of `addPoint_extends`: `y = x/2` with a point one above. -/
example : Octant ⟨true, 1, 2, 0⟩ ∧ addPoint ⟨true, 1, 2, 0⟩ 3 2 = .ok (true, ⟨true, 2, 3, 0⟩) :=
  ⟨⟨rfl, by decide, by decide, by decide, isCoprime_one_left⟩, by decide⟩

/-- Non-vacuity of `tangent_contains`: the tangent in the middle of a chain `0 1 0 0 1 0 0`. -/
example : tangentDSL false 10 [0, 1, 0, 0, 1, 0, 0] 3 false ⟨true, 0, 1, 0⟩ =
    .ok (3, ⟨true, 1, 3, -1⟩) := by decide +kernel

/-- Non-vacuity of `tangent_assert_violated`. -/
example : tangentDSL true 10 [0, 1, 0, 0, 1, 0, 0] 3 false ⟨true, 0, 1, 0⟩ = .precond := by
  decide +kernel

/-- Adding a point that the line already contains changes nothing. -/
theorem addRel_inside (L : Line) (hL : Octant L) (o p : Int × Int)
    (h : 0 ≤ L.a * p.1 - L.b * p.2 - L.pos ∧ L.a * p.1 - L.b * p.2 - L.pos < L.b) :
    addRel L o p = .ok (true, L) := by
  simp only [addRel, addPoint]
  rw [if_neg (by simpa [Line.setPos] using ⟨hL.eight, hL.a_le, hL.a_nonneg⟩)]
  rw [if_pos (by
    simp only [Line.setPos, Line.eval]
    constructor <;> linarith [h.1, h.2, mul_sub L.a p.1 o.1, mul_sub L.b p.2 o.2])]
  simp only [Outcome.bind_ok, if_true, Line.setPos, Line.eval]
  obtain ⟨e, a, b, q⟩ := L
  simp

/-- C42: on a closed chain of only two alternating codes `tangentDSL` (assertions
compiled out) never returns, however long one waits. -/
theorem tangent_closed_violated (fuel : Nat) (dsl0 : Line) :
    tangentDSL false fuel [0, 1] 0 true dsl0 = .hang := by
  have loop : ∀ fuel (s : TState), s.tangent = ⟨true, 1, 2, 0⟩ →
      s.p1 = ((s.dist : Int), (s.dist : Int) / 2) → s.p2 = (-(s.dist : Int), -(s.dist : Int) / 2) →
      s.fi = s.dist % 2 → s.bi = (s.dist + 1) % 2 →
      tangentLoop [0, 1] true 0 1 fuel s = .hang := by
    intro fuel
    induction fuel with
    | zero => intros; rfl
    | succ fuel ih =>
      intro s ht h1 h2 hf hb
      obtain ⟨t, o, p1, p2, fi, bi, d, dsl⟩ := s
      simp only at ht h1 h2 hf hb
      subst ht h1 h2 hf hb
      have hO : Octant ⟨true, 1, 2, 0⟩ := ⟨rfl, by decide, by decide, by decide, isCoprime_one_left⟩
      have c : ∀ i, i < 2 → code [0, 1] i = .ok i := by
        intro i hi
        match i, hi with
        | 0, _ => rfl
        | 1, _ => rfl
      rw [tangentLoop]
      simp only [extendTangent]
      rw [c _ (Nat.mod_lt _ (by norm_num)), c _ (Nat.mod_lt _ (by norm_num))]
      simp only [Outcome.bind_ok, fwdPoint, bwdPoint]
      rw [if_neg (by omega), if_neg (by omega), addRel_inside _ hO _ _ (by simp only; omega)]
      simp only [Outcome.bind_ok, Bool.true_eq_false, if_false]
      rw [addRel_inside _ hO _ _ (by simp only; omega)]
      simp only [Outcome.bind_ok, Bool.true_eq_false, if_false]
      have hadv : ∀ s : TState, s.fi < 2 → s.bi < 2 →
          advance [0, 1].length true s = some { s with
            fi := 1 - s.fi, bi := 1 - s.bi } := by
        intro s h1 h2
        have e1 : fwd 2 true s.fi = some (1 - s.fi) := by
          simp only [fwd]
          split
          · rw [if_pos trivial]; congr 1; omega
          · congr 1; omega
        have e2 : bwd 2 true s.bi = some (1 - s.bi) := by
          simp only [bwd]
          split
          · rw [if_pos trivial]; congr 1; omega
          · congr 1; omega
        simp only [advance, List.length_cons, List.length_nil, Nat.zero_add, Nat.reduceAdd, e1, e2]
      rw [hadv _ (by simp only; omega) (by simp only; omega)]
      simp only
      apply ih
      · rfl
      · simp only [Prod.mk.injEq]; push_cast; omega
      · simp only [Prod.mk.injEq]; push_cast; omega
      · simp only; omega
      · simp only; omega
  cases fuel with
  | zero => rfl
  | succ fuel =>
    have : tangentDSL false (fuel + 1) [0, 1] 0 true dsl0 =
        tangentLoop [0, 1] true 0 1 fuel
          ⟨⟨true, 1, 2, 0⟩, (-1, -1), (1, 0), (-1, -1), 1, 0, 1, ⟨true, 1, 2, 0⟩⟩ := rfl
    rw [this]
    exact loop _ _ rfl (by decide) (by decide) rfl rfl

end Verif.DSL.Props
