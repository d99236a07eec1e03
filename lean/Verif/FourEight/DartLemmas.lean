import Verif.FourEight.DartSpec
import Mathlib.GroupTheory.OrderOfElement
import Mathlib.Data.Finset.Prod
import Mathlib.Data.Int.Interval
import Mathlib.Order.Interval.Finset.Basic
import Mathlib.Data.Fintype.Card
import Mathlib.Tactic.Ring
import Mathlib.Tactic.FinCases

/-!
# Walking around a node

`walk` is an ideal walk around the rim of a set of pixels.  It is reversible, therefore it comes back.  The loops of `nextSigma` and
`prevSigma` stop at the first dart on it.
-/

namespace Verif.FourEight
open Verif Verif.CellImage

theorem look_shift {m : Map} {x y : Int} {a b c : Fin 8} (h : dx a + dx b = dx c ∧ dy a + dy b = dy c) :
    m.look (x + dx a) (y + dy a) b = m.look x y c := by
  unfold Map.look
  rw [add_assoc, add_assoc, h.1, h.2]

theorem look_back {m : Map} {x y : Int} {a b : Fin 8} (h : dx a + dx b = 0 ∧ dy a + dy b = 0) :
    m.look (x + dx a) (y + dy a) b = m.px x y := by
  unfold Map.look
  rw [add_assoc, add_assoc, h.1, h.2, add_zero, add_zero]

theorem dx_range (j : Fin 8) : -1 ≤ dx j ∧ dx j ≤ 1 := by revert j; decide
theorem dy_range (j : Fin 8) : -1 ≤ dy j ∧ dy j ≤ 1 := by revert j; decide

section
variable {m : Map}

theorem Clean.near (hc : Clean m) {x y : Int} (hi : m.inside x y) (hn : (m.px x y).1 ≠ .region) (j : Fin 8) :
    m.inside (x + dx j) (y + dy j) := by
  have h := hc.frame x y hi hn
  have h1 := dx_range j
  have h2 := dy_range j
  unfold Map.inside
  omega

theorem Clean.nb (hc : Clean m) {d : Dart} (hi : m.inside d.x d.y) (hn : (m.px d.x d.y).1 ≠ .region) (k : Fin 8) :
    m.nb d k = .ok (m.look d.x d.y (d.dir + k)) := by
  unfold Map.nb Map.get
  rw [if_pos (hc.near hi hn _)]
  rfl

theorem Clean.look_types (hc : Clean m) {x y : Int} (hi : m.inside x y) (hn : (m.px x y).1 ≠ .region) (j : Fin 8) :
    (m.look x y j).1 = .vertex ∨ (m.look x y j).1 = .line ∨ (m.look x y j).1 = .region :=
  hc.types _ _ (hc.near hi hn j)

/-- the two ways to turn -/
def IsTurn (k : Fin 8) : Prop := k = 1 ∨ k = 7

/-- the ideal walk -/
def walk (m : Map) (k : Fin 8) (d : Dart) : Dart :=
  if d.dir.val % 2 = 1 then d.turn k
  else if (m.look d.x d.y (d.dir + k)).1 = .vertex then
    ⟨d.x + dx (d.dir + k), d.y + dy (d.dir + k), d.dir + 4 + 2 * k⟩
  else if (m.look d.x d.y (d.dir + 2 * k)).1 = .vertex then
    ⟨d.x + dx (d.dir + 2 * k), d.y + dy (d.dir + 2 * k), d.dir⟩
  else d.turn k

/-- positions of the walk -/
structure Rim (m : Map) (d : Dart) : Prop where
  inside : m.inside d.x d.y
  node : (m.px d.x d.y).1 = .vertex
  out : (m.look d.x d.y d.dir).1 ≠ .vertex
  sides : d.dir.val % 2 = 1 → ∀ k, IsTurn k → (m.look d.x d.y (d.dir + k)).1 ≠ .vertex

theorem Rim.nonregion {d : Dart} (h : Rim m d) : (m.px d.x d.y).1 ≠ .region := by rw [h.node]; decide

theorem IsDart.rim {d : Dart} (h : IsDart m d) : Rim m d :=
  ⟨h.inside, h.node, by rw [h.edge]; decide, fun ho k hk => by
    obtain ⟨h1, h2⟩ := h.between ho
    rcases hk with rfl | rfl
    · rw [h1]; decide
    · rw [h2]; decide⟩

theorem IsTurn.neg {k : Fin 8} (h : IsTurn k) : IsTurn (-k) := by
  rcases h with rfl | rfl
  · right; decide
  · left; decide

/- facts about directions -/
theorem dir_q {δ k : Fin 8} (hk : IsTurn k) (h : ¬δ.val % 2 = 1) :
    dx (δ + k) + dx (δ + 4 + 2 * k) = dx δ ∧ dy (δ + k) + dy (δ + 4 + 2 * k) = dy δ := by
  rcases hk with rfl | rfl <;> revert h <;> revert δ <;> decide

theorem dir_q_back {δ k : Fin 8} (hk : IsTurn k) :
    dx (δ + k) + dx (δ + 4 + 2 * k + -k) = 0 ∧ dy (δ + k) + dy (δ + 4 + 2 * k + -k) = 0 := by
  rcases hk with rfl | rfl <;> revert δ <;> decide

theorem dir_r {δ k : Fin 8} (hk : IsTurn k) (h : ¬δ.val % 2 = 1) :
    dx (δ + 2 * k) + dx δ = dx (δ + k) ∧ dy (δ + 2 * k) + dy δ = dy (δ + k) := by
  rcases hk with rfl | rfl <;> revert h <;> revert δ <;> decide

theorem dir_r' {δ k : Fin 8} (hk : IsTurn k) (h : ¬δ.val % 2 = 1) :
    dx (δ + 2 * k) + dx (δ + -k) = dx δ ∧ dy (δ + 2 * k) + dy (δ + -k) = dy δ := by
  rcases hk with rfl | rfl <;> revert h <;> revert δ <;> decide

theorem dir_r_back {δ k : Fin 8} (hk : IsTurn k) :
    dx (δ + 2 * k) + dx (δ + 2 * -k) = 0 ∧ dy (δ + 2 * k) + dy (δ + 2 * -k) = 0 := by
  rcases hk with rfl | rfl <;> revert δ <;> decide

theorem dir_line {δ k : Fin 8} (hk : IsTurn k) (h : ¬δ.val % 2 = 1) :
    dx δ + dx (δ + 2 * k) = dx (δ + k) ∧ dy δ + dy (δ + 2 * k) = dy (δ + k) := by
  rcases hk with rfl | rfl <;> revert h <;> revert δ <;> decide

theorem dir_opp (δ : Fin 8) : dx δ + dx (δ + 4) = 0 ∧ dy δ + dy (δ + 4) = 0 := by revert δ; decide

theorem par_turn {δ k : Fin 8} (hk : IsTurn k) : (δ + k).val % 2 = 1 ↔ ¬δ.val % 2 = 1 := by
  rcases hk with rfl | rfl <;> revert δ <;> decide

theorem par_q {δ k : Fin 8} (hk : IsTurn k) : (δ + 4 + 2 * k).val % 2 = 1 ↔ δ.val % 2 = 1 := by
  rcases hk with rfl | rfl <;> revert δ <;> decide

theorem par_r {δ k : Fin 8} (hk : IsTurn k) : (δ + 2 * k).val % 2 = 1 ↔ δ.val % 2 = 1 := by
  rcases hk with rfl | rfl <;> revert δ <;> decide

theorem fin_a {δ k : Fin 8} (hk : IsTurn k) : δ + 4 + 2 * k + 4 + 2 * -k = δ := by
  rcases hk with rfl | rfl <;> revert δ <;> decide

theorem fin_b {δ k : Fin 8} (hk : IsTurn k) : δ + k + -k = δ := by rcases hk with rfl | rfl <;> revert δ <;> decide

theorem fin_c {δ k : Fin 8} (hk : IsTurn k) : δ + k + 2 * -k = δ + -k := by rcases hk with rfl | rfl <;> revert δ <;> decide

theorem fin_d {δ k : Fin 8} (hk : IsTurn k) : δ + k + k = δ + 2 * k := by rcases hk with rfl | rfl <;> revert δ <;> decide

theorem fin_e {δ k : Fin 8} (hk : IsTurn k) : δ + k + 4 + k = δ + 4 + 2 * k := by rcases hk with rfl | rfl <;> revert δ <;> decide

theorem fin_f {δ k : Fin 8} (hk : IsTurn k) : δ + 2 * k + 4 + k + k = δ := by rcases hk with rfl | rfl <;> revert δ <;> decide

/-- either turn -/
theorem turn_cases {k j : Fin 8} (hk : IsTurn k) (hj : IsTurn j) : j = k ∨ j = -k := by
  rcases hk with rfl | rfl <;> rcases hj with rfl | rfl <;> decide

theorem walk_rim (hc : Clean m) {k : Fin 8} (hk : IsTurn k) {d : Dart} (h : Rim m d) : Rim m (walk m k d) := by
  obtain ⟨x, y, δ⟩ := d
  have hn := h.nonregion
  have hin := fun j => hc.near h.inside hn j
  unfold walk
  dsimp only at hn hin ⊢
  split
  · rename_i ho
    exact ⟨h.inside, h.node, h.sides ho k hk, fun he => absurd he (by
      show ¬(δ + k).val % 2 = 1
      rw [par_turn hk]
      exact fun hh => hh ho)⟩
  rename_i he
  split
  · rename_i hq
    refine ⟨hin _, hq, ?_, fun hp => absurd ((par_q hk).1 hp) he⟩
    rw [look_shift (dir_q hk he)]
    exact h.out
  rename_i hq
  split
  · rename_i hr
    refine ⟨hin _, hr, ?_, fun hp => absurd hp he⟩
    rw [look_shift (dir_r hk he)]
    exact hq
  · rename_i hr
    refine ⟨h.inside, h.node, hq, fun _ j hj => ?_⟩
    show ¬(m.look x y (δ + k + j)).1 = _
    rcases turn_cases hk hj with rfl | rfl
    · rw [fin_d hk]; exact hr
    · rw [fin_b hk]; exact h.out

theorem walk_inv {k : Fin 8} (hk : IsTurn k) {d : Dart} (h : Rim m d) : walk m (-k) (walk m k d) = d := by
  obtain ⟨x, y, δ⟩ := d
  by_cases ho : δ.val % 2 = 1
  · have e1 : walk m k ⟨x, y, δ⟩ = ⟨x, y, δ + k⟩ := by unfold walk; rw [if_pos ho]; rfl
    rw [e1]
    have he : ¬(δ + k).val % 2 = 1 := fun hh => (par_turn hk).1 hh ho
    unfold walk
    dsimp only
    rw [if_neg he, fin_b hk, if_neg h.out, fin_c hk, if_neg (h.sides ho _ hk.neg)]
    show Dart.mk x y (δ + k + -k) = _
    rw [fin_b hk]
  by_cases hq : (m.look x y (δ + k)).1 = .vertex
  · have e1 : walk m k ⟨x, y, δ⟩ = ⟨x + dx (δ + k), y + dy (δ + k), δ + 4 + 2 * k⟩ := by
      unfold walk; dsimp only; rw [if_neg ho, if_pos hq]
    rw [e1]
    unfold walk
    dsimp only
    rw [if_neg (fun hh => ho ((par_q hk).1 hh)), look_back (dir_q_back hk), if_pos h.node, fin_a hk, add_assoc x,
      (dir_q_back hk).1, add_assoc y, (dir_q_back hk).2, add_zero, add_zero]
  by_cases hr : (m.look x y (δ + 2 * k)).1 = .vertex
  · have e1 : walk m k ⟨x, y, δ⟩ = ⟨x + dx (δ + 2 * k), y + dy (δ + 2 * k), δ⟩ := by
      unfold walk; dsimp only; rw [if_neg ho, if_neg hq, if_pos hr]
    rw [e1]
    unfold walk
    dsimp only
    rw [if_neg ho, look_shift (dir_r' hk ho), if_neg h.out, look_back (dir_r_back hk), if_pos h.node, add_assoc x, add_assoc y,
      (dir_r_back hk).1, (dir_r_back hk).2, add_zero, add_zero]
  · have e1 : walk m k ⟨x, y, δ⟩ = ⟨x, y, δ + k⟩ := by
      unfold walk; dsimp only; rw [if_neg ho, if_neg hq, if_neg hr]; rfl
    rw [e1]
    unfold walk
    rw [if_pos ((par_turn hk).2 ho)]
    show Dart.mk x y (δ + k + -k) = _
    rw [fin_b hk]

theorem iter_rim (hc : Clean m) {k : Fin 8} (hk : IsTurn k) {d : Dart} (h : Rim m d) (n : Nat) : Rim m ((walk m k)^[n] d) := by
  induction n generalizing d with
  | zero => exact h
  | succ n ih => exact ih (walk_rim hc hk h)

theorem iter_inv (hc : Clean m) {k : Fin 8} (hk : IsTurn k) {d : Dart} (h : Rim m d) (n i : Nat) (hi : i ≤ n) :
    (walk m (-k))^[i] ((walk m k)^[n] d) = (walk m k)^[n - i] d := by
  induction i with
  | zero => rfl
  | succ i ih =>
    rw [Function.iterate_succ_apply', ih (by omega)]
    obtain ⟨j, hj⟩ : ∃ j, n - i = j + 1 := ⟨n - i - 1, by omega⟩
    rw [hj, Function.iterate_succ_apply', walk_inv hk (iter_rim hc hk h j)]
    congr 1
    omega

/-- the rim is finite -/
theorem rim_finite (m : Map) : Finite {d : Dart // Rim m d} := by
  let S := (Finset.Ico (-2) ((m.w : Int) - 2) ×ˢ Finset.Ico (-2) ((m.h : Int) - 2)) ×ˢ (Finset.univ : Finset (Fin 8))
  refine Finite.of_injective (β := S) (fun d => ⟨((d.1.x, d.1.y), d.1.dir), ?_⟩) ?_
  · have h := d.2.inside
    unfold Map.inside at h
    simp only [S, Finset.mem_product, Finset.mem_Ico, Finset.mem_univ, and_true]
    omega
  · rintro ⟨⟨x, y, δ⟩, h⟩ ⟨⟨x', y', δ'⟩, h'⟩ e
    simp only [Subtype.mk.injEq, Prod.mk.injEq] at e
    obtain ⟨⟨rfl, rfl⟩, rfl⟩ := e
    rfl

/-- the walk as a permutation -/
def walkEquiv (hc : Clean m) {k : Fin 8} (hk : IsTurn k) : Equiv.Perm {d : Dart // Rim m d} where
  toFun d := ⟨walk m k d.1, walk_rim hc hk d.2⟩
  invFun d := ⟨walk m (-k) d.1, walk_rim hc hk.neg d.2⟩
  left_inv d := Subtype.ext (walk_inv hk d.2)
  right_inv d := Subtype.ext (by
    have h := walk_inv hk.neg d.2
    rw [neg_neg] at h
    exact h)

theorem walk_returns (hc : Clean m) {k : Fin 8} (hk : IsTurn k) {d : Dart} (h : Rim m d) : ∃ n, 0 < n ∧ (walk m k)^[n] d = d := by
  have := rim_finite m
  have hpos := orderOf_pos (walkEquiv hc hk)
  refine ⟨orderOf (walkEquiv hc hk), hpos, ?_⟩
  have h1 : ∀ n, ((walkEquiv hc hk ^ n) ⟨d, h⟩).1 = (walk m k)^[n] d := by
    intro n
    induction n with
    | zero => rfl
    | succ n ih =>
      rw [pow_succ', Function.iterate_succ_apply', ← ih]
      rfl
  rw [← h1, pow_orderOf_eq_one]
  rfl

/-- the first dart on the walk -/
theorem first_dart (hc : Clean m) {k : Fin 8} (hk : IsTurn k) {d : Dart} (h : IsDart m d) :
    ∃ n, IsDart m ((walk m k)^[n + 1] d) ∧ ∀ i, 0 < i → i < n + 1 → ¬IsDart m ((walk m k)^[i] d) := by
  classical
  obtain ⟨n, hn, e⟩ := walk_returns hc hk h.rim
  have hex : ∃ n, IsDart m ((walk m k)^[n + 1] d) := ⟨n - 1, by rw [Nat.sub_add_cancel hn, e]; exact h⟩
  refine ⟨Nat.find hex, Nat.find_spec hex, fun i h0 hi hd => ?_⟩
  refine Nat.find_min hex (m := i - 1) (by omega) ?_
  rw [Nat.sub_add_cancel h0]
  exact hd

/-! ## the loops -/

/-- the rest of a loop -/
def rest (m : Map) (k : Fin 8) (n : Nat) (d : Dart) : Outcome Dart := (tryStep m k d).bind (sigmaLoop m k n)

theorem badDiagonal_even {d : Dart} (h : ¬d.dir.val % 2 = 1) : badDiagonal m d = .ok false := by
  unfold badDiagonal
  rw [if_neg h]

theorem badDiagonal_other (hc : Clean m) {d : Dart} (hi : m.inside d.x d.y) (hn : (m.px d.x d.y).1 ≠ .region)
    (h : (m.look d.x d.y d.dir).1 ≠ .line) : badDiagonal m d = .ok false := by
  unfold badDiagonal
  split
  · rw [hc.nb hi hn, Outcome.bind_ok, add_zero, if_neg h]
  · rfl

theorem badDiagonal_line (hc : Clean m) {d : Dart} (hi : m.inside d.x d.y) (hn : (m.px d.x d.y).1 ≠ .region)
    (ho : d.dir.val % 2 = 1) (h : (m.look d.x d.y d.dir).1 = .line) :
    badDiagonal m d = .ok (decide (¬((m.look d.x d.y (d.dir + 1)).1 = .region ∧ (m.look d.x d.y (d.dir + 7)).1 = .region))) := by
  unfold badDiagonal
  rw [if_pos ho, hc.nb hi hn, Outcome.bind_ok, add_zero, if_pos h, hc.nb hi hn, Outcome.bind_ok, hc.nb hi hn, Outcome.bind_ok]
  by_cases h1 : (m.look d.x d.y (d.dir + 1)).1 = .region
  · rw [if_neg (by simpa using h1)]
    simp [h1]
  · rw [if_pos h1]
    simp [h1]

theorem tryStep_plain {k : Fin 8} {d : Dart} (h : badDiagonal m (d.turn k) = .ok false) : tryStep m k d = .ok (d.turn k) := by
  unfold tryStep
  rw [h]
  rfl

theorem tryStep_skip {k : Fin 8} {d : Dart} (h : badDiagonal m (d.turn k) = .ok true) :
    tryStep m k d = .ok ((d.turn k).turn k) := by
  unfold tryStep
  rw [h]
  rfl

theorem sigmaLoop_at_line (hc : Clean m) {k : Fin 8} {d : Dart} (hi : m.inside d.x d.y) (hn : (m.px d.x d.y).1 ≠ .region)
    (h : (m.look d.x d.y d.dir).1 = .line) (n : Nat) : sigmaLoop m k (n + 1) d = .ok d := by
  rw [sigmaLoop, hc.nb hi hn, Outcome.bind_ok, add_zero, if_pos h]

theorem sigmaLoop_vertex (hc : Clean m) {k : Fin 8} {d : Dart} (hi : m.inside d.x d.y) (hn : (m.px d.x d.y).1 ≠ .region)
    (h : (m.look d.x d.y d.dir).1 = .vertex) (n : Nat) : sigmaLoop m k (n + 1) d = rest m k n (d.swap.turn k) := by
  rw [sigmaLoop, hc.nb hi hn, Outcome.bind_ok, add_zero, if_neg (by rw [h]; decide), if_pos h]
  rfl

theorem sigmaLoop_region (hc : Clean m) {k : Fin 8} {d : Dart} (hi : m.inside d.x d.y) (hn : (m.px d.x d.y).1 ≠ .region)
    (h : (m.look d.x d.y d.dir).1 = .region) (n : Nat) : sigmaLoop m k (n + 1) d = rest m k n d := by
  rw [sigmaLoop, hc.nb hi hn, Outcome.bind_ok, add_zero, if_neg (by rw [h]; decide), if_neg (by rw [h]; decide)]
  rfl

/-- the loop ends with `r` -/
def Reaches (m : Map) (k : Fin 8) (d r : Dart) : Prop := ∃ n, rest m k n d = .ok r

/-- a state of the loop that looks into the right direction already -/
theorem loop_at (hc : Clean m) {k : Fin 8} {d' : Dart} (h : Rim m d')
    (hev : (m.look d'.x d'.y d'.dir).1 = .line → IsDart m d') :
    (IsDart m d' → ∃ n, sigmaLoop m k n d' = .ok d') ∧
    (∀ r, ¬IsDart m d' → Reaches m k d' r → ∃ n, sigmaLoop m k n d' = .ok r) := by
  constructor
  · intro hd
    exact ⟨1, sigmaLoop_at_line hc h.inside h.nonregion hd.edge 0⟩
  · rintro r hd ⟨n, hr⟩
    refine ⟨n + 1, ?_⟩
    rw [sigmaLoop_region hc h.inside h.nonregion _ n]
    · exact hr
    · rcases hc.look_types h.inside h.nonregion d'.dir with h1 | h1 | h1
      · exact absurd h1 h.out
      · exact absurd (hev h1) hd
      · exact h1

theorem even_dart {d' : Dart} (h : Rim m d') (he : ¬d'.dir.val % 2 = 1) (hl : (m.look d'.x d'.y d'.dir).1 = .line) : IsDart m d' :=
  ⟨h.inside, h.node, hl, fun ho => absurd ho he⟩

/-- one step of the walk -/
theorem reach_step (hc : Clean m) (hno : NoCorner m) {k : Fin 8} (hk : IsTurn k) {d : Dart} (h : Rim m d) :
    (IsDart m (walk m k d) → Reaches m k d (walk m k d)) ∧
    (∀ r, ¬IsDart m (walk m k d) → Reaches m k (walk m k d) r → Reaches m k d r) := by
  have hrim := walk_rim hc hk h
  obtain ⟨x, y, δ⟩ := d
  have hn := h.nonregion
  have hi := h.inside
  by_cases ho : δ.val % 2 = 1
  · -- diagonal direction: turn
    have e1 : walk m k ⟨x, y, δ⟩ = ⟨x, y, δ + k⟩ := by unfold walk; rw [if_pos ho]; rfl
    rw [e1] at hrim ⊢
    have he : ¬(δ + k).val % 2 = 1 := fun hh => (par_turn hk).1 hh ho
    have e2 : tryStep m k ⟨x, y, δ⟩ = .ok ⟨x, y, δ + k⟩ := tryStep_plain (badDiagonal_even he)
    have hl := loop_at (k := k) hc hrim (even_dart hrim he)
    constructor
    · intro hd
      obtain ⟨n, e⟩ := hl.1 hd
      exact ⟨n, by unfold rest; rw [e2]; exact e⟩
    · intro r hd hr
      obtain ⟨n, e⟩ := hl.2 r hd hr
      exact ⟨n, by unfold rest; rw [e2]; exact e⟩
  have hok : (δ + k).val % 2 = 1 := (par_turn hk).2 ho
  by_cases hq : (m.look x y (δ + k)).1 = .vertex
  · have e1 : walk m k ⟨x, y, δ⟩ = ⟨x + dx (δ + k), y + dy (δ + k), δ + 4 + 2 * k⟩ := by
      unfold walk; dsimp only; rw [if_neg ho, if_pos hq]
    rw [e1] at hrim ⊢
    have e2 : tryStep m k ⟨x, y, δ⟩ = .ok ⟨x, y, δ + k⟩ := tryStep_plain (badDiagonal_other hc (d := ⟨x, y, δ + k⟩) hi hn (by
      dsimp only; rw [hq]; decide))
    constructor
    · intro hd
      exfalso
      have hl := hd.edge
      dsimp only at hl
      rw [look_shift (dir_q hk ho)] at hl
      have hin : m.inside (x + dx δ) (y + dy δ) := hc.near hi hn δ
      have hv1 : (m.look (x + dx δ) (y + dy δ) (δ + 4)).1 = .vertex := by rw [look_back (dir_opp δ)]; exact h.node
      have hv2 : (m.look (x + dx δ) (y + dy δ) (δ + 2 * k)).1 = .vertex := by rw [look_shift (dir_line hk ho)]; exact hq
      rcases hk with rfl | rfl
      · refine hno _ _ hin hl (δ + 2) ?_ ⟨hv2, ?_⟩
        · have : (δ + 2 * 1).val % 2 = 1 ↔ _ := par_r (δ := δ) (k := 1) (Or.inl rfl)
          have e : δ + 2 * 1 = δ + 2 := by clear * -; revert δ; decide
          rw [e] at this
          omega
        · have e : δ + 2 + 2 = δ + 4 := by clear * -; revert δ; decide
          rw [e]; exact hv1
      · refine hno _ _ hin hl (δ + 4) ?_ ⟨hv1, ?_⟩
        · revert ho; clear * -; revert δ; decide
        · have e : δ + 4 + 2 = δ + 2 * 7 := by clear * -; revert δ; decide
          rw [e]; exact hv2
    · rintro r - ⟨n, hr⟩
      refine ⟨n + 1, ?_⟩
      unfold rest
      rw [e2, Outcome.bind_ok, sigmaLoop_vertex hc (d := ⟨x, y, δ + k⟩) hi hn hq]
      have e3 : Dart.turn (Dart.swap ⟨x, y, δ + k⟩) k = ⟨x + dx (δ + k), y + dy (δ + k), δ + 4 + 2 * k⟩ := by
        show Dart.mk (x + dx (δ + k)) (y + dy (δ + k)) (δ + k + 4 + k) = _
        rw [fin_e hk]
      rw [e3]
      exact hr
  by_cases hr : (m.look x y (δ + 2 * k)).1 = .vertex
  · have e1 : walk m k ⟨x, y, δ⟩ = ⟨x + dx (δ + 2 * k), y + dy (δ + 2 * k), δ⟩ := by
      unfold walk; dsimp only; rw [if_neg ho, if_neg hq, if_pos hr]
    rw [e1] at hrim ⊢
    have hl := loop_at (k := k) hc hrim (even_dart hrim ho)
    -- the step from the turned position
    have step2 : ∀ n r, sigmaLoop m k n ⟨x + dx (δ + 2 * k), y + dy (δ + 2 * k), δ⟩ = .ok r →
        sigmaLoop m k (n + 1) ⟨x, y, δ + 2 * k⟩ = .ok r := by
      intro n r e
      rw [sigmaLoop_vertex hc (d := ⟨x, y, δ + 2 * k⟩) hi hn hr]
      unfold rest
      have e3 : (Dart.turn (Dart.swap ⟨x, y, δ + 2 * k⟩) k).turn k = ⟨x + dx (δ + 2 * k), y + dy (δ + 2 * k), δ⟩ := by
        show Dart.mk (x + dx (δ + 2 * k)) (y + dy (δ + 2 * k)) (δ + 2 * k + 4 + k + k) = _
        rw [fin_f hk]
      rw [tryStep_plain (by rw [e3]; exact badDiagonal_even ho), e3]
      exact e
    have all : ∀ n r, sigmaLoop m k n ⟨x + dx (δ + 2 * k), y + dy (δ + 2 * k), δ⟩ = .ok r → Reaches m k ⟨x, y, δ⟩ r := by
      intro n r e
      have e' := step2 n r e
      have hturn : (Dart.turn ⟨x, y, δ + k⟩ k) = ⟨x, y, δ + 2 * k⟩ := by
        show Dart.mk _ _ (δ + k + k) = _
        rw [fin_d hk]
      rcases hc.look_types hi hn (δ + k) with h1 | h1 | h1
      · exact absurd h1 hq
      · -- a bad diagonal
        refine ⟨n + 1, ?_⟩
        have hb : badDiagonal m (Dart.turn ⟨x, y, δ⟩ k) = .ok true := by
          show badDiagonal m ⟨x, y, δ + k⟩ = _
          rw [badDiagonal_line hc (d := ⟨x, y, δ + k⟩) hi hn hok h1]
          have : ¬((m.look x y (δ + k + 1)).1 = .region ∧ (m.look x y (δ + k + 7)).1 = .region) := by
            rintro ⟨h2, h3⟩
            rcases hk with rfl | rfl
            · rw [fin_d (Or.inl rfl), hr] at h2; exact absurd h2 (by decide)
            · rw [fin_d (Or.inr rfl), hr] at h3; exact absurd h3 (by decide)
          rw [decide_eq_true this]
        unfold rest
        rw [tryStep_skip hb, Outcome.bind_ok]
        show sigmaLoop m k (n + 1) (Dart.turn ⟨x, y, δ + k⟩ k) = _
        rw [hturn]
        exact e'
      · refine ⟨n + 2, ?_⟩
        unfold rest
        rw [tryStep_plain (badDiagonal_other hc (d := ⟨x, y, δ + k⟩) hi hn (by dsimp only; rw [h1]; decide)), Outcome.bind_ok]
        show sigmaLoop m k (n + 1 + 1) ⟨x, y, δ + k⟩ = _
        rw [sigmaLoop_region hc (d := ⟨x, y, δ + k⟩) hi hn h1]
        unfold rest
        rw [tryStep_plain (by rw [hturn]; exact badDiagonal_even (fun hh => ho ((par_r hk).1 hh))), hturn]
        exact e'
    constructor
    · intro hd
      obtain ⟨n, e⟩ := hl.1 hd
      exact all n _ e
    · intro r hd hr
      obtain ⟨n, e⟩ := hl.2 r hd hr
      exact all n _ e
  · have e1 : walk m k ⟨x, y, δ⟩ = ⟨x, y, δ + k⟩ := by
      unfold walk; dsimp only; rw [if_neg ho, if_neg hq, if_neg hr]; rfl
    rw [e1] at hrim ⊢
    have hturn : (Dart.turn ⟨x, y, δ + k⟩ k) = ⟨x, y, δ + 2 * k⟩ := by
      show Dart.mk _ _ (δ + k + k) = _
      rw [fin_d hk]
    by_cases hb : (m.look x y (δ + k)).1 = .line ∧ ¬((m.look x y (δ + k + 1)).1 = .region ∧ (m.look x y (δ + k + 7)).1 = .region)
    · have hbd : badDiagonal m (Dart.turn ⟨x, y, δ⟩ k) = .ok true := by
        show badDiagonal m ⟨x, y, δ + k⟩ = _
        rw [badDiagonal_line hc (d := ⟨x, y, δ + k⟩) hi hn hok hb.1, decide_eq_true hb.2]
      constructor
      · intro hd
        exact absurd (hd.between hok) hb.2
      · rintro r - ⟨n, e⟩
        refine ⟨n, ?_⟩
        unfold rest at e ⊢
        rw [tryStep_plain (by rw [hturn]; exact badDiagonal_even (fun hh => ho ((par_r hk).1 hh))), hturn] at e
        rw [tryStep_skip hbd]
        show sigmaLoop m k n (Dart.turn ⟨x, y, δ + k⟩ k) = _
        rw [hturn]
        exact e
    · have e2 : tryStep m k ⟨x, y, δ⟩ = .ok ⟨x, y, δ + k⟩ := by
        refine tryStep_plain ?_
        show badDiagonal m ⟨x, y, δ + k⟩ = _
        by_cases h1 : (m.look x y (δ + k)).1 = .line
        · rw [badDiagonal_line hc (d := ⟨x, y, δ + k⟩) hi hn hok h1, decide_eq_false (fun hh => hb ⟨h1, hh⟩)]
        · exact badDiagonal_other hc (d := ⟨x, y, δ + k⟩) hi hn h1
      have hl := loop_at (k := k) hc hrim (fun h1 => ⟨hi, h.node, h1, fun _ => by
        by_contra hh
        exact hb ⟨h1, hh⟩⟩)
      constructor
      · intro hd
        obtain ⟨n, e⟩ := hl.1 hd
        exact ⟨n, by unfold rest; rw [e2]; exact e⟩
      · intro r hd hr
        obtain ⟨n, e⟩ := hl.2 r hd hr
        exact ⟨n, by unfold rest; rw [e2]; exact e⟩

theorem reach_iter (hc : Clean m) (hno : NoCorner m) {k : Fin 8} (hk : IsTurn k) (n : Nat) {d : Dart} (h : Rim m d)
    (hd : IsDart m ((walk m k)^[n + 1] d)) (hf : ∀ i, 0 < i → i < n + 1 → ¬IsDart m ((walk m k)^[i] d)) :
    Reaches m k d ((walk m k)^[n + 1] d) := by
  induction n generalizing d with
  | zero => exact (reach_step hc hno hk h).1 hd
  | succ n ih =>
    refine (reach_step hc hno hk h).2 _ (hf 1 (by omega) (by omega)) ?_
    exact ih (walk_rim hc hk h) hd (fun i h0 hi => hf (i + 1) (by omega) (by omega))

/-! ## the bound on the number of steps -/

theorem sigmaLoop_mono {k : Fin 8} (n j : Nat) {d r : Dart} (h : sigmaLoop m k n d = .ok r) : sigmaLoop m k (n + j) d = .ok r := by
  induction n generalizing d with
  | zero => simp [sigmaLoop] at h
  | succ n ih =>
    rw [show n + 1 + j = (n + j) + 1 by omega]
    rw [sigmaLoop] at h ⊢
    obtain ⟨p, hp, h⟩ := Outcome.bind_eq_ok.1 h
    rw [hp, Outcome.bind_ok]
    split at h
    · rename_i hl
      rw [if_pos hl]; exact h
    · rename_i hl
      rw [if_neg hl]
      obtain ⟨e, he, h⟩ := Outcome.bind_eq_ok.1 h
      rw [he, Outcome.bind_ok]
      exact ih h

/-- ends after exactly `n` steps -/
def Exactly (m : Map) (k : Fin 8) (n : Nat) (d r : Dart) : Prop :=
  sigmaLoop m k n d = .ok r ∧ ∀ i < n, sigmaLoop m k i d ≠ .ok r

theorem exactly_all {k : Fin 8} {r : Dart} (n : Nat) {d : Dart} (h : Exactly m k n d r) :
    ∀ j, 0 < j → j ≤ n → ∃ e p, Exactly m k j e r ∧ m.nb e 0 = .ok p := by
  induction n generalizing d with
  | zero => intro j h1 h2; omega
  | succ n ih =>
    intro j h1 h2
    have h0 := h.1
    rw [sigmaLoop] at h0
    obtain ⟨p, hp, h0⟩ := Outcome.bind_eq_ok.1 h0
    by_cases hj : j = n + 1
    · subst hj
      exact ⟨d, p, h, hp⟩
    split at h0
    · rename_i hl
      exfalso
      refine h.2 1 (by omega) ?_
      rw [sigmaLoop, hp, Outcome.bind_ok, if_pos hl]
      exact h0
    · rename_i hl
      obtain ⟨e, he, h0⟩ := Outcome.bind_eq_ok.1 h0
      refine ih (d := e) ⟨h0, fun i hi hh => h.2 (i + 1) (by omega) ?_⟩ j h1 (by omega)
      rw [sigmaLoop, hp, Outcome.bind_ok, if_neg hl, he, Outcome.bind_ok]
      exact hh

theorem exactly_unique {k : Fin 8} {r : Dart} {a b : Nat} {d : Dart} (h : Exactly m k a d r) (h' : Exactly m k b d r) : a = b := by
  rcases Nat.lt_trichotomy a b with hh | hh | hh
  · exact absurd h.1 (h'.2 a hh)
  · exact hh
  · exact absurd h'.1 (h.2 b hh)

theorem fuel_enough {k : Fin 8} {n : Nat} {d r : Dart} (h : sigmaLoop m k n d = .ok r) : sigmaLoop m k m.fuel d = .ok r := by
  classical
  have hex : ∃ n, sigmaLoop m k n d = .ok r := ⟨n, h⟩
  have hE : Exactly m k (Nat.find hex) d r := ⟨Nat.find_spec hex, fun i hi => Nat.find_min hex hi⟩
  have hall := exactly_all _ hE
  have hle : Nat.find hex ≤ 8 * m.w * m.h := by
    let S := (Finset.Ico (-2) ((m.w : Int) - 2) ×ˢ Finset.Ico (-2) ((m.h : Int) - 2)) ×ˢ (Finset.univ : Finset (Fin 8))
    have hS : S.card = 8 * m.w * m.h := by
      simp only [S, Finset.card_product, Int.card_Ico, Finset.card_univ, Fintype.card_fin]
      have e1 : ((m.w : Int) - 2 - -2).toNat = m.w := by omega
      have e2 : ((m.h : Int) - 2 - -2).toNat = m.h := by omega
      rw [e1, e2]
      ring
    have hch : ∀ i : Fin (Nat.find hex), ∃ e p, Exactly m k (i.val + 1) e r ∧ m.nb e 0 = .ok p := fun i => hall _ (by omega) (by omega)
    choose f p hf hp using hch
    have hc : (Finset.univ : Finset (Fin (Nat.find hex))).card ≤ S.card := by
      refine Finset.card_le_card_of_injOn (fun i => (((f i).x + dx (f i).dir, (f i).y + dy (f i).dir), (f i).dir)) ?_ ?_
      · intro i _
        have h1 := hp i
        unfold Map.nb Map.get at h1
        rw [add_zero] at h1
        split at h1
        · rename_i hin
          unfold Map.inside at hin
          simp only [S, Finset.coe_product, Set.mem_prod, Finset.mem_coe, Finset.mem_Ico, Finset.mem_univ, and_true]
          omega
        · exact absurd h1 (by simp)
      · intro i _ j _ e
        simp only [Prod.mk.injEq] at e
        obtain ⟨⟨e1, e2⟩, e3⟩ := e
        rw [e3] at e1 e2
        have e4 : f i = f j := by
          have hx : (f i).x = (f j).x := by omega
          have hy : (f i).y = (f j).y := by omega
          rcases hfi : f i with ⟨a, b, c⟩
          rcases hfj : f j with ⟨a', b', c'⟩
          rw [hfi, hfj] at hx hy e3
          simp only at hx hy e3
          rw [hx, hy, e3]
        have := exactly_unique (hf i) (e4 ▸ hf j)
        exact Fin.ext (by omega)
    rw [hS, Finset.card_univ, Fintype.card_fin] at hc
    exact hc
  have := sigmaLoop_mono _ (m.fuel - Nat.find hex) hE.1
  rwa [Nat.add_sub_cancel' (by unfold Map.fuel; omega)] at this

/-- what `nextSigma` and `prevSigma` do -/
theorem sigma_walk (hc : Clean m) (hno : NoCorner m) {k : Fin 8} (hk : IsTurn k) (n : Nat) {d : Dart} (h : IsDart m d)
    (hd : IsDart m ((walk m k)^[n + 1] d)) (hf : ∀ i, 0 < i → i < n + 1 → ¬IsDart m ((walk m k)^[i] d)) :
    sigma m k d = .ok ((walk m k)^[n + 1] d) := by
  obtain ⟨j, e⟩ := reach_iter hc hno hk n h.rim hd hf
  unfold sigma
  rw [hc.nb h.inside h.rim.nonregion, Outcome.bind_ok, add_zero, if_neg (by simpa using h.edge)]
  unfold rest at e
  obtain ⟨d', h1, h2⟩ := Outcome.bind_eq_ok.1 e
  rw [h1, Outcome.bind_ok]
  exact fuel_enough h2

end

end Verif.FourEight
