import Verif.Simplify.Model
import Mathlib.Tactic.Linarith
import Mathlib.Tactic.Ring
import Mathlib.Tactic.FieldSimp
import Mathlib.Tactic.Positivity
import Mathlib.Data.List.Chain
import Mathlib.Algebra.Order.Ring.Abs
import Mathlib.Analysis.Real.Sqrt

/-! # Simplifying polygons: properties (C33) -/

set_option linter.unusedSectionVars false

namespace Verif.Simplify
open Verif Verif.GeoMap

variable {K : Type} [Field K] [LinearOrder K] [IsStrictOrderedRing K]

/-! ## Specification -/

/-- `p` is at distance at most `eps` from the straight line through `a` and `b`, or from `a` if these two
points are (almost) the same. -/
def Near (tiny eps : K) (a b p : Pt K) : Prop :=
  if tiny < dist2 b a then
    ∃ t : K, dist2 p (a.1 + t * (b.1 - a.1), a.2 + t * (b.2 - a.2)) ≤ eps * eps
  else dist2 p a ≤ eps * eps

/-- Two points of the polygon that are neighbours in the result: all points between them are dropped, and near
the connection; with a maximal step, the connection is not longer unless nothing is dropped. -/
def Step (tiny eps : K) (maxStep : Option K) (poly : List (Pt K)) (i j : Nat) : Prop :=
  i < j ∧ ∃ a b, poly[i]? = some a ∧ poly[j]? = some b ∧
    (∀ m p, i < m → m < j → poly[m]? = some p → Near tiny eps a b p) ∧
    (∀ s, maxStep = some s → dist2 b a ≤ s * s ∨ j = i + 1)

/-- The result is a simplification: the points at increasing indices from the first to the last one. -/
def Simplifies (tiny eps : K) (maxStep : Option K) (poly r : List (Pt K)) : Prop :=
  ∃ is : List Nat, is.head? = some 0 ∧ is.getLast? = some (poly.length - 1) ∧
    is.IsChain (Step tiny eps maxStep poly) ∧ r.map some = is.map (fun i => poly[i]?)

/-- What is assumed of `std::sqrt`. -/
def IsSqrt (sqrt : K → K) : Prop := ∀ x, 0 ≤ x → 0 ≤ sqrt x ∧ sqrt x * sqrt x = x

/-! ## Lemmas -/

theorem search_spec (d : Pt K → K) (l : List (Pt K)) (i : Nat) (best : Option Nat × K) :
    best.2 ≤ (search d i best l).2 ∧ (∀ p ∈ l, d p ≤ (search d i best l).2) ∧
      ((search d i best l) = best ∨ ∃ j, (search d i best l).1 = some j ∧ i ≤ j ∧ j < i + l.length) := by
  induction l generalizing i best with
  | nil => exact ⟨le_rfl, fun p hp => (by cases hp), .inl rfl⟩
  | cons q l ih =>
    simp only [search]
    by_cases h : best.2 < d q
    · rw [if_pos h]
      obtain ⟨h1, h2, h3⟩ := ih (i + 1) (some i, d q)
      refine ⟨h.le.trans h1, fun p hp => ?_, .inr ?_⟩
      · rcases List.mem_cons.mp hp with rfl | hp
        · exact h1
        · exact h2 p hp
      · rcases h3 with h3 | ⟨j, h3, h4, h5⟩
        · exact ⟨i, by rw [h3], le_rfl, by simp⟩
        · exact ⟨j, h3, by omega, by simp only [List.length_cons]; omega⟩
    · rw [if_neg h]
      obtain ⟨h1, h2, h3⟩ := ih (i + 1) best
      refine ⟨h1, fun p hp => ?_, ?_⟩
      · rcases List.mem_cons.mp hp with rfl | hp
        · exact (not_lt.mp h).trans h1
        · exact h2 p hp
      · rcases h3 with h3 | ⟨j, h3, h4, h5⟩
        · exact .inl h3
        · exact .inr ⟨j, h3, by omega, by simp only [List.length_cons]; omega⟩

theorem searchMid_spec (d : Pt K → K) (l : List (Pt K)) (i : Nat) (best : Nat × K) :
    (searchMid d i best l).1 = best.1 ∨ (i ≤ (searchMid d i best l).1 ∧
      (searchMid d i best l).1 < i + l.length) := by
  induction l generalizing i best with
  | nil => exact .inl rfl
  | cons q l ih =>
    simp only [searchMid]
    by_cases h : d q < best.2
    · rw [if_pos h]
      rcases ih (i + 1) (i, d q) with h1 | ⟨h1, h2⟩
      · right
        rw [h1]
        simp
      · right
        simp only [List.length_cons]
        omega
    · rw [if_neg h]
      rcases ih (i + 1) best with h1 | ⟨h1, h2⟩
      · exact .inl h1
      · right
        simp only [List.length_cons]
        omega

theorem lineDist_alg {sqrt : K → K} {a b p : Pt K} (hd : dist2 b a ≠ 0) (hL0 : sqrt (dist2 b a) ≠ 0)
    (h2 : sqrt (dist2 b a) * sqrt (dist2 b a) = dist2 b a) :
    dist2 p (a.1 + ((p.1 - a.1) * (b.1 - a.1) + (p.2 - a.2) * (b.2 - a.2)) / dist2 b a * (b.1 - a.1),
        a.2 + ((p.1 - a.1) * (b.1 - a.1) + (p.2 - a.2) * (b.2 - a.2)) / dist2 b a * (b.2 - a.2)) =
      lineDist sqrt a b p * lineDist sqrt a b p := by
  have hdef : dist2 b a = (b.1 - a.1) * (b.1 - a.1) + (b.2 - a.2) * (b.2 - a.2) := rfl
  unfold lineDist
  rw [abs_mul_abs_self]
  simp only
  generalize sqrt (dist2 b a) = L at hL0 h2
  generalize dist2 b a = D at *
  simp only [dist2]
  obtain ⟨a1, a2⟩ := a
  obtain ⟨b1, b2⟩ := b
  obtain ⟨p1, p2⟩ := p
  simp only at hdef ⊢
  obtain ⟨u, rfl⟩ : ∃ u, p1 = a1 + u := ⟨p1 - a1, by ring⟩
  obtain ⟨v, rfl⟩ : ∃ v, p2 = a2 + v := ⟨p2 - a2, by ring⟩
  obtain ⟨x, rfl⟩ : ∃ u, b1 = a1 + u := ⟨b1 - a1, by ring⟩
  obtain ⟨y, rfl⟩ : ∃ v, b2 = a2 + v := ⟨b2 - a2, by ring⟩
  simp only [add_sub_cancel_left] at hdef ⊢
  have e1 : (u * (y / L) + v * (-x / L)) * (u * (y / L) + v * (-x / L)) = (u * y - v * x) ^ 2 / D := by
    rw [← h2]
    field_simp
    ring
  rw [e1, eq_div_iff hd]
  have e2 : ∀ w z : K, (a1 + u - (a1 + w / D * z)) = (u * D - w * z) / D := by
    intro w z
    field_simp
    ring
  have e3 : ∀ w z : K, (a2 + v - (a2 + w / D * z)) = (v * D - w * z) / D := by
    intro w z
    field_simp
    ring
  rw [e2, e3]
  field_simp
  rw [hdef]
  ring

theorem lineDist_near {sqrt : K → K} (hs : IsSqrt sqrt) {tiny eps : K} (ht : 0 ≤ tiny) {a b p : Pt K}
    (hab : tiny < dist2 b a) (h : lineDist sqrt a b p ≤ eps) :
    ∃ t : K, dist2 p (a.1 + t * (b.1 - a.1), a.2 + t * (b.2 - a.2)) ≤ eps * eps := by
  have hpos : 0 < dist2 b a := lt_of_le_of_lt ht hab
  obtain ⟨h1, h2⟩ := hs (dist2 b a) hpos.le
  have hL0 : sqrt (dist2 b a) ≠ 0 := by
    intro h0
    rw [h0] at h2
    linarith
  have hsq : lineDist sqrt a b p * lineDist sqrt a b p ≤ eps * eps :=
    mul_self_le_mul_self (abs_nonneg _) h
  refine ⟨((p.1 - a.1) * (b.1 - a.1) + (p.2 - a.2) * (b.2 - a.2)) / dist2 b a, le_trans (le_of_eq ?_) hsq⟩
  exact lineDist_alg hpos.ne' hL0 h2

theorem splitPos_none {sqrt : K → K} (hs : IsSqrt sqrt) {tiny eps : K} (ht : 0 ≤ tiny) {m : Option K}
    {a b : Pt K} {inner : List (Pt K)} (h : splitPos sqrt tiny eps m a inner b = none) :
    (∀ p ∈ inner, Near tiny eps a b p) ∧ ∀ s, m = some s → dist2 b a ≤ s ∨ inner = [] := by
  unfold splitPos at h
  simp only at h
  have key : ∀ d : Pt K → K, (search d 1 (none, eps) inner).1 = none → ∀ p ∈ inner, d p ≤ eps := by
    intro d hd p hp
    obtain ⟨-, h2, h3⟩ := search_spec d inner 1 (none, eps)
    rcases h3 with h3 | ⟨j, h3, -⟩
    · have := h2 p hp
      rw [h3] at this
      exact this
    · rw [h3] at hd
      cases hd
  constructor
  · intro p hp
    unfold Near
    by_cases hab : tiny < dist2 b a
    · rw [if_pos hab] at h ⊢
      cases hr : (search (lineDist sqrt a b) 1 (none, eps) inner).1 with
      | some i => rw [hr] at h; simp [splitPos.pick] at h
      | none => exact lineDist_near hs ht hab (key _ hr p hp)
    · rw [if_neg hab] at h ⊢
      cases hr : (search (fun p => sqrt (dist2 p a)) 1 (none, eps) inner).1 with
      | some i => rw [hr] at h; simp [splitPos.pick] at h
      | none =>
        have hle := key _ hr p hp
        have h0 : 0 ≤ dist2 p a := add_nonneg (mul_self_nonneg _) (mul_self_nonneg _)
        obtain ⟨h1, h2⟩ := hs _ h0
        rw [← h2]
        exact mul_self_le_mul_self h1 hle
  · intro s hm
    subst hm
    by_contra hc
    push Not at hc
    cases inner with
    | nil => exact hc.2 rfl
    | cons p l =>
      have key2 : ∀ o : Option Nat, splitPos.pick (some s) o a (p :: l) b ≠ none := by
        intro o
        cases o with
        | some i => exact fun h => by cases h
        | none =>
          simp only [splitPos.pick]
          rw [if_pos hc.1]
          exact fun h => by cases h
      exact key2 _ h

theorem splitPos_some {sqrt : K → K} {tiny eps : K} {m : Option K}
    {a b : Pt K} {inner : List (Pt K)} {i : Nat} (h : splitPos sqrt tiny eps m a inner b = some i) :
    1 ≤ i ∧ i < 1 + inner.length := by
  unfold splitPos at h
  simp only at h
  have key : ∀ d : Pt K → K, ∀ j, (search d 1 (none, eps) inner).1 = some j → 1 ≤ j ∧ j < 1 + inner.length := by
    intro d j hd
    obtain ⟨-, -, h3⟩ := search_spec d inner 1 (none, eps)
    rcases h3 with h3 | ⟨k, h3, h4, h5⟩
    · rw [h3] at hd
      cases hd
    · rw [h3] at hd
      injection hd with hd
      omega
  have pick : ∀ o : Option Nat, (∀ j, o = some j → 1 ≤ j ∧ j < 1 + inner.length) →
      splitPos.pick m o a inner b = some i → 1 ≤ i ∧ i < 1 + inner.length := by
    intro o ho hp
    cases o with
    | some j =>
      simp only [splitPos.pick, Option.some.injEq] at hp
      exact hp ▸ ho j rfl
    | none =>
      cases m with
      | none => cases hp
      | some m =>
        cases inner with
        | nil => cases hp
        | cons p l =>
          simp only [splitPos.pick] at hp
          split at hp
          · injection hp with hp
            rcases searchMid_spec (fun p => |dist2 p a - dist2 p b|) l 2 (1, |dist2 p a - dist2 p b|) with
              h1 | ⟨h1, h2⟩
            · rw [h1] at hp
              simp only [List.length_cons]
              omega
            · simp only [List.length_cons]
              omega
          · cases hp
  refine pick _ (fun j hj => ?_) h
  split at hj
  · exact key _ _ hj
  · exact key _ _ hj

/-- The interior indices kept in a range. -/
def Keeps (tiny eps : K) (maxStep : Option K) (l r : List (Pt K)) : Prop :=
  ∃ is : List Nat, (0 :: is ++ [l.length - 1]).IsChain (Step tiny eps maxStep l) ∧
    r.map some = is.map (fun i => l[i]?)

theorem step_take {tiny eps : K} {ms : Option K} {l : List (Pt K)} {n i j : Nat}
    (h : Step tiny eps ms (l.take n) i j) : Step tiny eps ms l i j := by
  obtain ⟨h1, a, b, h2, h3, h4, h5⟩ := h
  rw [List.getElem?_take] at h2 h3
  split at h2
  · split at h3
    · refine ⟨h1, a, b, h2, h3, fun m p c1 c2 c3 => h4 m p c1 c2 ?_, h5⟩
      rw [List.getElem?_take, if_pos (by omega)]
      exact c3
    · cases h3
  · cases h2

theorem step_drop {tiny eps : K} {ms : Option K} {l : List (Pt K)} {n i j : Nat}
    (h : Step tiny eps ms (l.drop n) i j) : Step tiny eps ms l (i + n) (j + n) := by
  obtain ⟨h1, a, b, h2, h3, h4, h5⟩ := h
  rw [List.getElem?_drop] at h2 h3
  rw [Nat.add_comm n i] at h2
  rw [Nat.add_comm n j] at h3
  refine ⟨by omega, a, b, h2, h3, fun m p c1 c2 c3 => h4 (m - n) p (by omega) (by omega) ?_,
    fun s hs => (h5 s hs).imp id (by omega)⟩
  rw [List.getElem?_drop, show n + (m - n) = m by omega]
  exact c3

theorem chain_mem_lt {tiny eps : K} {ms : Option K} {l : List (Pt K)} {is : List Nat} {n : Nat}
    (h : (0 :: is ++ [n]).IsChain (Step tiny eps ms l)) : ∀ i ∈ is, i < n := by
  have hlt : (0 :: is ++ [n]).IsChain (· < ·) := h.imp fun _ _ h => h.1
  have hp := List.isChain_iff_pairwise.mp hlt
  rw [List.pairwise_append] at hp
  exact fun i hi => hp.2.2 i (List.mem_cons_of_mem _ hi) n (List.mem_singleton_self _)

theorem helper_keeps {sqrt : K → K} (hs : IsSqrt sqrt) {tiny eps : K} (ht : 0 ≤ tiny) (ms : Option K)
    (n : Nat) (l : List (Pt K)) (h2 : 2 ≤ l.length) (hn : l.length ≤ n) :
    ∃ r, helper sqrt tiny eps (ms.map fun m => m * m) n l = .ok r ∧ Keeps tiny eps ms l r := by
  induction n generalizing l with
  | zero => omega
  | succ n ih =>
    obtain ⟨a, l', rfl⟩ : ∃ a l', l = a :: l' := by
      cases l with
      | nil => simp at h2
      | cons a l' => exact ⟨a, l', rfl⟩
    have hne : l' ≠ [] := by
      intro h
      rw [h] at h2
      simp at h2
    obtain ⟨inner, b, rfl⟩ : ∃ inner b, l' = inner ++ [b] :=
      ⟨l'.dropLast, l'.getLast hne, (List.dropLast_append_getLast hne).symm⟩
    have hlen : (a :: (inner ++ [b])).length - 1 = inner.length + 1 := by simp
    have hb : (a :: (inner ++ [b]))[inner.length + 1]? = some b := by simp
    have hin : ∀ m p, 0 < m → m < inner.length + 1 → (a :: (inner ++ [b]))[m]? = some p → p ∈ inner := by
      intro m p h1 h2 h3
      obtain ⟨k, rfl⟩ : ∃ k, m = k + 1 := ⟨m - 1, by omega⟩
      rw [List.getElem?_cons_succ, List.getElem?_append_left (by omega)] at h3
      exact List.mem_of_getElem? h3
    -- nothing to split
    have hstop : (∀ p ∈ inner, Near tiny eps a b p) →
        (∀ s, ms = some s → dist2 b a ≤ s * s ∨ inner = []) →
        Keeps tiny eps ms (a :: (inner ++ [b])) [] := by
      intro h3 h4
      refine ⟨[], ?_, rfl⟩
      rw [hlen]
      simp only [List.cons_append, List.nil_append, List.isChain_cons_cons, List.isChain_singleton, and_true]
      refine ⟨by omega, a, b, rfl, hb, fun m p c1 c2 c3 => h3 p (hin m p c1 c2 c3), fun s hs' => ?_⟩
      rcases h4 s hs' with h5 | h5
      · exact .inl h5
      · right
        rw [h5]
        rfl
    have hdef : helper sqrt tiny eps (ms.map fun m => m * m) (n + 1) (a :: (inner ++ [b])) =
        if inner = [] then .ok [] else
          recurse (helper sqrt tiny eps (ms.map fun m => m * m) n) (a :: (inner ++ [b]))
            (splitPos sqrt tiny eps (ms.map fun m => m * m) a inner b) := by
      rw [helper, List.getLast?_concat, List.dropLast_concat]
      intro x
      simp at x
    rw [hdef]
    by_cases hi : inner = []
    · rw [if_pos hi]
      refine ⟨[], rfl, hstop (fun p hp => ?_) (fun s _ => .inr hi)⟩
      rw [hi] at hp
      cases hp
    · rw [if_neg hi]
      cases hsp : splitPos sqrt tiny eps (ms.map fun m => m * m) a inner b with
      | none =>
        obtain ⟨h3, h4⟩ := splitPos_none hs ht hsp
        refine ⟨[], rfl, hstop h3 fun s hs' => h4 (s * s) (by rw [hs']; rfl)⟩
      | some i =>
        obtain ⟨i1, i2⟩ := splitPos_some hsp
        have hL : (a :: (inner ++ [b])).length = inner.length + 2 := by simp
        set l := a :: (inner ++ [b]) with hl
        obtain ⟨r1, e1, is1, c1, m1⟩ := ih (l.take (i + 1)) (by rw [List.length_take]; omega)
          (by rw [List.length_take]; omega)
        obtain ⟨r2, e2, is2, c2, m2⟩ := ih (l.drop i) (by rw [List.length_drop]; omega)
          (by rw [List.length_drop]; omega)
        have hg : l[i]? = some (l[i]'(by omega)) := List.getElem?_eq_getElem (by omega)
        refine ⟨r1 ++ [l[i]'(by omega)] ++ r2, ?_, is1 ++ i :: is2.map (· + i), ?_, ?_⟩
        · simp only [recurse]
          rw [e1]
          simp only [Outcome.bind]
          rw [hg]
          simp only
          rw [e2]
        · have t1 : (0 :: is1 ++ [i]).IsChain (Step tiny eps ms l) := by
            rw [List.length_take, show min (i + 1) l.length - 1 = i by omega] at c1
            exact c1.imp fun _ _ h => step_take h
          have t2 : (i :: is2.map (· + i) ++ [l.length - 1]).IsChain (Step tiny eps ms l) := by
            have := c2.imp (S := fun x y => Step tiny eps ms l (x + i) (y + i)) fun _ _ h => step_drop h
            rw [← List.isChain_map (f := fun x => x + i)] at this
            simp only [List.cons_append, List.map_cons, List.map_append, List.map_nil, Nat.zero_add,
              List.length_drop] at this
            rw [show l.length - i - 1 + i = l.length - 1 by omega] at this
            exact this
          have : (0 :: (is1 ++ i :: is2.map (· + i)) ++ [l.length - 1]) =
              (0 :: is1) ++ i :: (is2.map (· + i) ++ [l.length - 1]) := by simp
          rw [this, List.isChain_split]
          exact ⟨t1, t2⟩
        · have q1 : is1.map (fun x => (l.take (i + 1))[x]?) = is1.map (fun x => l[x]?) := by
            apply List.map_congr_left
            intro x hx
            rw [List.length_take, show min (i + 1) l.length - 1 = i by omega] at c1
            have := chain_mem_lt c1 x hx
            rw [List.getElem?_take, if_pos (by omega)]
          have q2 : is2.map (fun x => (l.drop i)[x]?) = (is2.map (· + i)).map (fun x => l[x]?) := by
            rw [List.map_map]
            apply List.map_congr_left
            intro x _
            rw [List.getElem?_drop, Nat.add_comm]
            rfl
          rw [List.map_append, List.map_append, m1, m2, q1, q2]
          simp [hg]

/-! ## Properties -/

/-- C33: `simplifyPolygon` (with or without a maximal step) of at least two points returns the points at increasing
indices from the first to the last, such that every dropped point is near the line through the neighbouring
points of the result. -/
theorem simplifyPolygon_simplifies {sqrt : K → K} (hs : IsSqrt sqrt) {tiny : K} (ht : 0 ≤ tiny) {poly : List (Pt K)}
    (h : 2 ≤ poly.length) (eps : K) (maxStep : Option K) :
    ∃ r, simplifyPolygon sqrt tiny poly eps maxStep = .ok r ∧ Simplifies tiny eps maxStep poly r := by
  obtain ⟨r, e, is, c, m⟩ := helper_keeps hs ht (eps := eps) maxStep (poly.length + 1) poly h (by omega)
  have hne : poly ≠ [] := by
    intro h0
    rw [h0] at h
    simp at h
  have h1 : poly.head? = some (poly.head hne) := List.head?_eq_some_head hne
  have h2 : poly.getLast? = some (poly.getLast hne) := List.getLast?_eq_getLast_of_ne_nil hne
  refine ⟨[poly.head hne] ++ r ++ [poly.getLast hne], ?_, 0 :: is ++ [poly.length - 1], rfl, ?_, c, ?_⟩
  · unfold simplifyPolygon
    rw [h1, h2]
    simp only
    rw [e]
    rfl
  · exact List.getLast?_concat
  · rw [List.map_append, List.map_append, m]
    simp only [List.map_cons, List.map_nil, List.cons_append, List.nil_append, List.map_append]
    rw [← h1, ← h2, List.head?_eq_getElem?, List.getLast?_eq_getElem?]

/-- The result of C33 is a subsequence that starts with the first point and ends with the last one. -/
theorem simplifies_sublist {tiny eps : K} {maxStep : Option K} {poly r : List (Pt K)}
    (h : Simplifies tiny eps maxStep poly r) :
    r.Sublist poly ∧ r.head? = poly.head? ∧ r.getLast? = poly.getLast? := by
  obtain ⟨is, h1, h2, h3, h4⟩ := h
  have hp : is.Pairwise (· < ·) := List.isChain_iff_pairwise.mp (h3.imp fun _ _ h => h.1)
  refine ⟨?_, ?_, ?_⟩
  · have hval : ∀ i ∈ is, ∃ a, poly[i]? = some a := by
      intro i hi
      have : poly[i]? ∈ r.map some := by
        rw [h4]
        exact List.mem_map_of_mem hi
      obtain ⟨a, -, ha⟩ := List.mem_map.mp this
      exact ⟨a, ha.symm⟩
    have gen : ∀ (is : List Nat) (r poly : List (Pt K)) (k : Nat), is.Pairwise (· < ·) → (∀ i ∈ is, k ≤ i) →
        r.map some = is.map (fun i => poly[i - k]?) → r.Sublist poly := by
      intro is
      induction is with
      | nil =>
        intro r poly k _ _ he
        rw [List.map_nil, List.map_eq_nil_iff] at he
        rw [he]
        exact List.nil_sublist _
      | cons i is ih =>
        intro r poly k hp hk he
        cases r with
        | nil => simp at he
        | cons a r =>
          simp only [List.map_cons, List.cons.injEq] at he
          obtain ⟨p1, p2⟩ := List.pairwise_cons.mp hp
          have hk' := hk i List.mem_cons_self
          obtain ⟨hlt, hval⟩ := List.getElem?_eq_some_iff.mp he.1.symm
          have hsub := ih r (poly.drop (i - k + 1)) (i + 1) p2 (fun j hj => p1 j hj) (by
            rw [he.2]
            apply List.map_congr_left
            intro j hj
            have := p1 j hj
            rw [List.getElem?_drop, show i - k + 1 + (j - (i + 1)) = j - k by omega])
          have e : poly = poly.take (i - k) ++ a :: poly.drop (i - k + 1) := by
            rw [← hval, ← List.drop_eq_getElem_cons hlt, List.take_append_drop]
          rw [e]
          exact (hsub.cons_cons a).trans (List.sublist_append_right _ _)
    exact gen is r poly 0 hp (fun _ _ => Nat.zero_le _) (by simpa using h4)
  · have := congrArg List.head? h4
    rw [List.head?_map, List.head?_map, h1] at this
    simp only [Option.map_some] at this
    rw [← List.head?_eq_getElem?] at this
    cases hr : r.head? with
    | none => rw [hr] at this; cases this
    | some a => rw [hr] at this; exact Option.some.inj this
  · have := congrArg List.getLast? h4
    rw [List.getLast?_map, List.getLast?_map, h2] at this
    simp only [Option.map_some] at this
    rw [← List.getLast?_eq_getElem?] at this
    cases hr : r.getLast? with
    | none => rw [hr] at this; cases this
    | some a => rw [hr] at this; exact Option.some.inj this

/-- A polygon with a single point is doubled, so the result is not a subsequence; an empty polygon is read out of
bounds. -/
theorem simplify_short_violated (sqrt : K → K) (tiny eps : K) (maxStep : Option K) (p : Pt K) :
    simplifyPolygon sqrt tiny [p] eps maxStep = .ok [p, p] ∧ simplifyPolygon sqrt tiny [] eps maxStep = .ub :=
  ⟨rfl, rfl⟩

/-! ## Examples -/

example : IsSqrt Real.sqrt := fun x hx => ⟨Real.sqrt_nonneg x, Real.mul_self_sqrt hx⟩

/-- a square root that is right for the chords of the example (3 and 4 times 1) and enough to run the code -/
def rootQ (x : Rat) : Rat := if x = 16 then 4 else if x = 4 then 2 else if x = 1 then 1 else x

example : simplifyPolygon rootQ (1 / 10 ^ 16) [(0, 0), (1, 1 / 10), (2, 0), (3, 1), (4, 0)] (1 / 2) none =
    .ok [(0, 0), (3, 1), (4, 0)] := by decide +kernel

example : simplifyPolygon rootQ (1 / 10 ^ 16) [(0, 0), (1, 0), (2, 0), (3, 0), (4, 0)] (1 / 2) none =
    .ok [(0, 0), (4, 0)] := by decide +kernel

example : simplifyPolygon rootQ (1 / 10 ^ 16) [(0, 0), (1, 0), (2, 0), (3, 0), (4, 0)] (1 / 2) (some 2) =
    .ok [(0, 0), (2, 0), (4, 0)] := by decide +kernel

end Verif.Simplify
