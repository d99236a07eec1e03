import Verif.Hull.Model
import Verif.Hull.Spec
import Mathlib.Tactic.Linarith
import Mathlib.Tactic.Ring
import Mathlib.Tactic.FieldSimp
import Mathlib.Data.List.Chain

/-! # Graham's scan: lemmas -/

set_option linter.unusedSectionVars false

namespace Verif.Hull
open Verif

variable {K : Type} [Field K] [LinearOrder K] [IsStrictOrderedRing K]

/-- `q` comes after the extremal point `p` -/
def H (p q : Pt K) : Prop := q.2 < p.2 ∨ (q.2 = p.2 ∧ p.1 < q.1)

theorem orient_self_right (a b : Pt K) : orient a b b = 0 := by unfold orient; ring
theorem orient_self_left (a b : Pt K) : orient a b a = 0 := by unfold orient; ring
theorem orient_self (a b : Pt K) : orient a a b = 0 := by unfold orient; ring
theorem orient_cycle (a b c : Pt K) : orient b c a = orient a b c := by unfold orient; ring
theorem orient_swap (a b c : Pt K) : orient a c b = - orient a b c := by unfold orient; ring

/-- the order around the extremal point is transitive -/
theorem H.trans {p a b c : Pt K} (ha : H p a) (hb : H p b) (hc : H p c) (h1 : 0 ≤ orient p a b) (h2 : 0 ≤ orient p b c) :
    0 ≤ orient p a c ∧ (0 < orient p a b ∨ 0 < orient p b c → 0 < orient p a c) := by
  unfold H at ha hb hc
  have key : (b.2 - p.2) * orient p a c = (a.2 - p.2) * orient p b c + (c.2 - p.2) * orient p a b := by unfold orient; ring
  rcases hb with hb | ⟨hb, hb'⟩
  · have hb0 : b.2 - p.2 < 0 := by linarith
    have ha0 : a.2 - p.2 ≤ 0 := by rcases ha with h | ⟨h, -⟩ <;> linarith
    have hc0 : c.2 - p.2 ≤ 0 := by rcases hc with h | ⟨h, -⟩ <;> linarith
    have e1 : (a.2 - p.2) * orient p b c ≤ 0 := mul_nonpos_of_nonpos_of_nonneg ha0 h2
    have e2 : (c.2 - p.2) * orient p a b ≤ 0 := mul_nonpos_of_nonpos_of_nonneg hc0 h1
    have hcneg : c.2 - p.2 < 0 := by
      rcases hc with h | ⟨h, h'⟩
      · linarith
      · exfalso
        have : orient p b c = (b.2 - p.2) * (c.1 - p.1) := by unfold orient; rw [h]; ring
        rw [this] at h2
        have := mul_neg_of_neg_of_pos hb0 (show (0 : K) < c.1 - p.1 by linarith)
        linarith
    constructor
    · by_contra hn
      push Not at hn
      have := mul_pos_of_neg_of_neg hb0 hn
      linarith
    · intro hs
      by_contra hn
      push Not at hn
      have e3 := mul_nonneg_of_nonpos_of_nonpos hb0.le hn
      rcases hs with hs | hs
      · have := mul_neg_of_neg_of_pos hcneg hs
        linarith
      · rcases ha with h | ⟨h, h'⟩
        · have := mul_neg_of_neg_of_pos (show a.2 - p.2 < 0 by linarith) hs
          linarith
        · have h5 : orient p a c = -((a.1 - p.1) * (c.2 - p.2)) := by unfold orient; rw [h]; ring
          have := mul_neg_of_pos_of_neg (show (0 : K) < a.1 - p.1 by linarith) hcneg
          linarith
  · have e1 : orient p a b = (a.2 - p.2) * (b.1 - p.1) := by unfold orient; rw [hb]; ring
    have e2 : orient p b c = -((b.1 - p.1) * (c.2 - p.2)) := by unfold orient; rw [hb]; ring
    have hx : (0 : K) < b.1 - p.1 := by linarith
    rcases ha with h | ⟨h, h'⟩
    · exfalso
      have := mul_neg_of_neg_of_pos (show a.2 - p.2 < 0 by linarith) hx
      linarith
    · have e3 : orient p a c = -((a.1 - p.1) * (c.2 - p.2)) := by unfold orient; rw [h]; ring
      have ha' : (0 : K) < a.1 - p.1 := by linarith
      have hc0 : c.2 - p.2 ≤ 0 := by rcases hc with h | ⟨h, -⟩ <;> linarith
      constructor
      · have := mul_nonpos_of_nonneg_of_nonpos ha'.le hc0
        linarith
      · intro hs
        have : orient p a b = 0 := by rw [e1, h]; ring
        have hs : 0 < orient p b c := by
          rcases hs with hs | hs
          · linarith
          · exact hs
        have hcneg : c.2 - p.2 < 0 := by
          by_contra hn
          have : c.2 - p.2 = 0 := by linarith
          rw [e2, this] at hs
          simp at hs
        have := mul_neg_of_pos_of_neg ha' hcneg
        linarith

/-- an affine function on a triangle -/
theorem InTri.orient_nonneg {p a b q x y : Pt K} (hq : InTri p a b q) (h0 : 0 ≤ orient x y p) (h1 : 0 ≤ orient x y a) (h2 : 0 ≤ orient x y b) :
    0 ≤ orient x y q := by
  obtain ⟨α, β, k1, k2, k3, k4, k5⟩ := hq
  have : orient x y q = (1 - α - β) * orient x y p + α * orient x y a + β * orient x y b := by
    unfold orient
    rw [k4, k5]
    ring
  rw [this]
  have e1 := mul_nonneg (show (0 : K) ≤ 1 - α - β by linarith) h0
  have e2 := mul_nonneg k1 h1
  have e3 := mul_nonneg k2 h2
  linarith

theorem InTri.left (p a b : Pt K) : InTri p a b a := ⟨1, 0, by simp, by simp, by simp, by ring, by ring⟩
theorem InTri.right (p a b : Pt K) : InTri p a b b := ⟨0, 1, by simp, by simp, by simp, by ring, by ring⟩
theorem InTri.base (p a b : Pt K) : InTri p a b p := ⟨0, 0, by simp, by simp, by simp, by ring, by ring⟩

/-- a triangle inside a triangle -/
theorem InTri.trans {p a b c d q : Pt K} (hq : InTri p c d q) (hc : InTri p a b c) (hd : InTri p a b d) : InTri p a b q := by
  obtain ⟨α, β, k1, k2, k3, k4, k5⟩ := hq
  obtain ⟨α1, β1, m1, m2, m3, m4, m5⟩ := hc
  obtain ⟨α2, β2, n1, n2, n3, n4, n5⟩ := hd
  refine ⟨α * α1 + β * α2, α * β1 + β * β2, by positivity, by positivity, ?_, ?_, ?_⟩
  · have e1 := mul_le_mul_of_nonneg_left m3 k1
    have e2 := mul_le_mul_of_nonneg_left n3 k2
    nlinarith
  · rw [k4, m4, n4]; ring
  · rw [k5, m5, n5]; ring

/-- `t` is not outside of the triangle that replaces it -/
theorem inTri_pop {p u t o : Pt K} (h1 : 0 < orient p u t) (h2 : 0 ≤ orient p t o) (h3 : orient u t o ≤ 0) : InTri p u o t ∧ 0 < orient p u o := by
  have e : orient p u o = orient p u t + orient p t o - orient u t o := by unfold orient; ring
  have hpos : 0 < orient p u o := by linarith
  refine ⟨⟨orient p t o / orient p u o, orient p u t / orient p u o, by positivity, by positivity, ?_, ?_, ?_⟩, hpos⟩
  · rw [← add_div, div_le_one hpos]
    linarith
  · field_simp
    unfold orient
    ring
  · field_simp
    unfold orient
    ring

/-- the sides below stay left of the new point -/
theorem orient_below {p u t o v : Pt K} (h1 : 0 < orient p u t) (h2 : 0 ≤ orient p u o) (h3 : 0 ≤ orient v u t) (h4 : 0 ≤ orient u t o) (h5 : 0 ≤ orient p v u) :
    0 ≤ orient v u o := by
  have key : orient p u t * orient v u o = orient p u o * orient v u t + orient u t o * orient p v u := by unfold orient; ring
  have e1 := mul_nonneg h2 h3
  have e2 := mul_nonneg h4 h5
  by_contra hn
  push Not at hn
  have := mul_neg_of_pos_of_neg h1 hn
  linarith

/-- the new side leaves the old points to its left -/
theorem orient_new {p u t o v : Pt K} (h1 : 0 < orient p u t) (h2 : 0 ≤ orient u t v) (h3 : 0 ≤ orient p v t) (h4 : 0 ≤ orient u t o) (h5 : 0 ≤ orient p t o) :
    0 ≤ orient t o v := by
  have key : orient p u t * orient t o v = orient p v t * orient u t o + orient u t v * orient p t o := by unfold orient; ring
  have e1 := mul_nonneg h3 h4
  have e2 := mul_nonneg h2 h5
  by_contra hn
  push Not at hn
  have := mul_neg_of_pos_of_neg h1 hn
  linarith

/-! ## stacks -/

/-- the stack of the scan: a left turning chain from `p`, with increasing angles -/
inductive Valid (p : Pt K) : List (Pt K) → Prop
  | one {o : Pt K} : H p o → Valid p [o, p]
  | push {o t u : Pt K} {rest : List (Pt K)} : Valid p (t :: u :: rest) → H p o → 0 < orient u t o → 0 < orient p t o → Valid p (o :: t :: u :: rest)

/-- `a` is directly below `b` in the stack -/
def Side (s : List (Pt K)) (a b : Pt K) : Prop := ∃ i : Nat, s[i]? = some b ∧ s[i + 1]? = some a

theorem side_cons {s : List (Pt K)} {a b o t : Pt K} : Side (o :: t :: s) a b ↔ (a = t ∧ b = o) ∨ Side (t :: s) a b := by
  constructor
  · rintro ⟨i, h1, h2⟩
    cases i with
    | zero =>
      left
      simp only [List.getElem?_cons_zero, Option.some.injEq, zero_add, List.getElem?_cons_succ] at h1 h2
      exact ⟨h2.symm, h1.symm⟩
    | succ i => exact Or.inr ⟨i, by simpa using h1, by simpa using h2⟩
  · rintro (⟨rfl, rfl⟩ | ⟨i, h1, h2⟩)
    · exact ⟨0, by simp, by simp⟩
    · exact ⟨i + 1, by simpa using h1, by simpa using h2⟩

theorem side_one {a b o p : Pt K} : Side [o, p] a b ↔ a = p ∧ b = o := by
  rw [side_cons]
  constructor
  · rintro (h | ⟨i, h1, h2⟩)
    · exact h
    · simp at h2
  · exact Or.inl

theorem Side.mem {s : List (Pt K)} {a b : Pt K} (h : Side s a b) : a ∈ s ∧ b ∈ s := by
  obtain ⟨i, h1, h2⟩ := h
  exact ⟨List.mem_of_getElem? h2, List.mem_of_getElem? h1⟩

theorem Valid.mem {p : Pt K} {s : List (Pt K)} (hv : Valid p s) : ∀ c ∈ s, c = p ∨ H p c := by
  induction hv with
  | one h => intro c hc; simp at hc; rcases hc with rfl | rfl; exacts [Or.inr h, Or.inl rfl]
  | push _ h _ _ ih => intro c hc; rw [List.mem_cons] at hc; rcases hc with rfl | hc; exacts [Or.inr h, ih c hc]

theorem Valid.base {p : Pt K} {s : List (Pt K)} (hv : Valid p s) : p ∈ s := by
  induction hv with
  | one h => simp
  | push _ _ _ _ ih => exact List.mem_cons_of_mem _ ih

theorem H.ne {p q : Pt K} (h : H p q) : q ≠ p := by
  rintro rfl
  rcases h with h | ⟨-, h⟩ <;> exact lt_irrefl _ h

/-- the top has the largest angle -/
theorem Valid.top {p : Pt K} {s : List (Pt K)} (hv : Valid p s) {o : Pt K} {r : List (Pt K)} (hs : s = o :: r) :
    H p o ∧ (∀ c ∈ r, 0 ≤ orient p c o) ∧ ∀ c ∈ r, c ≠ p → 0 < orient p c o := by
  induction hv generalizing o r with
  | one h =>
    cases hs
    exact ⟨h, fun c hc => by simp at hc; subst hc; rw [orient_self], fun c hc hn => by simp at hc; exact absurd hc hn⟩
  | @push o' t u rest hv h h1 h2 ih =>
    obtain ⟨rfl, rfl⟩ : o' = o ∧ t :: u :: rest = r := by simpa using hs
    obtain ⟨k1, k2, k3⟩ := ih rfl
    have hall : ∀ c ∈ t :: u :: rest, c ≠ p → 0 < orient p c o' := by
      intro c hc hn
      rw [List.mem_cons] at hc
      rcases hc with rfl | hc
      · exact h2
      · have hH := (hv.mem c (List.mem_cons_of_mem _ hc)).resolve_left hn
        exact (hH.trans k1 h (k2 c hc) h2.le).2 (Or.inr h2)
    refine ⟨h, fun c hc => ?_, hall⟩
    by_cases e : c = p
    · subst e; rw [orient_self]
    · exact (hall c hc e).le

/-- a point with a larger angle than the top has a larger angle than all -/
theorem Valid.larger {p : Pt K} {o t : Pt K} {r : List (Pt K)} (hv : Valid p (t :: r)) (ho : H p o) (h : 0 ≤ orient p t o) : ∀ c ∈ t :: r, 0 ≤ orient p c o := by
  intro c hc
  obtain ⟨k1, k2, -⟩ := hv.top rfl
  rw [List.mem_cons] at hc
  rcases hc with rfl | hc
  · exact h
  · rcases hv.mem c (List.mem_cons_of_mem _ hc) with rfl | hH
    · rw [orient_self]
    · exact (hH.trans k1 ho (k2 c hc) h).1

theorem Valid.side_pos {p : Pt K} {s : List (Pt K)} (hv : Valid p s) {a b : Pt K} (hs : Side s a b) : H p b ∧ (a = p ∨ 0 < orient p a b) := by
  induction hv with
  | one h => rw [side_one] at hs; obtain ⟨rfl, rfl⟩ := hs; exact ⟨h, Or.inl rfl⟩
  | push _ h _ h2 ih =>
    rw [side_cons] at hs
    rcases hs with ⟨rfl, rfl⟩ | hs
    · exact ⟨h, Or.inr h2⟩
    · exact ih hs

/-- if the new point is left of the topmost side, it is left of all sides -/
theorem Valid.left_all {p : Pt K} {t u o : Pt K} {rest : List (Pt K)} (hv : Valid p (t :: u :: rest)) (ho : H p o) (h1 : 0 ≤ orient u t o) (h2 : 0 ≤ orient p t o) :
    ∀ a b, Side (t :: u :: rest) a b → 0 ≤ orient a b o := by
  generalize hs : t :: u :: rest = s at hv
  induction hv generalizing t u rest with
  | one h =>
    cases hs
    intro a b hab
    rw [side_one] at hab
    obtain ⟨rfl, rfl⟩ := hab
    exact h2
  | @push t' u' v rest' hv h k1 k2 ih =>
    obtain ⟨rfl, rfl, rfl⟩ : t = t' ∧ u = u' ∧ rest = v :: rest' := by simpa using hs
    intro a b hab
    rw [side_cons] at hab
    rcases hab with ⟨rfl, rfl⟩ | hab
    · exact h1
    · have h3 : ∀ c ∈ u :: v :: rest', 0 ≤ orient p c o := fun c hc => (Valid.push hv h k1 k2).larger ho h2 c (List.mem_cons_of_mem _ hc)
      have hu := h3 u (by simp)
      have hvu : 0 ≤ orient p v u := (hv.top rfl).2.1 v (by simp)
      exact ih (orient_below k2 hu k1.le h1 hvu) hu rfl a b hab

/-- all corners are left of all sides -/
theorem Valid.convex {p : Pt K} {s : List (Pt K)} (hv : Valid p s) : ∀ a b, Side s a b → ∀ c ∈ s, 0 ≤ orient a b c := by
  induction hv with
  | @one o h =>
    intro a b hab c hc
    rw [side_one] at hab
    obtain ⟨rfl, rfl⟩ := hab
    simp at hc
    rcases hc with rfl | rfl
    · rw [orient_self_right]
    · rw [orient_self_left]
  | @push o t u rest hv h h1 h2 ih =>
    intro a b hab c hc
    rw [side_cons] at hab
    rw [List.mem_cons] at hc
    rcases hab with ⟨rfl, rfl⟩ | hab
    · rcases hc with rfl | hc
      · rw [orient_self_right]
      · rcases eq_or_ne c a with rfl | hne
        · rw [orient_self_left]
        · have hc' : c ∈ u :: rest := by simpa [hne] using hc
          obtain ⟨-, k2, -⟩ := hv.top rfl
          rcases (hv.side_pos ⟨0, by simp, by simp⟩ : H p a ∧ (u = p ∨ 0 < orient p u a)).2 with rfl | hpos
          · -- the stack is [a, p]
            have hrest : rest = [] := by
              cases hv with
              | one _ => rfl
              | push hv' _ _ k => rw [orient_self] at k; exact absurd k (lt_irrefl _)
            subst hrest
            simp at hc'
            subst hc'
            rw [orient_cycle]
            exact h2.le
          · exact orient_new hpos (ih u a ⟨0, by simp, by simp⟩ c (by simp [hc'])) (k2 c hc') h1.le h2.le
    · rcases hc with rfl | hc
      · exact hv.left_all h h1.le h2.le a b hab
      · exact ih a b hab c hc

/-- the whole polygon -/
theorem Valid.last_side {p : Pt K} {o : Pt K} {r : List (Pt K)} (hv : Valid p (o :: r)) : ∀ c ∈ o :: r, 0 ≤ orient o p c := by
  intro c hc
  obtain ⟨-, k2, -⟩ := hv.top rfl
  rw [List.mem_cons] at hc
  rcases hc with rfl | hc
  · rw [orient_self_left]
  · rw [← orient_cycle]
    exact k2 c hc

theorem Valid.nodup {p : Pt K} {s : List (Pt K)} (hv : Valid p s) : s.Nodup := by
  induction hv with
  | @one o h => simp [h.ne]
  | @push o t u rest hv h h1 h2 ih =>
    rw [List.nodup_cons]
    refine ⟨fun hm => ?_, ih⟩
    have := ((Valid.push hv h h1 h2).top rfl).2.2 o hm h.ne
    rw [orient_self_right] at this
    exact lt_irrefl _ this

end Verif.Hull
