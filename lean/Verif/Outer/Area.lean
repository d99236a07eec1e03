import Verif.Locate.Wind
import Verif.Polygon.Caches
import Mathlib.Algebra.Order.BigOperators.Ring.Finset
import Mathlib.Order.Interval.Set.Infinite
import Mathlib.Data.Finset.Sort
import Mathlib.Tactic.Positivity

/-! # A closed polygon line that winds around points in the positive sense only encloses a positive area

The plane is cut into horizontal slabs at the levels of all points; in each slab the line consists of straight pieces, and the area in the slab is its
height times the length of the middle line, weighted with the winding number. -/

set_option linter.unusedSectionVars false

namespace Verif.Outer
open Verif Verif.GeoMap Verif.Polygon Verif.Scan Verif.Locate

variable {K : Type} [Field K] [LinearOrder K] [IsStrictOrderedRing K]

theorem exists_between_notMem {a b : K} (h : a < b) (X : Finset K) : ∃ t, a < t ∧ t < b ∧ t ∉ X := by
  obtain ⟨t, ht, hn⟩ := (Set.Ioo_infinite h).exists_notMem_finset X
  exact ⟨t, ht.1, ht.2, hn⟩

/-! ### On a line -/

section Line
variable {ι : Type} [DecidableEq ι]

/-- Summation by parts. -/
theorem abel (x : ι → K) (ε : ι → ℤ) (X : Finset K) : ∀ (n : Nat) (S : Finset ι) (m : K), S.card = n → (∀ i ∈ S, m < x i) →
    (∀ t, m < t → t ∉ X → 0 ≤ ∑ i ∈ S.filter (fun i => t < x i), ε i) →
    0 ≤ ∑ i ∈ S, (ε i : K) * (x i - m) ∧ (0 < ∑ i ∈ S, ε i → 0 < ∑ i ∈ S, (ε i : K) * (x i - m)) := by
  intro n
  induction n using Nat.strong_induction_on with
  | _ n ih =>
    intro S m hn hm ht
    rcases S.eq_empty_or_nonempty with rfl | hne
    · simp
    · obtain ⟨j, hj, hmin⟩ := S.exists_min_image x hne
      have hT : (S.filter fun i => x j < x i).card < n := by
        rw [← hn]
        refine Finset.card_lt_card ⟨Finset.filter_subset _ _, fun h => ?_⟩
        exact lt_irrefl _ (Finset.mem_filter.mp (h hj)).2
      obtain ⟨h1, -⟩ := ih _ hT (S.filter fun i => x j < x i) (x j) rfl (fun i hi => (Finset.mem_filter.mp hi).2) (by
        intro t h1 h2
        have := ht t ((hm j hj).trans h1) h2
        rw [Finset.filter_filter]
        refine this.trans_eq (Finset.sum_congr ?_ fun _ _ => rfl)
        ext i
        simp only [Finset.mem_filter, and_congr_right_iff]
        exact fun _ => ⟨fun h => ⟨h1.trans h, h⟩, fun h => h.2⟩)
      have htot : 0 ≤ ∑ i ∈ S, ε i := by
        obtain ⟨t, t1, t2, t3⟩ := exists_between_notMem (hm j hj) X
        have := ht t t1 t3
        rwa [Finset.filter_true_of_mem fun i hi => t2.trans_le (hmin i hi)] at this
      have e : ∑ i ∈ S, (ε i : K) * (x i - m) = ((∑ i ∈ S, ε i : ℤ) : K) * (x j - m) + ∑ i ∈ S.filter (fun i => x j < x i), (ε i : K) * (x i - x j) := by
        rw [Finset.sum_filter, Int.cast_sum, Finset.sum_mul, ← Finset.sum_add_distrib]
        refine Finset.sum_congr rfl fun i hi => ?_
        split_ifs with h
        · ring
        · have : x i = x j := le_antisymm (not_lt.mp h) (hmin i hi)
          rw [this]; ring
      have hpos : 0 < x j - m := sub_pos.mpr (hm j hj)
      rw [e]
      refine ⟨add_nonneg (mul_nonneg (by exact_mod_cast htot) hpos.le) h1, fun h => ?_⟩
      exact add_pos_of_pos_of_nonneg (mul_pos (by exact_mod_cast h) hpos) h1

/-- Crossings `x i` in the direction `ε i` of a line: if the sum of the crossings left of any point is not negative, the length they cover is not
negative; it is positive if one of these sums is. -/
theorem level_sum (S : Finset ι) (x : ι → K) (ε : ι → ℤ) (X : Finset K) (h0 : ∑ i ∈ S, ε i = 0)
    (hw : ∀ t, t ∉ X → 0 ≤ ∑ i ∈ S.filter (fun i => x i < t), ε i) :
    0 ≤ - ∑ i ∈ S, (ε i : K) * x i ∧ ∀ t, t ∉ X → (0 < ∑ i ∈ S.filter (fun i => x i < t), ε i) → 0 < - ∑ i ∈ S, (ε i : K) * x i := by
  let X' := X ∪ S.image x
  have hx : ∀ t, t ∉ X' → ∀ i ∈ S, x i ≠ t := fun t ht i hi e => ht (Finset.mem_union_right _ (Finset.mem_image.mpr ⟨i, hi, e⟩))
  have key : ∀ t, t ∉ X' → 0 ≤ - ∑ i ∈ S, (ε i : K) * x i ∧ ((0 < ∑ i ∈ S.filter (fun i => x i < t), ε i) → 0 < - ∑ i ∈ S, (ε i : K) * x i) := by
    intro t ht
    have hL := abel (fun i => - x i) ε (X'.image fun z => -z) _ (S.filter fun i => x i < t) (-t) rfl
      (fun i hi => neg_lt_neg (Finset.mem_filter.mp hi).2) (by
        intro u hu hn
        have hn' : -u ∉ X := fun h => hn (Finset.mem_image.mpr ⟨-u, Finset.mem_union_left _ h, neg_neg u⟩)
        refine (hw _ hn').trans_eq ?_
        rw [Finset.filter_filter]
        refine Finset.sum_congr ?_ fun _ _ => rfl
        ext i
        simp only [Finset.mem_filter, and_congr_right_iff]
        intro _
        constructor
        · intro h; exact ⟨by linarith, by linarith⟩
        · intro h; linarith [h.2])
    have hR := abel x (fun i => - ε i) X' _ (S.filter fun i => t < x i) t rfl (fun i hi => (Finset.mem_filter.mp hi).2) (by
        intro u hu hn
        refine (hw u fun h => hn (Finset.mem_union_left _ h)).trans_eq ?_
        rw [Finset.filter_filter]
        have e1 : (S.filter fun i => t < x i ∧ u < x i) = S.filter fun i => ¬ x i < u := by
          ext i
          simp only [Finset.mem_filter, and_congr_right_iff]
          intro hi
          have := hx u hn i hi
          constructor
          · intro h; exact not_lt.mpr h.2.le
          · intro h
            have := lt_of_le_of_ne (not_lt.mp h) (Ne.symm this)
            exact ⟨hu.trans this, this⟩
        have e2 := Finset.sum_filter_add_sum_filter_not S (fun i => x i < u) ε
        rw [e1, Finset.sum_neg_distrib]
        omega)
    have e : - ∑ i ∈ S, (ε i : K) * x i = ∑ i ∈ S.filter (fun i => x i < t), (ε i : K) * (- x i - -t) +
        ∑ i ∈ S.filter (fun i => t < x i), ((- ε i : ℤ) : K) * (x i - t) := by
      have h1 : ∑ i ∈ S, (ε i : K) * t = 0 := by
        rw [← Finset.sum_mul, ← Int.cast_sum, h0]; simp
      rw [← zero_add (- ∑ i ∈ S, (ε i : K) * x i), ← h1, ← sub_eq_add_neg, ← Finset.sum_sub_distrib, Finset.sum_filter, Finset.sum_filter,
        ← Finset.sum_add_distrib]
      refine Finset.sum_congr rfl fun i hi => ?_
      rcases lt_trichotomy (x i) t with h | h | h
      · rw [if_pos h, if_neg (not_lt.mpr h.le)]; ring
      · exact absurd h (hx t ht i hi)
      · rw [if_neg (not_lt.mpr h.le), if_pos h]; push_cast; ring
    rw [e]
    exact ⟨add_nonneg hL.1 hR.1, fun h => add_pos_of_pos_of_nonneg (hL.2 h) hR.1⟩
  constructor
  · obtain ⟨t, -, -, ht⟩ := exists_between_notMem (zero_lt_one (α := K)) X'
    exact (key t ht).1
  · intro t ht hpos
    -- move to the left past no crossing
    obtain ⟨u, hu1, hu2⟩ : ∃ u, u < t ∧ ∀ i ∈ S, x i < t → x i < u := by
      rcases (S.filter fun i => x i < t).eq_empty_or_nonempty with he | hne
      · exact ⟨t - 1, by linarith, fun i hi h => by
          have : i ∈ S.filter fun i => x i < t := Finset.mem_filter.mpr ⟨hi, h⟩
          rw [he] at this; simp at this⟩
      · obtain ⟨j, hj, hmax⟩ := Finset.exists_max_image _ x hne
        have := (Finset.mem_filter.mp hj).2
        refine ⟨(x j + t) / 2, by linarith, fun i hi h => ?_⟩
        have := hmax i (Finset.mem_filter.mpr ⟨hi, h⟩)
        linarith
    obtain ⟨v, v1, v2, v3⟩ := exists_between_notMem hu1 X'
    refine (key v v3).2 ?_
    refine hpos.trans_eq (Finset.sum_congr ?_ fun _ _ => rfl)
    ext i
    simp only [Finset.mem_filter, and_congr_right_iff]
    exact fun hi => ⟨fun h => (hu2 i hi h).trans v1, fun h => h.trans v2⟩

end Line

/-! ### Slabs -/

/-- Twice the area under the middle lines of the slabs between the levels. -/
def slabSum (F : K → K) : List K → K
  | [] => 0
  | [_] => 0
  | a :: b :: l => 2 * (b - a) * F ((a + b) / 2) + slabSum F (b :: l)

theorem slabSum_telescope {F P : K → K} {l : List K} (h : ∀ a b, [a, b] <:+: l → 2 * (b - a) * F ((a + b) / 2) = P b - P a) {u v : K}
    (hu : l.head? = some u) (hv : l.getLast? = some v) : slabSum F l = P v - P u := by
  induction l generalizing u with
  | nil => cases hu
  | cons a l ih =>
    cases hu
    cases l with
    | nil => cases hv; simp [slabSum]
    | cons b l =>
      rw [slabSum, h a b ⟨[], l, rfl⟩, ih (fun x y hxy => h x y (hxy.trans (List.suffix_cons _ _).isInfix)) rfl (by rw [← hv]; rfl)]
      ring

theorem slabSum_add (F G : K → K) (l : List K) : slabSum (fun y => F y + G y) l = slabSum F l + slabSum G l := by
  induction l with
  | nil => simp [slabSum]
  | cons a l ih =>
    cases l with
    | nil => simp [slabSum]
    | cons b l => rw [slabSum, slabSum, slabSum, ih]; ring

theorem slabSum_zero (l : List K) : slabSum (fun _ : K => (0 : K)) l = 0 := by
  induction l with
  | nil => rfl
  | cons a l ih =>
    cases l with
    | nil => rfl
    | cons b l => rw [slabSum, ih]; ring

theorem slabSum_nonneg {F : K → K} {l : List K} (hs : l.Pairwise (· < ·)) (h : ∀ a b, [a, b] <:+: l → 0 ≤ F ((a + b) / 2)) : 0 ≤ slabSum F l := by
  induction l with
  | nil => simp [slabSum]
  | cons a l ih =>
    cases l with
    | nil => simp [slabSum]
    | cons b l =>
      obtain ⟨h1, h2⟩ := List.pairwise_cons.mp hs
      rw [slabSum]
      have hab := h1 b List.mem_cons_self
      have := h a b ⟨[], l, rfl⟩
      have := ih h2 fun x y hxy => h x y (hxy.trans (List.suffix_cons _ _).isInfix)
      have : 0 ≤ 2 * (b - a) * F ((a + b) / 2) := mul_nonneg (by linarith) (by assumption)
      linarith

theorem slabSum_pos {F : K → K} {l : List K} (hs : l.Pairwise (· < ·)) (h : ∀ a b, [a, b] <:+: l → 0 ≤ F ((a + b) / 2)) {y : K} (hy : y ∉ l)
    (h1 : ∃ u ∈ l, u < y) (h2 : ∃ v ∈ l, y < v) (hp : ∀ a b, [a, b] <:+: l → a < y → y < b → 0 < F ((a + b) / 2)) : 0 < slabSum F l := by
  induction l with
  | nil => obtain ⟨u, hu, -⟩ := h1; cases hu
  | cons a l ih =>
    obtain ⟨u, hu, huy⟩ := h1
    obtain ⟨v, hv, hyv⟩ := h2
    obtain ⟨k1, k2⟩ := List.pairwise_cons.mp hs
    cases l with
    | nil =>
      simp only [List.mem_singleton] at hu hv
      subst hu hv
      exact absurd (huy.trans hyv) (lt_irrefl _)
    | cons b l =>
      have hay : a < y := by
        rcases List.mem_cons.mp hu with rfl | hu
        · exact huy
        · exact (k1 u hu).trans huy
      have hab := k1 b List.mem_cons_self
      have htail : ∀ x z, [x, z] <:+: b :: l → [x, z] <:+: a :: b :: l := fun x z hxz => hxz.trans (List.suffix_cons _ _).isInfix
      rw [slabSum]
      by_cases hyb : y < b
      · have := hp a b ⟨[], l, rfl⟩ hay hyb
        have := slabSum_nonneg k2 fun x z hxz => h x z (htail x z hxz)
        have : 0 < 2 * (b - a) * F ((a + b) / 2) := mul_pos (by linarith) (by assumption)
        linarith
      · have hby : b < y := lt_of_le_of_ne (not_lt.mp hyb) (by rintro rfl; exact hy (by simp))
        have hpos := ih k2 (fun x z hxz => h x z (htail x z hxz)) (fun hh => hy (List.mem_cons_of_mem _ hh)) ⟨b, List.mem_cons_self, hby⟩
          ⟨v, by
            rcases List.mem_cons.mp hv with rfl | hv
            · exact absurd (hay.trans hyv) (lt_irrefl _)
            · exact hv, hyv⟩ fun x z hxz => hp x z (htail x z hxz)
        have := h a b ⟨[], l, rfl⟩
        have : 0 ≤ 2 * (b - a) * F ((a + b) / 2) := mul_nonneg (by linarith) (by assumption)
        linarith

/-- Levels are on one side of a slab or the other. -/
theorem slab_empty {l : List K} (hs : l.Pairwise (· < ·)) {a b : K} (h : [a, b] <:+: l) {z : K} (hz : z ∈ l) : a < b ∧ (z ≤ a ∨ b ≤ z) := by
  obtain ⟨u, v, rfl⟩ := h
  rw [List.append_assoc, List.pairwise_append] at hs
  obtain ⟨-, h2, h3⟩ := hs
  simp only [List.cons_append, List.nil_append, List.pairwise_cons] at h2
  refine ⟨h2.1 b (by simp), ?_⟩
  simp only [List.append_assoc, List.mem_append, List.cons_append, List.nil_append, List.mem_cons] at hz
  rcases hz with hz | rfl | rfl | hz
  · exact Or.inl (h3 z hz a (by simp)).le
  · exact Or.inl le_rfl
  · exact Or.inr le_rfl
  · exact Or.inr (h2.2.1 z hz).le

/-! ### Segments -/

/-- Direction and place of the passage of a segment through the level `y`. -/
def pass (y : K) (p q : Pt K) : K := ((above y q - above y p : ℤ) : K) * levelX p q y

/-- Twice the area between a segment and the axis. -/
def trapezoid (p q : Pt K) : K := (p.1 + q.1) * (q.2 - p.2)

theorem levelX_swap {p q : Pt K} (h : p.2 ≠ q.2) (y : K) : levelX q p y = levelX p q y := by
  unfold levelX
  have h1 : q.2 - p.2 ≠ 0 := sub_ne_zero.mpr (Ne.symm h)
  have h2 : p.2 - q.2 ≠ 0 := sub_ne_zero.mpr h
  field_simp
  ring

theorem pass_swap (y : K) (p q : Pt K) : pass y q p = - pass y p q := by
  unfold pass
  by_cases h : p.2 = q.2
  · have : above y p = above y q := by unfold above; rw [h]
    rw [this]; simp
  · rw [levelX_swap h]; push_cast; ring

theorem segment_slabs {l : List K} (hs : l.Pairwise (· < ·)) {p q : Pt K} (hp : p.2 ∈ l) (hq : q.2 ∈ l) : slabSum (fun y => pass y p q) l = trapezoid p q := by
  have up : ∀ {p q : Pt K}, p.2 ∈ l → q.2 ∈ l → p.2 < q.2 → slabSum (fun y => pass y p q) l = trapezoid p q := by
    intro p q hp hq h
    have hne : q.2 - p.2 ≠ 0 := by linarith
    let c : K → K := fun y => max p.2 (min y q.2)
    let P : K → K := fun y => (c y - p.2) * (p.1 + levelX p q (c y))
    cases hl : l with
    | nil => rw [hl] at hp; cases hp
    | cons u r =>
      obtain ⟨v, hv⟩ : ∃ v, l.getLast? = some v := by rw [hl]; exact ⟨_, List.getLast?_eq_some_getLast (by simp)⟩
      have hu : l.head? = some u := by rw [hl]; rfl
      rw [← hl]
      rw [slabSum_telescope (P := P) ?_ hu hv]
      · have hup : u ≤ p.2 := by
          rw [hl] at hs hp
          rcases List.mem_cons.mp hp with h | h
          · exact h.ge
          · exact ((List.pairwise_cons.mp hs).1 _ h).le
        have hqv : q.2 ≤ v := by
          obtain ⟨m, hm⟩ := List.getLast?_eq_some_iff.mp hv
          rw [hm] at hs hq
          rcases List.mem_append.mp hq with h | h
          · exact ((List.pairwise_append.mp hs).2.2 _ h v (by simp)).le
          · simp only [List.mem_singleton] at h; exact h.le
        have c1 : c u = p.2 := max_eq_left ((min_le_left _ _).trans hup)
        have c2 : c v = q.2 := by simp only [c, min_eq_right hqv, max_eq_right h.le]
        simp only [P, c1, c2]
        unfold levelX trapezoid
        field_simp
        ring
      · intro a b hab
        obtain ⟨hlt, ha⟩ := slab_empty hs hab hp
        obtain ⟨-, hb⟩ := slab_empty hs hab hq
        simp only [P]
        unfold pass above
        rcases ha with ha | ha
        · rcases hb with hb | hb
          · -- above the segment
            have c1 : c a = q.2 := by simp only [c, min_eq_right hb, max_eq_right h.le]
            have c2 : c b = q.2 := by simp only [c, min_eq_right (hb.trans hlt.le), max_eq_right h.le]
            rw [c1, c2, if_neg (by linarith), if_neg (by linarith)]
            simp
          · -- within
            have c1 : c a = a := by simp only [c, min_eq_left (hlt.le.trans hb), max_eq_right ha]
            have c2 : c b = b := by simp only [c, min_eq_left hb, max_eq_right (ha.trans hlt.le)]
            rw [c1, c2, if_pos (by linarith), if_neg (by linarith)]
            unfold levelX
            field_simp
            ring
        · -- below the segment
          have c1 : c a = p.2 := by simp only [c]; exact max_eq_left ((min_le_left _ _).trans (hlt.le.trans ha))
          have c2 : c b = p.2 := by simp only [c]; exact max_eq_left ((min_le_left _ _).trans ha)
          rw [c1, c2, if_pos (by linarith), if_pos (by linarith)]
          simp
  rcases lt_trichotomy p.2 q.2 with h | h | h
  · exact up hp hq h
  · have : (fun y => pass y p q) = fun _ => (0 : K) := by
      funext y
      unfold pass above
      rw [h]; simp
    rw [this, slabSum_zero]
    unfold trapezoid
    rw [h]; simp
  · have := up hq hp h
    have e : slabSum (fun y => pass y p q) l + slabSum (fun y => pass y q p) l = 0 := by
      rw [← slabSum_add, show (fun y => pass y p q + pass y q p) = fun _ => (0 : K) from ?_, slabSum_zero]
      funext y
      rw [pass_swap]; ring
    have e2 : trapezoid p q = - trapezoid q p := by unfold trapezoid; ring
    rw [e2, ← this]
    linarith

/-- Within a slab the passages move along a straight line. -/
theorem pass_affine {l : List K} (hs : l.Pairwise (· < ·)) {p q : Pt K} (hp : p.2 ∈ l) (hq : q.2 ∈ l) {a b y : K} (hab : [a, b] <:+: l) (h1 : a < y) (h2 : y < b) :
    pass y p q + pass (a + b - y) p q = 2 * pass ((a + b) / 2) p q := by
  have hA : ∀ v : Pt K, v.2 ∈ l → above y v = above ((a + b) / 2) v ∧ above (a + b - y) v = above ((a + b) / 2) v := by
    intro v hv
    unfold above
    rcases (slab_empty hs hab hv).2 with h | h
    · rw [if_neg (by linarith), if_neg (by linarith), if_neg (by linarith)]; simp
    · rw [if_pos (by linarith), if_pos (by linarith), if_pos (by linarith)]; simp
  unfold pass
  rw [(hA p hp).1, (hA p hp).2, (hA q hq).1, (hA q hq).2]
  by_cases h : p.2 = q.2
  · have : above ((a + b) / 2) p = above ((a + b) / 2) q := by unfold above; rw [h]
    rw [this]; simp
  · have h1 : q.2 - p.2 ≠ 0 := sub_ne_zero.mpr (Ne.symm h)
    unfold levelX
    field_simp
    ring

/-! ### Polygon lines -/

theorem pathSum_cons' {M : Type} [AddCommMonoid M] (g : Pt K → Pt K → M) (p q : Pt K) (l : List (Pt K)) : pathSum g (p :: q :: l) = g p q + pathSum g (q :: l) := rfl

theorem path_slabs {l : List K} (hs : l.Pairwise (· < ·)) {pts : List (Pt K)} (h : ∀ p ∈ pts, p.2 ∈ l) :
    slabSum (fun y => pathSum (pass y) pts) l = pathSum trapezoid pts := by
  induction pts with
  | nil => exact slabSum_zero l
  | cons p r ih =>
    cases r with
    | nil => exact slabSum_zero l
    | cons q r =>
      simp only [pathSum_cons']
      rw [slabSum_add, ih fun x hx => h x (List.mem_cons_of_mem _ hx), segment_slabs hs (h p (by simp)) (h q (by simp))]

theorem path_affine {l : List K} (hs : l.Pairwise (· < ·)) {pts : List (Pt K)} (h : ∀ p ∈ pts, p.2 ∈ l) {a b y : K} (hab : [a, b] <:+: l) (h1 : a < y) (h2 : y < b) :
    pathSum (pass y) pts + pathSum (pass (a + b - y)) pts = 2 * pathSum (pass ((a + b) / 2)) pts := by
  induction pts with
  | nil => simp [pathSum]
  | cons p r ih =>
    cases r with
    | nil => simp [pathSum]
    | cons q r =>
      simp only [pathSum_cons']
      have := ih fun x hx => h x (List.mem_cons_of_mem _ hx)
      have := pass_affine hs (h p (by simp)) (h q (by simp)) hab h1 h2
      linarith

theorem path_trapezoid {p : Pt K} {l : List (Pt K)} {e : Pt K} (he : (p :: l).getLast? = some e) :
    pathSum trapezoid (p :: l) = e.1 * e.2 - p.1 * p.2 - pathSum cross (p :: l) := by
  induction l generalizing p with
  | nil => cases he; simp [pathSum]
  | cons q l ih =>
    rw [pathSum_cons', pathSum_cons', ih (by rw [← he]; rfl)]
    unfold trapezoid cross
    ring

theorem closed_trapezoid {pts : List (Pt K)} (h : pts.head? = pts.getLast?) : pathSum trapezoid pts = - pathSum cross pts := by
  cases pts with
  | nil => simp [pathSum]
  | cons p l =>
    rw [path_trapezoid h.symm]; ring

theorem path_above {p : Pt K} {l : List (Pt K)} {e : Pt K} (he : (p :: l).getLast? = some e) (y : K) :
    pathSum (fun a b => above y b - above y a) (p :: l) = above y e - above y p := by
  induction l generalizing p with
  | nil => cases he; simp [pathSum]
  | cons q l ih =>
    rw [pathSum_cons', ih (by rw [← he]; rfl)]
    ring

/-- At a level, if the line winds around no point in the negative sense, the length is not negative. -/
theorem path_level {pts : List (Pt K)} (hc : pts.head? = pts.getLast?) {y : K} {X : Finset K} (hw : ∀ x, x ∉ X → 0 ≤ winding (x, y) pts) :
    0 ≤ - pathSum (pass y) pts ∧ ∀ x, x ∉ X → 0 < winding (x, y) pts → 0 < - pathSum (pass y) pts := by
  let S := Finset.range (pts.length - 1)
  let P : Nat → Pt K := fun i => pts.getD i (0, 0)
  let ε : Nat → ℤ := fun i => above y (P (i + 1)) - above y (P i)
  let x : Nat → K := fun i => levelX (P i) (P (i + 1)) y
  have h0 : ∑ i ∈ S, ε i = 0 := by
    have := pathSum_eq_sum (fun a b : Pt K => above y b - above y a) pts
    rw [show (∑ i ∈ S, ε i) = pathSum (fun a b : Pt K => above y b - above y a) pts from this.symm]
    cases pts with
    | nil => rfl
    | cons p l => rw [path_above hc.symm]; ring
  have hwind : ∀ t, winding (t, y) pts = ∑ i ∈ S.filter (fun i => x i < t), ε i := by
    intro t
    unfold winding
    rw [pathSum_eq_sum, Finset.sum_filter]
    refine Finset.sum_congr rfl fun i _ => ?_
    rw [turn_eq]
  have hpass : pathSum (pass y) pts = ∑ i ∈ S, (ε i : K) * x i := pathSum_eq_sum (pass y) pts
  have := level_sum S x ε X h0 (fun t ht => by rw [← hwind]; exact hw t ht)
  rw [hpass]
  exact ⟨this.1, fun t ht hp => this.2 t ht (by rw [← hwind]; exact hp)⟩

/-- The level lines of the plane meet `bad` in finitely many points, but for finitely many levels. -/
def Thin (bad : Pt K → Prop) : Prop := ∃ Y : Finset K, ∀ y, y ∉ Y → ∃ X : Finset K, ∀ x, bad (x, y) → x ∈ X

/-- A closed polygon line that does not wind around points in the negative sense does not enclose a negative area. -/
theorem area_nonneg {pts : List (Pt K)} (hc : pts.head? = pts.getLast?) {bad : Pt K → Prop} (hb : Thin bad)
    (hw : ∀ c, ¬ bad c → 0 ≤ winding c pts) :
    0 ≤ pathSum cross pts ∧
      ∀ (c : Pt K) (ε : K), 0 < ε → (∀ c' : Pt K, |c'.1 - c.1| < ε → |c'.2 - c.2| < ε → ¬ bad c' ∧ 0 < winding c' pts) → 0 < pathSum cross pts := by
  obtain ⟨Y, hY⟩ := hb
  have hlev : ∀ y, y ∉ Y → 0 ≤ - pathSum (pass y) pts ∧ ∀ x, ¬ bad (x, y) → 0 < winding (x, y) pts → 0 < - pathSum (pass y) pts := by
    intro y hy
    classical
    obtain ⟨X, hX⟩ := hY y hy
    have hX' : ∀ x, x ∉ X → 0 ≤ winding (x, y) pts := fun x hx => hw _ fun hbad => hx (hX x hbad)
    refine ⟨(path_level hc hX').1, fun x hx hp => ?_⟩
    by_cases hxX : x ∈ X
    · refine (path_level hc (X := X.erase x) fun z hz => ?_).2 x (by simp) hp
      by_cases e : z = x
      · subst e; exact hw _ hx
      · exact hX' z fun h => hz (Finset.mem_erase.mpr ⟨e, h⟩)
    · exact (path_level hc hX').2 x hxX hp
  -- all levels, and a given one
  have main : ∀ y0 : K, ∃ l : List K, l.Pairwise (· < ·) ∧ (∀ p ∈ pts, p.2 ∈ l) ∧ (∀ z ∈ Y, z ∈ l) ∧ y0 - 1 ∈ l ∧ y0 + 1 ∈ l ∧
      ∀ z ∈ l, z ∈ Y ∨ (∃ p ∈ pts, z = p.2) ∨ z = y0 - 1 ∨ z = y0 + 1 := by
    intro y0
    let L := Y ∪ (pts.map (·.2)).toFinset ∪ {y0 - 1, y0 + 1}
    refine ⟨L.sort (· ≤ ·), ?_, ?_, ?_, ?_, ?_, ?_⟩
    · exact L.sortedLT_sort.pairwise
    · intro p hp
      rw [Finset.mem_sort]
      simp only [L, Finset.mem_union, List.mem_toFinset, List.mem_map]
      exact Or.inl (Or.inr ⟨p, hp, rfl⟩)
    · intro z hz
      rw [Finset.mem_sort]
      simp [L, hz]
    · rw [Finset.mem_sort]; simp [L]
    · rw [Finset.mem_sort]; simp [L]
    · intro z hz
      rw [Finset.mem_sort] at hz
      simp only [L, Finset.mem_union, List.mem_toFinset, List.mem_map, Finset.mem_insert, Finset.mem_singleton] at hz
      rcases hz with (h | ⟨p, hp, rfl⟩) | h | h
      · exact Or.inl h
      · exact Or.inr (Or.inl ⟨p, hp, rfl⟩)
      · exact Or.inr (Or.inr (Or.inl h))
      · exact Or.inr (Or.inr (Or.inr h))
  have neg : ∀ l : List K, slabSum (fun y => - pathSum (pass y) pts) l = - slabSum (fun y => pathSum (pass y) pts) l := by
    intro l
    have := slabSum_add (fun y => - pathSum (pass y) pts) (fun y => pathSum (pass y) pts) l
    simp only [neg_add_cancel] at this
    rw [slabSum_zero] at this
    linarith
  have gen : ∀ l : List K, l.Pairwise (· < ·) → (∀ z ∈ Y, z ∈ l) → ∀ a b y, [a, b] <:+: l → a < y → y < b → y ∉ Y := by
    intro l hs hYl a b y hab h1 h2 hy
    rcases (slab_empty hs hab (hYl y hy)).2 with h | h <;> linarith
  constructor
  · obtain ⟨l, hs, hpl, hYl, -⟩ := main 0
    have hsum := path_slabs hs hpl
    rw [closed_trapezoid hc] at hsum
    rw [← neg_neg (pathSum cross pts), ← hsum, ← neg]
    refine slabSum_nonneg hs fun a b hab => (hlev _ ?_).1
    have := (slab_empty hs hab (by obtain ⟨u, v, rfl⟩ := hab; simp : a ∈ l)).1
    exact gen l hs hYl a b _ hab (by linarith) (by linarith)
  · intro c ε hε hcε
    classical
    obtain ⟨y, y1, y2, hy⟩ := exists_between_notMem (show c.2 - ε < c.2 + ε by linarith) (Y ∪ (pts.map (·.2)).toFinset)
    obtain ⟨l, hs, hpl, hYl, hlo, hhi, hl⟩ := main y
    have hsum := path_slabs hs hpl
    rw [closed_trapezoid hc] at hsum
    rw [← neg_neg (pathSum cross pts), ← hsum, ← neg]
    have hyY : y ∉ Y := fun h => hy (Finset.mem_union_left _ h)
    have hyl : y ∉ l := by
      intro h
      rcases hl y h with h | ⟨p, hp, h⟩ | h | h
      · exact hyY h
      · exact hy (Finset.mem_union_right _ (by rw [List.mem_toFinset, List.mem_map]; exact ⟨p, hp, h.symm⟩))
      · linarith
      · linarith
    have hmid : ∀ a b, [a, b] <:+: l → a < b := fun a b hab => (slab_empty hs hab (by obtain ⟨u, v, rfl⟩ := hab; simp : a ∈ l)).1
    refine slabSum_pos hs (fun a b hab => (hlev _ ?_).1) hyl ⟨_, hlo, by linarith⟩ ⟨_, hhi, by linarith⟩ fun a b hab h1 h2 => ?_
    · have := hmid a b hab
      exact gen l hs hYl a b _ hab (by linarith) (by linarith)
    · have haff := path_affine hs hpl hab h1 h2
      have k1 := (hlev (a + b - y) (gen l hs hYl a b _ hab (by linarith) (by linarith))).1
      obtain ⟨q1, q2⟩ := hcε (c.1, y) (by simpa using hε) (by rw [abs_lt]; constructor <;> simp only <;> linarith)
      have k2 := (hlev y hyY).2 c.1 q1 q2
      linarith

end Verif.Outer
