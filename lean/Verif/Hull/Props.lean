import Verif.Hull.Result
import Mathlib.Algebra.Order.Ring.Rat
import Mathlib.Algebra.Field.Rat
import Mathlib.Data.List.Sort

/-! # C34: convex hulls (property theorems) -/

namespace Verif.Hull.Props
open Verif Verif.Hull

variable {K : Type} [Field K] [LinearOrder K] [IsStrictOrderedRing K]

/-- `p` is the point with the largest y coordinate, and of these the one with the smallest x coordinate. -/
def Extremal (p : K × K) (pts : List (K × K)) : Prop := p ∈ pts ∧ ∀ q ∈ pts, q.2 < p.2 ∨ (q.2 = p.2 ∧ p.1 ≤ q.1)

/-- squared distance -/
def dist2 (a b : K × K) : K := (a.1 - b.1) * (a.1 - b.1) + (a.2 - b.2) * (a.2 - b.2)

omit [Field K] [IsStrictOrderedRing K] in
theorem extremal_unique {p q : K × K} {pts : List (K × K)} (hp : Extremal p pts) (hq : Extremal q pts) : p = q := by
  have h1 := hp.2 q hq.1
  have h2 := hq.2 p hp.1
  rcases h1 with h1 | ⟨h1, h1'⟩ <;> rcases h2 with h2 | ⟨h2, h2'⟩
  · exact absurd (h1.trans h2) (lt_irrefl _)
  · rw [h2] at h1; exact absurd h1 (lt_irrefl _)
  · rw [h1] at h2; exact absurd h2 (lt_irrefl _)
  · exact Prod.ext (le_antisymm h1' h2') h1.symm

/-- The hull of two or more points is correct, if the extremal point is given only once and the sort puts points on the
same ray from the extremal point in the order of their distance. -/
theorem convexHull_correct_partial (sort : (K × K → K × K → Bool) → List (K × K) → List (K × K)) (pts : List (K × K)) (h2 : 2 ≤ pts.length)
    {p : K × K} (hp : Extremal p pts) (hone : pts.count p = 1)
    (hsort : Sorts (ccwCompare p) (pts.erase p) (sort (ccwCompare p) (pts.erase p)))
    (hnear : (sort (ccwCompare p) (pts.erase p)).Pairwise fun a b => orient p a b = 0 → dist2 a p ≤ dist2 b p) :
    ∃ hull, convexHull sort pts = .ok hull ∧ IsHull pts hull ∧ hull.length ≤ pts.length + 1 := by
  match pts, h2 with
  | a :: b :: l, _ =>
  obtain ⟨e1, e2⟩ := extreme_spec a (b :: l)
  have hpe : (extreme a (b :: l)).1 = p := extremal_unique ⟨List.mem_of_getElem? e1, e2⟩ hp
  generalize hL : a :: b :: l = L at *
  have hcons : convexHull sort L = finish p (sort (ccwCompare p) (L.eraseIdx (extreme a (b :: l)).2)) := by
    subst hL
    unfold convexHull
    simp only [hpe]
  -- erasing by index or by value
  have herase : L.eraseIdx (extreme a (b :: l)).2 = L.erase p := by
    rw [← hpe, ← hL]
    exact extreme_erase a (b :: l)
  rw [hcons, herase]
  obtain ⟨s1, s2⟩ := hsort
  have hlen : (sort (ccwCompare p) (L.erase p)).length + 1 = L.length := by
    rw [s1.length_eq, List.length_erase_of_mem hp.1, ← hL]
    simp
  have hmem : ∀ q ∈ sort (ccwCompare p) (L.erase p), q ∈ L ∧ H p q := by
    intro q hq
    have hq' := s1.mem_iff.mp hq
    have hqL := List.mem_of_mem_erase hq'
    refine ⟨hqL, ?_⟩
    have hne : q ≠ p := by
      rintro rfl
      have := List.count_erase_self (a := q) (l := L)
      rw [hone] at this
      exact absurd (List.count_pos_iff.mpr hq') (by omega)
    rcases hp.2 q hqL with h | ⟨h, h'⟩
    · exact Or.inl h
    · exact Or.inr ⟨h, lt_of_le_of_ne h' fun e => hne (Prod.ext e.symm h)⟩
  have hall : ∀ q ∈ L, q = p ∨ q ∈ sort (ccwCompare p) (L.erase p) := by
    intro q hq
    by_cases e : q = p
    · exact Or.inl e
    · exact Or.inr (s1.mem_iff.mpr ((List.mem_erase_of_ne e).mpr hq))
  generalize sort (ccwCompare p) (L.erase p) = o' at *
  cases o' with
  | nil => rw [← hL] at hlen; simp at hlen
  | cons o os =>
    have hs' : (o :: os).Pairwise fun a b => 0 ≤ orient p a b := s2.imp fun {x y} h => by
      unfold ccwCompare at h
      rw [decide_eq_false_iff_not, not_lt] at h
      have : orient p x y = -((y.2 - p.2) * (x.1 - p.1) - (y.1 - p.1) * (x.2 - p.2)) := by unfold orient; ring
      rw [this]
      linarith
    have hn' : (o :: os).Pairwise fun a b => orient p a b = 0 → sqMag (a - p) ≤ sqMag (b - p) := hnear
    rw [List.pairwise_cons] at hs' hn'
    obtain ⟨s', k0, k1, k2, k3, k4, k5⟩ := scan_spec (p := p) os (s := [o, p]) (Q := [o]) (.one (hmem o (by simp)).2) (fun q hq => (hmem q (by simp [hq])).2)
      hs'.2 (fun c hc q hq => by
        simp at hc
        rcases hc with rfl | rfl
        · exact hs'.1 q hq
        · rw [orient_self]) hn'.2 (fun c hc hne q hq => by
        simp at hc
        rcases hc with rfl | rfl
        · exact hn'.1 q hq
        · exact absurd rfl hne) (fun q hq => by
        simp at hq
        subst hq
        exact cov_top (InTri.right _ _ _))
    unfold finish
    simp only [k0, Outcome.bind_ok]
    refine ⟨_, rfl, isHull_of_valid k1 ?_ ?_, ?_⟩
    · intro c hc
      rcases k4 c hc with h | h
      · simp at h
        rcases h with rfl | rfl
        · exact (hmem c (by simp)).1
        · exact hp.1
      · exact (hmem c (by simp [h])).1
    · intro q hq
      rcases hall q hq with h | h
      · exact Or.inl h
      · rw [List.mem_cons] at h
        rcases h with rfl | h
        · exact Or.inr (k2 q (by simp))
        · exact Or.inr (k3 q h)
    · simp only [List.length_reverse, List.length_cons, List.length_nil] at *
      omega

/-- For any two or more points, wherever they are, the scan ends, stays inside its array, and gives a closed polygon of
given points. -/
theorem convexHull_safe (sort : (K × K → K × K → Bool) → List (K × K) → List (K × K)) (pts : List (K × K)) (h2 : 2 ≤ pts.length)
    {p : K × K} (hp : Extremal p pts) (hsort : Sorts (ccwCompare p) (pts.erase p) (sort (ccwCompare p) (pts.erase p))) :
    ∃ hull, convexHull sort pts = .ok hull ∧ 3 ≤ hull.length ∧ hull.length ≤ pts.length + 1 ∧ (∀ v ∈ hull, v ∈ pts) ∧
      hull.head? = some p ∧ hull.getLast? = some p := by
  match pts, h2 with
  | a :: b :: l, _ =>
  obtain ⟨e1, e2⟩ := extreme_spec a (b :: l)
  have hpe : (extreme a (b :: l)).1 = p := extremal_unique ⟨List.mem_of_getElem? e1, e2⟩ hp
  have herase := extreme_erase a (b :: l)
  rw [hpe] at herase
  obtain ⟨s1, s2⟩ := hsort
  have hlen := s1.length_eq
  rw [List.length_erase_of_mem hp.1] at hlen
  have hmem : ∀ q ∈ sort (ccwCompare p) ((a :: b :: l).erase p), q ∈ a :: b :: l := fun q hq => List.mem_of_mem_erase (s1.mem_iff.mp hq)
  unfold convexHull
  simp only [hpe, herase]
  generalize sort (ccwCompare p) ((a :: b :: l).erase p) = o' at *
  cases o' with
  | nil => simp at hlen
  | cons o os =>
    have hs' : (o :: os).Pairwise fun a b => 0 ≤ orient p a b := s2.imp fun {x y} h => by
      unfold ccwCompare at h
      rw [decide_eq_false_iff_not, not_lt] at h
      have : orient p x y = -((y.2 - p.2) * (x.1 - p.1) - (y.1 - p.1) * (x.2 - p.2)) := by unfold orient; ring
      rw [this]
      linarith
    obtain ⟨s', k0, k1, k2, k3, k4⟩ := scan_safe (p := p) (o :: os) os [o] (by simp) (by simp) (fun x hx => by simp [hx]) hs'.tail
      (fun c hc q hq => by simp at hc; subst hc; exact (List.pairwise_cons.mp hs').1 q hq)
    unfold finish
    simp only [List.singleton_append] at k0
    simp only [k0, Outcome.bind_ok]
    refine ⟨_, rfl, ?_, ?_, ?_, by simp, by rw [List.getLast?_reverse]; simp⟩
    · have := List.length_pos_of_ne_nil k1
      simp
      omega
    · simp at k3 hlen ⊢
      omega
    · intro v hv
      rw [List.mem_reverse, List.mem_cons, List.mem_append, List.mem_singleton] at hv
      rcases hv with rfl | hv | rfl
      · exact hp.1
      · exact hmem v (k2 v hv)
      · exact hp.1

/-- In particular, if no two other points are on the same ray from the extremal point, whatever the sort does with equal
elements. -/
theorem convexHull_correct_general_position (sort : (K × K → K × K → Bool) → List (K × K) → List (K × K)) (pts : List (K × K)) (h2 : 2 ≤ pts.length)
    {p : K × K} (hp : Extremal p pts) (hone : pts.count p = 1)
    (hray : ∀ a ∈ pts, ∀ b ∈ pts, a ≠ p → b ≠ p → orient p a b = 0 → a = b)
    (hsort : Sorts (ccwCompare p) (pts.erase p) (sort (ccwCompare p) (pts.erase p))) :
    ∃ hull, convexHull sort pts = .ok hull ∧ IsHull pts hull ∧ hull.length ≤ pts.length + 1 := by
  refine convexHull_correct_partial sort pts h2 hp hone hsort ?_
  have hmem : ∀ q ∈ sort (ccwCompare p) (pts.erase p), q ∈ pts ∧ q ≠ p := by
    intro q hq
    have hq' := hsort.1.mem_iff.mp hq
    refine ⟨List.mem_of_mem_erase hq', ?_⟩
    rintro rfl
    have := List.count_erase_self (a := q) (l := pts)
    rw [hone] at this
    exact absurd (List.count_pos_iff.mpr hq') (by omega)
  apply List.pairwise_of_forall_mem_list
  intro a ha b hb h0
  obtain ⟨a1, a2⟩ := hmem a ha
  obtain ⟨b1, b2⟩ := hmem b hb
  rw [hray a a1 b b1 a2 b2 h0]

omit [IsStrictOrderedRing K] in
/-- Less than two points are rejected. -/
theorem convexHull_precond (sort : (K × K → K × K → Bool) → List (K × K) → List (K × K)) (pts : List (K × K)) (h : pts.length < 2) :
    convexHull sort pts = .precond := by
  match pts, h with
  | [], _ => rfl
  | [_], _ => rfl

/-! ## what fails -/

/-- three points on the ray above the extremal point (0, 0) -/
def rayPoints : List (Rat × Rat) := [(0, 0), (3, 0), (0, -5), (0, -1), (0, -8)]

/-- Already five different points have a wrong hull: with a sort that leaves points on the same ray in the given order,
(0, -8) is outside of the result. -/
theorem convexHull_correct_violated : Extremal (0, 0) rayPoints ∧ rayPoints.Nodup ∧ Sorts (ccwCompare (0, 0)) (rayPoints.erase (0, 0)) (rayPoints.erase (0, 0)) ∧
    convexHull (fun _ l => l) rayPoints = .ok [(0, 0), (3, 0), (0, -5), (0, -1), (0, 0)] ∧
    orient (3, 0) (0, -5) ((0, -8) : Rat × Rat) < 0 ∧ ∀ hull, convexHull (fun _ l => l) rayPoints = .ok hull → ¬ IsHull rayPoints hull := by
  have he : convexHull (fun _ l => l) rayPoints = .ok [(0, 0), (3, 0), (0, -5), (0, -1), (0, 0)] := by decide +kernel
  have ho : orient (3, 0) (0, -5) ((0, -8) : Rat × Rat) < 0 := by decide +kernel
  refine ⟨?_, by decide +kernel, ?_, he, ho, ?_⟩
  · unfold Extremal
    decide +kernel
  · unfold Sorts
    refine ⟨List.Perm.refl _, ?_⟩
    decide +kernel
  · intro hull hh hH
    rw [he] at hh
    cases hh
    have := hH.left 1 (3, 0) (0, -5) rfl rfl (0, -8) (by decide +kernel)
    exact absurd this (not_le.mpr ho)

/-- The order given to `std::sort` is not a strict weak ordering if the extremal point is given twice, as in a closed
polygon that starts there: `a` is before `b`, but both are equivalent to the other copy of the extremal point. -/
theorem ccwCompare_duplicate_violated (p : K × K) {a b : K × K} (hab : ccwCompare p a b = true) :
    (ccwCompare p a p = false ∧ ccwCompare p p a = false) ∧ (ccwCompare p p b = false ∧ ccwCompare p b p = false) ∧ ccwCompare p a b = true := by
  unfold ccwCompare at *
  simp at *
  exact hab

/-! ## examples -/

/-- a square with a point inside and a point on a side -/
def square : List (Rat × Rat) := [(0, 0), (2, 1), (4, -4), (4, 0), (0, 4), (2, 4), (4, 4)]

example : ∃ hull, convexHull (fun lt l => l.insertionSort fun a b => lt b a = false) square = .ok hull ∧ IsHull square hull ∧ hull.length ≤ 8 :=
  convexHull_correct_partial _ square (by decide) (p := (0, 4)) (by unfold Extremal; decide +kernel) (by decide +kernel)
    (by unfold Sorts; refine ⟨List.perm_insertionSort _ _, ?_⟩; decide +kernel) (by decide +kernel)

example : ∃ hull, convexHull (fun lt l => l.insertionSort fun a b => lt b a = false) rayPoints = .ok hull ∧ 3 ≤ hull.length ∧ hull.length ≤ 6 ∧
    (∀ v ∈ hull, v ∈ rayPoints) ∧ hull.head? = some (0, 0) ∧ hull.getLast? = some (0, 0) :=
  convexHull_safe _ rayPoints (by decide) (p := (0, 0)) (by unfold Extremal; decide +kernel)
    (by unfold Sorts; refine ⟨List.perm_insertionSort _ _, ?_⟩; decide +kernel)

/-- general position -/
example : ∃ hull, convexHull (fun lt l => l.insertionSort fun a b => lt b a = false) [((0, 0) : Rat × Rat), (3, -1), (1, -1), (0, -5)] = .ok hull ∧
    IsHull [((0, 0) : Rat × Rat), (3, -1), (1, -1), (0, -5)] hull ∧ hull.length ≤ 5 :=
  convexHull_correct_general_position _ _ (by decide) (p := (0, 0)) (by unfold Extremal; decide +kernel) (by decide +kernel) (by decide +kernel)
    (by unfold Sorts; refine ⟨List.perm_insertionSort _ _, ?_⟩; decide +kernel)

end Verif.Hull.Props
