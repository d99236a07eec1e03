import Verif.Polygon.Contains

/-!
# Properties of polygons (C29-C32, C46)

`Made dist allow p`: `p` was produced by some sequence of calls, each satisfying `allow` (Spec.lean).
`Fits`: `Edge::concatenate` is called for edges that meet.
-/

namespace Verif.Polygon.Props
open Verif Verif.GeoMap Verif.Polygon

variable {K : Type} [Field K] [LinearOrder K] {dist : Pt K → Pt K → K}

/-- distance used in the examples -/
def manhattan (p q : Pt ℚ) : ℚ := |p.1 - q.1| + |p.2 - q.2|

theorem manhattan_comm (p q : Pt ℚ) : manhattan q p = manhattan p q := by
  unfold manhattan; rw [abs_sub_comm q.1, abs_sub_comm q.2]

/-- an open polyline, built point by point -/
def sample : Poly ℚ := ((Poly.default.pushBack manhattan (1, 0)).pushBack manhattan (3, 0)).pushBack manhattan (3, 4)

/-- the same points, given to the constructor -/
def sample' : Poly ℚ := Poly.ofPoints [(1, 0), (3, 0), (3, 4)]

/-! ## C29: cached length and area -/

/-- **C29, length.** After any sequence of calls (other than `clear()`), `length()` is the sum of the segment lengths of the
current points. -/
theorem length_exact (hs : ∀ p q, dist q p = dist p q) {p : Poly K}
    (h : Made dist (fun p c => Fits p c ∧ c ≠ .clear) p) : (p.length dist).1 = trueLength dist p.pts := by
  have : LenOK dist p := by
    induction h with
    | default => intro x hx; simpa [Poly.default] using hx.symm
    | ofPoints l => intro x hx; simp [Poly.ofPoints] at hx
    | call c _ _ ha hr ih1 ih2 => exact lenOK_call hs ih1 ih2 ha.1 ha.2 hr
  rw [trueLength_eq]; exact this.length

theorem made_sample {allow : Poly ℚ → Call ℚ → Prop} (h : ∀ p v, allow p (.pushBack v)) : Made manhattan allow sample :=
  .call (.pushBack _) (.call (.pushBack _) (.call (.pushBack _) .default (by simp [Call.other]) (h _ _) rfl)
    (by simp [Call.other]) (h _ _) rfl) (by simp [Call.other]) (h _ _) rfl

example : Made manhattan (fun p c => Fits p c ∧ c ≠ .clear) sample ∧ sample.len = some 6 ∧
    trueLength manhattan sample.pts = 6 := by
  refine ⟨made_sample (fun _ _ => ⟨trivial, by simp⟩), ?_, ?_⟩ <;> decide +kernel

/-- The exclusion of `clear()` is necessary: it leaves the old length in the cache. -/
theorem length_exact_violated : ∃ p : Poly ℚ, Made manhattan Fits p ∧ (p.length manhattan).1 ≠ trueLength manhattan p.pts := by
  refine ⟨sample.clear, .call .clear (made_sample fun _ _ => trivial) (by simp [Call.other]) trivial rfl, ?_⟩
  decide +kernel

/-- **C29, area (part).** `partialArea()` is the sum of the triangle areas of the current points after any sequence of calls in
which `push_back` and (for polygons that do not meet) `extend` are only used while the area is not cached or where they add a
segment with vanishing triangle, and `clear()` only while the area is not cached. Missing: all other uses of `push_back`
and `extend`, for which it is false (`area_after_push_back`, `area_exact_violated`). -/
theorem area_exact_partial {p : Poly K} (h : Made dist (fun p c => Fits p c ∧ AreaSafe p c) p) :
    p.partialArea.1 = trueArea p.pts := by
  have : AreaOK p := by
    induction h with
    | default => intro x hx; simpa [Poly.default] using hx.symm
    | ofPoints l => intro x hx; simp [Poly.ofPoints] at hx
    | call c _ _ ha hr ih1 ih2 => exact areaOK_call ih1 ih2 ha.1 ha.2 hr
  rw [trueArea_eq]; exact this.partialArea

/-- `sample'`, reversed and with a point appended while its area is not cached, then queried -/
example : Made manhattan (fun p c => Fits p c ∧ AreaSafe p c) (sample'.reverse.pushBack manhattan (7, 7)).partialArea.2 ∧
    (sample'.reverse.pushBack manhattan (7, 7)).partialArea.2.area = some (5/2) := by
  refine ⟨.call .queryArea (.call (.pushBack (7, 7)) (.call .reverse (.ofPoints _) (by simp [Call.other]) ⟨trivial, trivial⟩ rfl)
    (by simp [Call.other]) ⟨trivial, Or.inl rfl⟩ rfl) (by simp [Call.other]) ⟨trivial, trivial⟩ rfl, ?_⟩
  decide +kernel

/-- What `push_back` does to a cached, right area: it adds the triangle of the new segment once too often. -/
theorem area_after_push_back [NeZero (2 : K)] {p : Poly K} {b v : Pt K} (hb : p.pts.getLast? = some b) (hc : p.area = some (trueArea p.pts)) :
    (p.pushBack dist v).partialArea.1 = trueArea (p.pushBack dist v).pts + triangle b v := by
  have h2 : (2 : K) ≠ 0 := NeZero.ne 2
  simp only [Poly.pushBack, hb, hc, Poly.partialArea, Option.map_some, trueArea_eq, pathSum_append, List.head?_cons, joint_some,
    pathSum_single, triangle, cross]
  field_simp; ring

/-- Hence the area is wrong after an ordinary history: three points appended to a default-constructed polygon. -/
theorem area_exact_violated : ∃ p : Poly ℚ, Made manhattan (fun p c => Fits p c ∧ ∃ v, c = .pushBack v) p ∧ p.partialArea.1 ≠ trueArea p.pts := by
  refine ⟨sample, made_sample (fun _ v => ⟨trivial, v, rfl⟩), ?_⟩
  decide +kernel

/-! ## C30: algebra of lengths and areas -/

omit [LinearOrder K] in
/-- **C30.** Reversing a polygon negates its area. -/
theorem reverse_area (p : Poly K) : trueArea p.reverse.pts = - trueArea p.pts := by
  simp only [Poly.reverse, trueArea_eq, pathSum_reverse_neg cross cross_swap]; ring

omit [LinearOrder K] in
/-- **C30.** Reversing a polygon keeps its length. -/
theorem reverse_length (hs : ∀ p q, dist q p = dist p q) (p : Poly K) : trueLength dist p.reverse.pts = trueLength dist p.pts := by
  simp only [Poly.reverse, trueLength_eq, pathSum_reverse dist hs]

omit [LinearOrder K] in
/-- **C30.** `split(i)` cuts the polygon at point `i`, which is the last point of the first and the first point of the second part;
lengths and areas of the parts add up. -/
theorem split_adds {p a b : Poly K} {i : Nat} (h : p.split i = .ok (a, b)) :
    (∃ x, p.pts[i]? = some x ∧ a.pts = p.pts.take i ++ [x] ∧ b.pts = x :: p.pts.drop (i + 1)) ∧
    trueLength dist a.pts + trueLength dist b.pts = trueLength dist p.pts ∧
    trueArea a.pts + trueArea b.pts = trueArea p.pts := by
  unfold Poly.split at h
  cases hi : p.pts[i]? with
  | none => rw [hi] at h; simp at h
  | some x =>
    rw [hi] at h; simp only at h
    obtain ⟨hlt, hx⟩ := List.getElem?_eq_some_iff.mp hi
    have e1 : p.pts.take (i + 1) = p.pts.take i ++ [x] := by
      rw [List.take_add_one, hi]; rfl
    have e2 : p.pts.drop i = x :: p.pts.drop (i + 1) := by rw [← hx, List.drop_eq_getElem_cons hlt]
    have hab : a.pts = p.pts.take (i + 1) ∧ b.pts = p.pts.drop i := by
      split at h
      case isTrue h0 =>
        simp only [Outcome.ok.injEq, Prod.mk.injEq] at h
        obtain ⟨rfl, rfl⟩ := h
        subst h0
        simp [e1]
      case isFalse h0 =>
        simp only [Outcome.ok.injEq, Prod.mk.injEq] at h
        obtain ⟨rfl, rfl⟩ := h
        exact ⟨rfl, rfl⟩
    refine ⟨⟨x, rfl, hab.1.trans e1, hab.2.trans e2⟩, ?_, ?_⟩
    · rw [trueLength_eq, trueLength_eq, trueLength_eq, hab.1, hab.2, pathSum_split dist hi]
    · rw [trueArea_eq, trueArea_eq, trueArea_eq, hab.1, hab.2, ← add_div, pathSum_split cross hi]

example : ∃ a b, sample.split 1 = .ok (a, b) ∧ a.pts = [(1, 0), (3, 0)] ∧ b.pts = [(3, 0), (3, 4)] := by
  refine ⟨_, _, rfl, ?_, ?_⟩ <;> decide +kernel

omit [Field K] [LinearOrder K] in
/-- **C30.** `split(i)` fails only for an index that is not a point. -/
theorem split_total (p : Poly K) (i : Nat) : (∃ r, p.split i = .ok r) ↔ i < p.pts.length := by
  unfold Poly.split
  cases hi : p.pts[i]? with
  | none => simp only [reduceCtorEq, exists_false, false_iff, not_lt]; simpa using hi
  | some x =>
    simp only
    refine ⟨fun _ => (List.getElem?_eq_some_iff.mp hi).1, fun _ => ?_⟩
    split <;> exact ⟨_, rfl⟩

/-- **C30.** `extend` appends the other polygon's points (a shared end point only once); length and area grow by those of the other
polygon and of the gap. -/
theorem extend_adds (p q : Poly K) :
    ((p.extend dist q).pts = if p.pts ≠ [] ∧ p.pts.getLast? = q.pts.head? then p.pts ++ q.pts.tail else p.pts ++ q.pts) ∧
    trueLength dist (p.extend dist q).pts = trueLength dist p.pts + joint (fun a b => if a = b then 0 else dist a b) p.pts.getLast? q.pts.head? + trueLength dist q.pts ∧
    trueArea (p.extend dist q).pts = trueArea p.pts + joint triangle p.pts.getLast? q.pts.head? + trueArea q.pts := by
  refine ⟨?_, ?_⟩
  · by_cases e : q.pts = []
    · simp [Poly.extend, e]
    · simp only [Poly.extend, e, if_false]
      cases h1 : p.pts.getLast? with
      | none =>
        have h0 : p.pts = [] := by simpa using h1
        simp [extendGap, h0]
      | some a =>
        have h0 : p.pts ≠ [] := by rintro h; simp [h] at h1
        cases h2 : q.pts.head? with
        | none => simp at h2; exact absurd h2 e
        | some b =>
          by_cases hab : b = a
          · simp [extendGap, hab, h0]
          · simp [extendGap, hab, Ne.symm hab]
  by_cases e : q.pts = []
  · simp [Poly.extend, e, trueLength, trueArea]
  · simp only [Poly.extend, e, if_false, trueLength_eq, trueArea_eq]
    rw [extendGap_len _ _ e, (extendGap_area (dist := dist) p.pts q.pts e).1]
    constructor
    · congr 2
      cases p.pts.getLast? with
      | none => simp [extendGap]
      | some a =>
        cases q.pts.head? with
        | none => simp [extendGap]
        | some b =>
          simp only [extendGap, joint_some]
          by_cases h : b = a
          · simp [h]
          · simp [h, Ne.symm h]
    · have : joint triangle p.pts.getLast? q.pts.head? = joint cross p.pts.getLast? q.pts.head? / 2 := by
        cases p.pts.getLast? with
        | none => simp
        | some a =>
          cases q.pts.head? with
          | none => simp
          | some b => simp only [joint_some, triangle, cross]; ring
      rw [this]; ring

omit [LinearOrder K] in
/-- **C30.** The area of a closed polygon does not depend on the position of the origin. -/
theorem area_translate [NeZero (2 : K)] (l : List (Pt K)) (hc : l.head? = l.getLast?) (t : Pt K) :
    trueArea (l.map fun p => (p.1 + t.1, p.2 + t.2)) = trueArea l := by
  have key : ∀ (l : List (Pt K)) (a b : Pt K), l.head? = some a → l.getLast? = some b →
      pathSum cross (l.map fun p => (p.1 + t.1, p.2 + t.2)) = pathSum cross l + (b.1 - a.1) * t.2 - (b.2 - a.2) * t.1 := by
    intro l
    induction l with
    | nil => intro a b h; simp at h
    | cons p l ih =>
      intro a b h1 h2
      simp only [List.head?_cons, Option.some.injEq] at h1; subst h1
      cases l with
      | nil => simp at h2; subst h2; simp
      | cons q l =>
        rw [List.getLast?_cons_cons] at h2
        rw [List.map_cons, pathSum_cons, ih q b rfl h2, pathSum_cons cross p]
        simp only [List.map_cons, List.head?_cons, joint_some, cross]; ring
  rw [trueArea_eq, trueArea_eq]
  cases l with
  | nil => simp
  | cons a l =>
    rw [key (a :: l) a a rfl (by simpa using hc.symm)]; ring

omit [LinearOrder K] in
/-- **C30.** The area of a closed polygon does not depend on the point where it starts. -/
theorem area_start (a : Pt K) (A : List (Pt K)) (b : Pt K) (B : List (Pt K)) :
    trueArea (a :: A ++ b :: B ++ [a]) = trueArea (b :: B ++ a :: A ++ [b]) := by
  rw [trueArea_eq, trueArea_eq]
  congr 1
  exact pathSum_start cross a A b B

/-! ## C31: bounding boxes -/

/-- **C31 (part).** `boundingBox()` is the bounding box of the current points after any sequence of calls in which `setPoint` moves points
to places inside the current box (or away from its border), and `clear()` is only called while the box is not cached. Missing:
other uses of `setPoint` and `clear()`, for which it is false (`bbox_violated`). -/
theorem bbox_exact_partial {p : Poly K} (h : Made dist (fun p c => Fits p c ∧ BoxSafe p c) p) :
    IsBoundingBox p.boundingBox.1 p.pts := by
  have : BoxOK p := by
    induction h with
    | default => intro x hx; simp [Poly.default] at hx
    | ofPoints l => intro x hx; simp [Poly.ofPoints] at hx
    | call c _ _ ha hr ih1 ih2 => exact boxOK_call ih1 ih2 ha.1 ha.2 hr
  exact this.boundingBox

example : Made manhattan (fun p c => Fits p c ∧ BoxSafe p c) (sample'.boundingBox.2.pushBack manhattan (7, 7)) ∧
    (sample'.boundingBox.2.pushBack manhattan (7, 7)).box = some (some ((1, 0), (7, 7))) := by
  refine ⟨.call (.pushBack _) (.call .queryBox (.ofPoints _) (by simp [Call.other]) ⟨trivial, trivial⟩ rfl)
    (by simp [Call.other]) ⟨trivial, trivial⟩ rfl, ?_⟩
  decide +kernel

omit [Field K] in
/-- The bounding box is determined by the points. -/
theorem bbox_unique {a b : Box K} {l : List (Pt K)} (ha : IsBoundingBox a l) (hb : IsBoundingBox b l) : a = b := isBB_unique ha hb

/-- `setPoint` keeps a right cached bounding box right exactly if the new place is inside the box, or the point was moved away from a
side of the box it was on. -/
theorem bbox_setPoint {p p' : Poly K} {i : Nat} {x old : Pt K} {b : Box K} (hb : p.box = some b) (hr : IsBoundingBox b p.pts)
    (ho : p.pts[i]? = some old) (h : p.setPoint dist i x = .ok p') :
    IsBoundingBox p'.boundingBox.1 p'.pts ↔ (inBox b x = true ∨ boxTouched b old x = true) := by
  constructor
  · intro hbb
    by_contra hc
    rw [not_or] at hc
    unfold Poly.setPoint at h
    rw [ho] at h
    simp only [hb, Outcome.ok.injEq, Option.bind_some, if_neg hc.2] at h
    subst h
    obtain ⟨A, B, e, hA⟩ := getElem?_split ho
    have hx : x ∈ p.pts.set i x := by
      rw [e, ← hA, List.set_append_right _ _ (Nat.le_refl _), Nat.sub_self, List.set_cons_zero]; simp
    simp only [Poly.boundingBox] at hbb
    cases b with
    | none => simp only [IsBoundingBox] at hbb; rw [hbb] at hx; simp at hx
    | some b =>
      obtain ⟨lo, hi⟩ := b
      refine hc.1 ?_
      simp only [inBox, decide_eq_true_eq]
      exact hbb.1 x hx
  · intro hs
    refine (boxOK_call (dist := dist) (c := .setPoint i x) (p := p) ?_ (by simp [Call.other]) trivial ?_ h).boundingBox
    · intro y hy; rw [hb] at hy; simp only [Option.some.injEq] at hy; exact hy ▸ hr
    · intro b' o' hb' ho'
      rw [hb] at hb'; rw [ho] at ho'
      simp only [Option.some.injEq] at hb' ho'
      exact hb' ▸ ho' ▸ hs

/-- Moving a point out of the box leaves a wrong box. -/
theorem bbox_violated : ∃ p : Poly ℚ, Made manhattan (fun p c => Fits p c ∧ c ≠ .clear) p ∧ ¬ IsBoundingBox p.boundingBox.1 p.pts := by
  refine ⟨⟨[(1, 0), (9, 0), (3, 4)], none, none, some (some ((1, 0), (3, 4)))⟩,
    .call (p := sample'.boundingBox.2) (.setPoint 1 (9, 0)) (.call .queryBox (.ofPoints _) (by simp [Call.other]) ⟨trivial, by simp⟩ rfl) (by simp [Call.other]) ⟨trivial, by simp⟩ ?_, ?_⟩
  · rfl
  · rintro ⟨h, _⟩
    have := (h (9, 0) (by simp)).2.1
    revert this; decide +kernel

/-! ## C32: `contains` -/

/-- Specification: the segment from `p` to `q` crosses the ray to the left of `x`; points on the ray's line count as lying on its lower
side. -/
def CrossesRay (x p q : Pt K) : Prop :=
  (p.2 < x.2 ∧ x.2 ≤ q.2 ∨ q.2 < x.2 ∧ x.2 ≤ p.2) ∧
  ∃ t : K, 0 ≤ t ∧ t ≤ 1 ∧ p.2 + t * (q.2 - p.2) = x.2 ∧ p.1 + t * (q.1 - p.1) < x.1

theorem crossesRay_iff [IsStrictOrderedRing K] (x p q : Pt K) : CrossesRay x p q ↔ Crosses x p q := by
  unfold CrossesRay Crosses
  have hside : (p.2 < x.2 ∧ x.2 ≤ q.2 ∨ q.2 < x.2 ∧ x.2 ≤ p.2) ↔ (p.2 < x.2 ↔ ¬ q.2 < x.2) := by
    rw [← not_lt, ← not_lt]; tauto
  rw [hside]
  refine and_congr_right fun h => ?_
  have hne : q.2 - p.2 ≠ 0 := by
    rw [sub_ne_zero]; intro e; rw [e] at h; tauto
  have ht : ∀ t : K, p.2 + t * (q.2 - p.2) = x.2 ↔ t = (x.2 - p.2) / (q.2 - p.2) := by
    intro t; rw [eq_div_iff hne]; constructor <;> intro h <;> linarith
  constructor
  · rintro ⟨t, _, _, h1, h2⟩
    rw [ht] at h1; subst h1
    unfold intersectX
    rw [mul_div_assoc, mul_comm]; exact h2
  · intro h2
    refine ⟨(x.2 - p.2) / (q.2 - p.2), ?_, ?_, (ht _).mpr rfl, ?_⟩
    · by_cases h1 : p.2 < x.2
      · have h3 := h.mp h1; push Not at h3
        exact div_nonneg (by linarith) (by linarith)
      · have h3 : q.2 < x.2 := by tauto
        push Not at h1
        exact div_nonneg_of_nonpos (by linarith) (by linarith)
    · by_cases h1 : p.2 < x.2
      · have h3 := h.mp h1; push Not at h3
        rw [div_le_one (by linarith)]; linarith
      · have h3 : q.2 < x.2 := by tauto
        push Not at h1
        rw [div_le_one_of_neg (by linarith)]; linarith
    · unfold intersectX at h2
      rw [mul_div_assoc, mul_comm] at h2; exact h2

/-- The set of segments that cross the ray. -/
noncomputable def crossing (x : Pt K) (l : List (Pt K)) : Finset Nat := by
  classical
  exact (Finset.range (l.length - 1)).filter fun i => CrossesRay x (l.getD i (0, 0)) (l.getD (i + 1) (0, 0))

/-- **C32.** `contains(x)` on a closed polygon is true iff the number of segments that cross the ray to the left of `x` is odd. -/
theorem contains_parity [IsStrictOrderedRing K] (p : Poly K) (x : Pt K) (hp : p.pts ≠ []) (hc : p.pts.head? = p.pts.getLast?) :
    ∃ b, p.contains x = .ok b ∧ (b = true ↔ Odd (crossing x p.pts).card) := by
  classical
  refine ⟨_, contains_eq p x hp hc, ?_⟩
  have : pathSum (crossInd x) p.pts = ((crossing x p.pts).card : ℤ) := by
    rw [pathSum_eq_sum, crossing, Finset.card_filter]
    push_cast
    refine Finset.sum_congr rfl fun i _ => ?_
    unfold crossInd
    simp only [crossesRay_iff]
  rw [decide_eq_true_iff, this, Nat.odd_iff]
  omega

/-- a square with a dent -/
def square : Poly ℚ := Poly.ofPoints [(0, 0), (4, 0), (2, 1), (4, 4), (0, 4), (0, 0)]

example : square.pts ≠ [] ∧ square.pts.head? = square.pts.getLast? ∧ square.contains (1, 1) = .ok true ∧
    square.contains (3, 1) = .ok false ∧ square.contains (5, 1) = .ok false := by decide +kernel

/-- **C32.** `contains` refuses polygons that are not closed and does not change anything. (An empty polygon is not covered by the check:
`closed()` already reads outside of it.) -/
theorem contains_defined (p : Poly K) (x : Pt K) :
    (p.pts = [] → p.contains x = .ub) ∧ (p.pts ≠ [] → p.pts.head? ≠ p.pts.getLast? → p.contains x = .precond) := by
  obtain ⟨pts, _, _, _⟩ := p
  constructor
  · intro h; simp only at h; subst h; rfl
  · intro h hc
    cases pts with
    | nil => exact absurd rfl h
    | cons a l =>
      cases hb : (a :: l).getLast? with
      | none => simp at hb
      | some b =>
        simp only [hb, List.head?_cons, ne_eq, Option.some.injEq] at hc
        simp [Poly.contains, Poly.closed, hb, bind, Outcome.bind, Ne.symm hc]

/-- **C32.** The orientation does not matter. -/
theorem contains_reverse (p : Poly K) (x : Pt K) (hp : p.pts ≠ []) (hc : p.pts.head? = p.pts.getLast?) :
    p.reverse.contains x = p.contains x := by
  rw [contains_eq p x hp hc, contains_eq _ x (by simpa [Poly.reverse] using hp) (by simpa [Poly.reverse] using hc.symm)]
  simp only [Poly.reverse, pathSum_reverse _ (crossInd_comm x)]

/-- **C32.** The starting point does not matter. -/
theorem contains_start (p q : Poly K) (x a b : Pt K) (A B : List (Pt K)) (hp : p.pts = a :: A ++ b :: B ++ [a])
    (hq : q.pts = b :: B ++ a :: A ++ [b]) : p.contains x = q.contains x := by
  rw [contains_eq p x (by simp [hp]) (by rw [hp]; rw [List.getLast?_append]; simp), contains_eq q x (by simp [hq]) (by rw [hq]; rw [List.getLast?_append]; simp)]
  have : pathSum (crossInd x) p.pts = pathSum (crossInd x) q.pts := by
    rw [hp, hq]
    exact pathSum_start _ a A b B
  rw [this]

/-- **C32.** If two closed polygons share a part of their boundary (in opposite directions), then a point is in the polygon with
that part left out iff it is in exactly one of the two. So the faces produced by cutting a face into two contain each
point of the whole exactly once. -/
theorem contains_merge (p q r : Poly K) (x a b : Pt K) (P Q R : List (Pt K))
    (hp : p.pts = a :: P ++ b :: Q ++ [a]) (hq : q.pts = a :: Q.reverse ++ b :: R ++ [a]) (hr : r.pts = a :: P ++ b :: R ++ [a]) :
    ∃ u v, p.contains x = .ok u ∧ q.contains x = .ok v ∧ r.contains x = .ok (u ^^ v) := by
  refine ⟨_, _, contains_eq p x (by simp [hp]) (by rw [hp]; rw [List.getLast?_append]; simp),
    contains_eq q x (by simp [hq]) (by rw [hq]; rw [List.getLast?_append]; simp), ?_⟩
  rw [contains_eq r x (by simp [hr]) (by rw [hr]; rw [List.getLast?_append]; simp)]
  have eAB : ∀ U V : List (Pt K), pathSum (crossInd x) (a :: U ++ b :: V ++ [a]) =
      pathSum (crossInd x) (a :: U ++ [b]) + pathSum (crossInd x) (b :: V ++ [a]) := by
    intro U V
    have := pathSum_glue (crossInd x) (A := a :: U ++ [b]) (B := b :: V ++ [a]) (by simp) (by rw [List.getLast?_append]; simp)
    rw [← this]; simp
  have eQ : pathSum (crossInd x) (a :: Q.reverse ++ [b]) = pathSum (crossInd x) (b :: Q ++ [a]) := by
    rw [← pathSum_reverse _ (crossInd_comm x)]; simp
  rw [hp, hq, hr, eAB, eAB, eAB, eQ]
  congr 1
  generalize pathSum (crossInd x) (a :: P ++ [b]) = u
  generalize pathSum (crossInd x) (b :: Q ++ [a]) = v
  generalize pathSum (crossInd x) (b :: R ++ [a]) = w
  rcases Int.emod_two_eq_zero_or_one u with h1 | h1 <;> rcases Int.emod_two_eq_zero_or_one v with h2 | h2 <;>
    rcases Int.emod_two_eq_zero_or_one w with h3 | h3 <;> simp [Int.add_emod, h1, h2, h3]

example : ∃ (p q r : Poly ℚ) (a b : Pt ℚ) (P Q R : List (Pt ℚ)), p.pts = a :: P ++ b :: Q ++ [a] ∧
    q.pts = a :: Q.reverse ++ b :: R ++ [a] ∧ r.pts = a :: P ++ b :: R ++ [a] ∧ p.contains (3, 1) = .ok true ∧ q.contains (3, 1) = .ok false :=
  ⟨.ofPoints [(0, 0), (4, 0), (4, 4), (3, 3), (0, 0)], .ofPoints [(0, 0), (3, 3), (4, 4), (0, 4), (0, 0)],
    .ofPoints [(0, 0), (4, 0), (4, 4), (0, 4), (0, 0)], (0, 0), (4, 4), [(4, 0)], [(3, 3)], [(0, 4)],
    rfl, rfl, rfl, by decide +kernel, by decide +kernel⟩

/-- **C32.** `BBoxPolygon::contains` gives the same answer as `Polygon::contains` (if the bounding box is right): points outside the
bounding box are never inside. -/
theorem contains_bbox [IsStrictOrderedRing K] (p : Poly K) (x : Pt K) (hp : p.pts ≠ []) (hc : p.pts.head? = p.pts.getLast?)
    (hb : IsBoundingBox p.boundingBox.1 p.pts) : p.bboxContains x = p.contains x := by
  unfold Poly.bboxContains
  split
  case isFalse => rfl
  case isTrue h =>
    rw [contains_eq p x hp hc, even_outside hb (by simpa using h) hp hc]; rfl

example : IsBoundingBox square.boundingBox.1 square.pts :=
  bbox_exact_partial (dist := manhattan) (.ofPoints _)

/-! ## C46: `Edge::concatenate` -/

/-- the segments of a polyline -/
def segments (l : List (Pt K)) : List (Pt K × Pt K) := l.zip l.tail

omit [Field K] [LinearOrder K] in
theorem segments_append (A : List (Pt K)) (b : Pt K) (B : List (Pt K)) : segments (A ++ b :: B) = segments (A ++ [b]) ++ segments (b :: B) := by
  induction A with
  | nil => simp [segments]
  | cons a A ih =>
    cases A with
    | nil => cases B <;> simp [segments]
    | cons c A =>
      have : ∀ l : List (Pt K), segments (a :: c :: l) = (a, c) :: segments (c :: l) := by intro l; simp [segments]
      simp only [List.cons_append] at ih ⊢
      rw [this, this, ih]; rfl

/-- **C46.** Concatenating two edges that meet gives the polyline whose segments are those of the two edges, in order: at the end of the
first or at its beginning, the second one reversed if so requested. Lengths add up; the second edge's area counts negatively if it is
reversed. -/
theorem concatenate_exact (hs : ∀ p q, dist q p = dist p q) (p q : Poly K) (atEnd rev : Bool) (hf : Fits p (.concatenate q atEnd rev)) :
    (let Q := if rev then q.pts.reverse else q.pts
     segments (p.concatenate dist q atEnd rev).pts = if atEnd then segments p.pts ++ segments Q else segments Q ++ segments p.pts) ∧
    (p.concatenate dist q atEnd rev).pts.length + 1 = p.pts.length + q.pts.length ∧
    (p.concatenate dist q atEnd rev).pts.head? = (if atEnd then p.pts.head? else if rev then q.pts.getLast? else q.pts.head?) ∧
    (p.concatenate dist q atEnd rev).pts.getLast? = (if atEnd then (if rev then q.pts.head? else q.pts.getLast?) else p.pts.getLast?) ∧
    trueLength dist (p.concatenate dist q atEnd rev).pts = trueLength dist p.pts + trueLength dist q.pts ∧
    trueArea (p.concatenate dist q atEnd rev).pts = trueArea p.pts + (if rev then -1 else 1) * trueArea q.pts := by
  obtain ⟨hp, hq, hj⟩ := hf
  -- gluing `A` and `B` at their common point
  have glue : ∀ A B : List (Pt K), ∀ c, A.getLast? = some c → B.head? = some c →
      ∃ A' B', A = A' ++ [c] ∧ B = c :: B' := by
    intro A B c hA hB
    refine ⟨A.dropLast, B.tail, (List.dropLast_append_getLast? c hA).symm, ?_⟩
    cases B with
    | nil => simp at hB
    | cons b B => simp at hB; subst hB; rfl
  refine ⟨?_, ?_, ?_, ?_, ?_, ?_⟩
  rotate_left 4
  · simp only [Poly.concatenate, trueLength_eq, concat_cases dist hp hq hj]
    cases rev <;> simp [pathSum_reverse dist hs]
  · simp only [Poly.concatenate, trueArea_eq, concat_cases cross hp hq hj]
    cases rev
    · simp; ring
    · simp [pathSum_reverse_neg cross cross_swap]; ring
  all_goals
    have hQ : ∃ Q, Q = (if rev then q.pts.reverse else q.pts) := ⟨_, rfl⟩
    obtain ⟨Q, hQ⟩ := hQ
    have hhead : Q.head? = (if rev then q.pts.getLast? else q.pts.head?) := by rw [hQ]; cases rev <;> simp
    have hlast : Q.getLast? = (if rev then q.pts.head? else q.pts.getLast?) := by rw [hQ]; cases rev <;> simp
    have hlen : Q.length = q.pts.length := by rw [hQ]; cases rev <;> simp
    have hcat : (p.concatenate dist q atEnd rev).pts = if atEnd then p.pts ++ Q.drop 1 else Q.dropLast ++ p.pts := by
      rw [hQ]; cases atEnd <;> cases rev <;> simp [Poly.concatenate, concatPts]
    rw [← hhead, ← hlast] at hj
    have hQn : Q ≠ [] := by rw [hQ]; cases rev <;> simpa using hq
    rw [hcat]
    first
    | rw [← hQ] | skip
    first
    | rw [← hhead] | rw [← hlast] | rw [← hlen] | skip
    cases atEnd
    · simp only [Bool.false_eq_true, if_false] at hj ⊢
      cases hc : Q.getLast? with
      | none => simp at hc; exact absurd hc hQn
      | some c =>
        obtain ⟨A', B', e1, e2⟩ := glue Q p.pts c hc (hj.trans hc)
        clear hcat hQ hhead hlast hlen
        rw [e1, e2]
        first
        | (simp; omega)
        | (simp [List.head?_append]; done)
        | (simp [List.getLast?_append, List.getLast?_cons]; done)
        | (simp only [List.dropLast_concat]; exact segments_append _ _ _)
    · simp only [if_true] at hj ⊢
      cases hc : p.pts.getLast? with
      | none => simp at hc; exact absurd hc hp
      | some c =>
        obtain ⟨A', B', e1, e2⟩ := glue p.pts Q c hc (hj.symm.trans hc)
        clear hcat hQ hhead hlast hlen
        rw [e1, e2]
        first
        | (simp; omega)
        | (simp [List.head?_append]; done)
        | (simp [List.getLast?_append, List.getLast?_cons]; done)
        | (simp only [List.drop_succ_cons, List.drop_zero, List.append_assoc, List.singleton_append]; exact segments_append _ _ _)

example : Fits sample' (.concatenate (.ofPoints [(5, 5), (3, 4)]) true true) := by
  refine ⟨by simp [sample', Poly.ofPoints], by simp [Poly.ofPoints], rfl⟩

end Verif.Polygon.Props
