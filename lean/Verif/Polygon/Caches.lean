import Verif.Polygon.Lemmas
import Verif.Polygon.Spec
import Mathlib.Algebra.BigOperators.Field

/-! # The caches stay right: lemmas call by call -/

namespace Verif.Polygon
open Verif Verif.GeoMap

variable {K : Type} [Field K]

section
variable {M : Type} [AddCommGroup M]

omit [Field K] in
theorem pathSum_eq_sum [Zero K] (g : Pt K → Pt K → M) (l : List (Pt K)) :
    pathSum g l = ∑ i ∈ Finset.range (l.length - 1), g (l.getD i (0, 0)) (l.getD (i + 1) (0, 0)) := by
  induction l with
  | nil => simp
  | cons a l ih =>
    cases l with
    | nil => simp
    | cons b l =>
      rw [show (a :: b :: l).length - 1 = ((b :: l).length - 1) + 1 by simp, Finset.sum_range_succ', pathSum_cons, ih]
      rw [add_comm]; simp

end

theorem trueLength_eq (dist : Pt K → Pt K → K) (l : List (Pt K)) : trueLength dist l = pathSum dist l := by
  rw [trueLength, pathSum_eq_sum]

theorem trueArea_eq (l : List (Pt K)) : trueArea l = pathSum cross l / 2 := by
  rw [trueArea, pathSum_eq_sum, Finset.sum_div]
  refine Finset.sum_congr rfl fun i _ => ?_
  simp only [triangle, cross]; ring

theorem cross_swap (p q : Pt K) : cross q p = - cross p q := by simp only [cross]; ring

/-! ### lengths and areas of the point lists -/

section
variable {M : Type} [AddCommGroup M] (g : Pt K → Pt K → M)

omit [Field K] in
theorem pathSum_dropLast {A B : List (Pt K)} (hB : B ≠ []) (h : A.getLast? = B.head?) :
    pathSum g (A.dropLast ++ B) = pathSum g A + pathSum g B := by
  cases B with
  | nil => exact absurd rfl hB
  | cons b B =>
    have e : A.dropLast ++ b :: B = A ++ (b :: B).drop 1 := by
      conv_rhs => rw [← List.dropLast_append_getLast? b h]
      simp
    have hA : A ≠ [] := by rintro rfl; simp at h
    rw [e, pathSum_glue g hA h]

omit [Field K] in
/-- the four cases of `Edge::concatenate` -/
theorem concat_cases {P Q : List (Pt K)} {atEnd rev : Bool} (hP : P ≠ []) (_ : Q ≠ [])
    (h : if atEnd then P.getLast? = (if rev then Q.getLast? else Q.head?) else P.head? = (if rev then Q.head? else Q.getLast?)) :
    pathSum g (concatPts P Q atEnd rev) = pathSum g P + pathSum g (if rev then Q.reverse else Q) := by
  cases atEnd <;> cases rev <;> simp only [concatPts, if_true, if_false, Bool.false_eq_true] at h ⊢
  · rw [pathSum_dropLast g hP h.symm, add_comm]
  · rw [pathSum_dropLast g hP (by rw [List.getLast?_reverse]; exact h.symm), add_comm]
  · rw [pathSum_glue g hP h]
  · rw [pathSum_glue g hP (by rw [List.head?_reverse]; exact h)]

omit [Field K] in
theorem mem_concatPts {P Q : List (Pt K)} {atEnd rev : Bool} (hP : P ≠ []) (_ : Q ≠ [])
    (h : if atEnd then P.getLast? = (if rev then Q.getLast? else Q.head?) else P.head? = (if rev then Q.head? else Q.getLast?))
    (x : Pt K) : x ∈ concatPts P Q atEnd rev ↔ x ∈ P ++ Q := by
  have d1 : ∀ A B : List (Pt K), A.head? = B.getLast? → B ≠ [] → (x ∈ B ++ A.drop 1 ↔ x ∈ B ++ A) := by
    intro A B h hB
    cases A with
    | nil => simp
    | cons a A =>
      have : a ∈ B := List.mem_of_getLast? (h.symm)
      simp only [List.drop_succ_cons, List.drop_zero, List.mem_append, List.mem_cons]
      constructor
      · tauto
      · rintro (h | h | h)
        · exact Or.inl h
        · exact Or.inl (h ▸ this)
        · exact Or.inr h
  have d2 : ∀ A B : List (Pt K), A.getLast? = B.head? → B ≠ [] → (x ∈ A.dropLast ++ B ↔ x ∈ B ++ A) := by
    intro A B h hB
    cases B with
    | nil => exact absurd rfl hB
    | cons b B =>
      conv_rhs => rw [← List.dropLast_append_getLast? b h]
      simp only [List.mem_append, List.mem_cons]
      tauto
  cases atEnd <;> cases rev <;> simp only [concatPts, if_true, if_false, Bool.false_eq_true] at h ⊢
  · exact d2 _ _ h.symm hP
  · rw [d2 _ _ (by rw [List.getLast?_reverse]; exact h.symm) hP]; simp
  · exact d1 _ _ h.symm hP
  · rw [d1 _ _ (by rw [List.head?_reverse]; exact h.symm) hP]; simp

end

/-! ### the length cache -/

section
variable [LinearOrder K] (dist : Pt K → Pt K → K)

/-- the cached length, if any, is right -/
def LenOK (p : Poly K) : Prop := ∀ x, p.len = some x → x = pathSum dist p.pts

variable {dist}

omit [LinearOrder K] in
theorem LenOK.length {p : Poly K} (h : LenOK dist p) : (p.length dist).1 = pathSum dist p.pts := by
  unfold Poly.length
  cases e : p.len with
  | none => rfl
  | some x => simpa using h x e

theorem extendGap_len (P Q : List (Pt K)) (hQ : Q ≠ []) :
    pathSum dist (P ++ (if (extendGap dist P.getLast? Q.head?).1 then Q.drop 1 else Q)) =
      pathSum dist P + (extendGap dist P.getLast? Q.head?).2.1 + pathSum dist Q := by
  cases hp : P.getLast? with
  | none => simp at hp; subst hp; simp [extendGap]
  | some b =>
    cases hq : Q.head? with
    | none => simp at hq; exact absurd hq hQ
    | some f =>
      by_cases e : f = b
      · subst e
        have hP : P ≠ [] := by rintro rfl; simp at hp
        have := pathSum_glue dist hP (hp.trans hq.symm)
        simpa [extendGap] using this
      · simp [extendGap, e, pathSum_append, hp, hq]

theorem lenOK_call (hs : ∀ p q, dist q p = dist p q) {p p' : Poly K} {c : Call K} (hp : LenOK dist p)
    (ho : ∀ q, c.other = some q → LenOK dist q) (hf : Fits p c) (hc : c ≠ .clear) (h : c.run dist p = .ok p') : LenOK dist p' := by
  cases c with
  | pushBack v =>
    simp only [Call.run, Outcome.ok.injEq] at h; subst h
    intro x hx
    simp only [Poly.pushBack] at hx ⊢
    rw [pathSum_append]
    cases hl : p.pts.getLast? with
    | none => rw [hl] at hx; simp [hp x hx]
    | some b =>
      rw [hl] at hx
      obtain ⟨y, hy, rfl⟩ := Option.map_eq_some_iff.mp hx
      simp [hp y hy]
  | extend q =>
    simp only [Call.run, Outcome.ok.injEq] at h; subst h
    have hq := ho q rfl
    intro x hx
    unfold Poly.extend at hx ⊢
    by_cases e : q.pts = []
    · rw [if_pos e] at hx ⊢; exact hp x hx
    · rw [if_neg e] at hx ⊢
      obtain ⟨y, hy, rfl⟩ := Option.map_eq_some_iff.mp hx
      rw [extendGap_len _ _ e, hq.length, hp y hy]
  | concatenate q e r =>
    simp only [Call.run, Outcome.ok.injEq] at h; subst h
    have hq := ho q rfl
    intro x hx
    obtain ⟨h1, h2, h3⟩ := hf
    simp only [Poly.concatenate] at hx ⊢
    obtain ⟨y, hy, rfl⟩ := Option.map_eq_some_iff.mp hx
    rw [concat_cases dist h1 h2 h3, hq.length, hp y hy]
    cases r <;> simp [pathSum_reverse dist hs]
  | setPoint i x =>
    simp only [Call.run, Poly.setPoint] at h
    cases hi : p.pts[i]? with
    | none => rw [hi] at h; simp at h
    | some old =>
      rw [hi] at h; simp only [Outcome.ok.injEq] at h; subst h
      intro z hz
      obtain ⟨y, hy, rfl⟩ := Option.map_eq_some_iff.mp hz
      simp only
      rw [pathSum_set dist hs hi, hp y hy]
  | erase i =>
    simp only [Call.run, Poly.erase] at h
    cases hi : p.pts[i]? with
    | none => rw [hi] at h; simp at h
    | some old =>
      rw [hi] at h; simp only [Outcome.ok.injEq] at h; subst h
      intro z hz; simp at hz
  | insert i x =>
    simp only [Call.run, Poly.insert] at h
    split at h
    case isFalse => simp at h
    case isTrue hi =>
      simp only [Outcome.ok.injEq] at h; subst h
      intro z hz
      obtain ⟨y, hy, rfl⟩ := Option.map_eq_some_iff.mp hz
      simp only
      rw [pathSum_insert dist hi, hp y hy]
  | insertRange i l =>
    simp only [Call.run, Poly.insertRange] at h
    split at h
    case isFalse => simp at h
    case isTrue hi =>
      simp only [Outcome.ok.injEq] at h; subst h
      intro z hz; simp at hz
  | splitKeep i =>
    obtain ⟨r, h1, h2⟩ := Outcome.bind_eq_ok.mp h
    simp only [Outcome.ok.injEq] at h2; subst h2
    simp only [Poly.split] at h1
    cases hi : p.pts[i]? with
    | none => rw [hi] at h1; simp at h1
    | some old =>
      rw [hi] at h1; simp only at h1
      split at h1 <;> simp only [Outcome.ok.injEq] at h1 <;> subst h1 <;> intro z hz <;> simp at hz
  | splitRest i =>
    obtain ⟨r, h1, h2⟩ := Outcome.bind_eq_ok.mp h
    simp only [Outcome.ok.injEq] at h2; subst h2
    simp only [Poly.split] at h1
    cases hi : p.pts[i]? with
    | none => rw [hi] at h1; simp at h1
    | some old =>
      rw [hi] at h1; simp only at h1
      split at h1 <;> simp only [Outcome.ok.injEq] at h1 <;> subst h1 <;> intro z hz
      · exact hp z hz
      · simp at hz
  | reverse =>
    simp only [Call.run, Outcome.ok.injEq] at h; subst h
    intro x hx
    simp only [Poly.reverse] at hx ⊢
    rw [pathSum_reverse dist hs]; exact hp x hx
  | swapPoints l =>
    simp only [Call.run, Outcome.ok.injEq] at h; subst h
    intro x hx; simp [Poly.swapPoints] at hx
  | clear => exact absurd rfl hc
  | queryLength =>
    simp only [Call.run, Outcome.ok.injEq] at h; subst h
    intro x hx
    unfold Poly.length at hx ⊢
    cases e : p.len with
    | none => rw [e] at hx; simp at hx; simp [hx]
    | some y => rw [e] at hx; exact hp x (by simpa using hx)
  | queryArea =>
    simp only [Call.run, Outcome.ok.injEq] at h; subst h
    intro x hx
    unfold Poly.partialArea at hx ⊢
    cases e : p.area with
    | none => rw [e] at hx; exact hp x (by simpa using hx)
    | some y => rw [e] at hx; exact hp x (by simpa using hx)
  | queryBox =>
    simp only [Call.run, Outcome.ok.injEq] at h; subst h
    intro x hx
    unfold Poly.boundingBox at hx ⊢
    cases e : p.box with
    | none => rw [e] at hx; exact hp x (by simpa using hx)
    | some y => rw [e] at hx; exact hp x (by simpa using hx)

/-! ### the area cache -/

/-- the cached area, if any, is right -/
def AreaOK (p : Poly K) : Prop := ∀ x, p.area = some x → x = pathSum cross p.pts / 2

/-- The calls that keep the area right: a point is appended to an empty polygon, while the area is not cached,
or in the direction of the last point as seen from the origin; and likewise for the gap in `extend`. -/
def AreaSafe (p : Poly K) : Call K → Prop
  | .pushBack v => p.area = none ∨ ∀ b, p.pts.getLast? = some b → cross b v = 0
  | .extend q => p.area = none ∨ ∀ b f, p.pts.getLast? = some b → q.pts.head? = some f → cross b f = 0
  | .clear => p.area = none
  | _ => True

omit [LinearOrder K] in
theorem AreaOK.partialArea {p : Poly K} (h : AreaOK p) : p.partialArea.1 = pathSum cross p.pts / 2 := by
  unfold Poly.partialArea
  cases e : p.area with
  | none => rfl
  | some x => simpa using h x e

omit [LinearOrder K] in
theorem cross_self (p : Pt K) : cross p p = 0 := by simp only [cross]; ring

theorem extendGap_area (P Q : List (Pt K)) (hQ : Q ≠ []) :
    pathSum cross (P ++ (if (extendGap dist P.getLast? Q.head?).1 then Q.drop 1 else Q)) =
      pathSum cross P + joint cross P.getLast? Q.head? + pathSum cross Q ∧
    (extendGap dist P.getLast? Q.head?).2.2 = joint cross P.getLast? Q.head? := by
  cases hp : P.getLast? with
  | none => simp at hp; subst hp; simp [extendGap]
  | some b =>
    cases hq : Q.head? with
    | none => simp at hq; exact absurd hq hQ
    | some f =>
      by_cases e : f = b
      · subst e
        have hP : P ≠ [] := by rintro rfl; simp at hp
        have := pathSum_glue cross hP (hp.trans hq.symm)
        simpa [extendGap, cross_self] using this
      · simp [extendGap, e, pathSum_append, hp, hq, cross]

theorem areaOK_call {p p' : Poly K} {c : Call K} (hp : AreaOK p)
    (ho : ∀ q, c.other = some q → AreaOK q) (hf : Fits p c) (ha : AreaSafe p c) (h : c.run dist p = .ok p') : AreaOK p' := by
  cases c with
  | pushBack v =>
    simp only [Call.run, Outcome.ok.injEq] at h; subst h
    intro x hx
    simp only [Poly.pushBack] at hx ⊢
    rw [pathSum_append]
    cases hl : p.pts.getLast? with
    | none => rw [hl] at hx; simp [hp x hx]
    | some b =>
      rw [hl] at hx
      obtain ⟨y, hy, rfl⟩ := Option.map_eq_some_iff.mp hx
      rcases ha with ha | ha
      · rw [ha] at hy; simp at hy
      · have := ha b hl
        simp only [hp y hy, List.head?_cons, joint_some, this, pathSum_single, add_zero]
        simp only [cross] at this
        rw [this, add_zero]
  | extend q =>
    simp only [Call.run, Outcome.ok.injEq] at h; subst h
    have hq := ho q rfl
    intro x hx
    unfold Poly.extend at hx ⊢
    by_cases e : q.pts = []
    · rw [if_pos e] at hx ⊢; exact hp x hx
    · rw [if_neg e] at hx ⊢
      obtain ⟨y, hy, rfl⟩ := Option.map_eq_some_iff.mp hx
      rcases ha with ha | ha
      · rw [ha] at hy; simp at hy
      · have hj : joint cross p.pts.getLast? q.pts.head? = 0 := by
          cases h1 : p.pts.getLast? with
          | none => simp
          | some b =>
            cases h2 : q.pts.head? with
            | none => simp
            | some f => simp [ha b f h1 h2]
        obtain ⟨e1, e2⟩ := extendGap_area (dist := dist) p.pts q.pts e
        simp only
        rw [e1, e2, hq.partialArea, hp y hy, hj]; ring
  | concatenate q e r =>
    simp only [Call.run, Outcome.ok.injEq] at h; subst h
    have hq := ho q rfl
    intro x hx
    obtain ⟨h1, h2, h3⟩ := hf
    simp only [Poly.concatenate] at hx ⊢
    obtain ⟨y, hy, rfl⟩ := Option.map_eq_some_iff.mp hx
    rw [concat_cases cross h1 h2 h3, hq.partialArea, hp y hy]
    cases r
    · simp; ring
    · simp [pathSum_reverse_neg cross cross_swap]; ring
  | setPoint i x =>
    simp only [Call.run, Poly.setPoint] at h
    cases hi : p.pts[i]? with
    | none => rw [hi] at h; simp at h
    | some old =>
      rw [hi] at h; simp only [Outcome.ok.injEq] at h; subst h
      intro z hz; simp at hz
  | erase i =>
    simp only [Call.run, Poly.erase] at h
    cases hi : p.pts[i]? with
    | none => rw [hi] at h; simp at h
    | some old =>
      rw [hi] at h; simp only [Outcome.ok.injEq] at h; subst h
      intro z hz; simp at hz
  | insert i x =>
    simp only [Call.run, Poly.insert] at h
    split at h
    case isFalse => simp at h
    case isTrue hi =>
      simp only [Outcome.ok.injEq] at h; subst h
      intro z hz; simp at hz
  | insertRange i l =>
    simp only [Call.run, Poly.insertRange] at h
    split at h
    case isFalse => simp at h
    case isTrue hi =>
      simp only [Outcome.ok.injEq] at h; subst h
      intro z hz; simp at hz
  | splitKeep i =>
    obtain ⟨r, h1, h2⟩ := Outcome.bind_eq_ok.mp h
    simp only [Outcome.ok.injEq] at h2; subst h2
    simp only [Poly.split] at h1
    cases hi : p.pts[i]? with
    | none => rw [hi] at h1; simp at h1
    | some old =>
      rw [hi] at h1; simp only at h1
      split at h1 <;> simp only [Outcome.ok.injEq] at h1 <;> subst h1 <;> intro z hz <;> simp at hz
  | splitRest i =>
    obtain ⟨r, h1, h2⟩ := Outcome.bind_eq_ok.mp h
    simp only [Outcome.ok.injEq] at h2; subst h2
    simp only [Poly.split] at h1
    cases hi : p.pts[i]? with
    | none => rw [hi] at h1; simp at h1
    | some old =>
      rw [hi] at h1; simp only at h1
      split at h1 <;> simp only [Outcome.ok.injEq] at h1 <;> subst h1 <;> intro z hz
      · exact hp z hz
      · simp at hz
  | reverse =>
    simp only [Call.run, Outcome.ok.injEq] at h; subst h
    intro x hx
    simp only [Poly.reverse] at hx ⊢
    obtain ⟨y, hy, rfl⟩ := Option.map_eq_some_iff.mp hx
    rw [pathSum_reverse_neg cross cross_swap, hp y hy]; ring
  | swapPoints l =>
    simp only [Call.run, Outcome.ok.injEq] at h; subst h
    intro x hx; simp [Poly.swapPoints] at hx
  | clear =>
    simp only [Call.run, Outcome.ok.injEq] at h; subst h
    intro x hx
    simp only [AreaSafe] at ha
    simp [Poly.clear, ha] at hx
  | queryLength =>
    simp only [Call.run, Outcome.ok.injEq] at h; subst h
    intro x hx
    unfold Poly.length at hx ⊢
    cases e : p.len with
    | none => rw [e] at hx; exact hp x (by simpa using hx)
    | some y => rw [e] at hx; exact hp x (by simpa using hx)
  | queryArea =>
    simp only [Call.run, Outcome.ok.injEq] at h; subst h
    intro x hx
    unfold Poly.partialArea at hx ⊢
    cases e : p.area with
    | none => rw [e] at hx; simp at hx; simp [hx]
    | some y => rw [e] at hx; exact hp x (by simpa using hx)
  | queryBox =>
    simp only [Call.run, Outcome.ok.injEq] at h; subst h
    intro x hx
    unfold Poly.boundingBox at hx ⊢
    cases e : p.box with
    | none => rw [e] at hx; exact hp x (by simpa using hx)
    | some y => rw [e] at hx; exact hp x (by simpa using hx)

/-! ### the bounding box cache -/

omit [Field K] in
theorem isBB_congr {b : Box K} {l m : List (Pt K)} (h : ∀ x, x ∈ l ↔ x ∈ m) (hb : IsBoundingBox b l) : IsBoundingBox b m := by
  cases b with
  | none =>
    simp only [IsBoundingBox] at hb ⊢; subst hb
    exact List.eq_nil_iff_forall_not_mem.mpr fun x hx => by simpa using (h x).mpr hx
  | some b => simpa only [IsBoundingBox, h] using hb

omit [Field K] in
theorem isBB_point {b : Box K} {l : List (Pt K)} (hb : IsBoundingBox b l) (p : Pt K) : IsBoundingBox (boxPoint b p) (l ++ [p]) := by
  cases b with
  | none =>
    simp only [IsBoundingBox] at hb; subst hb
    simp [boxPoint, IsBoundingBox]
  | some b =>
    obtain ⟨lo, hi⟩ := b
    obtain ⟨h0, ⟨p1, m1, h1⟩, ⟨p2, m2, h2⟩, ⟨p3, m3, h3⟩, ⟨p4, m4, h4⟩⟩ := hb
    simp only [boxPoint, IsBoundingBox]
    refine ⟨?_, ?_, ?_, ?_, ?_⟩
    · intro x hx
      rcases List.mem_append.mp hx with hx | hx
      · obtain ⟨a, b, c, d⟩ := h0 x hx
        exact ⟨(min_le_left _ _).trans a, b.trans (le_max_left _ _), (min_le_left _ _).trans c, d.trans (le_max_left _ _)⟩
      · simp only [List.mem_singleton] at hx; subst hx
        exact ⟨min_le_right _ _, le_max_right _ _, min_le_right _ _, le_max_right _ _⟩
    · rcases min_choice lo.1 p.1 with e | e <;> rw [e]
      · exact ⟨p1, by simp [m1], h1⟩
      · exact ⟨p, by simp, rfl⟩
    · rcases max_choice hi.1 p.1 with e | e <;> rw [e]
      · exact ⟨p2, by simp [m2], h2⟩
      · exact ⟨p, by simp, rfl⟩
    · rcases min_choice lo.2 p.2 with e | e <;> rw [e]
      · exact ⟨p3, by simp [m3], h3⟩
      · exact ⟨p, by simp, rfl⟩
    · rcases max_choice hi.2 p.2 with e | e <;> rw [e]
      · exact ⟨p4, by simp [m4], h4⟩
      · exact ⟨p, by simp, rfl⟩

omit [Field K] in
theorem isBB_foldl {l : List (Pt K)} : ∀ {b : Box K} {m : List (Pt K)}, IsBoundingBox b m → IsBoundingBox (l.foldl boxPoint b) (m ++ l) := by
  induction l with
  | nil => intro b m h; simpa using h
  | cons x l ih => intro b m h; simpa using ih (isBB_point h x)

omit [Field K] in
theorem isBB_union {a b : Box K} {l m : List (Pt K)} (ha : IsBoundingBox a l) (hb : IsBoundingBox b m) :
    IsBoundingBox (boxUnion a b) (l ++ m) := by
  cases b with
  | none => simp only [IsBoundingBox] at hb; subst hb; simpa [boxUnion] using ha
  | some b =>
    obtain ⟨lo, hi⟩ := b
    obtain ⟨h0, ⟨p1, m1, h1⟩, ⟨p2, m2, h2⟩, ⟨p3, m3, h3⟩, ⟨p4, m4, h4⟩⟩ := hb
    have hlo : lo.1 ≤ hi.1 ∧ lo.2 ≤ hi.2 := by
      obtain ⟨x1, x2, x3, x4⟩ := h0 p1 m1; exact ⟨x1.trans x2, x3.trans x4⟩
    cases a with
    | none =>
      simp only [IsBoundingBox] at ha; subst ha
      simp only [boxUnion, boxPoint, IsBoundingBox, min_eq_left hlo.1, min_eq_left hlo.2, max_eq_right hlo.1, max_eq_right hlo.2, List.nil_append]
      exact ⟨h0, ⟨p1, m1, h1⟩, ⟨p2, m2, h2⟩, ⟨p3, m3, h3⟩, ⟨p4, m4, h4⟩⟩
    | some a =>
      obtain ⟨lo', hi'⟩ := a
      obtain ⟨k0, ⟨q1, n1, k1⟩, ⟨q2, n2, k2⟩, ⟨q3, n3, k3⟩, ⟨q4, n4, k4⟩⟩ := ha
      have e1 : min (min lo'.1 lo.1) hi.1 = min lo'.1 lo.1 := min_eq_left ((min_le_right _ _).trans hlo.1)
      have e2 : min (min lo'.2 lo.2) hi.2 = min lo'.2 lo.2 := min_eq_left ((min_le_right _ _).trans hlo.2)
      have e3 : max (max hi'.1 lo.1) hi.1 = max hi'.1 hi.1 := by rw [max_assoc, max_eq_right hlo.1]
      have e4 : max (max hi'.2 lo.2) hi.2 = max hi'.2 hi.2 := by rw [max_assoc, max_eq_right hlo.2]
      simp only [boxUnion, boxPoint, IsBoundingBox, e1, e2, e3, e4]
      refine ⟨?_, ?_, ?_, ?_, ?_⟩
      · intro x hx
        rcases List.mem_append.mp hx with hx | hx
        · obtain ⟨a, b, c, d⟩ := k0 x hx
          exact ⟨(min_le_left _ _).trans a, b.trans (le_max_left _ _), (min_le_left _ _).trans c, d.trans (le_max_left _ _)⟩
        · obtain ⟨a, b, c, d⟩ := h0 x hx
          exact ⟨(min_le_right _ _).trans a, b.trans (le_max_right _ _), (min_le_right _ _).trans c, d.trans (le_max_right _ _)⟩
      · rcases min_choice lo'.1 lo.1 with e | e <;> rw [e]
        · exact ⟨q1, by simp [n1], k1⟩
        · exact ⟨p1, by simp [m1], h1⟩
      · rcases max_choice hi'.1 hi.1 with e | e <;> rw [e]
        · exact ⟨q2, by simp [n2], k2⟩
        · exact ⟨p2, by simp [m2], h2⟩
      · rcases min_choice lo'.2 lo.2 with e | e <;> rw [e]
        · exact ⟨q3, by simp [n3], k3⟩
        · exact ⟨p3, by simp [m3], h3⟩
      · rcases max_choice hi'.2 hi.2 with e | e <;> rw [e]
        · exact ⟨q4, by simp [n4], k4⟩
        · exact ⟨p4, by simp [m4], h4⟩

omit [Field K] in
/-- there is only one bounding box -/
theorem isBB_unique {a b : Box K} {l : List (Pt K)} (ha : IsBoundingBox a l) (hb : IsBoundingBox b l) : a = b := by
  cases a with
  | none =>
    cases b with
    | none => rfl
    | some b => simp only [IsBoundingBox] at ha; subst ha; simp [IsBoundingBox] at hb
  | some a =>
    cases b with
    | none => simp only [IsBoundingBox] at hb; subst hb; simp [IsBoundingBox] at ha
    | some b =>
      obtain ⟨⟨a1, a2⟩, ⟨a3, a4⟩⟩ := a
      obtain ⟨⟨b1, b2⟩, ⟨b3, b4⟩⟩ := b
      obtain ⟨h0, ⟨p1, m1, h1⟩, ⟨p2, m2, h2⟩, ⟨p3, m3, h3⟩, ⟨p4, m4, h4⟩⟩ := ha
      obtain ⟨k0, ⟨q1, n1, k1⟩, ⟨q2, n2, k2⟩, ⟨q3, n3, k3⟩, ⟨q4, n4, k4⟩⟩ := hb
      simp only at h1 h2 h3 h4 k1 k2 k3 k4
      have e1 : a1 = b1 := le_antisymm (k1 ▸ (h0 q1 n1).1) (h1 ▸ (k0 p1 m1).1)
      have e2 : a2 = b2 := le_antisymm (k3 ▸ (h0 q3 n3).2.2.1) (h3 ▸ (k0 p3 m3).2.2.1)
      have e3 : a3 = b3 := le_antisymm (h2 ▸ (k0 p2 m2).2.1) (k2 ▸ (h0 q2 n2).2.1)
      have e4 : a4 = b4 := le_antisymm (h4 ▸ (k0 p4 m4).2.2.2) (k4 ▸ (h0 q4 n4).2.2.2)
      rw [e1, e2, e3, e4]

/-- the cached bounding box, if any, is right -/
def BoxOK (p : Poly K) : Prop := ∀ b, p.box = some b → IsBoundingBox b p.pts

omit [Field K] in
theorem BoxOK.boundingBox {p : Poly K} (h : BoxOK p) : IsBoundingBox p.boundingBox.1 p.pts := by
  unfold Poly.boundingBox
  cases e : p.box with
  | none => simpa using isBB_foldl (l := p.pts) (b := (none : Box K)) (m := []) rfl
  | some x => simpa using h x e

/-- The calls that keep the bounding box right: a point is moved while the bounding box is not cached, or to a place inside
it, or away from its border. -/
def BoxSafe (p : Poly K) : Call K → Prop
  | .setPoint i x => ∀ b old, p.box = some b → p.pts[i]? = some old → inBox b x = true ∨ boxTouched b old x = true
  | .clear => p.box = none
  | _ => True

omit [Field K] in
theorem isBB_set {b : Box K} {l : List (Pt K)} {i : Nat} {old x : Pt K} (hb : IsBoundingBox b l) (hi : l[i]? = some old)
    (hx : inBox b x = true) (ht : boxTouched b old x = false) : IsBoundingBox b (l.set i x) := by
  obtain ⟨A, B, rfl, rfl⟩ := getElem?_split hi
  rw [List.set_append_right _ _ (Nat.le_refl _), Nat.sub_self, List.set_cons_zero]
  cases b with
  | none => simp [inBox] at hx
  | some b =>
    obtain ⟨lo, hi⟩ := b
    obtain ⟨h0, h1, h2, h3, h4⟩ := hb
    simp only [inBox, decide_eq_true_eq] at hx
    simp only [boxTouched, decide_eq_false_iff_not, not_or, not_and] at ht
    obtain ⟨t1, t2, t3, t4⟩ := ht
    have ho := h0 old (by simp)
    refine ⟨?_, ?_, ?_, ?_, ?_⟩
    · intro z hz
      simp only [List.mem_append, List.mem_cons] at hz
      rcases hz with hz | rfl | hz
      · exact h0 z (by simp [hz])
      · exact hx
      · exact h0 z (by simp [hz])
    · obtain ⟨z, hz, e⟩ := h1
      simp only [List.mem_append, List.mem_cons] at hz
      rcases hz with hz | rfl | hz
      · exact ⟨z, by simp [hz], e⟩
      · refine ⟨x, by simp, le_antisymm ?_ hx.1⟩
        by_contra hc; push Not at hc
        exact t2 (e ▸ hc) e
      · exact ⟨z, by simp [hz], e⟩
    · obtain ⟨z, hz, e⟩ := h2
      simp only [List.mem_append, List.mem_cons] at hz
      rcases hz with hz | rfl | hz
      · exact ⟨z, by simp [hz], e⟩
      · refine ⟨x, by simp, le_antisymm hx.2.1 ?_⟩
        by_contra hc; push Not at hc
        exact t1 (e ▸ hc) e
      · exact ⟨z, by simp [hz], e⟩
    · obtain ⟨z, hz, e⟩ := h3
      simp only [List.mem_append, List.mem_cons] at hz
      rcases hz with hz | rfl | hz
      · exact ⟨z, by simp [hz], e⟩
      · refine ⟨x, by simp, le_antisymm ?_ hx.2.2.1⟩
        by_contra hc; push Not at hc
        exact t4 (e ▸ hc) e
      · exact ⟨z, by simp [hz], e⟩
    · obtain ⟨z, hz, e⟩ := h4
      simp only [List.mem_append, List.mem_cons] at hz
      rcases hz with hz | rfl | hz
      · exact ⟨z, by simp [hz], e⟩
      · refine ⟨x, by simp, le_antisymm hx.2.2.2 ?_⟩
        by_contra hc; push Not at hc
        exact t3 (e ▸ hc) e
      · exact ⟨z, by simp [hz], e⟩

omit [Field K] in
theorem isBB_erase {b : Box K} {l : List (Pt K)} {i : Nat} {old : Pt K} (hb : IsBoundingBox b l) (hi : l[i]? = some old)
    (ht : onBorder b old = false) : IsBoundingBox b (l.eraseIdx i) := by
  obtain ⟨A, B, rfl, rfl⟩ := getElem?_split hi
  rw [List.eraseIdx_append_of_length_le (Nat.le_refl _), Nat.sub_self, List.eraseIdx_cons_zero]
  cases b with
  | none => simp [IsBoundingBox] at hb
  | some b =>
    obtain ⟨lo, hi⟩ := b
    obtain ⟨h0, h1, h2, h3, h4⟩ := hb
    simp only [onBorder, decide_eq_false_iff_not, not_or] at ht
    obtain ⟨t1, t2, t3, t4⟩ := ht
    have key : ∀ (P : Pt K → Prop), ¬ P old → (∃ p ∈ A ++ old :: B, P p) → ∃ p ∈ A ++ B, P p := by
      rintro P hP ⟨p, hp, h⟩
      simp only [List.mem_append, List.mem_cons] at hp
      rcases hp with hp | rfl | hp
      · exact ⟨p, by simp [hp], h⟩
      · exact absurd h hP
      · exact ⟨p, by simp [hp], h⟩
    refine ⟨?_, key _ t1 h1, key _ t2 h2, key _ t3 h3, key _ t4 h4⟩
    intro z hz
    refine h0 z ?_
    simp only [List.mem_append, List.mem_cons] at hz ⊢
    tauto

theorem boxOK_call {p p' : Poly K} {c : Call K} (hp : BoxOK p)
    (ho : ∀ q, c.other = some q → BoxOK q) (hf : Fits p c) (ha : BoxSafe p c) (h : c.run dist p = .ok p') : BoxOK p' := by
  cases c with
  | pushBack v =>
    simp only [Call.run, Outcome.ok.injEq] at h; subst h
    intro x hx
    obtain ⟨y, hy, rfl⟩ := Option.map_eq_some_iff.mp hx
    exact isBB_point (hp y hy) v
  | extend q =>
    simp only [Call.run, Outcome.ok.injEq] at h; subst h
    have hq := (ho q rfl).boundingBox
    intro x hx
    unfold Poly.extend at hx ⊢
    by_cases e : q.pts = []
    · rw [if_pos e] at hx ⊢
      obtain ⟨y, hy, rfl⟩ := Option.map_eq_some_iff.mp hx
      simpa [e] using isBB_union (hp y hy) hq
    · rw [if_neg e] at hx ⊢
      obtain ⟨y, hy, rfl⟩ := Option.map_eq_some_iff.mp hx
      refine isBB_congr (fun x => ?_) (isBB_union (hp y hy) hq)
      cases hg : (extendGap dist p.pts.getLast? q.pts.head?).1 with
      | false => simp [hg]
      | true =>
        simp only [hg, if_true]
        cases h1 : p.pts.getLast? with
        | none => rw [h1] at hg; simp [extendGap] at hg
        | some b =>
          cases h2 : q.pts.head? with
          | none => rw [h1, h2] at hg; simp [extendGap] at hg
          | some f =>
            rw [h1, h2] at hg
            have : f = b := by
              by_contra hc; simp [extendGap, hc] at hg
            subst this
            have hP : p.pts ≠ [] := by rintro h; simp [h] at h1
            exact (mem_concatPts (P := p.pts) (Q := q.pts) (atEnd := true) (rev := false) hP e (by simp [h1, h2]) x).symm
  | concatenate q e r =>
    simp only [Call.run, Outcome.ok.injEq] at h; subst h
    have hq := (ho q rfl).boundingBox
    intro x hx
    obtain ⟨h1, h2, h3⟩ := hf
    obtain ⟨y, hy, rfl⟩ := Option.map_eq_some_iff.mp hx
    exact isBB_congr (fun x => (mem_concatPts h1 h2 h3 x).symm) (isBB_union (hp y hy) hq)
  | setPoint i x =>
    simp only [Call.run, Poly.setPoint] at h
    cases hi : p.pts[i]? with
    | none => rw [hi] at h; simp at h
    | some old =>
      rw [hi] at h; simp only [Outcome.ok.injEq] at h; subst h
      intro z hz
      obtain ⟨y, hy, hz⟩ := Option.bind_eq_some_iff.mp hz
      split at hz
      case isTrue => simp at hz
      case isFalse ht =>
        simp only [Option.some.injEq] at hz; subst hz
        rcases ha y old hy hi with hx | hx
        · exact isBB_set (hp y hy) hi hx (by simpa using ht)
        · exact absurd hx ht
  | erase i =>
    simp only [Call.run, Poly.erase] at h
    cases hi : p.pts[i]? with
    | none => rw [hi] at h; simp at h
    | some old =>
      rw [hi] at h; simp only [Outcome.ok.injEq] at h; subst h
      intro z hz
      obtain ⟨y, hy, hz⟩ := Option.bind_eq_some_iff.mp hz
      split at hz
      case isTrue => simp at hz
      case isFalse ht =>
        simp only [Option.some.injEq] at hz; subst hz
        exact isBB_erase (hp y hy) hi (by simpa using ht)
  | insert i x =>
    simp only [Call.run, Poly.insert] at h
    split at h
    case isFalse => simp at h
    case isTrue hi =>
      simp only [Outcome.ok.injEq] at h; subst h
      intro z hz
      obtain ⟨y, hy, rfl⟩ := Option.map_eq_some_iff.mp hz
      refine isBB_congr (fun z => ?_) (isBB_point (hp y hy) x)
      rw [List.mem_insertIdx hi, List.mem_append, List.mem_singleton, or_comm]
  | insertRange i l =>
    simp only [Call.run, Poly.insertRange] at h
    split at h
    case isFalse => simp at h
    case isTrue hi =>
      simp only [Outcome.ok.injEq] at h; subst h
      intro z hz; simp at hz
  | splitKeep i =>
    obtain ⟨r, h1, h2⟩ := Outcome.bind_eq_ok.mp h
    simp only [Outcome.ok.injEq] at h2; subst h2
    simp only [Poly.split] at h1
    cases hi : p.pts[i]? with
    | none => rw [hi] at h1; simp at h1
    | some old =>
      rw [hi] at h1; simp only at h1
      split at h1 <;> simp only [Outcome.ok.injEq] at h1 <;> subst h1 <;> intro z hz <;> simp at hz
  | splitRest i =>
    obtain ⟨r, h1, h2⟩ := Outcome.bind_eq_ok.mp h
    simp only [Outcome.ok.injEq] at h2; subst h2
    simp only [Poly.split] at h1
    cases hi : p.pts[i]? with
    | none => rw [hi] at h1; simp at h1
    | some old =>
      rw [hi] at h1; simp only at h1
      split at h1 <;> simp only [Outcome.ok.injEq] at h1 <;> subst h1 <;> intro z hz <;> simp at hz
  | reverse =>
    simp only [Call.run, Outcome.ok.injEq] at h; subst h
    intro x hx
    exact isBB_congr (fun z => by simp [Poly.reverse]) (hp x hx)
  | swapPoints l =>
    simp only [Call.run, Outcome.ok.injEq] at h; subst h
    intro x hx; simp [Poly.swapPoints] at hx
  | clear =>
    simp only [Call.run, Outcome.ok.injEq] at h; subst h
    intro x hx
    simp only [BoxSafe] at ha
    simp [Poly.clear, ha] at hx
  | queryLength =>
    simp only [Call.run, Outcome.ok.injEq] at h; subst h
    intro x hx
    unfold Poly.length at hx ⊢
    cases e : p.len with
    | none => rw [e] at hx; exact hp x (by simpa using hx)
    | some y => rw [e] at hx; exact hp x (by simpa using hx)
  | queryArea =>
    simp only [Call.run, Outcome.ok.injEq] at h; subst h
    intro x hx
    unfold Poly.partialArea at hx ⊢
    cases e : p.area with
    | none => rw [e] at hx; exact hp x (by simpa using hx)
    | some y => rw [e] at hx; exact hp x (by simpa using hx)
  | queryBox =>
    simp only [Call.run, Outcome.ok.injEq] at h; subst h
    intro x hx
    have := hp.boundingBox
    unfold Poly.boundingBox at hx this ⊢
    cases e : p.box with
    | none =>
      rw [e] at hx this
      simp only [Option.some.injEq] at hx this ⊢; subst hx; exact this
    | some y => rw [e] at hx; exact hp x (by simpa using hx)

end
end Verif.Polygon
