import Verif.GeoMap.Props

/-!
# C18: `changeFaceLabels`

The part of C18 that concerns the map itself; see `Verif/LabelImage/Props.lean` for the pixels.
-/

namespace Verif.GeoMap.Props
open Verif

variable {K : Type} [Field K] [LinearOrder K]

/-- The call is refused: the map has no faces, the list has the wrong length, a face would get a label
out of range, or two faces would get the same label. -/
def Refused (s : GMap K) (new : List Nat) (size : Nat) : Prop :=
  ¬ s.initialized ∨ new.length ≠ s.nFaces ∨
  (∃ l, (s.face l).isSome = true ∧ ∃ f, new[l]? = some f ∧ size ≤ f) ∨
  ∃ l k, l ≠ k ∧ (s.face l).isSome = true ∧ (s.face k).isSome = true ∧ new[l]? = new[k]?

/-- `changeFaceLabels` on a reachable map never runs into undefined behaviour; it throws exactly in the
documented cases, and then no label of a dart and no entry of the face list changes. -/
theorem changeFaceLabels_throws {s : GMap K} (hs : Reach s) (new : List Nat) (size : Nat) :
    (Refused s new size ∧ ∃ lab, s.changeFaceLabels new size = .ok ⟨false, s, lab⟩) ∨
    (¬ Refused s new size ∧ ∃ t lab, s.changeFaceLabels new size = .ok ⟨true, t, lab⟩) := by
  rcases changeFaceLabels_spec hs.good.map new size with ⟨lab, h1, h2⟩ | ⟨t, lab, h1, h2, h3, -⟩
  · exact Or.inl ⟨h2, lab, h1⟩
  · refine Or.inr ⟨?_, t, lab, h1⟩
    rintro (h | h | ⟨l, hl, f, hf, hb⟩ | ⟨l, k, hne, hl, hk, he⟩)
    · exact h h2
    · exact h h3.length
    · have := h3.bound l f hl hf; omega
    · obtain ⟨f, hf⟩ := h3.defd l hl
      exact hne (h3.inj l k f hl hk hf (by rw [← he]; exact hf))

/-- If `changeFaceLabels` succeeds, every face is found under its new label and says that this is its
label, no two faces share a label and there are no other faces; the left face of every dart has its new label; everything
else is as before. -/
theorem changeFaceLabels_renames {s t : GMap K} (hs : Reach s) {new : List Nat} {size : Nat} {lab : Nat → Nat}
    (e : s.changeFaceLabels new size = .ok ⟨true, t, lab⟩) :
    (∀ l F, s.face l = some F → ∃ f, new[l]? = some f ∧ t.face f = some F ∧ lab f = f) ∧
    (∀ f F, t.face f = some F → ∃ l : Nat, s.face l = some F ∧ new[l]? = some f) ∧
    (∀ l k f : Nat, (s.face l).isSome = true → (s.face k).isSome = true → new[l]? = some f → new[k]? = some f → l = k) ∧
    (∀ d l, s.left? d = some l → t.left? d = new[l]?) ∧
    t.nFaces = size ∧ t.faceCount = s.faceCount ∧ SameGraph s t := by
  rcases changeFaceLabels_spec hs.good.map new size with ⟨lab, h1, -⟩ | ⟨t', lab', h1, h2, h3, h4⟩
  · rw [h1] at e; cases e
  · rw [h1] at e; cases e
    refine ⟨fun l F hF => ?_, fun f F hF => (h3.faces f F).mp hF, h3.inj, fun d l hd => by rw [h3.left, hd]; rfl, h3.sigma.2.2.2.2.2.1, h3.sigma.2.2.2.2.2.2.2.2, ?_⟩
    · obtain ⟨f, hf⟩ := h3.defd l (by simp [hF])
      have hF' := (h3.faces f F).mpr ⟨l, hF, hf⟩
      exact ⟨f, hf, hF', h4 f (by simp [hF'])⟩
    · obtain ⟨q1, q2, q3, q4, q5, q6, q7, q8, q9⟩ := h3.sigma
      refine ⟨q3, q1, q2, q4, q5, q7, q8, ?_, fun l => ?_⟩
      · obtain ⟨a, b, hh⟩ := h3.eq
        rw [hh]
      · rw [h3.edges, Option.map_map]; rfl

theorem Renamed.of_done {o : Outcome (Renamed K)} {A : Type} {f : Renamed K → A} {b : Bool} {a : A} (h : (o.map fun r => (r.done, f r)) = .ok (b, a)) :
    ∃ t lab, o = .ok ⟨b, t, lab⟩ ∧ f ⟨b, t, lab⟩ = a := by
  cases o with
  | ok r =>
    simp only [Outcome.map, Outcome.bind, Outcome.ok.injEq, Prod.mk.injEq] at h
    obtain ⟨d, t, lab⟩ := r
    simp only at h
    obtain ⟨rfl, h⟩ := h
    exact ⟨t, lab, rfl, h⟩
  | _ => cases h

/-- the faces 0, 1, 3 of the example get the labels 0, 2, 1 -/
example : ∃ t lab, Example.map.changeFaceLabels [0, 2, 7, 1] 3 = .ok ⟨true, t, lab⟩ ∧ t.left? 1 = some 2 ∧ t.left? 2 = some 1 := by
  obtain ⟨t, lab, h, h'⟩ := Renamed.of_done (o := Example.map.changeFaceLabels [0, 2, 7, 1] 3) (b := true)
    (f := fun r => (r.map.left? 1, r.map.left? 2)) (a := (some 2, some 1)) (by decide +kernel)
  simp only [Prod.mk.injEq] at h'
  exact ⟨t, lab, h, h'⟩
example : Refused Example.map [0, 2, 7, 2] 3 :=
  Or.inr (Or.inr (Or.inr ⟨1, 3, by decide, by decide +kernel, by decide +kernel, rfl⟩))

/-- The new map is consistent again and can be worked with like every other, if the infinite face keeps its label 0. -/
theorem changeFaceLabels_reach {s t : GMap K} (hs : Reach s) {new : List Nat} {size : Nat} {lab : Nat → Nat} (h0 : new[0]? = some 0)
    (e : s.changeFaceLabels new size = .ok ⟨true, t, lab⟩) : Reach t ∧ MapOK t :=
  have h : Reach t := .rename new size hs h0 e
  ⟨h, h.good.map⟩

/-- The full property C18 fails: a refused call can leave faces that claim another label than the one they
are found under. -/
theorem changeFaceLabels_atomic_violated :
    ∃ (s : GMap ℚ) (new : List Nat) (lab : Nat → Nat), Reach s ∧ s.changeFaceLabels new 4 = .ok ⟨false, s, lab⟩ ∧
      (s.face 0).isSome = true ∧ (s.face 1).isSome = true ∧ lab 0 = 1 ∧ lab 1 = 1 := by
  refine ⟨Example.map, [1, 1, 0, 2], ?_⟩
  rcases changeFaceLabels_throws ex_reach [1, 1, 0, 2] 4 with ⟨-, lab, h⟩ | ⟨h, -⟩
  · obtain ⟨t, lab', h1, h2⟩ := Renamed.of_done (o := Example.map.changeFaceLabels [1, 1, 0, 2] 4) (b := false)
      (f := fun r => (r.label 0, r.label 1)) (a := (1, 1)) (by decide +kernel)
    rw [h] at h1
    cases h1
    simp only [Prod.mk.injEq] at h2
    exact ⟨lab, ex_reach, h, by decide +kernel, by decide +kernel, h2⟩
  · exact absurd (Or.inr (Or.inr (Or.inr ⟨0, 1, by decide, by decide +kernel, by decide +kernel, rfl⟩))) h

/-- … and the label of the infinite face can be given away: `face(0)` is then a null pointer. -/
theorem changeFaceLabels_zero_violated :
    ∃ (s t : GMap ℚ) (new : List Nat) (lab : Nat → Nat), Reach s ∧ s.changeFaceLabels new 4 = .ok ⟨true, t, lab⟩ ∧
      t.initialized ∧ t.face 0 = none := by
  obtain ⟨t, lab, h1, h2⟩ := Renamed.of_done (o := Example.map.changeFaceLabels [2, 1, 0, 3] 4) (b := true)
    (f := fun r => (decide r.map.initialized, (r.map.face 0).isNone)) (a := (true, true)) (by decide +kernel)
  simp only [Prod.mk.injEq, decide_eq_true_eq, Option.isNone_iff_eq_none] at h2
  exact ⟨Example.map, t, [2, 1, 0, 3], lab, ex_reach, h1, h2⟩

end Verif.GeoMap.Props
