import Verif.Outer.Keep
import Verif.Query.Example

/-!
# Outer contours: theorems (C14, C62)

C62: in every map with the faces of a subdivision of the plane, after any history, every finite face has exactly one outer contour, all other contours are
boundaries of holes, and the infinite face has boundaries of holes only.  C14: the outer contour is the first one after `initializeMap`, and this is kept by all
operations except some mergings of faces, which are characterised exactly.
-/

namespace Verif.Outer
open Verif Verif.GeoMap Verif.GeoMap.Props Verif.Polygon Verif.Scan Verif.Locate Verif.LabelImage

variable {K : Type} [Field K] [LinearOrder K] [IsStrictOrderedRing K]

/-- **C62a** Every finite face has exactly one contour of positive area.  It winds once, in the positive sense, around every point of the face, and around any
other point (that is on no edge) once or not at all.  The other contours have no positive area, do not wind around points of the face and wind around any other point
once in the negative sense or not at all. -/
theorem one_outer_contour {s : GMap K} (hs : Drawn s) {f : Nat} {F : Face K} (hF : s.face f = some F) (h0 : f ≠ 0) :
    ∃ l a r, F.anchors = l ++ a :: r ∧
      (0 < s.orbitArea a ∧ ∀ c, ¬ OnEdge s c → (Located s c f → contourWind s c a = 1) ∧ (contourWind s c a = 0 ∨ contourWind s c a = 1)) ∧
      ∀ b ∈ l ++ r, s.orbitArea b ≤ 0 ∧ ∀ c, ¬ OnEdge s c → (Located s c f → contourWind s c b = 0) ∧ (contourWind s c b = 0 ∨ contourWind s c b = -1) := by
  have hp := hs.placed
  have hr := reach_of_drawn hs
  obtain ⟨l, a, r, e, h1, h2⟩ := one_positive hr hp hF h0
  have hl : ∀ b ∈ l ++ a :: r, s.left? b = some f := fun b hb => anchor_left hp hF (by rw [e]; exact hb)
  refine ⟨l, a, r, e, ⟨h1, ?_⟩, fun b hb => ⟨h2 b hb, ?_⟩⟩
  · rcases contour_signed hr hp (hl a (by simp)) with ⟨-, -, k1, k2⟩ | ⟨k, -⟩
    · exact fun c hc => ⟨k2 c hc, k1 c hc⟩
    · exact absurd h1 (not_lt.mpr k)
  · have hb' : s.left? b = some f := hl b (by simp only [List.mem_append, List.mem_cons] at hb ⊢; tauto)
    rcases contour_signed hr hp hb' with ⟨-, k, -⟩ | ⟨-, k1, k2⟩
    · exact absurd k (not_lt.mpr (h2 b hb))
    · exact fun c hc => ⟨k2 c hc, k1 c hc⟩

/-- **C62b** No contour of the infinite face has positive area; all are boundaries of holes. -/
theorem infinite_face_holes {s : GMap K} (hs : Drawn s) {F : Face K} (hF : s.face 0 = some F) {b : Int} (hb : b ∈ F.anchors) :
    s.orbitArea b ≤ 0 ∧ ∀ c, ¬ OnEdge s c → (Located s c 0 → contourWind s c b = 0) ∧ (contourWind s c b = 0 ∨ contourWind s c b = -1) := by
  have hp := hs.placed
  rcases contour_signed (reach_of_drawn hs) hp (anchor_left hp hF hb) with ⟨k, -⟩ | ⟨k, k1, k2⟩
  · exact absurd rfl k
  · exact ⟨k, fun c hc => ⟨k2 c hc, k1 c hc⟩⟩

theorem kept_first {s : GMap K} (hs : Kept s) : Drawn s ∧ FirstPositive s := by
  induction hs with
  | @start g s pick h hi e hP hS =>
    have hr : ReachG s := .call Hooks.none (.initializeMap pick) h trivial trivial e fun _ _ => hP
    have hi' : s.initialized := by
      rcases initializeMap_spec pick h.reach.good.map hi h.reach.good.fresh with ⟨e', -⟩ | ⟨s1, t', -, e', -, h', -, -, -⟩
      · rw [e'] at e; cases e
      · rw [e'] at e; cases e; exact h'
    refine ⟨.start hr hi' hS, fun f F hF h0 => ?_⟩
    obtain ⟨a, rest, e1, h1, -⟩ := (first_contour_is_outer_partial h.reach hi e).outer f F hF h0
    exact ⟨a, rest, e1, h1⟩
  | call h op _ hl hf e hk ih =>
    have hd := Drawn.call h op ih.1 hl hf e
    exact ⟨hd, (call_first (reach_of_drawn ih.1) ih.1.placed (reach_of_drawn hd) hd.placed ih.2 hl hf e).mpr hk⟩
  | rename new size _ h0 e ih =>
    obtain ⟨-, hR, -⟩ := rename_good ih.1.placed.good h0 e
    exact ⟨.rename new size ih.1 h0 e, rename_first ih.2 h0 hR⟩

/-- **C14** The full property says that after every history the first contour of a finite face is its outer contour: it has positive area and winds around the points
of the face, the others do not.  Proved for the histories in which mergings of faces meet `KeepsOuter`. -/
theorem first_contour_history_partial {s : GMap K} (hs : Kept s) : ContoursSigned s ∧ Query.Oriented s := by
  obtain ⟨hd, h1⟩ := kept_first hs
  exact ⟨h1.signed (reach_of_drawn hd) hd.placed, h1.oriented (reach_of_drawn hd) hd.placed⟩

/-- **C14** … and the condition on mergings is exact: let the outer contours be first before a call, then they are first after it if and only if the call is no merging of
faces or meets `KeepsOuter`. -/
theorem first_contour_exact {s t : GMap K} (hs : Drawn s) (h1 : ContoursSigned s) (h : Hooks K) (op : LOp K) (hl : op.op.legal s) (hf : op.fits s)
    (e : op.op.run h s = .ok t) : ContoursSigned t ↔ ∀ d, op = .mergeFaces d ∨ op = .removeEdge d → KeepsOuter s t d := by
  have hd := Drawn.call h op hs hl hf e
  have hfp : FirstPositive s := fun f F hF h0 => by
    obtain ⟨a, rest, e1, h1, -⟩ := h1.outer f F hF h0
    exact ⟨a, rest, e1, h1⟩
  rw [← call_first (reach_of_drawn hs) hs.placed (reach_of_drawn hd) hd.placed hfp hl hf e]
  refine ⟨fun h f F hF h0 => ?_, fun h => h.signed (reach_of_drawn hd) hd.placed⟩
  obtain ⟨a, rest, e1, h1, -⟩ := h.outer f F hF h0
  exact ⟨a, rest, e1, h1⟩

/-- **C58** Along these histories point queries need no further hypotheses. -/
theorem faceAt_history [FloorRing K] {m : LMap K} {b : Query.Boxes K} (hm : Query.QDrawn m b) (hk : Kept m.g) {c : Pt K} (hc : ¬ OnEdge m.g c) :
    ∃ f b', Query.faceAt m b c = .ok (f, b') ∧ Located m.g c f ∧ Query.QDrawn m b' :=
  Query.faceAt_exact hm (first_contour_history_partial hk).2 hc

/-! ## the hypotheses can be met -/

theorem nested_drawn : Drawn nested := .start nested_reach (by decide +kernel) Query.nested_subdivision

theorem nested_kept : Kept nested :=
  .start nestC_reach (by decide +kernel) nested_eq nested_planar Query.nested_subdivision

example : ∃ l a r, ((nested.face 3).map (·.anchors)) = some (l ++ a :: r) ∧ l = [] ∧ a = 2 ∧ r = [-3] := ⟨[], 2, [-3], by decide +kernel, rfl, rfl, rfl⟩

theorem merged_drawn : Drawn merged :=
  .call Hooks.none (.mergeFaces 2) nested_drawn trivial trivial (by show (nested.mergeFaces Hooks.none 2).map (·.2) = _; rw [merged_eq]; rfl)

/-- merging the two outer faces of three nested squares breaks the condition … -/
example : ¬ KeepsOuter nested merged 2 := by
  intro h
  have h1 := (first_contour_history_partial nested_kept).1
  have e : (LOp.mergeFaces 2 : LOp ℚ).op.run Hooks.none nested = .ok merged := by
    show (nested.mergeFaces Hooks.none 2).map (·.2) = _; rw [merged_eq]; rfl
  have h2 := (first_contour_exact nested_drawn h1 Hooks.none (.mergeFaces 2) trivial trivial e).mpr fun d hd => by
    rcases hd with hd | hd
    · cases hd; exact h
    · cases hd
  obtain ⟨a, rest, e1, h3, -⟩ := h2.outer 3 ⟨[-3, 1], some 143, 0⟩ (by decide +kernel) (by decide)
  simp only [List.cons.injEq] at e1
  rw [← e1.1, merged_orbitArea (by decide +kernel) (by decide +kernel)] at h3
  exact absurd h3 (by decide +kernel)

theorem pair_kept : Kept FaceStats.pair := by
  have r2 : ReachG FaceStats.pairA :=
    Example.reach_next (Example.reach_next .empty trivial trivial rfl fun _ h => absurd h (by decide +kernel)) trivial trivial rfl
      fun _ h => absurd h (by decide +kernel)
  have rC : ReachG FaceStats.pairC := by
    refine Example.reach_edge (na := ⟨(1, 1), 0⟩) (nb := ⟨(1, 1), 0⟩)
      (Example.reach_edge (na := ⟨(0, 0), 0⟩) (nb := ⟨(0, 0), 0⟩) r2 ?_ ?_ ?_ ?_ ?_ ?_) ?_ ?_ ?_ ?_ ?_ ?_ <;> decide +kernel
  exact .start rC (by decide +kernel) (Example.ok_val (a := GMap.empty) (by decide +kernel)) FaceStats.pair_planar pair_subdivision

/-- … but merging the square inside another one with the face around it does not. -/
example : Kept united := by
  refine .call Hooks.none (.mergeFaces 2) pair_kept trivial trivial (by show (FaceStats.pair.mergeFaces Hooks.none 2).map (·.2) = _; rw [united_ok]; rfl) ?_
  rintro d (hd | hd)
  · cases hd
    intro r sl ml hr gl gr hm h0 hon
    exfalso
    rcases hr with rfl | rfl
    · rw [show FaceStats.pair.left? (-2) = some 1 by decide +kernel] at gr
      cases gr
      have : (united.face 1).isSome = true := by decide +kernel
      rw [hm] at this; cases this
    · rw [show FaceStats.pair.left? (-2) = some 1 by decide +kernel] at gl
      cases gl
      obtain ⟨F, a, as, hF, e, k, hk⟩ := hon
      have hF' : (FaceStats.pair.face 1).map (·.anchors) = some [1, -2] := by decide +kernel
      rw [hF] at hF'
      have hF' : F.anchors = [1, -2] := Option.some.inj hF'
      rw [e] at hF'
      have ha : a = 1 := (List.cons.inj hF').1
      subst ha
      rw [Function.iterate_fixed (by decide +kernel)] at hk
      exact absurd hk (by decide)
  · cases hd

end Verif.Outer
