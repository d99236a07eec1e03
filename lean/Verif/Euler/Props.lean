import Verif.Euler.Value
import Verif.GeoMap.Props2

/-!
# C08, C59: Euler's formula

Here every map client code can get to is considered (`Reach`).  `GMap.components` counts the connected
components (an isolated node is one), `GMap.edgeComponents` those with edges; `GMap.contourCount` the
contours stored in all faces; `GMap.holeSum` is the sum of `holeCount()` over all faces.
-/

namespace Verif.GeoMap

/-- Only `initializeMap` creates faces. -/
theorem op_nFaces {K : Type} [Field K] [LinearOrder K] {s t : GMap K} (hg : Good s) {h : Hooks K} {op : Op K} (hl : op.legal s)
    (e : op.run h s = .ok t) (hi : ¬ s.initialized) : (∃ pick, op = .initializeMap pick) ∨ ¬ t.initialized := by
  have mp : ∀ {A : Type} {o : Outcome (A × GMap K)}, o.map (·.2) = .ok t → (o = .precond ∨ ∃ r t, o = .ok (r, t) ∧ EulerStep s t) →
      ¬ t.initialized := by
    intro A o e h
    rcases h with h | ⟨r, t', h, E⟩
    · rw [h] at e; cases e
    · rw [h] at e; cases e
      show ¬ 0 < t'.nFaces
      rw [E.init]; exact hi
  cases op with
  | initializeMap pick => exact Or.inl ⟨pick, rfl⟩
  | addNode p label => cases e; exact Or.inr (by show ¬ 0 < _; rw [(addNodeAt_step hg.map p label).init]; exact hi)
  | addEdge a b pts label =>
    right
    rcases addEdge_step hg.map hg.fresh hl.1 hl.2.1 hl.2.2 label with e' | ⟨t', e', -, -, ht⟩
    · unfold Op.run at e; simp only [e'] at e; cases e
    · unfold Op.run at e; simp only [e'] at e; cases e; exact ht
  | sortEdgesDirectly =>
    right
    obtain ⟨π, hG⟩ := hg.map.graph.exists_rep
    rcases sortEdgesDirectly_spec hG hi with ⟨e', -⟩ | ⟨t', -, e', -, ⟨sg, sgi, rfl⟩, -⟩
    · unfold Op.run at e; simp only [e'] at e; cases e
    · unfold Op.run at e; simp only [e'] at e; cases e; exact hi
  | removeIsolatedNode n => exact Or.inr (mp e (Or.inr (removeIsolatedNode_step hg.map h hl.1 hl.2)))
  | mergeEdges d => exact Or.inr (mp e (mergeEdges_step hg.map h d))
  | splitEdge l i np => exact Or.inr (mp e (splitEdge_step hg.map l i np))
  | removeBridge d => exact Or.inr (mp e (removeBridge_step hg.map hg.planar h d))
  | mergeFaces d => exact Or.inr (mp e (mergeFaces_step hg.map hg.planar h d))
  | removeEdge d =>
    right
    rcases removeEdge_step hg.map hg.planar h d with e' | ⟨r, t', e', -, -, hn, -, -⟩
    · exact mp e (Or.inl e')
    · unfold Op.run at e; simp only [e'] at e; cases e
      show ¬ 0 < _
      rw [hn]; exact hi
  | area f =>
    obtain ⟨x, t', h1, h2, -⟩ := area_step hg.map (f := f) hl
    exact Or.inr (mp e (Or.inr ⟨x, t', h1, h2⟩))
  | setFlags l flags =>
    right
    rcases setFlags_step hg.map l flags with e' | ⟨t', e', E⟩
    · unfold Op.run at e; simp only [e'] at e; cases e
    · unfold Op.run at e; simp only [e'] at e; cases e
      show ¬ 0 < _
      rw [E.init]; exact hi

namespace Props

variable {K : Type} [Field K] [LinearOrder K] [IsStrictOrderedRing K]

/-- nodes − edges + faces − components is 1 in every initialized map. -/
theorem euler_formula {s : GMap K} (hs : Reach s) : s.initialized →
    (s.nodeCount : Int) - s.edgeCount + s.faceCount - s.components = 1 := by
  show s.initialized → s.euler = 1
  induction hs with
  | empty => intro hi; exact absurd hi (lt_irrefl 0)
  | @call s t h op h0 hl hr hp ih =>
    intro ht
    by_cases hi : s.initialized
    · rw [(euler_preserved h0 hi h op hl hr).2]
      exact ih hi
    · have ht' : Reach t := .call h op h0 hl hr hp
      rcases op_nFaces h0.good hl hr hi with ⟨pick, rfl⟩ | h1
      swap
      · exact absurd ht h1
      rcases initializeMap_spec pick h0.good.map hi h0.good.fresh with ⟨e', -⟩ | ⟨s1, t', -, e', -, -, -, -, hS⟩
      · rw [show (Op.initializeMap pick).run h s = s.initializeMap pick from rfl, e'] at hr; cases hr
      · rw [show (Op.initializeMap pick).run h s = s.initializeMap pick from rfl, e'] at hr; cases hr
        exact euler_signed ht'.good ht hS
  | @rename s t lab new size h0 hz hr ih =>
    intro ht
    rcases changeFaceLabels_spec h0.good.map new size with ⟨lab', e, -⟩ | ⟨t', lab', e, hi, hR, -⟩
    · rw [e] at hr; cases hr
    · rw [e] at hr; cases hr
      rw [rename_euler hR]
      exact ih hi

/-- Contours: the holes of all faces are as many as the components with edges, and
nodes − edges + contours = 2 · components (both without isolated nodes). -/
theorem contour_formula {s : GMap K} (hs : Reach s) (hi : s.initialized) :
    s.holeSum = s.edgeComponents ∧ (s.edgeNodes.card : Int) - s.edgeCount + s.contourCount = 2 * s.edgeComponents := by
  have h1 : s.euler = 1 := euler_formula hs hi
  have h2 := euler_holes hs.good hi
  exact ⟨by omega, genus_zero hs.good hi⟩

/-- Every face can be reached from the infinite face by crossing edges one after the other. -/
theorem faces_joined {s : GMap K} (hs : Reach s) (hi : s.initialized) {f : Nat} (hf : (s.face f).isSome = true) :
    Relation.ReflTransGen (fun x y => ∃ d, s.left? d = some x ∧ s.left? (-d) = some y) 0 f :=
  (euler_one_iff hs.good hi).mp (euler_formula hs hi) f hf

/-- Every finite face has a contour: `contour()` and `holeCount()` of a finite face are safe. -/
theorem finite_face_has_contour {s : GMap K} (hs : Reach s) (hi : s.initialized) {f : Nat} {F : Face K} (hF : s.face f = some F) (h0 : f ≠ 0) :
    F.anchors ≠ [] := by
  intro hn
  have := faces_joined hs hi (f := f) (by rw [hF]; rfl)
  rcases Relation.ReflTransGen.cases_tail this with h | ⟨g, -, d, -, hd⟩
  · exact h0 h
  · obtain ⟨a, ha, -⟩ := (hs.good.map.contours hi).anchor_cover f F (-d) hF hd
    rw [hn] at ha
    cases ha

omit [IsStrictOrderedRing K] in
/-- No edge is a loop and a bridge. -/
theorem no_loop_bridge {s : GMap K} (hs : Reach s) (hi : s.initialized) {d : Int} (hd : s.liveD d) (hb : s.left? d = s.left? (-d)) :
    s.startN? d ≠ s.startN? (-d) :=
  (hs.good.planar hi).no_loop_bridge hs.good.map hd hb

/-- two maps that meet the hypotheses: one with a bridge, one with three nested components -/
example : Reach Example.map ∧ Example.map.initialized ∧ Reach nested ∧ nested.initialized ∧ (nested.face 3).isSome = true :=
  ⟨Example.reach_map.reach, by decide +kernel, nested_reach.reach, by decide +kernel, by decide +kernel⟩

end Props
end Verif.GeoMap
