import Verif.Pickle.Main
import Verif.Pickle.Sorted
import Verif.GeoMap.Props

/-!
# Pickling (C61)

Specification: `SameMap`, `Regions` and `Finds` in `Spec.lean`; the histories of a map `Reach` in
`Verif/GeoMap/Machine.lean`.
-/

namespace Verif.Pickle
open Equiv Equiv.Perm Verif Verif.GeoMap

variable {K : Type} [Field K] [LinearOrder K] [IsStrictOrderedRing K]

omit [Field K] [LinearOrder K] [IsStrictOrderedRing K] in
theorem pickle_eq {a : Sigma.Arrays} {s : PMap K} (hne : ∀ f F, s.map.face f = some F → F.anchors ≠ []) :
    ∃ p, pickle a s = .ok p ∧ p.nodes = listCells (fun n => (s.map.node n).map (·.pos)) (List.range s.map.nNodes) [] ∧
      p.edges = listCells (fun l => (s.map.edge l).map fun e => (e.startN, e.endN, e.pts)) (List.range s.map.nEdges) [] ∧
      p.sigma = (a.pyExport fun l => (s.map.edge l).isSome) ∧ p.sorted = s.map.edgesSorted ∧ p.initialized = decide s.map.initialized ∧
      p.edgeFlags = flagList s.map ∧ p.faces = faceList s ∧ p.maxFaceLabel = s.map.nFaces := by
  unfold pickle
  simp only [bind, faceStates_spec s hne, Outcome.bind_ok]
  exact ⟨_, rfl, rfl, rfl, rfl, rfl, rfl, rfl, rfl, rfl⟩

/-- A map that is not initialised comes back as it was. -/
theorem graph_roundtrip {s : PMap K} (hs : Reach s.map) (hi : ¬ s.map.initialized) {a : Sigma.Arrays} (ha : Sigma.Holds a s.map)
    (pick : GMap K → Int → Option Nat) :
    ∃ p t, pickle a s = .ok p ∧ unpickle pick p = .ok t ∧ SameMap s t ∧ MapOK t.map := by
  have hM := hs.good.map
  obtain ⟨π, hg⟩ := hM.graph.exists_rep
  have hn : s.map.nFaces = 0 := by unfold GMap.initialized at hi; omega
  have hnof : ∀ f, s.map.face f = none := by
    intro f
    cases h : s.map.face f with
    | none => rfl
    | some F => have := hM.graph.face_lt f (by simp [h]); omega
  obtain ⟨p, h0, h1, h2, h3, h4, h5, h6, h7, h8⟩ := pickle_eq (a := a) (s := s) (fun f F h => by rw [hnof] at h; cases h)
  obtain ⟨g, g', e1, e2, hr⟩ := rebuild hM.graph hg ha
  have hgof : ∀ f, g'.face f = none := by
    intro f
    cases h : g'.face f with
    | none => rfl
    | some F => have := hr.graph.labels.face_lt f (by simp [h]); have := hr.nFaces; omega
  have hfl : flagList s.map = (List.range g'.nEdges).filterMap (fun l => (s.map.edge l).map (·.flags)) ++
      ((List.range (s.map.nEdges - g'.nEdges)).map (g'.nEdges + ·)).filterMap (fun l => (s.map.edge l).map (·.flags)) := by
    unfold flagList
    rw [← List.filterMap_append, ← List.range_add, Nat.add_sub_cancel' hr.le]
  have hrun : ∃ t, restoreEdgeFlags (List.range g'.nEdges) (flagList s.map) g' = .ok t ∧ Flagged g' t (fun l => ((s.map.edge l).map (·.flags)).getD 0) := by
    rw [hfl, restoreEdgeFlags_spec (fun l => (s.map.edge l).map (·.flags)) (List.range g'.nEdges) g' _ List.nodup_range (fun l _ => by rw [hr.edges]; simp)]
    refine ⟨_, rfl, ⟨_, rfl⟩, fun l => ?_⟩
    show (if l ∈ List.range g'.nEdges then _ else _) = _
    cases h1 : g'.edge l with
    | none => simp
    | some e =>
      rw [if_pos (List.mem_range.mpr (hr.graph.labels.edge_lt l (by simp [h1])))]
      rw [hr.edges] at h1
      cases h2 : s.map.edge l with
      | none => rw [h2] at h1; cases h1
      | some e' =>
        rw [h2] at h1
        simp only [Option.map_some, Option.some.injEq] at h1
        rw [← h1]
        simp [bare]
  obtain ⟨t, ht, hF⟩ := hrun
  obtain ⟨f1, f2, f3, f4, f5, f6, f7, f8, f9, f10, f11⟩ := hF.frame
  have hgt := hF.graph hr.graph
  have hnodes : ∀ n, (t.node n).map (·.pos) = (s.map.node n).map (·.pos) := by intro n; rw [f1]; exact hr.nodes n
  have hedges : ∀ l, t.edge l = s.map.edge l := by
    intro l
    rw [hF.edges, hr.edges]
    cases he : s.map.edge l with
    | none => rfl
    | some e =>
      have hl0 : l ≠ 0 := by rintro rfl; rw [hM.graph.edge_zero] at he; cases he
      have b1 := hs.good.fresh hi (l : Int)
      have b2 := hs.good.fresh hi (-(l : Int))
      rw [left?_of (d := (l : Int)) (by simpa using he), Edge.leftOf, if_pos (by omega)] at b1
      rw [left?_of (d := -(l : Int)) (by simpa using he), Edge.leftOf, if_neg (by omega)] at b2
      cases e
      simp only at b1 b2
      simp [bare, b1, b2]
  refine ⟨p, ⟨t, fun _ => 0⟩, h0, ?_, ?_, MapOK.of_reps hgt fun h => ?_⟩
  · unfold unpickle setstate
    have h5' : p.initialized = false := by rw [h5]; simpa using hi
    simp only [bind, h1, h2, h3, h4, h5', h6, e1, e2, ht, Outcome.bind_ok, Bool.false_eq_true, if_false]
    rw [f10, hr.faceCount]
    simp [restoreFaces, f7, hr.nFaces]
  · refine ⟨hnodes, hedges, ?_, ?_, ?_, ?_, ?_, ?_, ?_, ?_, ?_, ?_⟩
    · intro d hd
      have hdL := (hg.live d).mpr hd
      show t.sigma d = s.map.sigma d
      rw [f3, hr.graph.rep.eq d hdL, hg.rep.eq d hdL]
    · intro d hd
      have hdL := (hg.live d).mpr hd
      show t.sigmaInv d = s.map.sigmaInv d
      rw [f4, hr.graph.rep.eqi d hdL, hg.rep.eqi d hdL]
    · show t.nodeCount = _
      rw [hgt.labels.node_count, hM.graph.node_count]
      congr 1
      ext n
      have := congrArg Option.isSome (hnodes n)
      simp only [Option.isSome_map] at this
      simp only [GMap.liveNodes, Finset.mem_filter, Finset.mem_range, this]
      exact ⟨fun h => ⟨hM.graph.node_lt n h.2, h.2⟩, fun h => ⟨hgt.labels.node_lt n (by rw [this]; exact h.2), h.2⟩⟩
    · show t.edgeCount = _
      rw [hgt.labels.edge_count, hM.graph.edge_count]
      congr 1
      ext n
      simp only [GMap.liveEdges, Finset.mem_filter, Finset.mem_range, hedges]
      exact ⟨fun h => ⟨hM.graph.edge_lt n h.2, h.2⟩, fun h => ⟨hgt.labels.edge_lt n (by rw [hedges]; exact h.2), h.2⟩⟩
    · show t.faceCount = _
      rw [f10, hr.faceCount, hM.graph.face_count, GMap.liveFaces, hn]; rfl
    · show t.edgesSorted = _
      rw [f11, hr.sorted]
    · show t.nFaces = _
      rw [f7, hr.nFaces, hn]
    · intro f
      show (t.face f).isSome = _
      rw [f2, hgof, hnof]
    · intro f F _ h; rw [hnof] at h; cases h
    · intro f h; rw [hnof] at h; cases h
  · unfold GMap.initialized at h
    rw [f7, hr.nFaces] at h
    cases h

/-- An initialised map whose faces are regions with holes comes back as it was, if the geometric
search of `initializeMap` is right: the same nodes, edges, order around nodes, faces, contours and
flags under the same labels.  The new map is consistent, its cached areas are right and the outer
contour of every finite face is listed first. -/
theorem map_roundtrip_partial {s : PMap K} (hs : Reach s.map) (hi : s.map.initialized) {a : Sigma.Arrays} (ha : Sigma.Holds a s.map)
    (hreg : Regions s.map) {pick : GMap K → Int → Option Nat} (hpick : Finds s.map pick) :
    ∃ p t, pickle a s = .ok p ∧ unpickle pick p = .ok t ∧ SameMap s t ∧ MapOK t.map ∧ PlanarOK t.map ∧ ContoursSigned t.map ∧ AreaOK t.map := by
  have hM := hs.good.map
  obtain ⟨π, hg⟩ := hM.graph.exists_rep
  obtain ⟨ψ, hc⟩ := (hM.contours hi).exists_rep hg
  have hne : ∀ f F, s.map.face f = some F → F.anchors ≠ [] := by
    intro f F hF
    by_cases h0 : f = 0
    · subst h0; exact (hreg.infinite F hF).1
    · obtain ⟨a, ha, -⟩ := hreg.outer f F hF h0
      exact List.ne_nil_of_mem ha
  obtain ⟨p, h0, h1, h2, h3, h4, h5, h6, h7, h8⟩ := pickle_eq (a := a) hne
  obtain ⟨g, g', e1, e2, hr⟩ := rebuild hM.graph hg ha
  obtain ⟨t1, t2, fl, new, t, r1, r2, r3, r4, r5, r6, r7, r8⟩ := restore_initialized hg hc hi (Sorted.sorted_of_reach hs hi) hreg hpick (hs.good.planar hi) hr
  have hit : t.map.initialized := by
    have := r5.maxFaceLabel
    unfold GMap.initialized at hi ⊢
    omega
  refine ⟨p, t, h0, ?_, r5, r6.map, r6.planar hit, r7, r8⟩
  unfold unpickle setstate
  have h5' : p.initialized = true := by rw [h5]; simpa using hi
  simp only [bind, h1, h2, h3, h4, h5', h6, h7, h8, e1, e2, r1, r2, r3, Outcome.bind_ok, if_true]
  exact r4

/-- A right search exists for every such map (so the hypothesis can be met). -/
theorem exists_finds {s : GMap K} (hs : Reach s) (hi : s.initialized) (hreg : Regions s) : ∃ pick, Finds s pick := by
  classical
  have hM := hs.good.map
  obtain ⟨π, hg⟩ := hM.graph.exists_rep
  obtain ⟨ψ, hc⟩ := (hM.contours hi).exists_rep hg
  refine ⟨fun u a => if h : ∃ d f, f ≠ 0 ∧ s.left? a = some f ∧ s.left? d = some f ∧ 0 < s.orbitArea d then u.left? h.choose else none, fun u a ha hneg hst => ⟨fun h0 g hp hg0 => ?_, ?_⟩⟩
  · by_cases h : ∃ d f, f ≠ 0 ∧ s.left? a = some f ∧ s.left? d = some f ∧ 0 < s.orbitArea d
    · obtain ⟨d, f, q1, q2, -⟩ := h
      rw [h0] at q2; exact absurd (Option.some.inj q2).symm q1
    · simp only [h, dif_neg, not_false_eq_true] at hp; cases hp
  · intro d f g q1 q2 q3 q4 q5 q6
    have h : ∃ d f, f ≠ 0 ∧ s.left? a = some f ∧ s.left? d = some f ∧ 0 < s.orbitArea d := ⟨d, f, q1, q2, q3, q4⟩
    simp only [h, dif_pos]
    obtain ⟨f', k1, k2, k3, k4⟩ := h.choose_spec
    rw [q2] at k2
    obtain rfl := Option.some.inj k2
    -- both darts lie on the outer contour
    have hdL := (hg.live d).mpr (liveD_of_left q3)
    have heL := (hg.live _).mpr (liveD_of_left k3)
    obtain ⟨F, hF⟩ : ∃ F, s.face f = some F := by
      obtain ⟨f'', x1, x2, -⟩ := hc.lefts d hdL
      rw [q3] at x1
      obtain rfl := Option.some.inj x1
      exact Option.isSome_iff_exists.mp x2
    have cl := hc.faces f F hF
    obtain ⟨o, o1, o2, o3⟩ := hreg.outer f F hF q1
    have key : ∀ x ∈ s.darts, s.left? x = some f → 0 < s.orbitArea x → SameCycle ψ o x := by
      intro x hx hxf hx0
      obtain ⟨b, hb, hbx⟩ := cl.cover x hx hxf
      by_cases hbo : b = o
      · rw [← hbo]; exact hbx
      · have := (o3 b hb hbo).1
        rw [orbitArea_const hg hc.rep (cl.left b hb).1 hx hbx] at this
        exact absurd hx0 (not_lt.mpr this)
    have hde : SameCycle ψ d h.choose := (key d hdL q3 q4).symm.trans (key _ heL k3 k4)
    obtain ⟨k, hk⟩ := (hc.rep.sameCycle_iff hdL).mp hde
    rw [← q5, ← hk]
    have : ∀ k, u.left? (s.phi^[k] d) = u.left? d := by
      intro k
      induction k with
      | zero => rfl
      | succ k ih =>
        rw [Function.iterate_succ_apply', hst.contours _ ((hg.live _).mp (hc.rep.iterate_mem hdL k).2), ih]
    exact this k

/-! ## failures -/

/-- the map without edges and nodes, initialised -/
def emptyMap : GMap ℚ := Example.next GMap.empty (.initializeMap fun _ _ => none)

/-- An initialised map without edges cannot be pickled: the infinite face has no contour, but its
first contour is read. -/
theorem pickle_empty_violated : Reach emptyMap ∧ emptyMap.initialized ∧ ∀ (a : Sigma.Arrays) (fl : Nat → Nat), pickle a ⟨emptyMap, fl⟩ = .ub := by
  have h0 : emptyMap.darts = ∅ := by decide +kernel
  refine ⟨(Example.reach_next (s := GMap.empty) (op := .initializeMap fun _ _ => none) .empty trivial trivial (by decide +kernel) fun _ _ w _ => ⟨fun _ => 0, fun d hd => ?_⟩).reach, by decide +kernel, fun a fl => ?_⟩
  · exact absurd hd (by rw [show (Example.next GMap.empty (.initializeMap fun _ _ => none) : GMap ℚ).darts = ∅ from h0]; simp)
  have h1 : emptyMap.nFaces = 1 := by decide +kernel
  have h2 : (emptyMap.face 0).map (·.anchors) = some [] := by decide +kernel
  obtain ⟨F, hF, hA⟩ := Option.map_eq_some_iff.mp h2
  unfold pickle
  simp only [h1]
  simp only [show List.range 1 = [0] from rfl, faceStates, hF, hA, bind]
  rfl

end Verif.Pickle
