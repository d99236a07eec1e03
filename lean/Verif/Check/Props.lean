import Verif.Check.Lemmas

/-! # `checkConsistency` (C59)

Specification: `Passes s` says in terms of the map what the check can still
find wrong in a map built with the API.  Everything else that the code tests
holds in every such map. -/

namespace Verif.Check
open Verif Verif.GeoMap Verif.Sigma Equiv Equiv.Perm Verif.PermLemmas

variable {K : Type} [Field K] [LinearOrder K]

/-- Every edge has at least two points and runs from the position of its start
node to the position of its end node; the outer contour of a finite face has
positive area and comes first, every other contour has no positive area. -/
structure Passes (s : GMap K) : Prop where
  points : ∀ l e, s.edge l = some e → 2 ≤ e.pts.length
  ends : ∀ l e, s.edge l = some e →
    e.pts.head? = (s.node e.startN).map (·.pos) ∧ e.pts.getLast? = (s.node e.endN).map (·.pos)
  signs : s.initialized → ∀ f F, s.face f = some F → ∀ i a, F.anchors[i]? = some a → (0 < s.orbitArea a ↔ f ≠ 0 ∧ i = 0)

theorem signs_iff {s : GMap K} {as : List Int} : ∀ {outer : Bool}, signs s as outer = true ↔
    ∀ i a, as[i]? = some a → (0 < s.orbitArea a ↔ outer = true ∧ i = 0) := by
  induction as with
  | nil => intro outer; simp [signs]
  | cons b as ih =>
    intro outer
    simp only [signs, Bool.and_eq_true, ih, Bool.not_eq_true', beq_eq_false_iff_ne, ne_eq]
    constructor
    · rintro ⟨h1, h2⟩ i a hi
      cases i with
      | zero =>
        simp only [List.getElem?_cons_zero, Option.some.injEq] at hi
        subst hi
        cases outer <;> simp_all
      | succ i =>
        rw [List.getElem?_cons_succ] at hi
        rw [h2 i a hi]
        simp
    · intro h
      refine ⟨?_, fun i a hi => ?_⟩
      · have := h 0 b rfl
        cases outer <;> simp_all
      · rw [h (i + 1) a hi]
        simp

theorem goodEdges_iff {s : GMap K} (hl : LabelsOK s) : ((List.range s.nEdges).all fun l => (s.edge l).all (goodEdge s)) = true ↔
    ∀ l e, s.edge l = some e → 2 ≤ e.pts.length ∧ (e.pts.head? = (s.node e.startN).map (·.pos) ∧ e.pts.getLast? = (s.node e.endN).map (·.pos)) := by
  rw [List.all_eq_true]
  constructor
  · intro h l e he
    have := h l (List.mem_range.mpr (hl.edge_lt l (by rw [he]; rfl)))
    rw [he] at this
    simpa [goodEdge] using this
  · intro h l _
    cases he : s.edge l with
    | none => rfl
    | some e => simpa [goodEdge] using h l e he

theorem faces_iff {s : GMap K} (hl : LabelsOK s) : ((List.range s.nFaces).all fun f => (s.face f).all fun F => signs s F.anchors (decide (0 < f))) = true ↔
    ∀ f F, s.face f = some F → ∀ i a, F.anchors[i]? = some a → (0 < s.orbitArea a ↔ f ≠ 0 ∧ i = 0) := by
  rw [List.all_eq_true]
  have hz : ∀ f : Nat, decide (0 < f) = true ↔ f ≠ 0 := fun f => by simp [Nat.pos_iff_ne_zero]
  constructor
  · intro h f F hF
    have := h f (List.mem_range.mpr (hl.face_lt f (by rw [hF]; rfl)))
    rw [hF, Option.all_some, signs_iff] at this
    simpa only [hz] using this
  · intro h f _
    cases hF : s.face f with
    | none => rfl
    | some F =>
      rw [Option.all_some, signs_iff]
      simpa only [hz] using h f F hF

omit [Field K] [LinearOrder K] in
theorem count_live (n : Nat) {α : Type} (g : Nat → Option α) : (List.range n).countP (fun i => (g i).isSome) = ((Finset.range n).filter fun i => (g i).isSome = true).card :=
  countP_range n _

theorem sum_live (n : Nat) {α : Type} (g : Nat → Option α) (h : Nat → α → Int) :
    ((List.range n).map fun f => (g f).elim 0 (h f)).sum = ∑ f ∈ (Finset.range n).filter (fun i => (g i).isSome = true), (g f).elim 0 (h f) := by
  rw [sum_range, Finset.sum_filter]
  refine Finset.sum_congr rfl (fun f _ => ?_)
  cases g f <;> simp

theorem checkCells_ok [IsStrictOrderedRing K] {s : GMap K} (hs : GeoMap.Reach s) :
    ∃ b, checkCells s true = .ok b ∧ (b = true ↔ Passes s) := by
  have hG := hs.good
  obtain ⟨π, hg⟩ := hG.map.graph.exists_rep
  unfold checkCells
  rw [nodesLoop_ok hg]
  simp only [bind, Outcome.bind_ok]
  rw [edgesLoop_ok hG]
  simp only [Outcome.bind_ok]
  have hn : 0 + (List.range s.nNodes).countP (fun n => (s.node n).isSome) = s.nodeCount := by
    rw [count_live, hg.labels.node_count, Nat.zero_add]; rfl
  have he : 0 + (List.range s.nEdges).countP (fun n => (s.edge n).isSome) = s.edgeCount := by
    rw [count_live, hg.labels.edge_count, Nat.zero_add]; rfl
  have hiso := isolated_count hg
  rw [hn, he]
  simp only [decide_true, Bool.and_true, Bool.true_and]
  have hE := goodEdges_iff hg.labels
  by_cases hi : s.initialized
  · obtain ⟨ψ, hc⟩ := (hG.map.contours hi).exists_rep hg
    rw [if_neg (not_not.mpr hi), facesLoop_ok hG hi hg hc]
    simp only [Outcome.bind_ok]
    have hf : 0 + (List.range s.nFaces).countP (fun n => (s.face n).isSome) = s.faceCount := by
      rw [count_live, hg.labels.face_count, Nat.zero_add]; rfl
    have hh : (0 : Int) + ((List.range s.nFaces).map fun f => (s.face f).elim 0 fun F => (F.anchors.length : Int) - if f = 0 then 0 else 1).sum = s.holeSum := by
      rw [zero_add, sum_live s.nFaces s.face (fun f F => (F.anchors.length : Int) - if f = 0 then 0 else 1)]; rfl
    have hb : (0 : Int) + ((List.range s.nFaces).map fun f => (s.face f).elim (0 : Int) fun F => (F.anchors.length : Int)).sum = s.contourCount := by
      rw [zero_add, sum_live s.nFaces s.face (fun _ F => (F.anchors.length : Int))]
      unfold GMap.contourCount GMap.liveFaces
      push_cast
      refine Finset.sum_congr rfl (fun f hf => ?_)
      cases s.face f <;> rfl
    rw [hf, hh, hb, Nat.zero_add]
    obtain ⟨h1, h2⟩ := GeoMap.Props.contour_formula hs hi
    have h3 := holeSum_eq hg.labels (hG.map.contours hi).face_zero
    have h4 := hg.labels.node_count
    have h5 : ((s.nodeCount : Int) - ((List.range s.nNodes).countP (isolated s) : Nat) - s.edgeCount + s.faceCount - s.holeSum - 1) = 0 := by omega
    have h6 : ((s.nodeCount : Int) - ((List.range s.nNodes).countP (isolated s) : Nat) - s.edgeCount + s.contourCount - 2 * s.holeSum) = 0 := by omega
    rw [h5, h6]
    refine ⟨_, rfl, ?_⟩
    simp only [decide_true, Bool.and_true, Int.zero_emod, Bool.and_eq_true, hE, faces_iff hg.labels]
    exact ⟨fun h => ⟨fun l e x => (h.1 l e x).1, fun l e x => (h.1 l e x).2, fun _ => h.2⟩, fun h => ⟨fun l e x => ⟨h.points l e x, h.ends l e x⟩, h.signs hi⟩⟩
  · rw [if_pos hi]
    refine ⟨_, rfl, ?_⟩
    rw [hE]
    exact ⟨fun h => ⟨fun l e x => (h l e x).1, fun l e x => (h l e x).2, fun h => absurd h hi⟩, fun h l e x => ⟨h.points l e x, h.ends l e x⟩⟩

namespace Props

/-- `checkConsistency` of a map built with the API reads no invalid memory, ends, and says exactly whether the map `Passes`. -/
theorem check_iff [IsStrictOrderedRing K] {s : GMap K} (hs : GeoMap.Reach s) {a : Arrays} (ha : Holds a s) :
    ∃ b, checkConsistency a s = .ok b ∧ (b = true ↔ Passes s) := by
  unfold checkConsistency
  rw [setup_ok ha, if_neg (by simp)]
  have hlen := ha.agree.slen
  have hfit := ha.fits
  have hd : a.sig.length / 2 = a.centre := by omega
  have hsz : decide (s.nEdges * 2 - 1 ≤ a.sig.length) = true := by
    have : (Fn.of s).n = s.nEdges := rfl
    simp only [decide_eq_true_eq]; omega
  simp only [hd, hsz]
  rw [sigmaLoop_ok ha hs.good.map.graph _ _ _ (fun i h1 h2 => by push_cast at h2; omega)]
  simp only [bind, Outcome.bind_ok, if_true]
  exact checkCells_ok hs

/-- The arrays that the library keeps make the check applicable. -/
theorem check_map [IsStrictOrderedRing K] {s : GMap K} (hs : GeoMap.Reach s) :
    ∃ cs a b, runCalls cs 1 Arrays.init = .ok a ∧ Holds a s ∧ checkConsistency a s = .ok b ∧ (b = true ↔ Passes s) := by
  obtain ⟨cs, a, h1, h2, -⟩ := map_storage hs
  obtain ⟨b, h3, h4⟩ := check_iff hs h2
  exact ⟨cs, a, b, h1, h2, h3, h4⟩

theorem passes_of_signed {s : GMap K} (hp : ∀ l e, s.edge l = some e → 2 ≤ e.pts.length) (hG : GeomOK s)
    (hS : s.initialized → ContoursSigned s) : Passes s := by
  refine ⟨hp, hG, fun hi f F hF i a ha => ?_⟩
  by_cases h0 : f = 0
  · subst h0
    have := (hS hi).infinite F hF a (List.mem_of_getElem? ha)
    exact ⟨fun h => absurd this (not_le.mpr h), fun h => absurd rfl h.1⟩
  · obtain ⟨b, rest, h1, h2, h3⟩ := (hS hi).outer f F hF h0
    rw [h1] at ha
    cases i with
    | zero =>
      simp only [List.getElem?_cons_zero, Option.some.injEq] at ha
      subst ha
      exact ⟨fun _ => ⟨h0, rfl⟩, fun _ => h2⟩
    | succ i =>
      rw [List.getElem?_cons_succ] at ha
      have := h3 a (List.mem_of_getElem? ha)
      exact ⟨fun h => absurd this (not_le.mpr h), fun h => by omega⟩

/-- In a map whose edges end at their nodes and have two points each, the check
succeeds before `initializeMap` and right after it. -/
theorem check_fresh [IsStrictOrderedRing K] {s t : GMap K} {pick : GMap K → Int → Option Nat} (hs : ReachG s) (hi : ¬ s.initialized)
    (ht : s.initializeMap pick = .ok t) (hpl : PlanarOK t) (hp : ∀ l e, s.edge l = some e → 2 ≤ e.pts.length) {a b : Arrays} (ha : Holds a s) (hb : Holds b t) :
    checkConsistency a s = .ok true ∧ checkConsistency b t = .ok true := by
  have hrt : ReachG t := .call Hooks.none (.initializeMap pick) hs trivial trivial ht (fun _ _ => hpl)
  have key : ∀ {u : GMap K} {c : Arrays}, GeoMap.Reach u → Holds c u → Passes u → checkConsistency c u = .ok true := by
    intro u c h1 h2 h3
    obtain ⟨x, h4, h5⟩ := check_iff h1 h2
    rw [h4, h5.mpr h3]
  have hP : Passes s := passes_of_signed hp hs.geom.1 (fun h => absurd h hi)
  refine ⟨key hs.reach ha hP, key hrt.reach hb ?_⟩
  rcases initializeMap_spec pick hs.reach.good.map hi hs.reach.good.fresh with ⟨e', -⟩ | ⟨s1, t', h1, e', -, -, hSG, -, hS⟩
  · rw [e'] at ht; cases ht
  rw [e'] at ht; cases ht
  refine passes_of_signed ?_ hrt.geom.1 (fun _ => hS)
  intro l e he
  have h2 := hSG.edge l
  rw [he] at h2
  have h3 : (s1.edge l) = s.edge l := by
    rcases h1 with ⟨-, rfl⟩ | ⟨-, h1⟩
    · rfl
    · obtain ⟨π, hg⟩ := hs.reach.good.map.graph.exists_rep
      rcases sortEdgesDirectly_spec hg hi with ⟨e', -⟩ | ⟨t', -, e', -, ⟨sg, sgi, rfl⟩, -⟩
      · rw [e'] at h1; cases h1
      · rw [e'] at h1; cases h1; rfl
  rw [h3] at h2
  cases h4 : s.edge l with
  | none => rw [h4] at h2; cases h2
  | some e0 =>
    rw [h4] at h2
    simp only [Option.map_some, Option.some.injEq, Prod.mk.injEq] at h2
    rw [h2.2.2.1]
    exact hp l e0 h4

/-- `nested` meets the hypotheses of `check_iff` and passes -/
theorem nested_passes : Passes GeoMap.Props.nested := by
  refine passes_of_signed ?_ GeoMap.Props.nested_reach.geom.1
    (fun _ => GeoMap.Props.first_contour_is_outer_partial GeoMap.Props.nestC_reach.reach (by decide +kernel) GeoMap.Props.nested_eq)
  intro l e he
  have hn : ∀ l < 4, ((GeoMap.Props.nested.edge l).all fun e => decide (2 ≤ e.pts.length)) = true := by decide +kernel
  obtain ⟨π, hg⟩ := GeoMap.Props.nested_reach.reach.good.map.graph.exists_rep
  have h1 := hg.labels.edge_lt l (by rw [he]; rfl)
  rw [show GeoMap.Props.nested.nEdges = 4 from by decide +kernel] at h1
  have := hn l h1
  rw [he] at this
  simpa using this

theorem check_true [IsStrictOrderedRing K] {s : GMap K} (hs : GeoMap.Reach s) (hp : Passes s) {a : Arrays} (ha : Holds a s) : checkConsistency a s = .ok true := by
  obtain ⟨x, h4, h5⟩ := check_iff hs ha
  rw [h4, h5.mpr hp]

theorem check_false [IsStrictOrderedRing K] {s : GMap K} (hs : GeoMap.Reach s) (hp : ¬ Passes s) {a : Arrays} (ha : Holds a s) : checkConsistency a s = .ok false := by
  obtain ⟨x, h4, h5⟩ := check_iff hs ha
  rw [h4, Bool.eq_false_iff.mpr (fun h => hp (h5.mp h))]

/-- `mergeFaces` can turn a map that passes the check into one that does not:
merging the faces of three nested loops leaves a face whose first contour is a hole. -/
theorem check_after_mergeFaces_violated :
    ∃ s t : GMap ℚ, ReachG s ∧ s.initialized ∧ s.mergeFaces Hooks.none 2 = .ok (some 3, t) ∧ ReachG t ∧
      (∀ a, Holds a s → checkConsistency a s = .ok true) ∧ ∀ a, Holds a t → checkConsistency a t = .ok false := by
  refine ⟨_, _, GeoMap.Props.nested_reach, by decide +kernel, GeoMap.Props.merged_eq, GeoMap.Props.merged_reach,
    fun a => check_true GeoMap.Props.nested_reach.reach nested_passes, fun a => check_false GeoMap.Props.merged_reach.reach (fun h => ?_)⟩
  have hF : GeoMap.Props.merged.face 3 = some ⟨[-3, 1], some 143, 0⟩ := by decide +kernel
  have h1 := ((h.signs (by decide +kernel)) 3 _ hF 0 (-3) rfl).mpr ⟨by decide, rfl⟩
  rw [GeoMap.Props.merged_orbitArea (by decide +kernel) (by decide +kernel)] at h1
  exact absurd h1 (by decide +kernel)

/-- `nested` with the first edge split at its first point -/
def splitAtEnd : GMap ℚ := Example.next GeoMap.Props.nested (.splitEdge 1 0 none)

/-- Splitting an edge at its first point is not refused and leaves an edge with
a single point: the check fails. -/
theorem check_after_splitEdge_violated :
    ∃ s t : GMap ℚ, ReachG s ∧ (s.splitEdge 1 0 none).map (·.2) = .ok t ∧ ReachG t ∧
      (∀ a, Holds a s → checkConsistency a s = .ok true) ∧ ∀ a, Holds a t → checkConsistency a t = .ok false := by
  have hr : ReachG splitAtEnd :=
    Example.reach_next GeoMap.Props.nested_reach trivial trivial (by decide +kernel) fun h => absurd (by decide +kernel) h
  refine ⟨_, splitAtEnd, GeoMap.Props.nested_reach, Example.ok_val (by decide +kernel), hr,
    fun a => check_true GeoMap.Props.nested_reach.reach nested_passes, fun a => check_false hr.reach (fun h => ?_)⟩
  have hn : ((splitAtEnd.edge 1).map fun e => e.pts.length) = some 1 := by decide +kernel
  cases he : splitAtEnd.edge 1 with
  | none => rw [he] at hn; cases hn
  | some e =>
    rw [he] at hn
    have h1 := h.points 1 e he
    have h2 : e.pts.length = 1 := Option.some.inj hn
    omega

end Props
end Verif.Check
