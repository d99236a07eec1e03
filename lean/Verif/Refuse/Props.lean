import Verif.GeoMap.Props2

/-!
# Exactly which calls are refused (C63)

`Refused s op` lists the preconditions of every operation in terms of the map.  On every reachable map, a call reports a violated precondition if and only if
it is `Refused`, otherwise it returns normally (`refused_iff`, `accepted_iff`).
-/

set_option linter.unusedSectionVars false

namespace Verif.Refuse
open Verif Verif.GeoMap Equiv Equiv.Perm Verif.PermLemmas

variable {K : Type} [Field K] [LinearOrder K]

/-- An edge can be attached at a node if the node is isolated or the edges have not been sorted yet, and next to any existing dart. -/
def Attachable (s : GMap K) : GMap.SigmaPos → Prop
  | .node n => (s.node n).isSome = true ∧ ((∀ d, s.startN? d ≠ some n) ∨ s.edgesSorted = false)
  | .dart d => (s.edge d.natAbs).isSome = true

/-- Some dart has only one point, or two darts leave a node in the same direction. -/
def Unsortable (s : GMap K) : Prop := ∃ n, (∃ d, s.startN? d = some n ∧ s.angle? d = none) ∨ ¬ s.DistinctAngles n

/-- The preconditions of the operations that are violated. -/
def Refused (s : GMap K) : Op K → Prop
  | .addNode _ _ => False
  | .addEdge a b _ _ => s.initialized ∨ ¬ Attachable s a ∨ ¬ Attachable s b
  | .sortEdgesDirectly => s.initialized ∨ Unsortable s
  | .initializeMap _ => s.initialized ∨ s.edgesSorted = false ∧ Unsortable s
  | .removeIsolatedNode _ => False
  | .mergeEdges d => (s.edge d.natAbs).isSome = false ∨ (s.sigma d).natAbs = d.natAbs ∨ s.sigma (s.sigma d) ≠ d
  | .splitEdge l i _ => ∀ e, s.edge l = some e → e.pts.length ≤ i + 1
  | .removeBridge d => (s.edge d.natAbs).isSome = false ∨ ¬ s.initialized ∨ s.left? d ≠ s.left? (-d)
  | .mergeFaces d => (s.edge d.natAbs).isSome = false ∨ ¬ s.initialized ∨ s.left? d = s.left? (-d)
  | .removeEdge d => (s.edge d.natAbs).isSome = false
  | .area _ => False
  | .setFlags l _ => (s.edge l).isSome = false

/-- In a planar map a loop has different faces on its sides. -/
theorem loop_faces {s : GMap K} (hs : Good s) (hi : s.initialized) {d : Int} (hd : s.liveD d) (hb : s.left? d = s.left? (-d)) :
    s.startN? d ≠ s.startN? (-d) := by
  intro hn
  obtain ⟨π, hg⟩ := hs.map.graph.exists_rep
  have hdL := (hg.live d).mpr hd
  obtain ⟨c, hc⟩ := hs.planar hi (fun k => if k = d.natAbs then 1 else 0) fun n => by
    rw [bd_eraseEdge hdL (hg.symm d hdL) (hg.ne_zero hdL)]
    have : bd (eraseEdge s.darts d) s.startN? (fun k => if k = d.natAbs then 1 else 0) n = 0 := by
      unfold bd
      refine Finset.sum_eq_zero fun x hx => ?_
      have := mem_eraseEdge.mp (Finset.mem_filter.mp hx).1
      show (if x.natAbs = d.natAbs then (1 : ZMod 2) else 0) = 0
      rw [if_neg (by omega)]
    rw [this, ← hn, zero_add, if_pos rfl]
    split_ifs
    · decide
    · decide
  have := hc d hdL
  rw [← hb, if_pos rfl] at this
  have h2 : ∀ x : ZMod 2, (1 : ZMod 2) ≠ x + x := by decide
  exact h2 _ this

theorem attachable_iff {s : GMap K} (hs : Good s) (p : GMap.SigmaPos) (hp : ∀ n, p = .node n → (s.node n).isSome = true) :
    (s.sigmaAnchor p = .precond ∧ ¬ Attachable s p) ∨ ∃ A, s.sigmaAnchor p = .ok A ∧ Attachable s p := by
  obtain ⟨π, hg⟩ := hs.map.graph.exists_rep
  cases p with
  | node n =>
    obtain ⟨nd, hnd⟩ := Option.isSome_iff_exists.mp (hp n rfl)
    unfold GMap.sigmaAnchor Attachable
    simp only [derefNode_of hg.labels hnd, bind, Outcome.bind_ok]
    have hiff : (∀ d, s.startN? d ≠ some n) ↔ nd.anchor = 0 := by
      rcases hg.nodes n nd hnd with ⟨h1, h2⟩ | ⟨h1, h2, h3⟩
      · exact ⟨fun _ => h1, fun _ d hd => h2 d ((hg.live d).mpr (liveD_of_start hd)) hd⟩
      · exact ⟨fun h => absurd h2 (h _), fun h => absurd h (hg.ne_zero h1)⟩
    rw [hiff]
    by_cases h0 : nd.anchor = 0
    · simp [h0, hnd]
    · by_cases h1 : s.edgesSorted = true
      · simp [h0, h1]
      · simp [h0, h1, hnd]
  | dart d =>
    unfold GMap.sigmaAnchor Attachable GMap.startLabel
    cases he : s.edge d.natAbs with
    | none =>
      left
      simp [GMap.guaranteedEdge, he, bind, Outcome.map, Outcome.bind]
    | some e =>
      right
      simp only [guaranteedEdge_of he, bind, Outcome.map, Outcome.bind_ok]
      exact ⟨_, rfl, by rw [he]; rfl⟩

theorem sort_refused {s : GMap K} (hs : Good s) (hi : ¬ s.initialized) : s.sortEdgesDirectly = .precond ↔ Unsortable s := by
  obtain ⟨π, hg⟩ := hs.map.graph.exists_rep
  rcases sortEdgesDirectly_spec hg hi with ⟨e, h⟩ | ⟨t, π', e, -, ⟨sg, sgi, h3⟩, h4⟩
  · exact ⟨fun _ => h, fun _ => e⟩
  · rw [e]
    refine ⟨fun h => (by cases h), ?_⟩
    have hst : t.startN? = s.startN? := by rw [h3]; rfl
    have han : t.angle? = s.angle? := by rw [h3]; rfl
    rintro ⟨n, ⟨d, h1, h2⟩ | h⟩
    · obtain ⟨a, b, h5, -⟩ := (h4 n).1 d (by rw [hst]; exact h1)
      rw [han, h2] at h5; cases h5
    · refine absurd ?_ h
      have := (h4 n).2
      unfold GMap.DistinctAngles at this ⊢
      rw [hst, han] at this
      exact this

theorem map_precond_iff {A B : Type} {o : Outcome A} {f : A → B} : o.map f = .precond ↔ o = .precond := by
  cases o <;> simp [Outcome.map, Outcome.bind]

theorem map_ok_iff {A B : Type} {o : Outcome A} {f : A → B} {b : B} (h : o.map f = .ok b) : ∃ a, o = .ok a ∧ f a = b := by
  cases o <;> simp_all [Outcome.map, Outcome.bind]

theorem live_false {s : GMap K} {d : Int} : (s.edge d.natAbs).isSome = false ↔ ¬ s.liveD d := by
  unfold GMap.liveD; simp

theorem bridge_refused {s : GMap K} (hs : Good s) (h : Hooks K) (d : Int) :
    s.removeBridge h d = .precond ↔ (s.edge d.natAbs).isSome = false ∨ ¬ s.initialized ∨ s.left? d ≠ s.left? (-d) := by
  rw [live_false]
  constructor
  · intro e
    by_contra hp
    push Not at hp
    obtain ⟨hd, hi, hb⟩ := hp
    obtain ⟨f, F, e', s2, t', -, -, -, heq, -⟩ := removeBridge_spec hs.map hi h hd hb (loop_faces hs hi hd hb) ((hs.planar hi).bridges hs.map hi d hd hb)
    rw [heq] at e
    split_ifs at e
  · intro hp
    exact removeBridge_precond_all hs.map h d (by tauto)

theorem merge_refused {s : GMap K} (hs : Good s) (h : Hooks K) (d : Int) :
    s.mergeFaces h d = .precond ↔ (s.edge d.natAbs).isSome = false ∨ ¬ s.initialized ∨ s.left? d = s.left? (-d) := by
  rw [live_false]
  constructor
  · intro e
    by_contra hp
    push Not at hp
    obtain ⟨hd, hi, hb⟩ := hp
    obtain ⟨r, sl, ml, S, M, a, b, ed, s0, s2, t', -, -, -, -, -, -, -, -, -, -, -, -, heq, -⟩ := mergeFaces_spec hs.map hi h hd hb
    rw [heq] at e
    split_ifs at e
  · intro hp
    exact mergeFaces_precond_all hs.map h d hp

/-- **C63** On a map obtained by any history of calls, a call with legal arguments reports a violated precondition if and only if one of the listed preconditions
of the operation does not hold; in this case nothing happens (C49: all other calls return normally). -/
theorem refused_iff {s : GMap K} (hs : Reach s) (h : Hooks K) (op : Op K) (hl : op.legal s) : op.run h s = .precond ↔ Refused s op := by
  have hg := hs.good
  cases op with
  | addNode p label => exact ⟨fun e => (by cases e), fun e => e.elim⟩
  | addEdge a b pts label =>
    obtain ⟨hpts, ha, hb⟩ := hl
    show (s.addEdge a b pts label).map (·.2) = .precond ↔ _
    rw [map_precond_iff]
    show _ ↔ s.initialized ∨ ¬ Attachable s a ∨ ¬ Attachable s b
    by_cases hi : s.initialized
    · unfold GMap.addEdge; rw [if_pos hi]; simp [hi]
    rcases attachable_iff hg a ha with ⟨hA, nA⟩ | ⟨A, hA, pA⟩
    · unfold GMap.addEdge; rw [if_neg hi]; simp only [bind, hA, Outcome.bind_precond]; simp [nA]
    rcases attachable_iff hg b hb with ⟨hB, nB⟩ | ⟨B, hB, pB⟩
    · unfold GMap.addEdge; rw [if_neg hi]; simp only [bind, hA, hB, Outcome.bind_ok, Outcome.bind_precond]; simp [nB]
    obtain ⟨π, hgr⟩ := hg.map.graph.exists_rep
    obtain ⟨t, π', e, -⟩ := addEdge_spec hgr hi hA hB hpts label
    rw [e]
    simp [hi, pA, pB]
  | sortEdgesDirectly =>
    show s.sortEdgesDirectly = .precond ↔ s.initialized ∨ Unsortable s
    by_cases hi : s.initialized
    · unfold GMap.sortEdgesDirectly; rw [if_pos hi]; simp [hi]
    · rw [sort_refused hg hi]; simp [hi]
  | initializeMap pick =>
    show s.initializeMap pick = .precond ↔ s.initialized ∨ s.edgesSorted = false ∧ Unsortable s
    by_cases hi : s.initialized
    · unfold GMap.initializeMap; rw [if_pos hi]; simp [hi]
    · rcases initializeMap_spec pick hg.map hi hg.fresh with ⟨e, h1, h2⟩ | ⟨s1, t, h1, e, -⟩
      · rw [e]
        exact ⟨fun _ => Or.inr ⟨h1, (sort_refused hg hi).mp h2⟩, fun _ => rfl⟩
      · rw [e]
        refine ⟨fun h => (by cases h), ?_⟩
        rintro (h2 | ⟨h2, h3⟩)
        · exact absurd h2 hi
        · rcases h1 with ⟨h1, -⟩ | ⟨-, h1⟩
          · rw [h2] at h1; cases h1
          · rw [(sort_refused hg hi).mpr h3] at h1; cases h1
  | removeIsolatedNode n =>
    obtain ⟨nd, hnd⟩ := Option.isSome_iff_exists.mp hl.1
    obtain ⟨π, hgr⟩ := hg.map.graph.exists_rep
    refine ⟨fun e => ?_, fun e => e.elim⟩
    have e : (s.removeIsolatedNode h n).map (·.2) = .precond := e
    rw [map_precond_iff] at e
    unfold GMap.removeIsolatedNode at e
    simp only [derefNode_of hgr.labels hnd, bind, Outcome.bind_ok] at e
    split_ifs at e
  | mergeEdges d =>
    show (s.mergeEdges h d).map (·.2) = .precond ↔ (s.edge d.natAbs).isSome = false ∨ (s.sigma d).natAbs = d.natAbs ∨ s.sigma (s.sigma d) ≠ d
    rw [map_precond_iff, live_false]
    constructor
    · intro e
      by_contra hp
      push Not at hp
      obtain ⟨d1, d2, e1, e2, m, n2, nd, s1, -, -, -, -, -, -, heq, -⟩ := mergeEdges_spec hg.map h hp.1 hp.2.1 hp.2.2
      rw [heq] at e
      split_ifs at e
    · exact mergeEdges_precond h s d
  | splitEdge l i np =>
    show (s.splitEdge l i np).map (·.2) = .precond ↔ ∀ e, s.edge l = some e → e.pts.length ≤ i + 1
    rw [map_precond_iff]
    cases he : s.edge l with
    | none =>
      unfold GMap.splitEdge GMap.guaranteedEdge
      simp [he, bind]
    | some e =>
      have hpts := hg.map.graph.pts_ne l e he
      by_cases hil : i < e.pts.length - 1
      · obtain ⟨cnd, p, -, -, heq, -⟩ := splitEdge_spec hg.map he np hil
        rw [heq]
        refine ⟨fun h => (by cases h), fun h => ?_⟩
        have := h e rfl
        omega
      · unfold GMap.splitEdge GMap.guaranteedEdge
        simp only [Int.natAbs_natCast, he, bind, Outcome.bind_ok, if_neg hpts, hil, not_false_eq_true, if_true, true_iff]
        rintro e' h'
        cases h'
        omega
  | removeBridge d =>
    show (s.removeBridge h d).map (·.2) = .precond ↔ _
    rw [map_precond_iff]
    exact bridge_refused hg h d
  | mergeFaces d =>
    show (s.mergeFaces h d).map (·.2) = .precond ↔ _
    rw [map_precond_iff]
    exact merge_refused hg h d
  | removeEdge d =>
    show (s.removeEdge h d).map (·.2) = .precond ↔ (s.edge d.natAbs).isSome = false
    rw [map_precond_iff]
    by_cases hi : s.initialized
    · unfold GMap.removeEdge
      rw [if_pos hi]
      cases he : s.edge d.natAbs with
      | none => simp [GMap.guaranteedEdge, he, bind, Outcome.bind]
      | some e =>
        have hd : s.liveD d := by unfold GMap.liveD; rw [he]; rfl
        simp only [guaranteedEdge_of he, bind, Outcome.bind_ok]
        have h0 : d ≠ 0 := by
          obtain ⟨π, hgr⟩ := hg.map.graph.exists_rep
          exact hgr.ne_zero ((hgr.live d).mpr hd)
        have hlr : s.left? d = s.left? (-d) ↔ e.leftF = e.rightF := by
          rw [left?_of he, left?_of (d := -d) (e := e) (by simpa using he)]
          unfold Edge.leftOf
          by_cases hpos : 0 < d
          · rw [if_pos hpos, if_neg (by omega)]
          · rw [if_neg hpos, if_pos (by omega)]; exact eq_comm
        split_ifs with hb
        · rw [bridge_refused hg h d, he]; simp [hi, hlr, hb]
        · rw [merge_refused hg h d, he]; simp [hi, hlr, hb]
    · have e : s.removeEdge h d = (s.detachDart d).bind fun s => (s.detachDart (-d)).bind fun s => (s.guaranteedEdge d).bind fun _ => .ok (none, s.uninitEdge d.natAbs) := by
        unfold GMap.removeEdge; rw [if_neg hi]; rfl
      rw [e, live_false]
      by_cases hd : s.liveD d
      · obtain ⟨e, he⟩ := liveD_exists hd
        obtain ⟨π, hgr⟩ := hg.map.graph.exists_rep
        obtain ⟨s1, s2, h1, h2, ⟨node', sg, sgi, h3⟩, -⟩ := hgr.remove ((hgr.live d).mpr hd) he
        have he2 : s2.edge d.natAbs = some e := by rw [h3]; exact he
        rw [h1, Outcome.bind_ok, h2, Outcome.bind_ok, guaranteedEdge_of he2, Outcome.bind_ok]
        simp [hd]
      · unfold GMap.detachDart GMap.startLabel Outcome.map
        rw [guaranteedEdge_dead hd]
        simp only [hd, not_false_eq_true, iff_true]
        rfl
  | area f =>
    refine ⟨fun e => ?_, fun e => e.elim⟩
    obtain ⟨x, t', e2, -⟩ := area_step hg.map (f := f) hl
    have e : (s.faceArea (some f)).map (·.2) = .precond := e
    rw [e2] at e
    cases e
  | setFlags l flags =>
    show s.setFlags l flags = .precond ↔ (s.edge l).isSome = false
    unfold GMap.setFlags GMap.guaranteedEdge
    rw [Int.natAbs_natCast]
    cases he : s.edge l <;> simp [bind]

/-- **C63** All other calls return normally. -/
theorem accepted_iff {s : GMap K} (hs : Reach s) (h : Hooks K) (op : Op K) (hl : op.legal s) : (∃ t, op.run h s = .ok t) ↔ ¬ Refused s op := by
  rw [← refused_iff hs h op hl]
  rcases call_safe hs.good h op hl with e | ⟨t, e, -⟩ <;> rw [e] <;> simp

/-- **C63** The tests the documentation gives for `removeEdge`: the edge of an existing dart of an initialised map can always be removed by exactly one of `removeBridge`
and `mergeFaces`. -/
theorem bridge_or_merge {s : GMap K} (hs : Reach s) (hi : s.initialized) (h : Hooks K) {d : Int} (hd : (s.edge d.natAbs).isSome = true) :
    ((∃ r, s.removeBridge h d = .ok r) ∧ s.mergeFaces h d = .precond) ∨ ((∃ r, s.mergeFaces h d = .ok r) ∧ s.removeBridge h d = .precond) := by
  by_cases hb : s.left? d = s.left? (-d)
  · left
    refine ⟨?_, (merge_refused hs.good h d).mpr (Or.inr (Or.inr hb))⟩
    obtain ⟨t, e⟩ := (accepted_iff hs h (.removeBridge d) trivial).mpr (by simp [Refused, hd, hi, hb])
    obtain ⟨r, e2, -⟩ := map_ok_iff (show (s.removeBridge h d).map (·.2) = .ok t from e)
    exact ⟨r, e2⟩
  · right
    refine ⟨?_, (bridge_refused hs.good h d).mpr (Or.inr (Or.inr hb))⟩
    obtain ⟨t, e⟩ := (accepted_iff hs h (.mergeFaces d) trivial).mpr (by simp [Refused, hd, hi, hb])
    obtain ⟨r, e2, -⟩ := map_ok_iff (show (s.mergeFaces h d).map (·.2) = .ok t from e)
    exact ⟨r, e2⟩

/-! ## the hypotheses can be met -/

open Props in
example : ∃ t, (Op.mergeFaces 2 : Op ℚ).run Hooks.none nested = .ok t :=
  (accepted_iff nested_reach.reach Hooks.none (.mergeFaces 2) trivial).mpr (by simp only [Refused]; decide +kernel)

open Props in
example : (Op.removeBridge 2 : Op ℚ).run Hooks.none nested = .precond :=
  (refused_iff nested_reach.reach Hooks.none (.removeBridge 2) trivial).mpr (by simp only [Refused]; decide +kernel)

end Verif.Refuse
