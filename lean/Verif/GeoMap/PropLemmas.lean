import Verif.GeoMap.Undo

/-! # Lemmas for the property theorems: orbits return, vetoed calls, labels are not reused -/

namespace Verif.GeoMap
open Equiv Equiv.Perm Verif.PermLemmas

variable {K : Type}

/-- Walking from `d` by `f` comes back to `d` after `n > 0` steps; before that, no value is met twice. -/
def ReturnsAfter (f : Int → Int) (d : Int) (n : Nat) : Prop :=
  0 < n ∧ f^[n] d = d ∧ ∀ i j, i < j → j < n → f^[i] d ≠ f^[j] d

theorem Rep.returns {L : Finset Int} {f finv : Int → Int} {π : Perm Int} (h : Rep L f finv π) {d : Int} (hd : d ∈ L) :
    ReturnsAfter f d (Function.minimalPeriod f d) := by
  refine ⟨(h.isPeriodicPt hd).1, Function.isPeriodicPt_minimalPeriod f d, fun i j hij hj e => ?_⟩
  have := Function.iterate_injOn_Iio_minimalPeriod (f := f) (x := d) (by simp; omega) (by simpa using hj) e
  omega

theorem Rep.symmRep {L : Finset Int} {f finv : Int → Int} {π : Perm Int} (h : Rep L f finv π) : Rep L finv f π⁻¹ where
  fix := fun d hd => h.fixi hd
  eq := h.eqi
  eqi := fun d hd => by rw [inv_inv]; exact h.eq d hd

/-! ## vetoed calls -/

section
variable [Field K]

omit [Field K] in
theorem mergeEdges_vetoed {s : GMap K} (hM : MapOK s) {h : Hooks K} {d : Int} {t : GMap K} (e : s.mergeEdges h d = .ok (none, t)) :
    SameButAnchors s t ∧ MapOK t := by
  by_cases hp : ¬ s.liveD d ∨ (s.sigma d).natAbs = d.natAbs ∨ s.sigma (s.sigma d) ≠ d
  · rw [mergeEdges_precond h s d hp] at e; cases e
  push Not at hp
  obtain ⟨d1, d2, e1, e2, m, n2, nd, s1, -, hs1, hM1, -, -, -, heq, -⟩ := mergeEdges_spec hM h hp.1 hp.2.1 hp.2.2
  rw [heq] at e
  split_ifs at e
  · cases e
  · cases e; exact ⟨hs1, hM1⟩

variable [LinearOrder K]

theorem removeBridge_vetoed {s : GMap K} (hs : Good s) {h : Hooks K} {d : Int} {t : GMap K} (e : s.removeBridge h d = .ok (none, t)) : t = s := by
  have hM := hs.map
  by_cases hp : ¬ s.liveD d ∨ ¬ s.initialized ∨ s.left? d ≠ s.left? (-d) ∨ s.startN? d = s.startN? (-d)
  · rw [removeBridge_precond_all hM h d hp] at e; cases e
  push Not at hp
  obtain ⟨hd, hi, hb, hn⟩ := hp
  obtain ⟨f, F, ed, s2, t', gl, hF, he, heq, hR⟩ := removeBridge_spec hM hi h hd hb hn ((hs.planar hi).bridges hM hi d hd hb)
  rw [heq] at e
  split_ifs at e
  · cases e
  · cases e; rfl

theorem mergeFaces_vetoed {s : GMap K} (hM : MapOK s) {h : Hooks K} {d : Int} {t : GMap K} (e : s.mergeFaces h d = .ok (none, t)) :
    AreasCached s t := by
  by_cases hp : ¬ s.liveD d ∨ ¬ s.initialized ∨ s.left? d = s.left? (-d)
  · rw [mergeFaces_precond_all hM h d hp] at e; cases e
  push Not at hp
  obtain ⟨hd, hi, hb⟩ := hp
  obtain ⟨r, sl, ml, S, M, a, b, ed, s0, s2, t', hr, gl, gr, hml, -, he, hS, hMf, hSa, hMa, hc0, hfr, heq, hR⟩ := mergeFaces_spec hM hi h hd hb
  rw [heq] at e
  split_ifs at e
  · cases e
  · cases e; exact hc0

end

/-! ## labels -/

/-- The label ranges only grow, and a label below the old range that names no cell never gets one. -/
structure NoReuse (s t : GMap K) : Prop where
  nodes : s.nNodes ≤ t.nNodes ∧ ∀ n < s.nNodes, s.node n = none → t.node n = none
  edges : s.nEdges ≤ t.nEdges ∧ ∀ l < s.nEdges, s.edge l = none → t.edge l = none
  faces : s.nFaces ≤ t.nFaces ∧ ∀ f < s.nFaces, s.face f = none → t.face f = none

theorem NoReuse.refl (s : GMap K) : NoReuse s s := ⟨⟨le_rfl, fun _ _ => id⟩, ⟨le_rfl, fun _ _ => id⟩, ⟨le_rfl, fun _ _ => id⟩⟩

theorem NoReuse.trans {s t u : GMap K} (h : NoReuse s t) (g : NoReuse t u) : NoReuse s u :=
  ⟨⟨h.nodes.1.trans g.nodes.1, fun n hn e => g.nodes.2 n (by have := h.nodes.1; omega) (h.nodes.2 n hn e)⟩,
   ⟨h.edges.1.trans g.edges.1, fun n hn e => g.edges.2 n (by have := h.edges.1; omega) (h.edges.2 n hn e)⟩,
   ⟨h.faces.1.trans g.faces.1, fun n hn e => g.faces.2 n (by have := h.faces.1; omega) (h.faces.2 n hn e)⟩⟩

theorem none_of_map {A B C : Type} {f : A → C} {g : B → C} {x : Option A} {y : Option B} (h : x.map f = y.map g) (e : y = none) : x = none := by
  subst e; simpa using h

section
variable [Field K] [LinearOrder K]

omit [LinearOrder K] in
theorem AreasCached.noReuse {s t : GMap K} (h : AreasCached s t) : NoReuse s t := by
  have := h.faces
  obtain ⟨f, rfl⟩ := h.eq
  refine ⟨⟨le_rfl, fun _ _ => id⟩, ⟨le_rfl, fun _ _ => id⟩, ⟨le_rfl, fun f _ e => ?_⟩⟩
  rcases this f with h | ⟨F, h1, -⟩
  · rw [h]; exact e
  · rw [h1] at e; cases e

omit [LinearOrder K] [Field K] in
theorem SameButAnchors.noReuse {s t : GMap K} (h : SameButAnchors s t) : NoReuse s t := by
  have := h.face
  obtain ⟨f, rfl⟩ := h.eq
  exact ⟨⟨le_rfl, fun _ _ => id⟩, ⟨le_rfl, fun _ _ => id⟩, ⟨le_rfl, fun f _ e => none_of_map (this f) e⟩⟩

theorem mergeEdges_noReuse {s : GMap K} (hs : Good s) {h : Hooks K} {d : Int} {r : Option Nat} {t : GMap K}
    (e : s.mergeEdges h d = .ok (r, t)) : NoReuse s t := by
  cases r with
  | none => exact (mergeEdges_vetoed hs.map e).1.noReuse
  | some l =>
    obtain ⟨d1, d2, m, -, -, E⟩ := mergeEdges_effect hs.map e
    obtain ⟨e1, e2, e3, g1, g2, -⟩ := E.survivor
    refine ⟨⟨E.sizes.1.ge, fun n _ h => ?_⟩, ⟨E.sizes.2.1.ge, fun k _ h => ?_⟩, ⟨E.sizes.2.2.ge, fun f _ h => none_of_map (E.faces f) h⟩⟩
    · by_cases hn : n = m
      · rw [hn]; exact E.node_gone.2
      · exact none_of_map (E.nodes n hn) h
    · by_cases h1 : k = d1.natAbs
      · rw [h1, g1] at h; cases h
      by_cases h2 : k = d2.natAbs
      · rw [h2, g2] at h; cases h
      rw [E.edges k h1 h2]; exact h

theorem splitEdge_noReuse {s : GMap K} (hs : Good s) {l i : Nat} {np : Option (Pt K)} {r : Nat} {t : GMap K}
    (e : s.splitEdge l i np = .ok (r, t)) : NoReuse s t := by
  have E := splitEdge_effect hs.map e
  have S := E.sizes
  obtain ⟨e0, e1, e2, g0, -⟩ := E.halves
  refine ⟨⟨by omega, fun n hn h => none_of_map (E.nodes n (by omega)) h⟩, ⟨by omega, fun k hk h => ?_⟩, ⟨by omega, fun f _ h => by rw [E.faces]; exact h⟩⟩
  have := E.fresh.2
  rw [E.edges k (by rintro rfl; rw [g0] at h; cases h) (by omega)]; exact h

theorem removeBridge_noReuse {s : GMap K} (hs : Good s) {h : Hooks K} {d : Int} {r : Option Nat} {t : GMap K}
    (e : s.removeBridge h d = .ok (r, t)) : NoReuse s t := by
  cases r with
  | none => rw [removeBridge_vetoed hs e]; exact NoReuse.refl s
  | some f =>
    have E := removeBridge_effect hs e
    refine ⟨⟨E.sizes.1.ge, fun n _ h => ?_⟩, ⟨E.sizes.2.1.ge, fun k _ h => ?_⟩, ⟨E.sizes.2.2.ge, fun f _ h => none_of_map (E.faces f) h⟩⟩
    · rcases E.nodes n with g | g
      · exact none_of_map g h
      · exact g.1
    · by_cases h1 : k = d.natAbs
      · have := E.edge_gone.1
        rw [GMap.liveD, ← h1, h] at this; cases this
      · rw [E.edges k h1]; exact h

theorem mergeFaces_noReuse {s : GMap K} (hs : Good s) {h : Hooks K} {d : Int} {r : Option Nat} {t : GMap K}
    (e : s.mergeFaces h d = .ok (r, t)) : NoReuse s t := by
  cases r with
  | none => exact (mergeFaces_vetoed hs.map e).noReuse
  | some sl =>
    obtain ⟨ml, E⟩ := mergeFaces_effect hs e
    refine ⟨⟨E.sizes.1.ge, fun n _ h => ?_⟩, ⟨E.sizes.2.1.ge, fun k _ h => ?_⟩, ⟨E.sizes.2.2.ge, fun f _ h => ?_⟩⟩
    · rcases E.nodes n with g | g
      · exact none_of_map g h
      · exact g.1
    · by_cases h1 : k = d.natAbs
      · have := E.edge_gone.1
        rw [GMap.liveD, ← h1, h] at this; cases this
      · exact none_of_map (E.edges k h1) h
    · by_cases h2 : f = ml
      · rw [h2]; exact E.face_gone.2
      obtain ⟨S, M, T, g1, -⟩ := E.areas
      rw [E.faces f (by rintro rfl; rw [g1] at h; cases h) h2]; exact h

theorem removeEdge_noReuse {s : GMap K} (hs : Good s) {h : Hooks K} {d : Int} {r : Option Nat} {t : GMap K}
    (e : s.removeEdge h d = .ok (r, t)) : NoReuse s t := by
  have hM := hs.map
  by_cases hi : s.initialized
  · have q : s.removeEdge h d = (s.guaranteedEdge d).bind fun e => if e.leftF = e.rightF then s.removeBridge h d else s.mergeFaces h d := by
      unfold GMap.removeEdge; rw [if_pos hi]; rfl
    rw [q] at e
    by_cases hd : s.liveD d
    swap
    · rw [guaranteedEdge_dead hd] at e; cases e
    obtain ⟨ed, he⟩ := liveD_exists hd
    rw [guaranteedEdge_of he, Outcome.bind_ok] at e
    split_ifs at e
    · exact removeBridge_noReuse hs e
    · exact mergeFaces_noReuse hs e
  · have q : s.removeEdge h d = (s.detachDart d).bind fun s => (s.detachDart (-d)).bind fun s => (s.guaranteedEdge d).bind fun _ => .ok (none, s.uninitEdge d.natAbs) := by
      unfold GMap.removeEdge; rw [if_neg hi]; rfl
    rw [q] at e
    by_cases hd : s.liveD d
    swap
    · unfold GMap.detachDart GMap.startLabel Outcome.map at e
      rw [guaranteedEdge_dead hd] at e
      cases e
    obtain ⟨ed, he⟩ := liveD_exists hd
    obtain ⟨π, hg⟩ := hM.graph.exists_rep
    obtain ⟨s1, s2, h1, h2, ⟨node', sg, sgi, h3⟩, G, SL, hn', -⟩ := hg.remove ((hg.live d).mpr hd) he
    have he2 : s2.edge d.natAbs = some ed := by rw [h3]; exact he
    rw [h1, Outcome.bind_ok, h2, Outcome.bind_ok, guaranteedEdge_of he2, Outcome.bind_ok] at e
    cases e
    subst h3
    refine ⟨⟨le_rfl, fun n _ h => none_of_map (hn' n) h⟩, ⟨le_rfl, fun k _ h => ?_⟩, ⟨le_rfl, fun _ _ => id⟩⟩
    simp only [GMap.uninitEdge, GMap.setEdge, Function.update_apply]
    split_ifs
    · rfl
    · exact h

theorem call_noReuse {s t : GMap K} (hs : Good s) (h : Hooks K) (op : Op K) (hl : op.legal s) (e : op.run h s = .ok t) : NoReuse s t := by
  have mp : ∀ {A : Type} {o : Outcome (A × GMap K)}, o.map (·.2) = .ok t → ∃ r, o = .ok (r, t) := by
    intro A o h
    cases o with
    | ok x => obtain ⟨r, x⟩ := x; cases h; exact ⟨r, rfl⟩
    | _ => cases h
  have hsort : ¬ s.initialized → ∀ {t}, s.sortEdgesDirectly = .ok t → NoReuse s t := by
    intro hi t e
    obtain ⟨π, hg⟩ := hs.map.graph.exists_rep
    rcases sortEdgesDirectly_spec hg hi with ⟨e', -⟩ | ⟨t', π', h1, h2, ⟨sg, sgi, h3⟩, -⟩
    · rw [e'] at e; cases e
    · rw [h1] at e; cases e
      rw [h3]; exact ⟨⟨le_rfl, fun _ _ => id⟩, ⟨le_rfl, fun _ _ => id⟩, ⟨le_rfl, fun _ _ => id⟩⟩
  cases op with
  | addNode p label =>
    cases e
    refine ⟨⟨?_, fun n hn h => ?_⟩, ⟨le_rfl, fun _ _ => id⟩, ⟨le_rfl, fun _ _ => id⟩⟩
    · simp only [GMap.addNodeAt, GMap.addNode]; omega
    · simp only [GMap.addNodeAt, GMap.addNode, Function.update_apply]
      rw [if_neg (by omega)]; exact h
  | addEdge a b pts label =>
    obtain ⟨r, e⟩ := mp e
    by_cases hi : s.initialized
    · unfold GMap.addEdge at e; rw [if_pos hi] at e; cases e
    obtain ⟨π, hg⟩ := hs.map.graph.exists_rep
    rcases sigmaAnchor_cases hg a (fun n h _ => hl.2.1 n h) with ⟨A, hA⟩ | hA
    swap
    · unfold GMap.addEdge at e; rw [if_neg hi] at e; simp only [bind, hA, Outcome.bind_precond] at e; cases e
    rcases sigmaAnchor_cases hg b (fun n h _ => hl.2.2 n h) with ⟨B, hB⟩ | hB
    swap
    · unfold GMap.addEdge at e; rw [if_neg hi] at e; simp only [bind, hA, hB, Outcome.bind_ok, Outcome.bind_precond] at e; cases e
    obtain ⟨t', π', h1, h2, ⟨sg, sgi, node', h3, h4⟩⟩ := addEdge_spec hg hi hA hB hl.1 label
    rw [h1] at e; cases e
    subst h3
    refine ⟨⟨le_rfl, fun n _ h => none_of_map (h4 n) h⟩, ⟨?_, fun l hl h => ?_⟩, ⟨le_rfl, fun _ _ => id⟩⟩
    · show s.nEdges ≤ max s.nEdges label + 1; omega
    · simp only [Function.update_apply]
      rw [if_neg (by omega)]; exact h
  | sortEdgesDirectly =>
    have e : s.sortEdgesDirectly = .ok t := e
    by_cases hi : s.initialized
    · unfold GMap.sortEdgesDirectly at e; rw [if_pos hi] at e; cases e
    · exact hsort hi e
  | initializeMap pick =>
    have e : s.initializeMap pick = .ok t := e
    by_cases hi : s.initialized
    · unfold GMap.initializeMap at e; rw [if_pos hi] at e; cases e
    · rcases initializeMap_spec pick hs.map hi hs.fresh with ⟨e', -⟩ | ⟨s1, t', h0, h1, h2, h3, h4, h5, -⟩
      · rw [e'] at e; cases e
      · rw [h1] at e; cases e
        have h01 : NoReuse s s1 := by
          rcases h0 with ⟨-, h0⟩ | ⟨-, h0⟩
          · rw [h0]; exact NoReuse.refl s
          · exact hsort hi h0
        have hn : s.nFaces = 0 := by unfold GMap.initialized at hi; omega
        refine ⟨⟨h4.nNodes ▸ h01.nodes.1, fun n hn e => by rw [h4.node]; exact h01.nodes.2 n hn e⟩,
          ⟨h4.nEdges ▸ h01.edges.1, fun n hn e => none_of_map (h4.edge n) (h01.edges.2 n hn e)⟩, ⟨by omega, fun f hf => by omega⟩⟩
  | removeIsolatedNode n =>
    obtain ⟨r, e⟩ := mp e
    obtain ⟨nd, hnd⟩ := Option.isSome_iff_exists.mp hl.1
    unfold GMap.removeIsolatedNode at e
    rw [derefNode_of hs.map.graph.labels hnd] at e
    simp only [bind, Outcome.bind_ok] at e
    split_ifs at e
    · cases e
      refine ⟨⟨le_rfl, fun k _ h => ?_⟩, ⟨le_rfl, fun _ _ => id⟩, ⟨le_rfl, fun _ _ => id⟩⟩
      simp only [GMap.uninitNode, GMap.setNode, Function.update_apply]
      split_ifs
      · rfl
      · exact h
    · cases e; exact NoReuse.refl s
  | mergeEdges d => obtain ⟨r, e⟩ := mp e; exact mergeEdges_noReuse hs e
  | splitEdge l i np => obtain ⟨r, e⟩ := mp e; exact splitEdge_noReuse hs e
  | removeBridge d => obtain ⟨r, e⟩ := mp e; exact removeBridge_noReuse hs e
  | mergeFaces d => obtain ⟨r, e⟩ := mp e; exact mergeFaces_noReuse hs e
  | removeEdge d => obtain ⟨r, e⟩ := mp e; exact removeEdge_noReuse hs e
  | area f =>
    obtain ⟨r, e⟩ := mp e
    obtain ⟨x, t', h1, -, h2⟩ := area_step hs.map (f := f) hl
    rw [h1] at e; cases e
    exact h2.noReuse
  | setFlags l flags =>
    have e : s.setFlags l flags = .ok t := e
    unfold GMap.setFlags GMap.guaranteedEdge at e
    cases he : s.edge l with
    | none => simp [he, bind] at e
    | some ed =>
      simp only [Int.natAbs_natCast, he, bind, Outcome.bind_ok] at e
      cases e
      refine ⟨⟨le_rfl, fun _ _ => id⟩, ⟨le_rfl, fun k _ h => ?_⟩, ⟨le_rfl, fun _ _ => id⟩⟩
      simp only [GMap.setEdge, Function.update_apply]
      rw [if_neg (by rintro rfl; rw [he] at h; cases h)]; exact h

end

end Verif.GeoMap
