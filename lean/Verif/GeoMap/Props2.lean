import Verif.GeoMap.Props

/-! # The property theorems about `GeoMap`, continued: vetoes, locality, undo, areas, initialization -/

namespace Verif.GeoMap
open Equiv Equiv.Perm Verif.PermLemmas

variable {K : Type} [Field K] [LinearOrder K]

namespace Props

/-! ## C09: vetoed calls -/

omit [Field K] [LinearOrder K] in
/-- If the callback objects, `removeIsolatedNode` reports that and the map is unchanged. -/
theorem veto_removeIsolatedNode {s t : GMap K} {h : Hooks K} {n : Nat} {b : Bool} (hv : h.removeNode s n = false)
    (e : s.removeIsolatedNode h n = .ok (b, t)) : b = false ∧ t = s := by
  unfold GMap.removeIsolatedNode at e
  simp only [bind, Outcome.bind_eq_ok, hv] at e
  obtain ⟨nd, -, e⟩ := e
  simp at e
  exact ⟨e.1, e.2.symm⟩

/-- If the callback objects, `removeBridge` returns NULL and the map is unchanged. -/
theorem veto_removeBridge {s t : GMap K} (hs : Reach s) {h : Hooks K} {d : Int} {r : Option Nat} (hv : h.preRemoveBridge s d = false)
    (e : s.removeBridge h d = .ok (r, t)) : r = none ∧ t = s := by
  have hr : r = none := by
    by_cases hp : ¬ s.liveD d ∨ ¬ s.initialized ∨ s.left? d ≠ s.left? (-d) ∨ s.startN? d = s.startN? (-d)
    · rw [removeBridge_precond_all hs.good.map h d hp] at e; cases e
    push Not at hp
    obtain ⟨hd, hi, hb, hn⟩ := hp
    obtain ⟨f, F, ed, s2, t', gl, hF, he, heq, hR⟩ := removeBridge_spec hs.good.map hi h hd hb hn ((hs.good.planar hi).bridges hs.good.map hi d hd hb)
    rw [heq, if_neg (by rw [hv]; simp)] at e
    cases e; rfl
  subst hr
  exact ⟨rfl, removeBridge_vetoed hs.good e⟩

/-- If the callback objects, `mergeFaces` returns NULL and nothing changes, except that the areas of the
two faces, which had to be looked at, are now cached; the cached values are the right ones. -/
theorem veto_mergeFaces {s t : GMap K} (hs : Reach s) {h : Hooks K} {d : Int} {r : Option Nat} (hv : ∀ u x, h.preMergeFaces u x = false)
    (e : s.mergeFaces h d = .ok (r, t)) :
    r = none ∧ (∃ face', t = { s with face := face' }) ∧
      ∀ f, t.face f = s.face f ∨ ∃ F, s.face f = some F ∧ F.area = none ∧ t.face f = some { F with area := some (s.faceSum f) } := by
  have hr : r = none := by
    by_cases hp : ¬ s.liveD d ∨ ¬ s.initialized ∨ s.left? d = s.left? (-d)
    · rw [mergeFaces_precond_all hs.good.map h d hp] at e; cases e
    push Not at hp
    obtain ⟨hd, hi, hb⟩ := hp
    obtain ⟨r', sl, ml, S, M, a, b, ed, s0, s2, t', -, -, -, -, -, -, -, -, -, -, -, -, heq, -⟩ := mergeFaces_spec hs.good.map hi h hd hb
    rw [heq, if_neg (by rw [hv]; simp)] at e
    cases e; rfl
  subst hr
  have := mergeFaces_vetoed hs.good.map e
  refine ⟨rfl, this.eq, fun f => ?_⟩
  rcases this.faces f with h | ⟨F, h1, h2, h3⟩
  · exact Or.inl h
  · exact Or.inr ⟨F, h1, h2, by rw [h3, trueArea_eq hs.good.map.graph.labels]⟩

/-- If one of the two callbacks objects, `mergeEdges` returns NULL and nothing changes, except that some
contours may be represented by another of their darts. -/
theorem veto_mergeEdges {s t : GMap K} (hs : Reach s) {h : Hooks K} {d : Int} {r : Option Nat}
    (hv : (∀ u x, h.preMergeEdges u x = false) ∨ (∀ u n, h.removeNode u n = false))
    (e : s.mergeEdges h d = .ok (r, t)) :
    r = none ∧ (∃ face', t = { s with face := face' }) ∧ ∀ f, SameContours s (s.face f) (t.face f) := by
  have hr : r = none := by
    by_cases hp : ¬ s.liveD d ∨ (s.sigma d).natAbs = d.natAbs ∨ s.sigma (s.sigma d) ≠ d
    · rw [mergeEdges_precond h s d hp] at e; cases e
    push Not at hp
    obtain ⟨d1, d2, e1, e2, m, n2, nd, s1, -, hs1, hM1, -, -, -, heq, -⟩ := mergeEdges_spec hs.good.map h hp.1 hp.2.1 hp.2.2
    rw [heq, if_neg (by rcases hv with hv | hv <;> simp [hv])] at e
    cases e; rfl
  subst hr
  exact ⟨rfl, mergeEdges_veto_anchors hs.good.map e⟩

/-- callbacks that object to everything -/
def noHooks : Hooks ℚ := ⟨fun _ _ => false, fun _ _ => false, fun _ _ => false, fun _ _ => false⟩

example : Example.isOk (Example.map.removeBridge noHooks 4) = true ∧ Example.isOk (Example.map.mergeFaces noHooks 2) = true ∧
    Example.isOk ((Example.next Example.map (.splitEdge 1 1 none)).mergeEdges noHooks 5) = true := by decide +kernel

/-! ## C11: `mergeEdges` undoes `splitEdge` -/

/-- After `splitEdge`, `mergeEdges` at the new node (all callbacks agreeing) succeeds, returns the old
edge, and restores everything: other edges, the points of the edge (with the inserted point, if any), nodes and
positions, the order of the darts around the nodes, faces with their contours, and the counts. -/
theorem mergeEdges_undoes_splitEdge {s : GMap K} (hs : Reach s) {l i : Nat} {np : Option (Pt K)} {r : Nat} {t : GMap K}
    (e : s.splitEdge l i np = .ok (r, t)) {h : Hooks K} (h1 : ∀ s d, h.preMergeEdges s d = true) (h2 : ∀ s n, h.removeNode s n = true) :
    ∃ u, t.mergeEdges h r = .ok (some l, u) ∧
      (∀ k, k ≠ l → u.edge k = s.edge k) ∧
      (∃ e, s.edge l = some e ∧ u.edge l = some { e with pts := splitPts e.pts i np }) ∧
      (∀ n, (u.node n).map (·.pos) = (s.node n).map (·.pos)) ∧
      (∀ d, s.liveD d → u.nextSigma d = s.nextSigma d ∧ u.prevSigma d = s.prevSigma d) ∧
      u.face = s.face ∧
      u.nodeCount = s.nodeCount ∧ u.edgeCount = s.edgeCount ∧ u.faceCount = s.faceCount :=
  merge_undoes_split hs.good.map e h1 h2

example : Example.isOk (Example.map.splitEdge 4 0 (some (5 / 2, 0))) = true ∧ Example.isOk (Example.map.splitEdge 1 1 none) = true := by decide +kernel

/-! ## C12: locality -/

/-- What `mergeEdges` changes, and that it changes nothing else. -/
theorem mergeEdges_local {s : GMap K} (hs : Reach s) {h : Hooks K} {d : Int} {l : Nat} {t : GMap K}
    (e : s.mergeEdges h d = .ok (some l, t)) :
    ∃ d1 d2 m, ((d1 = d ∧ d2 = s.nextSigma d) ∨ (d1 = s.nextSigma d ∧ d2 = d)) ∧ l = d1.natAbs ∧ MergeEdgesEffect s t d1 d2 m :=
  mergeEdges_effect hs.good.map e

/-- What `splitEdge` changes, and that it changes nothing else. -/
theorem splitEdge_local {s : GMap K} (hs : Reach s) {l i : Nat} {np : Option (Pt K)} {r : Nat} {t : GMap K}
    (e : s.splitEdge l i np = .ok (r, t)) : SplitEdgeEffect s t l i np s.nNodes r :=
  splitEdge_effect hs.good.map e

/-- What `removeBridge` changes, and that it changes nothing else. -/
theorem removeBridge_local {s : GMap K} (hs : Reach s) {h : Hooks K} {d : Int} {f : Nat} {t : GMap K}
    (e : s.removeBridge h d = .ok (some f, t)) : RemoveBridgeEffect s t d f :=
  removeBridge_effect hs.good e

/-- What `mergeFaces` changes, and that it changes nothing else. -/
theorem mergeFaces_local {s : GMap K} (hs : Reach s) {h : Hooks K} {d : Int} {sl : Nat} {t : GMap K}
    (e : s.mergeFaces h d = .ok (some sl, t)) : ∃ ml, MergeFacesEffect s t d sl ml :=
  mergeFaces_effect hs.good e

/-! ## C13: areas -/

/-- `face(f)->area()` returns `a` -/
def _root_.Verif.GeoMap.GMap.HasArea (s : GMap K) (f : Nat) (a : K) : Prop := ∃ t, s.faceArea (some f) = .ok (a, t)

theorem hasArea_iff {s : GMap K} (hs : ReachG s) {f : Nat} (hF : (s.face f).isSome = true) (a : K) : s.HasArea f a ↔ a = s.faceSum f := by
  obtain ⟨t, h, -⟩ := faceArea_value hs.reach.good.map hs.geom.area hF
  constructor
  · rintro ⟨t', h'⟩
    rw [h] at h'; cases h'; rfl
  · rintro rfl; exact ⟨t, h⟩

omit [LinearOrder K] in
theorem hasArea_live {s : GMap K} {f : Nat} {a : K} (h : s.HasArea f a) : (s.face f).isSome = true := by
  obtain ⟨t, h⟩ := h
  unfold GMap.faceArea at h
  simp only [bind, Outcome.bind_eq_ok] at h
  obtain ⟨F, h, -⟩ := h
  unfold GMap.derefFace at h
  simp only at h
  split_ifs at h
  cases hF : s.face f with
  | none => rw [hF] at h; cases h
  | some G => rfl

/-- `area()` of an existing face returns the sum of the areas enclosed by its contours, whatever was
cached before. -/
theorem area_is_sum_of_contours {s : GMap K} (hs : ReachG s) {f : Nat} {F : Face K} (hF : s.face f = some F) :
    s.HasArea f (F.anchors.map s.orbitArea).sum := by
  rw [hasArea_iff hs (by simp [hF]), faceSum_contours hs.reach.good.map hF]

/-- The area of the surviving face is the sum of the areas of the two merged faces; no other area changes. -/
theorem mergeFaces_adds_areas {s t : GMap K} (hs : ReachG s) {h : Hooks K} {d : Int} {sl : Nat} (e : s.mergeFaces h d = .ok (some sl, t)) :
    ∃ ml, ((s.left? d = some sl ∧ s.left? (-d) = some ml) ∨ (s.left? d = some ml ∧ s.left? (-d) = some sl)) ∧
      (∀ a b, s.HasArea sl a → s.HasArea ml b → t.HasArea sl (a + b)) ∧
      ∀ f a, f ≠ sl → f ≠ ml → s.HasArea f a → t.HasArea f a := by
  obtain ⟨ml, hsides, hne, hsum⟩ := mergeFaces_faceSum hs.reach.good.map e
  obtain ⟨ml', E⟩ := mergeFaces_effect hs.reach.good e
  have hml : ml' = ml := by
    rcases hsides with ⟨h1, h2⟩ | ⟨h1, h2⟩ <;> rcases E.sides with ⟨h3, h4⟩ | ⟨h3, h4⟩
    · rw [h2] at h4; exact (Option.some.inj h4).symm
    · rw [h1] at h3; rw [h2] at h4
      have := Option.some.inj h3
      have := Option.some.inj h4
      omega
    · rw [h1] at h3; rw [h2] at h4
      have := Option.some.inj h3
      have := Option.some.inj h4
      omega
    · rw [h1] at h3; exact (Option.some.inj h3).symm
  subst hml
  have ht : ReachG t := .call h (.mergeFaces d) hs trivial trivial (by show (s.mergeFaces h d).map (·.2) = _; rw [e]; rfl)
    (fun hi hi' => absurd (by show 0 < s.nFaces; rw [← E.sizes.2.2]; exact hi') hi)
  refine ⟨ml', hsides, fun a b ha hb => ?_, fun f a h1 h2 ha => ?_⟩
  · rw [hasArea_iff hs (hasArea_live ha)] at ha
    rw [hasArea_iff hs (hasArea_live hb)] at hb
    obtain ⟨S, M, T, -, -, hT, -⟩ := E.areas
    rw [hasArea_iff ht (by simp [hT]), hsum, if_pos rfl, ha, hb]
  · have hl := hasArea_live ha
    rw [hasArea_iff hs hl] at ha
    rw [hasArea_iff ht (by rw [E.faces f h1 h2]; exact hl), hsum, if_neg h1, if_neg h2, ha]

theorem live_of_map {A B : Type} {x y : Option A} {f : A → B} (h : x.map f = y.map f) (hy : y.isSome = true) : x.isSome = true := by
  have := congrArg Option.isSome h
  simpa [hy] using this

/-- `removeBridge` changes no area. -/
theorem removeBridge_keeps_areas {s t : GMap K} (hs : ReachG s) {h : Hooks K} {d : Int} {r : Nat} (e : s.removeBridge h d = .ok (some r, t))
    {f : Nat} {a : K} (ha : s.HasArea f a) : t.HasArea f a := by
  have E := removeBridge_effect hs.reach.good e
  have ht : ReachG t := .call h (.removeBridge d) hs trivial trivial (by show (s.removeBridge h d).map (·.2) = _; rw [e]; rfl)
    (fun hi hi' => absurd (by show 0 < s.nFaces; rw [← E.sizes.2.2]; exact hi') hi)
  have hl := hasArea_live ha
  rw [hasArea_iff hs hl] at ha
  rw [hasArea_iff ht (live_of_map (E.faces f) hl), removeBridge_faceSum hs.reach.good e, ha]

/-- `mergeEdges` changes no area. -/
theorem mergeEdges_keeps_areas {s t : GMap K} (hs : ReachG s) {h : Hooks K} {d : Int} {l : Nat} (e : s.mergeEdges h d = .ok (some l, t))
    {f : Nat} {a : K} (ha : s.HasArea f a) : t.HasArea f a := by
  obtain ⟨d1, d2, m, -, -, E⟩ := mergeEdges_effect hs.reach.good.map e
  have ht : ReachG t := .call h (.mergeEdges d) hs trivial trivial (by show (s.mergeEdges h d).map (·.2) = _; rw [e]; rfl)
    (fun hi hi' => absurd (by show 0 < s.nFaces; rw [← E.sizes.2.2]; exact hi') hi)
  have hl := hasArea_live ha
  have hi : s.initialized := by
    have := hs.reach.good.map.graph.face_lt f hl
    show 0 < s.nFaces; omega
  rw [hasArea_iff hs hl] at ha
  rw [hasArea_iff ht (live_of_map (E.faces f) hl), mergeEdges_faceSum hs.reach.good.map hs.geom.geom hi e, ha]

/-- `splitEdge` changes no area, if an inserted point lies on the segment that is split. -/
theorem splitEdge_keeps_areas {s t : GMap K} (hs : ReachG s) {l i : Nat} {np : Option (Pt K)} {r : Nat}
    (hfit : (Op.splitEdge l i np : Op K).fits s) (e : s.splitEdge l i np = .ok (r, t))
    {f : Nat} {a : K} (ha : s.HasArea f a) : t.HasArea f a := by
  have E := splitEdge_effect hs.reach.good.map e
  have ht : ReachG t := .call Hooks.none (.splitEdge l i np) hs trivial hfit (by show (s.splitEdge l i np).map (·.2) = _; rw [e]; rfl)
    (fun hi hi' => absurd (by show 0 < s.nFaces; rw [← E.sizes.2.2]; exact hi') hi)
  have hl := hasArea_live ha
  rw [hasArea_iff hs hl] at ha
  rw [hasArea_iff ht (by rw [E.faces]; exact hl), splitEdge_faceSum hs.reach.good.map (by
    rintro p rfl e' a b h1 h2 h3; exact hfit e' a b h1 h2 h3) e, ha]

/-- The areas of all faces, the infinite one included, add up to zero. -/
theorem areas_sum_to_zero {s : GMap K} (hs : ReachG s) (hi : s.initialized) (a : Nat → K) (ha : ∀ f ∈ s.liveFaces, s.HasArea f (a f)) :
    ∑ f ∈ s.liveFaces, a f = 0 := by
  rw [← faceSum_total hs.reach.good.map hi]
  apply Finset.sum_congr rfl
  intro f hf
  exact (hasArea_iff hs (hasArea_live (ha f hf)) _).mp (ha f hf)

example : ∃ t, Example.map.faceArea (some 1) = .ok (1, t) :=
  ⟨Example.val GMap.empty ((Example.map.faceArea (some 1)).map (·.2)), by
    obtain ⟨t, h, -⟩ := faceArea_value ex_reach.good.map Example.reach_map.geom.area (f := 1) (by decide +kernel)
    have e : Example.map.faceSum 1 = 1 := by decide +kernel
    rw [h, e]; rfl⟩
example : Example.map.faceSum 0 = -2 ∧ Example.map.faceSum 3 = 1 := by decide +kernel

/-! ## C27: `initializeMap` -/

/-- Whatever the geometric search for the enclosing faces (`pick`) finds: `initializeMap` on a graph either reports that
some node has darts with equal (or no) directions, or afterwards every dart lies on exactly one contour of exactly
one face, its left face.  Nodes and edges are as before. -/
theorem initializeMap_assigns_all_darts {s : GMap K} (hs : Reach s) (hi : ¬ s.initialized) (pick : GMap K → Int → Option Nat) :
    s.initializeMap pick = .precond ∨
    ∃ t, s.initializeMap pick = .ok t ∧ t.initialized ∧
      (∀ l, (t.edge l).map (fun e => (e.startN, e.endN, e.pts, e.flags)) = (s.edge l).map (fun e => (e.startN, e.endN, e.pts, e.flags))) ∧
      t.node = s.node ∧
      ∀ d, t.liveD d → t.left? (t.phi d) = t.left? d ∧ ∃ f F, t.left? d = some f ∧ t.face f = some F ∧
        (∃! a, a ∈ F.anchors ∧ t.phiReach a d) ∧ F.anchors.Nodup ∧
        ∀ g G a, t.face g = some G → a ∈ G.anchors → t.phiReach a d → g = f := by
  rcases initializeMap_spec pick hs.good.map hi hs.good.fresh with ⟨e, -⟩ | ⟨s1, t, h0, e, hM, hit, hG, -, -⟩
  · exact Or.inl e
  right
  have hs1 : s1.node = s.node ∧ s1.edge = s.edge := by
    rcases h0 with ⟨-, rfl⟩ | ⟨-, e1⟩
    · exact ⟨rfl, rfl⟩
    · obtain ⟨π, hg⟩ := hs.good.map.graph.exists_rep
      rcases sortEdgesDirectly_spec hg hi with ⟨e2, -⟩ | ⟨t', π', h1, -, ⟨sg, sgi, h3⟩, -⟩
      · rw [e2] at e1; cases e1
      · rw [e1] at h1; cases h1; rw [h3]; exact ⟨rfl, rfl⟩
  refine ⟨t, e, hit, fun l => by rw [hG.edge l, hs1.2], by rw [hG.node, hs1.1], fun d hd => ?_⟩
  have hC := hM.contours hit
  obtain ⟨π, hg⟩ := hM.graph.exists_rep
  obtain ⟨ψ, hc⟩ := hC.exists_rep hg
  have live_phi : ∀ x, t.liveD x → t.liveD (t.phi x) := fun x hx =>
    (hM.graph.sigmaInv_live (-x) (by unfold GMap.liveD at hx ⊢; simpa using hx)).1
  have hconst : ∀ a f, t.left? a = some f → ∀ k, t.liveD (t.phi^[k] a) ∧ t.left? (t.phi^[k] a) = some f := by
    intro a f ha k
    induction k with
    | zero => exact ⟨liveD_of_left ha, ha⟩
    | succ k ih =>
      rw [Function.iterate_succ_apply']
      exact ⟨live_phi _ ih.1, (hC.left_phi _ ih.1).trans ih.2⟩
  refine ⟨hC.left_phi d hd, ?_⟩
  obtain ⟨f, F, h1, h2⟩ := hC.face_live d hd
  have hu := hC.anchor_unique f F h2
  refine ⟨f, F, h1, h2, ?_, ?_, ?_⟩
  · obtain ⟨a, ha, hr⟩ := hC.anchor_cover f F d h2 h1
    refine ⟨a, ⟨ha, hr⟩, ?_⟩
    rintro b ⟨hb, hr'⟩
    have haL := (hg.live a).mpr (liveD_of_left (hC.anchor_left f F a h2 ha))
    have hbL := (hg.live b).mpr (liveD_of_left (hC.anchor_left f F b h2 hb))
    have sab : SameCycle ψ a b := ((hc.rep.sameCycle_iff haL).mpr hr).trans ((hc.rep.sameCycle_iff hbL).mpr hr').symm
    obtain ⟨i, hi', rfl⟩ := List.getElem_of_mem ha
    obtain ⟨j, hj, rfl⟩ := List.getElem_of_mem hb
    rw [List.pairwise_iff_getElem] at hu
    rcases lt_trichotomy i j with h | rfl | h
    · exact absurd ((hc.rep.sameCycle_iff haL).mp sab) (hu i j hi' hj h)
    · rfl
    · exact absurd ((hc.rep.sameCycle_iff hbL).mp sab.symm) (hu j i hj hi' h)
  · exact hu.imp fun {x y} h => by rintro rfl; exact h ⟨0, rfl⟩
  · intro g G a hG' ha hr
    obtain ⟨k, hk⟩ := hr
    have := (hconst a g (hC.anchor_left g G a hG' ha) k).2
    rw [hk, h1] at this
    exact (Option.some.inj this).symm

example : ¬ Example.graph.initialized ∧ Example.isOk (Example.graph.initializeMap fun _ _ => none) = true := by decide +kernel

/-! ## C14: the first contour is the outer one -/

/-- Full property: in every reachable map the first contour of a finite face has positive area and the
others are holes.  This holds after `initializeMap` … -/
theorem first_contour_is_outer_partial {s t : GMap K} (hs : Reach s) (hi : ¬ s.initialized) {pick : GMap K → Int → Option Nat}
    (e : s.initializeMap pick = .ok t) : ContoursSigned t := by
  rcases initializeMap_spec pick hs.good.map hi hs.good.fresh with ⟨e', -⟩ | ⟨s1, t', -, e', -, -, -, -, h⟩
  · rw [e'] at e; cases e
  · rw [e'] at e; cases e; exact h

/-- three nested loops -/
def nest3 : GMap ℚ :=
  let s := Example.next GMap.empty (.addNode (0, 0) 0)
  let s := Example.next s (.addNode (1, 1) 0)
  Example.next s (.addNode (2, 2) 0)
def nestA : GMap ℚ := Example.next nest3 (.addEdge (.node 0) (.node 0) [(0, 0), (0, 12), (12, 12), (12, 0), (0, 0)] 0)
def nestB : GMap ℚ := Example.next nestA (.addEdge (.node 1) (.node 1) [(1, 1), (1, 11), (11, 11), (11, 1), (1, 1)] 0)
def nestC : GMap ℚ := Example.next nestB (.addEdge (.node 2) (.node 2) [(2, 2), (2, 3), (3, 3), (3, 2), (2, 2)] 0)
def nestPick : GMap ℚ → Int → Option Nat := fun _ d => if d = -2 then some 1 else if d = -3 then some 3 else none
/-- the map: face 1 between loops 1 and 2, face 3 between loops 2 and 3, face 5 inside loop 3 -/
def nested : GMap ℚ := Example.next nestC (.initializeMap nestPick)
/-- … after merging faces 1 and 3 -/
def merged : GMap ℚ := Example.next nested (.mergeFaces 2)

theorem nested_darts : nested.darts = {1, -1, 2, -2, 3, -3} := by decide +kernel

theorem nested_planar : PlanarOK nested := by
  intro w _
  rw [nested_darts]
  refine ⟨fun f => if f = some 1 then w 1 else if f = some 3 then w 1 + w 2 else if f = some 5 then w 1 + w 2 + w 3 else 0, fun d hd => ?_⟩
  simp only [Finset.mem_insert, Finset.mem_singleton] at hd
  have q1 : nested.left? 1 = some 1 := by decide +kernel
  have q1' : nested.left? (-1) = some 0 := by decide +kernel
  have q2 : nested.left? 2 = some 3 := by decide +kernel
  have q2' : nested.left? (-2) = some 1 := by decide +kernel
  have q3 : nested.left? 3 = some 5 := by decide +kernel
  have q3' : nested.left? (-3) = some 3 := by decide +kernel
  have tt : ∀ a b c : ZMod 2, b = a + b + a ∧ b = a + (a + b) ∧ c = a + b + c + (a + b) ∧ c = a + b + (a + b + c) := by decide
  rcases hd with rfl | rfl | rfl | rfl | rfl | rfl <;> simp [q1, q1', q2, q2', q3, q3'] <;> first | exact (tt _ _ 0).1 | exact (tt _ _ 0).2.1

theorem nestC_reach : ReachG nestC := by
  have r3 : ReachG nest3 :=
    Example.reach_next (Example.reach_next (Example.reach_next .empty trivial trivial rfl fun _ h => absurd h (by decide +kernel)) trivial trivial rfl
      fun _ h => absurd h (by decide +kernel)) trivial trivial rfl fun _ h => absurd h (by decide +kernel)
  refine Example.reach_edge (na := ⟨(2, 2), 0⟩) (nb := ⟨(2, 2), 0⟩) (Example.reach_edge (na := ⟨(1, 1), 0⟩) (nb := ⟨(1, 1), 0⟩)
    (Example.reach_edge (na := ⟨(0, 0), 0⟩) (nb := ⟨(0, 0), 0⟩) r3 ?_ ?_ ?_ ?_ ?_ ?_) ?_ ?_ ?_ ?_ ?_ ?_) ?_ ?_ ?_ ?_ ?_ ?_ <;> decide +kernel

theorem nested_eq : nestC.initializeMap nestPick = .ok nested := Example.ok_val (by decide +kernel)

theorem nested_reach : ReachG nested :=
  Example.reach_next nestC_reach trivial trivial (by decide +kernel) fun _ _ => nested_planar

theorem merged_reach : ReachG merged :=
  Example.reach_next nested_reach trivial trivial (by decide +kernel) fun h => absurd (by decide +kernel) h

theorem merged_eq : nested.mergeFaces Hooks.none 2 = .ok (some 3, merged) := by
  have hm : (nested.mergeFaces Hooks.none 2).map (·.2) = .ok merged := Example.ok_val (by decide +kernel)
  have hr : (nested.mergeFaces Hooks.none 2).map (·.1) = .ok (some 3) := by decide +kernel
  cases h : nested.mergeFaces Hooks.none 2 with
  | ok x =>
    obtain ⟨r, t⟩ := x
    rw [h] at hm hr
    have h1 : t = merged := by
      have : (Outcome.ok t : Outcome (GMap ℚ)) = .ok merged := hm
      exact Outcome.ok.inj this
    have h2 : r = some 3 := by
      have : (Outcome.ok r : Outcome (Option Nat)) = .ok (some 3) := hr
      exact Outcome.ok.inj this
    rw [h1, h2]
  | _ => rw [h] at hm; cases hm

theorem merged_orbitArea {d : Int} (hd : merged.phi d = d) (hm : d ∈ merged.darts) : merged.orbitArea d = merged.dartArea d := by
  classical
  unfold GMap.orbitArea
  have : ∀ x, merged.phiReach d x ↔ x = d := by
    intro x
    constructor
    · rintro ⟨k, rfl⟩; exact Function.iterate_fixed hd k
    · rintro rfl; exact ⟨0, rfl⟩
  rw [← Finset.sum_singleton (fun x => merged.dartArea x) d]
  congr 1
  ext x
  rw [Finset.mem_filter, this, Finset.mem_singleton]
  exact ⟨fun h => h.2, fun h => ⟨by rw [h]; exact hm, h⟩⟩

/-- … but `mergeFaces` can violate it: the first contour of face 3 is then the hole around loop 3, and
its outer contour comes last. -/
theorem first_contour_is_outer_violated :
    ∃ (s t : GMap ℚ) (F : Face ℚ) (a b : Int), ReachG s ∧ s.initialized ∧ ReachG t ∧ s.mergeFaces Hooks.none 2 = .ok (some 3, t) ∧
      t.face 3 = some F ∧ F.anchors = [a, b] ∧ t.orbitArea a < 0 ∧ 0 < t.orbitArea b := by
  refine ⟨nested, merged, ⟨[-3, 1], some 143, 0⟩, -3, 1, nested_reach, by decide +kernel, merged_reach, merged_eq, by decide +kernel, rfl, ?_, ?_⟩
  · rw [merged_orbitArea (by decide +kernel) (by decide +kernel)]; decide +kernel
  · rw [merged_orbitArea (by decide +kernel) (by decide +kernel)]; decide +kernel

end Props
end Verif.GeoMap
