import Verif.GeoMap.Init
import Verif.GeoMap.RenameStep

/-!
# Histories of API calls

`Op` is one call of the `GeoMap` interface; `Reach` are the maps that client code can get to.
-/

namespace Verif.GeoMap
open Equiv Equiv.Perm Verif.PermLemmas

variable {K : Type} [Field K] [LinearOrder K]

/-- One call of the modelled interface. -/
inductive Op (K : Type) where
  | addNode (p : Pt K) (label : Nat)
  | addEdge (start fin : GMap.SigmaPos) (pts : List (Pt K)) (label : Nat)
  | sortEdgesDirectly
  | initializeMap (pick : GMap K → Int → Option Nat)
  | removeIsolatedNode (n : Nat)
  | mergeEdges (d : Int)
  | splitEdge (l i : Nat) (np : Option (Pt K))
  | removeBridge (d : Int)
  | mergeFaces (d : Int)
  | removeEdge (d : Int)
  | area (f : Nat)
  | setFlags (l : Nat) (flags : Nat)

/-- cppmap.hxx:672-690 `Edge::setFlag` and friends: only the flags of the edge change -/
def GMap.setFlags (s : GMap K) (l : Nat) (flags : Nat) : Outcome (GMap K) := do
  let e ← s.guaranteedEdge l
  .ok (s.setEdge l (some { e with flags := flags }))

/-- The state after a call that returns normally. -/
def Op.run (h : Hooks K) (s : GMap K) : Op K → Outcome (GMap K)
  | .addNode p label => .ok (s.addNodeAt p label).2
  | .addEdge a b pts label => (s.addEdge a b pts label).map (·.2)
  | .sortEdgesDirectly => s.sortEdgesDirectly
  | .initializeMap pick => s.initializeMap pick
  | .removeIsolatedNode n => (s.removeIsolatedNode h n).map (·.2)
  | .mergeEdges d => (s.mergeEdges h d).map (·.2)
  | .splitEdge l i np => (s.splitEdge l i np).map (·.2)
  | .removeBridge d => (s.removeBridge h d).map (·.2)
  | .mergeFaces d => (s.mergeFaces h d).map (·.2)
  | .removeEdge d => (s.removeEdge h d).map (·.2)
  | .area f => (s.faceArea (some f)).map (·.2)
  | .setFlags l flags => s.setFlags l flags

/-- What the client must respect beyond the checked preconditions: `SigmaAnchor` is made from an
existing node, an edge has points, only isolated nodes are passed to `removeIsolatedNode`, and
`face(label)->area()` is called on an existing face. -/
def Op.legal (s : GMap K) : Op K → Prop
  | .addEdge a b pts _ => pts ≠ [] ∧ (∀ n, a = .node n → (s.node n).isSome = true) ∧ (∀ n, b = .node n → (s.node n).isSome = true)
  | .removeIsolatedNode n => (s.node n).isSome = true ∧ ∀ d, s.startN? d ≠ some n
  | .area f => (s.face f).isSome = true
  | _ => True

/-- Maps reachable by a history of calls that returned normally.  `planar` is the assumption on the
input: when the faces are created, the edges form a planar drawing.  `changeFaceLabels` must leave the
infinite face its label 0. -/
inductive Reach : GMap K → Prop
  | empty : Reach GMap.empty
  | call {s t : GMap K} (h : Hooks K) (op : Op K) : Reach s → op.legal s → op.run h s = .ok t →
      (planar : ¬ s.initialized → t.initialized → PlanarOK t) → Reach t
  | rename {s t : GMap K} {lab : Nat → Nat} (new : List Nat) (size : Nat) : Reach s → new[0]? = some 0 →
      s.changeFaceLabels new size = .ok ⟨true, t, lab⟩ → Reach t

/-- the invariant -/
structure Good (s : GMap K) : Prop where
  map : MapOK s
  fresh : FreshOK s
  planar : s.initialized → PlanarOK s

/-! ## the single operations -/

omit [Field K] [LinearOrder K] in
theorem freshOK_iff {s : GMap K} (h0 : s.edge 0 = none) : (∀ d, s.left? d = none) ↔ ∀ l e, s.edge l = some e → e.leftF = none ∧ e.rightF = none := by
  constructor
  · intro h l e he
    have hl : l ≠ 0 := by rintro rfl; rw [h0] at he; cases he
    have h1 := h l
    have h2 := h (-(l : Int))
    rw [left?_of (d := (l : Int)) (e := e) (by simpa using he)] at h1
    rw [left?_of (d := -(l : Int)) (e := e) (by simpa using he)] at h2
    unfold Edge.leftOf at h1 h2
    rw [if_pos (by omega)] at h1
    rw [if_neg (by omega)] at h2
    exact ⟨h1, h2⟩
  · intro h d
    cases he : s.edge d.natAbs with
    | none => simp [GMap.left?, he]
    | some e =>
      rw [left?_of he]
      unfold Edge.leftOf
      split_ifs
      · exact (h _ _ he).1
      · exact (h _ _ he).2

omit [Field K] [LinearOrder K] in
theorem FreshOK.of_edges {s t : GMap K} (hf : FreshOK s) (h0 : s.edge 0 = none) (ht0 : t.edge 0 = none) (hn : t.nFaces = s.nFaces)
    (he : ∀ l e, t.edge l = some e → (e.leftF = none ∧ e.rightF = none) ∨ ∃ l' e', s.edge l' = some e' ∧ e.leftF = e'.leftF ∧ e.rightF = e'.rightF) : FreshOK t := by
  intro hi
  have hi' : ¬ s.initialized := by unfold GMap.initialized at hi ⊢; omega
  have := (freshOK_iff h0).mp (hf hi')
  rw [freshOK_iff ht0]
  intro l e hl
  rcases he l e hl with h | ⟨l', e', h1, h2, h3⟩
  · exact h
  · rw [h2, h3]; exact this l' e' h1

omit [Field K] [LinearOrder K] in
theorem FreshOK.init {s : GMap K} (hi : s.initialized) : FreshOK s := fun h => absurd hi h

omit [Field K] [LinearOrder K] in
theorem planarOK_congr {s t : GMap K} (h1 : t.darts = s.darts) (h2 : t.startN? = s.startN?) (h3 : t.left? = s.left?) : PlanarOK t ↔ PlanarOK s := by
  unfold PlanarOK; rw [h1, h2, h3]

omit [Field K] [LinearOrder K] in
theorem components_congr {s t : GMap K} (h1 : t.liveNodes = s.liveNodes) (h2 : t.startN? = s.startN?) : t.components = s.components := by
  unfold GMap.components GMap.Connected; rw [h1, h2]

/-- what a successful Euler operation guarantees -/
structure EulerStep (s t : GMap K) : Prop where
  map : MapOK t
  fresh : FreshOK s → FreshOK t
  init : t.nFaces = s.nFaces
  planar : PlanarOK s → PlanarOK t
  euler : PlanarOK s → t.euler = s.euler

omit [LinearOrder K] in
theorem EulerStep.good {s t : GMap K} (h : EulerStep s t) (hs : Good s) : Good t :=
  ⟨h.map, h.fresh hs.fresh, fun hi => h.planar (hs.planar (by unfold GMap.initialized at hi ⊢; rw [← h.init]; exact hi))⟩

omit [Field K] [LinearOrder K] in
theorem SameButAnchors.planar {s t : GMap K} (h : SameButAnchors s t) : (PlanarOK t ↔ PlanarOK s) ∧ t.euler = s.euler ∧ t.nFaces = s.nFaces ∧ (FreshOK s → FreshOK t) := by
  obtain ⟨f, rfl⟩ := h.eq
  exact ⟨Iff.rfl, rfl, rfl, id⟩

omit [LinearOrder K] in
theorem AreasCached.planar {s t : GMap K} (h : AreasCached s t) : (PlanarOK t ↔ PlanarOK s) ∧ t.euler = s.euler ∧ t.nFaces = s.nFaces ∧ (FreshOK s → FreshOK t) := by
  obtain ⟨f, e⟩ := h.eq
  subst e
  exact ⟨Iff.rfl, rfl, rfl, id⟩

omit [LinearOrder K] in
theorem mergeEdges_step {s : GMap K} (hM : MapOK s) (h : Hooks K) (d : Int) :
    s.mergeEdges h d = .precond ∨ ∃ r t, s.mergeEdges h d = .ok (r, t) ∧ EulerStep s t := by
  by_cases hp : ¬ s.liveD d ∨ (s.sigma d).natAbs = d.natAbs ∨ s.sigma (s.sigma d) ≠ d
  · exact Or.inl (mergeEdges_precond h s d hp)
  right
  push Not at hp
  obtain ⟨d1, d2, e1, e2, m, n2, nd, s1, -, hs1, hM1, hD, -, -, heq, hMt⟩ := mergeEdges_spec hM h hp.1 hp.2.1 hp.2.2
  obtain ⟨p1, p2, p3, p4⟩ := hs1.planar
  by_cases hc : h.preMergeEdges s1 d1 = true ∧ h.removeNode s1 m = true
  · refine ⟨_, _, by rw [heq, if_pos hc], ?_⟩
    obtain ⟨q1, q2, q3, q4⟩ := hD.planar hM1
    refine ⟨hMt, fun hf => (p4 hf).of_edges hM1.graph.edge_zero hMt.graph.edge_zero rfl ?_, p3, fun hP => q1 (p1.mpr hP), fun _ => ?_⟩
    · intro l e hl
      right
      simp only [mergedState, Function.update_apply] at hl
      split_ifs at hl with g1 g2
      · refine ⟨_, e1, hD.he1, ?_⟩
        cases hl
        unfold GMap.mergedGeometry
        split_ifs <;> exact ⟨rfl, rfl⟩
      · exact ⟨l, e, hl, rfl, rfl⟩
    · rw [← p2]
      unfold GMap.euler
      rw [q2]
      have : (mergedState s1 d1 d2 e1 e2 m n2 nd).faceCount = s1.faceCount := rfl
      rw [this]
      omega
  · refine ⟨_, _, by rw [heq, if_neg hc], ⟨hM1, p4, p3, p1.mpr, fun _ => p2⟩⟩

omit [LinearOrder K] in
theorem splitEdge_step {s : GMap K} (hM : MapOK s) (l i : Nat) (np : Option (Pt K)) :
    s.splitEdge l i np = .precond ∨ ∃ r t, s.splitEdge l i np = .ok (r, t) ∧ EulerStep s t := by
  cases he : s.edge l with
  | none =>
    left
    unfold GMap.splitEdge GMap.guaranteedEdge
    simp [he, bind]
  | some e =>
    have hpts := hM.graph.pts_ne l e he
    by_cases hi : i < e.pts.length - 1
    · right
      obtain ⟨cnd, p, hp, hC, heq, hMt⟩ := splitEdge_spec hM he np hi
      refine ⟨_, _, heq, ?_⟩
      have hidx := splitPts_get hi np
      obtain ⟨q1, q2, q3, q4⟩ := hC.planar (p := p) hM (ptsL := (splitPts e.pts i np).take (splitIdx i np + 1)) (ptsR := (splitPts e.pts i np).drop (splitIdx i np)) (by
        intro h
        rw [List.take_eq_nil_iff] at h
        rcases h with h | h
        · omega
        · rw [h] at hidx; simp at hidx) (by
        intro h; rw [List.drop_eq_nil_iff] at h; omega)
      refine ⟨hMt, fun hf => hf.of_edges hM.graph.edge_zero hMt.graph.edge_zero rfl ?_, rfl, q1, fun _ => ?_⟩
      · intro l' e' hl
        right
        simp only [splitState, Function.update_apply] at hl
        split_ifs at hl with g1 g2
        · cases hl; exact ⟨l, e, he, rfl, rfl⟩
        · cases hl; exact ⟨l, e, he, rfl, rfl⟩
        · exact ⟨l', e', hl, rfl, rfl⟩
      · unfold GMap.euler
        rw [q2, q3, q4]
        have : (splitState s l e ((splitPts e.pts i np).take (splitIdx i np + 1)) ((splitPts e.pts i np).drop (splitIdx i np)) p cnd).faceCount = s.faceCount := rfl
        rw [this]
        push_cast
        omega
    · left
      unfold GMap.splitEdge GMap.guaranteedEdge
      simp only [Int.natAbs_natCast, he, bind, Outcome.bind_ok, if_neg hpts, hi, not_false_eq_true, if_true]

omit [Field K] [LinearOrder K] in
theorem derefFace_uninit {s : GMap K} (hi : ¬ s.initialized) (f : Option Nat) : s.derefFace f = .precond := by
  unfold GMap.initialized at hi
  cases f with
  | none => rfl
  | some f => simp [GMap.derefFace, show ¬ f < s.nFaces by omega]

/-- Precondition violations of `removeBridge`. -/
theorem removeBridge_precond_all {s : GMap K} (hM : MapOK s) (h : Hooks K) (d : Int)
    (hp : ¬ s.liveD d ∨ ¬ s.initialized ∨ s.left? d ≠ s.left? (-d) ∨ s.startN? d = s.startN? (-d)) : s.removeBridge h d = .precond := by
  by_cases hd : s.liveD d
  swap
  · unfold GMap.removeBridge; rw [guaranteedEdge_dead hd]; rfl
  obtain ⟨e, he⟩ := liveD_exists hd
  by_cases hi : s.initialized
  swap
  · unfold GMap.removeBridge
    simp only [guaranteedEdge_of he, bind, Outcome.bind_ok, derefFace_uninit hi, Outcome.bind_precond]
  obtain ⟨π, hg⟩ := hM.graph.exists_rep
  obtain ⟨ψ, hc⟩ := (hM.contours hi).exists_rep hg
  have hdL := (hg.live d).mpr hd
  have h0 := hg.ne_zero hdL
  have he' : s.edge (-d).natAbs = some e := by simpa using he
  obtain ⟨f, gl, hF, -⟩ := hc.lefts d hdL
  obtain ⟨F, hF⟩ := Option.isSome_iff_exists.mp hF
  obtain ⟨f', gr, hF', -⟩ := hc.lefts (-d) (hg.symm d hdL)
  obtain ⟨F', hF'⟩ := Option.isSome_iff_exists.mp hF'
  have el : e.leftOf d = some f := by rw [← gl]; exact (left?_of he).symm
  have er : e.rightOf d = some f' := by rw [← e.leftOf_neg h0, ← gr]; exact (left?_of he').symm
  by_cases hb : s.left? d = s.left? (-d)
  swap
  · unfold GMap.removeBridge
    have : some f ≠ some f' := by rw [← gl, ← gr]; exact hb
    simp only [guaranteedEdge_of he, bind, Outcome.bind_ok, el, er, derefFace_of hg.labels hF, derefFace_of hg.labels hF', if_pos this]
  by_cases hn : s.startN? d = s.startN? (-d)
  · have hff : f = f' := by rw [gl, gr] at hb; exact Option.some.inj hb
    subst hff
    rw [startN?_of he, startN?_of he', e.startOf_neg h0] at hn
    have hn := Option.some.inj hn
    obtain ⟨n, g1, g2, -⟩ := hg.starts d hdL
    obtain ⟨nd, hnd⟩ := Option.isSome_iff_exists.mp g2
    rw [startN?_of he] at g1
    have g1 := Option.some.inj g1
    subst g1
    unfold GMap.removeBridge
    have hdn : s.derefNode (e.startOf d) = .ok nd := by simp [GMap.derefNode, hnd, hg.labels.node_lt _ g2]
    have hdn' : s.derefNode (e.endOf d) = .ok nd := by rw [← hn]; exact hdn
    simp only [guaranteedEdge_of he, bind, Outcome.bind_ok, el, er, derefFace_of hg.labels hF, ne_eq, not_true_eq_false, if_false, hdn, hdn', if_pos hn]
  rcases hp with hp | hp | hp | hp
  · exact absurd hd hp
  · exact absurd hi hp
  · exact absurd hb hp
  · exact absurd hp hn

theorem removeBridge_step {s : GMap K} (hM : MapOK s) (hP : s.initialized → PlanarOK s) (h : Hooks K) (d : Int) :
    s.removeBridge h d = .precond ∨ ∃ r t, s.removeBridge h d = .ok (r, t) ∧ EulerStep s t := by
  by_cases hd : s.liveD d
  swap
  · exact Or.inl (removeBridge_precond_all hM h d (Or.inl hd))
  by_cases hi : s.initialized
  swap
  · exact Or.inl (removeBridge_precond_all hM h d (Or.inr (Or.inl hi)))
  by_cases hb : s.left? d = s.left? (-d)
  swap
  · exact Or.inl (removeBridge_precond_all hM h d (Or.inr (Or.inr (Or.inl hb))))
  by_cases hn : s.startN? d = s.startN? (-d)
  · exact Or.inl (removeBridge_precond_all hM h d (Or.inr (Or.inr (Or.inr hn))))
  right
  have hPs := hP hi
  obtain ⟨f, F, e, s2, t, gl, hF, he, heq, hR⟩ := removeBridge_spec hM hi h hd hb hn (hPs.bridges hM hi d hd hb)
  by_cases hv : h.preRemoveBridge s d = true
  · refine ⟨_, _, by rw [heq, if_pos hv], ?_⟩
    obtain ⟨p1, -, k, p2, p3, p4, p5, -⟩ := hR.planar hM hi hPs hd he hb
    have hnf : t.nFaces = s.nFaces := by
      obtain ⟨rm1, rm2, as, ht, -⟩ := hR.t_eq
      obtain ⟨n', sg, sgi, h2⟩ := hR.ex
      rw [ht, h2]
      unfold bridgeState
      cases rm1 <;> cases rm2 <;> rfl
    refine ⟨hR.ok, fun _ => FreshOK.init (by unfold GMap.initialized at hi ⊢; omega), hnf, fun _ => p1, fun _ => ?_⟩
    unfold GMap.euler
    omega
  · exact ⟨_, _, by rw [heq, if_neg hv], ⟨hM, id, rfl, id, fun _ => rfl⟩⟩

/-- Precondition violations of `mergeFaces`. -/
theorem mergeFaces_precond_all {s : GMap K} (hM : MapOK s) (h : Hooks K) (d : Int)
    (hp : ¬ s.liveD d ∨ ¬ s.initialized ∨ s.left? d = s.left? (-d)) : s.mergeFaces h d = .precond := by
  by_cases hd : s.liveD d
  swap
  · unfold GMap.mergeFaces; rw [guaranteedEdge_dead hd]; rfl
  obtain ⟨e, he⟩ := liveD_exists hd
  by_cases hi : s.initialized
  swap
  · unfold GMap.mergeFaces GMap.faceArea
    simp only [guaranteedEdge_of he, bind, Outcome.bind_ok, derefFace_uninit hi, Outcome.bind_precond]
  exact mergeFaces_precond hM hi h (by tauto)

omit [Field K] [LinearOrder K] in
theorem mergeState_nFaces (s2 : GMap K) (l : Nat) (rm : Bool) (n1 sl : Nat) (S' : Face K) (ml : Nat) :
    (mergeState s2 l rm n1 sl S' ml).nFaces = s2.nFaces := by
  unfold mergeState
  cases rm <;> rfl

theorem mergeFaces_step {s : GMap K} (hM : MapOK s) (hP : s.initialized → PlanarOK s) (h : Hooks K) (d : Int) :
    s.mergeFaces h d = .precond ∨ ∃ r t, s.mergeFaces h d = .ok (r, t) ∧ EulerStep s t := by
  by_cases hp : ¬ s.liveD d ∨ ¬ s.initialized ∨ s.left? d = s.left? (-d)
  · exact Or.inl (mergeFaces_precond_all hM h d hp)
  push Not at hp
  obtain ⟨hd, hi, hb⟩ := hp
  right
  have hPs := hP hi
  obtain ⟨r, sl, ml, S, M, a, b, e, s0, s2, t, hr, gl, gr, hml, -, he, hS, hMf, hSa, hMa, hc0, hfr, heq, hR⟩ := mergeFaces_spec hM hi h hd hb
  obtain ⟨q1, q2, q3, q4⟩ := hc0.planar
  have hM0 := hc0.mapOK hM
  by_cases hv : h.preMergeFaces s0 r = true
  · refine ⟨_, _, by rw [heq, if_pos hv], ?_⟩
    have e0 : s0.edge = s.edge := by obtain ⟨f, h⟩ := hc0.eq; rw [h]
    have l0 : s0.left? = s.left? := by unfold GMap.left?; rw [e0]
    have hi0 : s0.initialized := by show 0 < s0.nFaces; rw [q3]; exact hi
    have hne : sl ≠ ml := by
      intro e'
      apply hb
      rcases hr with h | h
      · rw [h] at gl gr; rw [gl, gr, e']
      · rw [h, neg_neg] at gr; rw [h] at gl; rw [gl, gr, e']
    obtain ⟨p1, k, p2, p3, p4, p5⟩ := hR.planar hM0 hi0 (q1.mpr hPs) (by unfold GMap.liveD; rw [e0, he]; rfl) (by rw [e0]; exact he) (by rw [l0]; exact gl) (by rw [l0]; exact gr)
      hne (by rw [hc0.isSome, hMf]; rfl)
    have hnf : t.nFaces = s0.nFaces := by
      obtain ⟨n', sg, sgi, as, h2, -, rm, ht, -⟩ := hR.ex
      rw [ht, mergeState_nFaces, h2]
      rfl
    refine ⟨hR.ok, fun _ => FreshOK.init ?_, hnf.trans q3, fun _ => p1, fun _ => ?_⟩
    · show 0 < t.nFaces; rw [hnf]; exact hi0
    · rw [← q2]
      unfold GMap.euler
      clear heq hR hfr hSa hMa
      omega
  · exact ⟨_, _, by rw [heq, if_neg hv], ⟨hM0, q4, q3, q1.mpr, fun _ => q2⟩⟩

theorem conn_isolated {L : Finset Int} {st : Int → Option Nat} {n k : Nat} (hiso : ∀ d, st d ≠ some n) (hk : Conn L st n k) : k = n := by
  unfold Conn at hk
  induction hk with
  | refl => rfl
  | tail _ h2 ih =>
    obtain ⟨d, -, h3, -⟩ := h2
    rw [ih] at h3
    exact absurd h3 (hiso d)

omit [LinearOrder K] in
theorem removeIsolatedNode_step {s : GMap K} (hM : MapOK s) (h : Hooks K) {n : Nat} (hn : (s.node n).isSome = true)
    (hiso : ∀ d, s.startN? d ≠ some n) : ∃ r t, s.removeIsolatedNode h n = .ok (r, t) ∧ EulerStep s t := by
  obtain ⟨π, hg⟩ := hM.graph.exists_rep
  obtain ⟨nd, hnd⟩ := Option.isSome_iff_exists.mp hn
  have ha : nd.anchor = 0 := by
    by_contra ha
    exact hiso _ (hM.graph.anchor_start n nd hnd ha)
  refine ⟨_, _, removeIsolatedNode_of (hg.labels.node_lt n hn) hnd, ?_⟩
  split_ifs with hv
  swap
  · exact ⟨hM, id, rfl, id, fun _ => rfl⟩
  have G := hg.uninitNode hnd ha
  refine ⟨⟨G.graphOK, fun hi => ?_⟩, id, rfl, id, fun _ => ?_⟩
  · have c := hM.contours hi
    exact ⟨c.face_live, c.left_phi, c.anchor_left, c.anchor_cover, c.anchor_unique, c.face_zero⟩
  · have hl : (s.uninitNode n).liveNodes = s.liveNodes.erase n := by
      ext x
      rw [Finset.mem_erase, mem_liveNodes hg.labels, mem_liveNodes G.labels]
      simp only [GMap.uninitNode, GMap.setNode, Function.update_apply]
      by_cases hx : x = n <;> simp [hx]
    have hmem : n ∈ s.liveNodes := (mem_liveNodes hg.labels).mpr hn
    have hc : s.components = (s.uninitNode n).components + 1 := by
      rw [components_eq G, components_eq hg, hl]
      exact classes_erase_single (conn_equivalence hg.symm) hmem (fun k _ hk => conn_isolated hiso hk)
    have hcnt : s.nodeCount = (s.uninitNode n).nodeCount + 1 := by
      have : 0 < s.nodeCount := by rw [hg.labels.node_count]; exact Finset.card_pos.mpr ⟨n, hmem⟩
      show s.nodeCount = s.nodeCount - 1 + 1
      omega
    unfold GMap.euler
    rw [hc, hcnt]
    show _ - (s.edgeCount : Int) + s.faceCount - _ = _
    push_cast
    omega

omit [LinearOrder K] in
theorem addNodeAt_step {s : GMap K} (hM : MapOK s) (p : Pt K) (label : Nat) : EulerStep s (s.addNodeAt p label).2 := by
  obtain ⟨π, hg⟩ := hM.graph.exists_rep
  obtain ⟨-, G⟩ := addNodeAt_spec hg p label
  refine ⟨⟨G.graphOK, fun hi => ?_⟩, id, rfl, id, fun _ => ?_⟩
  · have c := hM.contours hi
    exact ⟨c.face_live, c.left_phi, c.anchor_left, c.anchor_cover, c.anchor_unique, c.face_zero⟩
  · obtain ⟨l, hl⟩ : ∃ l, l = max s.nNodes label := ⟨_, rfl⟩
    have hnone : s.node l = none := by
      cases h : s.node l with
      | none => rfl
      | some x => have := hg.labels.node_lt l (by simp [h]); omega
    have hnode : ∀ x, (s.addNodeAt p label).2.node x = if x = l then some ⟨p, 0⟩ else s.node x := by
      intro x; rw [hl]; simp [GMap.addNodeAt, GMap.addNode, Function.update_apply]
    have hln : s.liveNodes = (s.addNodeAt p label).2.liveNodes.erase l := by
      ext x
      rw [Finset.mem_erase, mem_liveNodes hg.labels, mem_liveNodes G.labels, hnode]
      by_cases hx : x = l
      · rw [hx]; simp [hnone]
      · simp [hx]
    have hmem : l ∈ (s.addNodeAt p label).2.liveNodes := by
      rw [mem_liveNodes G.labels, hnode]; simp
    have hc : (s.addNodeAt p label).2.components = s.components + 1 := by
      rw [components_eq G, components_eq hg, hln]
      refine classes_erase_single (conn_equivalence hg.symm) hmem (fun k _ hk => conn_isolated (fun d h3 => ?_) hk)
      have := hM.graph.start_live _ _ h3
      rw [hnone] at this; cases this
    unfold GMap.euler
    rw [hc]
    show ((s.nodeCount + 1 : Nat) : Int) - (s.edgeCount : Int) + s.faceCount - _ = _
    push_cast
    omega

theorem addEdge_step {s : GMap K} (hM : MapOK s) (hf : FreshOK s) {a b : GMap.SigmaPos} {pts : List (Pt K)} (hpts : pts ≠ [])
    (ha : ∀ n, a = .node n → (s.node n).isSome = true) (hb : ∀ n, b = .node n → (s.node n).isSome = true) (label : Nat) :
    s.addEdge a b pts label = .precond ∨ ∃ t, s.addEdge a b pts label = .ok (max s.nEdges label, t) ∧ MapOK t ∧ FreshOK t ∧ ¬ t.initialized := by
  by_cases hi : s.initialized
  · left; unfold GMap.addEdge; rw [if_pos hi]
  obtain ⟨π, hg⟩ := hM.graph.exists_rep
  rcases sigmaAnchor_cases hg a (fun n h _ => ha n h) with ⟨A, hA⟩ | hA
  swap
  · left; unfold GMap.addEdge; rw [if_neg hi]; simp only [bind, hA, Outcome.bind_precond]
  rcases sigmaAnchor_cases hg b (fun n h _ => hb n h) with ⟨B, hB⟩ | hB
  swap
  · left; unfold GMap.addEdge; rw [if_neg hi]; simp only [bind, hA, hB, Outcome.bind_ok, Outcome.bind_precond]
  right
  obtain ⟨t, π', h1, h2, ⟨sg, sgi, node', h3, -⟩⟩ := addEdge_spec hg hi hA hB hpts label
  have hit : ¬ t.initialized := by rw [h3]; exact hi
  refine ⟨t, h1, ⟨h2.graphOK, fun h => absurd h hit⟩, hf.of_edges hg.labels.edge_zero h2.labels.edge_zero (by rw [h3]) ?_, hit⟩
  intro l e hl
  rw [h3] at hl
  simp only [Function.update_apply] at hl
  split_ifs at hl with g
  · cases hl; exact Or.inl ⟨rfl, rfl⟩
  · exact Or.inr ⟨l, e, hl, rfl, rfl⟩

omit [LinearOrder K] in
theorem area_step {s : GMap K} (hM : MapOK s) {f : Nat} (hF : (s.face f).isSome = true) :
    ∃ x t, s.faceArea (some f) = .ok (x, t) ∧ EulerStep s t ∧ AreasCached s t := by
  obtain ⟨π, hg⟩ := hM.graph.exists_rep
  have hi : s.initialized := by
    have := hg.labels.face_lt f hF
    show 0 < s.nFaces
    omega
  obtain ⟨ψ, hc⟩ := (hM.contours hi).exists_rep hg
  obtain ⟨F, hF⟩ := Option.isSome_iff_exists.mp hF
  obtain ⟨x, t, h1, h2, -⟩ := faceArea_spec hg hc hF
  obtain ⟨q1, q2, q3, q4⟩ := h2.planar
  exact ⟨x, t, h1, ⟨h2.mapOK hM, q4, q3, q1.mpr, fun _ => q2⟩, h2⟩

omit [LinearOrder K] in
theorem setFlags_step {s : GMap K} (hM : MapOK s) (l flags : Nat) :
    s.setFlags l flags = .precond ∨ ∃ t, s.setFlags l flags = .ok t ∧ EulerStep s t := by
  unfold GMap.setFlags GMap.guaranteedEdge
  cases he : s.edge l with
  | none => left; simp [he, bind]
  | some e =>
    right
    simp only [Int.natAbs_natCast, he, bind, Outcome.bind_ok]
    refine ⟨_, rfl, ?_⟩
    have hE : ∀ x, (s.setEdge l (some { e with flags := flags })).edge x = (s.edge x).map fun e' => if x = l then { e' with flags := flags } else e' := by
      intro x
      simp only [GMap.setEdge, Function.update_apply]
      by_cases hx : x = l
      · rw [hx, he]; simp
      · simp [hx]
    obtain ⟨t, ht⟩ : ∃ t, t = s.setEdge l (some { e with flags := flags }) := ⟨_, rfl⟩
    rw [← ht] at hE ⊢
    have f1 : t.nEdges = s.nEdges := by rw [ht]; rfl
    have f2 : t.node = s.node := by rw [ht]; rfl
    have f3 : t.face = s.face := by rw [ht]; rfl
    have f4 : t.sigma = s.sigma := by rw [ht]; rfl
    have f5 : t.sigmaInv = s.sigmaInv := by rw [ht]; rfl
    have f6 : t.nNodes = s.nNodes := by rw [ht]; rfl
    have f7 : t.nFaces = s.nFaces := by rw [ht]; rfl
    have f8 : t.nodeCount = s.nodeCount := by rw [ht]; rfl
    have f9 : t.edgeCount = s.edgeCount := by rw [ht]; rfl
    have f10 : t.faceCount = s.faceCount := by rw [ht]; rfl
    have hi : ∀ x, (t.edge x).isSome = (s.edge x).isSome := by intro x; rw [hE]; simp
    have hst : t.startN? = s.startN? := by
      funext d
      unfold GMap.startN?
      rw [hE]
      cases s.edge d.natAbs with
      | none => rfl
      | some e' => simp only [Option.map_some]; split_ifs <;> rfl
    have hlf : t.left? = s.left? := by
      funext d
      unfold GMap.left?
      rw [hE]
      cases s.edge d.natAbs with
      | none => rfl
      | some e' => simp only [Option.map_some, Option.bind_some]; split_ifs <;> rfl
    have hld : t.liveD = s.liveD := by funext d; unfold GMap.liveD; rw [hi]
    have hdt : t.darts = s.darts := by unfold GMap.darts; rw [f1]; simp only [hi]
    have hln : t.liveNodes = s.liveNodes := liveNodes_congr f6 (by rw [f2]; simp)
    obtain ⟨π, hg⟩ := hM.graph.exists_rep
    have hphi : t.phi = s.phi := by unfold GMap.phi; rw [f5]
    have hphiI : t.phiInv = s.phiInv := by unfold GMap.phiInv; rw [f4]
    have G : GraphRep t s.darts π := by
      refine ⟨⟨by rw [f1]; exact hg.labels.edges_pos, ?_, by rw [f2, f6]; exact hg.labels.node_lt, ?_, by rw [f3, f7]; exact hg.labels.face_lt, ?_, ?_, ?_, ?_⟩,
        by rw [hld]; exact hg.live, by rw [f4, f5]; exact hg.rep, by rw [hst, f2]; exact hg.starts, by rw [hst, f2]; exact hg.nodes⟩
      · have := hi 0
        rw [hg.labels.edge_zero] at this
        simpa using this
      · intro x; rw [hi, f1]; exact hg.labels.edge_lt x
      · rw [f8, hln]; exact hg.labels.node_count
      · rw [f9, liveEdges_congr (s := s) (t := t) f1 hi]; exact hg.labels.edge_count
      · rw [f10]
        have : t.liveFaces = s.liveFaces := by unfold GMap.liveFaces; rw [f7, f3]
        rw [this]; exact hg.labels.face_count
      · intro x e' hx
        rw [hE] at hx
        cases hs : s.edge x with
        | none => rw [hs] at hx; cases hx
        | some e'' =>
          rw [hs] at hx
          have := hg.labels.pts_ne x e'' hs
          simp only [Option.map_some, Option.some.injEq] at hx
          rw [← hx]
          split_ifs <;> exact this
    refine ⟨MapOK.of_reps G fun h => ?_, ?_, f7, (planarOK_congr hdt hst hlf).mpr, fun _ => ?_⟩
    · obtain ⟨ψ, hc⟩ := (hM.contours (by unfold GMap.initialized at h ⊢; omega)).exists_rep hg
      exact ⟨ψ, by rw [hphi, hphiI]; exact hc.rep, by rw [hlf, f3]; exact hc.lefts, by rw [hlf, f3]; exact hc.faces, by rw [f3]; exact hc.face_zero⟩
    · intro hf h
      rw [hlf]; exact hf (by unfold GMap.initialized at h ⊢; omega)
    · unfold GMap.euler; rw [components_congr hln hst, f8, f9, f10]

theorem removeEdge_step {s : GMap K} (hM : MapOK s) (hP : s.initialized → PlanarOK s) (h : Hooks K) (d : Int) :
    s.removeEdge h d = .precond ∨ ∃ r t, s.removeEdge h d = .ok (r, t) ∧ MapOK t ∧ (FreshOK s → FreshOK t) ∧ t.nFaces = s.nFaces ∧
      (PlanarOK s → PlanarOK t) ∧ (s.initialized → EulerStep s t) := by
  have fin : ∀ {o : Outcome (Option Nat × GMap K)}, (o = .precond ∨ ∃ r t, o = .ok (r, t) ∧ EulerStep s t) →
      (o = .precond ∨ ∃ r t, o = .ok (r, t) ∧ MapOK t ∧ (FreshOK s → FreshOK t) ∧ t.nFaces = s.nFaces ∧ (PlanarOK s → PlanarOK t) ∧ (s.initialized → EulerStep s t)) := by
    rintro o (h | ⟨r, t, h1, h2⟩)
    · exact Or.inl h
    · exact Or.inr ⟨r, t, h1, h2.map, h2.fresh, h2.init, h2.planar, fun _ => h2⟩
  by_cases hi : s.initialized
  · have e : s.removeEdge h d = (s.guaranteedEdge d).bind fun e => if e.leftF = e.rightF then s.removeBridge h d else s.mergeFaces h d := by
      unfold GMap.removeEdge; rw [if_pos hi]; rfl
    rw [e]
    by_cases hd : s.liveD d
    swap
    · rw [guaranteedEdge_dead hd]; exact Or.inl rfl
    obtain ⟨e, he⟩ := liveD_exists hd
    rw [guaranteedEdge_of he, Outcome.bind_ok]
    split_ifs
    · exact fin (removeBridge_step hM hP h d)
    · exact fin (mergeFaces_step hM hP h d)
  · have e : s.removeEdge h d = (s.detachDart d).bind fun s => (s.detachDart (-d)).bind fun s => (s.guaranteedEdge d).bind fun _ => .ok (none, s.uninitEdge d.natAbs) := by
      unfold GMap.removeEdge; rw [if_neg hi]; rfl
    rw [e]
    by_cases hd : s.liveD d
    swap
    · left
      unfold GMap.detachDart GMap.startLabel Outcome.map
      rw [guaranteedEdge_dead hd]; rfl
    obtain ⟨e, he⟩ := liveD_exists hd
    obtain ⟨π, hg⟩ := hM.graph.exists_rep
    have hdL := (hg.live d).mpr hd
    obtain ⟨s1, s2, h1, h2, ⟨node', sg, sgi, h3⟩, G, SL, -, -⟩ := hg.remove hdL he
    right
    have he2 : s2.edge d.natAbs = some e := by rw [h3]; exact he
    refine ⟨none, s2.uninitEdge d.natAbs, by rw [h1, Outcome.bind_ok, h2, Outcome.bind_ok, guaranteedEdge_of he2, Outcome.bind_ok], ?_, ?_, ?_, ?_, ?_⟩
    · exact ⟨G.graphOK, fun h => absurd (by rw [h3] at h; exact h) hi⟩
    · intro hf
      refine hf.of_edges hg.labels.edge_zero G.labels.edge_zero (by rw [h3]; rfl) ?_
      intro l e' hl
      right
      rw [h3] at hl
      simp only [GMap.uninitEdge, GMap.setEdge, Function.update_apply] at hl
      split_ifs at hl
      exact ⟨l, e', hl, rfl, rfl⟩
    · rw [h3]; rfl
    · intro hPs
      unfold PlanarOK
      rw [G.darts_eq]
      exact Jordan.erase hPs hdL (hg.symm d hdL) (hg.ne_zero hdL) (fun x hx => (SL x hx).1) (fun c _ x hx => by rw [(SL x hx).2]) hg.symm
    · exact fun h => absurd h hi

omit [LinearOrder K] in
theorem good_empty : Good (GMap.empty : GMap K) := by
  refine ⟨⟨?_, fun h => absurd h (by simp [GMap.initialized, GMap.empty])⟩, fun _ d => rfl, fun h => absurd h (by simp [GMap.initialized, GMap.empty])⟩
  constructor <;> simp [GMap.empty, GMap.liveNodes, GMap.liveEdges, GMap.liveFaces, GMap.liveD, GMap.startN?]

/-- Every call on a good map returns normally or reports a violated precondition; a map it returns
is good again. -/
theorem call_safe {s : GMap K} (hs : Good s) (h : Hooks K) (op : Op K) (hl : op.legal s) :
    op.run h s = .precond ∨ ∃ t, op.run h s = .ok t ∧ ((¬ s.initialized → t.initialized → PlanarOK t) → Good t) := by
  have fin : ∀ {o : Outcome (GMap K)}, (o = .precond ∨ ∃ t, o = .ok t ∧ EulerStep s t) →
      (o = .precond ∨ ∃ t, o = .ok t ∧ ((¬ s.initialized → t.initialized → PlanarOK t) → Good t)) := by
    rintro o (h | ⟨t, h1, h2⟩)
    · exact Or.inl h
    · exact Or.inr ⟨t, h1, fun _ => h2.good hs⟩
  have mp : ∀ {A : Type} {o : Outcome (A × GMap K)}, (o = .precond ∨ ∃ r t, o = .ok (r, t) ∧ EulerStep s t) →
      (o.map (·.2) = .precond ∨ ∃ t, o.map (·.2) = .ok t ∧ EulerStep s t) := by
    rintro A o (h | ⟨r, t, h1, h2⟩)
    · exact Or.inl (by rw [h]; rfl)
    · exact Or.inr ⟨t, by rw [h1]; rfl, h2⟩
  cases op with
  | addNode p label => exact fin (Or.inr ⟨_, rfl, addNodeAt_step hs.map p label⟩)
  | addEdge a b pts label =>
    obtain ⟨l1, l2, l3⟩ := hl
    rcases addEdge_step hs.map hs.fresh l1 l2 l3 label with e | ⟨t, e, h1, h2, h3⟩
    · left; show (s.addEdge a b pts label).map (·.2) = _; rw [e]; rfl
    · right; exact ⟨t, by show (s.addEdge a b pts label).map (·.2) = _; rw [e]; rfl, fun _ => ⟨h1, h2, fun h => absurd h h3⟩⟩
  | sortEdgesDirectly =>
    by_cases hi : s.initialized
    · left; show s.sortEdgesDirectly = _; unfold GMap.sortEdgesDirectly; rw [if_pos hi]
    · obtain ⟨π, hg⟩ := hs.map.graph.exists_rep
      rcases sortEdgesDirectly_spec hg hi with ⟨e, -⟩ | ⟨t, π', h1, h2, ⟨sg, sgi, h3⟩, -⟩
      · exact Or.inl e
      · right
        have hit : ¬ t.initialized := by rw [h3]; exact hi
        exact ⟨t, h1, fun _ => ⟨⟨h2.graphOK, fun h => absurd h hit⟩, fun _ d => by rw [h3]; exact hs.fresh hi d, fun h => absurd h hit⟩⟩
  | initializeMap pick =>
    by_cases hi : s.initialized
    · left; show s.initializeMap pick = _; unfold GMap.initializeMap; rw [if_pos hi]
    · rcases initializeMap_spec pick hs.map hi hs.fresh with ⟨e, -⟩ | ⟨s1, t, -, h1, h2, h3, -⟩
      · exact Or.inl e
      · exact Or.inr ⟨t, h1, fun hP => ⟨h2, FreshOK.init h3, hP hi⟩⟩
  | removeIsolatedNode n => exact fin (mp (Or.inr (removeIsolatedNode_step hs.map h hl.1 hl.2)))
  | mergeEdges d => exact fin (mp (mergeEdges_step hs.map h d))
  | splitEdge l i np => exact fin (mp (splitEdge_step hs.map l i np))
  | removeBridge d => exact fin (mp (removeBridge_step hs.map hs.planar h d))
  | mergeFaces d => exact fin (mp (mergeFaces_step hs.map hs.planar h d))
  | removeEdge d =>
    rcases removeEdge_step hs.map hs.planar h d with e | ⟨r, t, e, h1, h2, h3, h4, -⟩
    · left; show (s.removeEdge h d).map (·.2) = _; rw [e]; rfl
    · refine Or.inr ⟨t, by show (s.removeEdge h d).map (·.2) = _; rw [e]; rfl, fun _ => ⟨h1, h2 hs.fresh, fun hi => h4 (hs.planar ?_)⟩⟩
      show 0 < s.nFaces
      rw [← h3]; exact hi
  | area f =>
    obtain ⟨x, t, h1, h2, -⟩ := area_step hs.map (f := f) hl
    exact fin (mp (Or.inr ⟨x, t, h1, h2⟩))
  | setFlags l flags => exact fin (setFlags_step hs.map l flags)

omit [Field K] [LinearOrder K] in
/-- Renaming faces keeps a map good if face 0 keeps its label. -/
theorem rename_good {s t : GMap K} (hs : Good s) {new : List Nat} {size : Nat} {lab : Nat → Nat} (h0 : new[0]? = some 0)
    (e : s.changeFaceLabels new size = .ok ⟨true, t, lab⟩) :
    Good t ∧ RenamedBy new size s t ∧ s.initialized ∧ ∀ f, (t.face f).isSome = true → lab f = f := by
  rcases changeFaceLabels_spec hs.map new size with ⟨l, e', -⟩ | ⟨t', l, e', hi, hR, hl⟩
  · rw [e'] at e; cases e
  · rw [e'] at e; cases e
    have hM := hR.mapOK hs.map hi h0
    have hi' : t.initialized := by
      have hz := (hs.map.contours hi).face_zero
      rw [← hR.face hz h0] at hz
      have := hM.graph.face_lt 0 hz
      exact this
    exact ⟨⟨hM, fun h => absurd hi' h, fun _ => hR.planarOK hs.map hi (hs.planar hi)⟩, hR, hi, hl⟩

/-- All reachable maps are good. -/
theorem Reach.good {s : GMap K} (h : Reach s) : Good s := by
  induction h with
  | empty => exact good_empty
  | @call s t hk op _ hl hrun hP ih =>
    rcases call_safe ih hk op hl with e | ⟨t', e, hg⟩
    · rw [e] at hrun; cases hrun
    · rw [e] at hrun; cases hrun
      exact hg hP
  | rename new size _ h0 e ih => exact (rename_good ih h0 e).1

end Verif.GeoMap
