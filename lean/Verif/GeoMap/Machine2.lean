import Verif.GeoMap.Geometry2

/-! # Histories with matching geometry: areas -/

namespace Verif.GeoMap
open Equiv Equiv.Perm Verif.PermLemmas

variable {K : Type} [Field K] [LinearOrder K]

/-- `p` lies on the line through `a` and `b` -/
def OnLine (a b p : Pt K) : Prop := (p.1 - a.1) * (b.2 - a.2) = (p.2 - a.2) * (b.1 - a.1)

/-- the node of an anchor -/
def GMap.anchorNode? (s : GMap K) : GMap.SigmaPos → Option Nat
  | .node n => some n
  | .dart d => s.startN? d

/-- The geometry passed to a call fits the map: the end points of a new edge are the positions of
its end nodes, and a point inserted by `splitEdge` lies on the line through its neighbours. -/
def Op.fits (s : GMap K) : Op K → Prop
  | .addEdge a b pts _ =>
    (∃ n nd, s.anchorNode? a = some n ∧ s.node n = some nd ∧ pts.head? = some nd.pos) ∧
    (∃ n nd, s.anchorNode? b = some n ∧ s.node n = some nd ∧ pts.getLast? = some nd.pos)
  | .splitEdge l i (some p) => ∀ e a b, s.edge l = some e → e.pts[i]? = some a → e.pts[i + 1]? = some b → OnLine a b p
  | _ => True

/-- Reachable with fitting geometry. -/
inductive ReachG : GMap K → Prop
  | empty : ReachG GMap.empty
  | call {s t : GMap K} (h : Hooks K) (op : Op K) : ReachG s → op.legal s → op.fits s → op.run h s = .ok t →
      (planar : ¬ s.initialized → t.initialized → PlanarOK t) → ReachG t
  | rename {s t : GMap K} {lab : Nat → Nat} (new : List Nat) (size : Nat) : ReachG s → new[0]? = some 0 →
      s.changeFaceLabels new size = .ok ⟨true, t, lab⟩ → ReachG t

theorem ReachG.reach {s : GMap K} (h : ReachG s) : Reach s := by
  induction h with
  | empty => exact .empty
  | call h op _ hl _ hr hp ih => exact .call h op ih hl hr hp
  | rename new size _ h0 e ih => exact .rename new size ih h0 e

omit [LinearOrder K] in
theorem area2_insert {pts : List (Pt K)} {i : Nat} {a b p : Pt K} (ha : pts[i]? = some a) (hb : pts[i + 1]? = some b) (h : OnLine a b p) :
    area2 (pts.insertIdx (i + 1) p) = area2 pts := by
  induction i generalizing pts with
  | zero =>
    match pts, ha, hb with
    | x :: y :: l, ha, hb =>
      simp only [List.getElem?_cons_zero, Option.some.injEq, zero_add, List.getElem?_cons_succ] at ha hb
      subst ha hb
      simp only [zero_add, List.insertIdx_succ_cons, List.insertIdx_zero, area2]
      unfold OnLine at h
      linear_combination -h
  | succ i ih =>
    match pts, ha, hb with
    | [x], ha, hb => simp at ha
    | x :: y :: l, ha, hb =>
      simp only [List.getElem?_cons_succ] at ha hb
      have := ih (pts := y :: l) ha hb
      rw [List.insertIdx_succ_cons, List.insertIdx_succ_cons, area2, area2, ← this, List.insertIdx_succ_cons]

/-- end points and cached areas are right -/
structure GoodGeom (s : GMap K) : Prop where
  geom : GeomOK s
  area : AreaOK s

omit [LinearOrder K] in
theorem areaOK_uninit {s : GMap K} (hl : LabelsOK s) (hi : ¬ s.initialized) : AreaOK s := by
  intro f F a hF
  have := hl.face_lt f (by simp [hF])
  unfold GMap.initialized at hi
  omega

omit [LinearOrder K] in
theorem mergeEdges_geom {s : GMap K} (hM : MapOK s) (hG : GoodGeom s) {h : Hooks K} {d : Int} {r : Option Nat} {t : GMap K}
    (e : s.mergeEdges h d = .ok (r, t)) : GoodGeom t := by
  by_cases hp : ¬ s.liveD d ∨ (s.sigma d).natAbs = d.natAbs ∨ s.sigma (s.sigma d) ≠ d
  · rw [mergeEdges_precond h s d hp] at e; cases e
  push Not at hp
  obtain ⟨d1, d2, e1, e2, m, n2, nd, s1, -, hs1, hM1, hD, -, -, heq, hMt⟩ := mergeEdges_spec hM h hp.1 hp.2.1 hp.2.2
  have hG1 : GeomOK s1 := by obtain ⟨f, h⟩ := hs1.eq; rw [h]; exact hG.geom
  have hA1 : AreaOK s1 := by
    intro f F a hF ha
    have h2 : s1.faceSum f = s.faceSum f := by obtain ⟨f', h⟩ := hs1.eq; rw [h]; rfl
    have h3 := hs1.face f
    rw [hF] at h3
    cases hs : s.face f with
    | none => rw [hs] at h3; cases h3
    | some F' =>
      rw [hs] at h3
      simp only [Option.map_some, Option.some.injEq, Prod.mk.injEq] at h3
      rw [h2]; exact hG.area f F' a hs (by rw [← h3.1]; exact ha)
  rw [heq] at e
  split_ifs at e with hv
  · cases e
    obtain ⟨π, hg⟩ := hM1.graph.exists_rep
    refine ⟨hD.geom hg hG1, ?_⟩
    by_cases hi : s1.initialized
    · obtain ⟨ψ, hc⟩ := (hM1.contours hi).exists_rep hg
      intro f F a hF ha
      rw [hD.faceSum hg hc hG1]
      exact hA1 f F a hF ha
    · exact areaOK_uninit hMt.graph.labels hi
  · cases e; exact ⟨hG1, hA1⟩

omit [LinearOrder K] in
theorem splitEdge_geom {s : GMap K} (hM : MapOK s) (hG : GoodGeom s) {l i : Nat} {np : Option (Pt K)} {r : Nat} {t : GMap K}
    (hfit : ∀ p, np = some p → ∀ e a b, s.edge l = some e → e.pts[i]? = some a → e.pts[i + 1]? = some b → OnLine a b p)
    (e : s.splitEdge l i np = .ok (r, t)) : GoodGeom t := by
  cases he : s.edge l with
  | none =>
    unfold GMap.splitEdge GMap.guaranteedEdge at e
    simp [he, bind] at e
  | some ed =>
    have hpts := hM.graph.pts_ne l ed he
    by_cases hi : i < ed.pts.length - 1
    · obtain ⟨cnd, p, hp, hC, heq, hMt⟩ := splitEdge_spec hM he np hi
      rw [heq] at e
      cases e
      obtain ⟨π, hg⟩ := hM.graph.exists_rep
      refine ⟨hC.geom hg hG.geom hi hp, ?_⟩
      have ha : area2 (splitPts ed.pts i np) = area2 ed.pts := by
        cases np with
        | none => rfl
        | some q =>
          exact area2_insert (List.getElem?_eq_getElem (by omega)) (List.getElem?_eq_getElem (by omega))
            (hfit q rfl ed _ _ he (List.getElem?_eq_getElem (by omega)) (List.getElem?_eq_getElem (by omega)))
      intro f F a hF h
      rw [hC.faceSum hg hi hp ha]
      exact hG.area f F a hF h
    · unfold GMap.splitEdge GMap.guaranteedEdge at e
      simp only [Int.natAbs_natCast, he, bind, Outcome.bind_ok, if_neg hpts, hi, not_false_eq_true, if_true] at e
      cases e

theorem removeBridge_geom {s : GMap K} (hs : Good s) (hG : GoodGeom s) {h : Hooks K} {d : Int} {r : Option Nat} {t : GMap K}
    (e : s.removeBridge h d = .ok (r, t)) : GoodGeom t := by
  have hM := hs.map
  by_cases hp : ¬ s.liveD d ∨ ¬ s.initialized ∨ s.left? d ≠ s.left? (-d) ∨ s.startN? d = s.startN? (-d)
  · rw [removeBridge_precond_all hM h d hp] at e; cases e
  push Not at hp
  obtain ⟨hd, hi, hb, hn⟩ := hp
  have hP := hs.planar hi
  obtain ⟨f, F, e', s2, t', gl, hF, he, heq, hR⟩ := removeBridge_spec hM hi h hd hb hn (hP.bridges hM hi d hd hb)
  rw [heq] at e
  split_ifs at e
  · cases e
    exact ⟨hR.geom hG.geom, hR.areaOK hM hi hd hb hF hG.area⟩
  · cases e; exact hG

theorem mergeFaces_geom {s : GMap K} (hs : Good s) (hG : GoodGeom s) {h : Hooks K} {d : Int} {r : Option Nat} {t : GMap K}
    (e : s.mergeFaces h d = .ok (r, t)) : GoodGeom t := by
  have hM := hs.map
  by_cases hp : ¬ s.liveD d ∨ ¬ s.initialized ∨ s.left? d = s.left? (-d)
  · rw [mergeFaces_precond_all hM h d hp] at e; cases e
  push Not at hp
  obtain ⟨hd, hi, hb⟩ := hp
  obtain ⟨r, sl, ml, S, M, a, b, e', s0, s2, t', hr, gl, gr, hml, -, he, hS, hMf, hSa, hMa, hc0, hfr, heq, hR⟩ := mergeFaces_spec hM hi h hd hb
  have hG0 : GeomOK s0 := by obtain ⟨f, h⟩ := hc0.eq; rw [h]; exact hG.geom
  have hA0 := hc0.areaOK hM.graph.labels hG.area
  rw [heq] at e
  split_ifs at e
  · cases e
    have e0 : s0.edge = s.edge := by obtain ⟨f, h⟩ := hc0.eq; rw [h]
    have l0 : s0.left? = s.left? := by unfold GMap.left?; rw [e0]
    have hi0 : s0.initialized := by show 0 < s0.nFaces; rw [hc0.planar.2.2.1]; exact hi
    have hne : sl ≠ ml := by
      intro e'
      apply hb
      rcases hr with h | h
      · rw [h] at gl gr; rw [gl, gr, e']
      · rw [h, neg_neg] at gr; rw [h] at gl; rw [gl, gr, e']
    have hl0 : s0.liveD r := by unfold GMap.liveD; rw [e0, he]; rfl
    exact ⟨hR.geom hG0, hR.areaOK (hc0.mapOK hM) hi0 hl0 (by rw [l0]; exact gl) (by rw [l0]; exact gr) hne hfr.2.1 hfr.2.2 hA0⟩
  · cases e; exact ⟨hG0, hA0⟩

omit [LinearOrder K] in
theorem sameGraph_geom {s t : GMap K} (h : SameGraph s t) (hG : GeomOK s) : GeomOK t := by
  intro l e hl
  have := h.edge l
  rw [hl] at this
  cases hs : s.edge l with
  | none => rw [hs] at this; cases this
  | some e' =>
    rw [hs] at this
    simp only [Option.map_some, Option.some.injEq, Prod.mk.injEq] at this
    obtain ⟨a, b, c, -⟩ := this
    rw [a, b, c, h.node]
    exact hG l e' hs

omit [LinearOrder K] in
theorem addNode_geom {s : GMap K} (hM : MapOK s) (hG : GoodGeom s) (p : Pt K) (label : Nat) : GoodGeom (s.addNodeAt p label).2 := by
  have hl := hM.graph.labels
  have ht : (s.addNodeAt p label).2 = { s with nNodes := max s.nNodes label + 1, node := Function.update s.node (max s.nNodes label) (some ⟨p, 0⟩), nodeCount := s.nodeCount + 1 } := rfl
  rw [ht]
  refine ⟨fun l e he => ?_, fun f F a hF ha => hG.area f F a hF ha⟩
  have he : s.edge l = some e := he
  have := hG.geom l e he
  have key : ∀ n, (s.node n).isSome = true → Function.update s.node (max s.nNodes label) (some ⟨p, 0⟩) n = s.node n := by
    intro n hn
    have := hl.node_lt n hn
    rw [Function.update_of_ne (by omega)]
  obtain ⟨π, hg⟩ := hM.graph.exists_rep
  have hld : s.liveD (l : Int) := by unfold GMap.liveD; simp [he]
  have hlp : l ≠ 0 := by rintro rfl; rw [hl.edge_zero] at he; cases he
  obtain ⟨n, g1, g2, -⟩ := hg.starts (l : Int) ((hg.live _).mpr hld)
  obtain ⟨m, k1, k2, -⟩ := hg.starts (-(l : Int)) (hg.symm _ ((hg.live _).mpr hld))
  have e1 : n = e.startN := by
    have := startN?_of (s := s) (d := (l : Int)) (e := e) (by simpa using he)
    rw [this, Edge.startOf, if_pos (by omega)] at g1
    exact (Option.some.inj g1).symm
  have e2 : m = e.endN := by
    have := startN?_of (s := s) (d := -(l : Int)) (e := e) (by simpa using he)
    rw [this, Edge.startOf, if_neg (by omega)] at k1
    exact (Option.some.inj k1).symm
  subst e1 e2
  show e.pts.head? = (Function.update s.node _ _ _).map _ ∧ e.pts.getLast? = (Function.update s.node _ _ _).map _
  rw [key _ g2, key _ k2]
  exact this

omit [Field K] [LinearOrder K] in
theorem sigmaAnchor_node {s : GMap K} {p : GMap.SigmaPos} {A : GMap.SigmaAnchor} (h : s.sigmaAnchor p = .ok A) :
    s.anchorNode? p = some A.node := by
  cases p with
  | node n =>
    simp only [GMap.sigmaAnchor, bind, Outcome.bind_eq_ok] at h
    obtain ⟨nd, h1, h2⟩ := h
    split_ifs at h2 <;> cases h2 <;> rfl
  | dart d =>
    simp only [GMap.sigmaAnchor, bind, Outcome.bind_eq_ok] at h
    obtain ⟨n, h1, h2⟩ := h
    cases h2
    show s.startN? d = some n
    unfold GMap.startLabel at h1
    unfold GMap.startN?
    cases he : s.edge d.natAbs with
    | none => unfold GMap.guaranteedEdge at h1; simp [he, Outcome.map] at h1
    | some e => rw [guaranteedEdge_of he] at h1; cases h1; rfl

theorem addEdge_geom {s : GMap K} (hM : MapOK s) (hG : GoodGeom s) {a b : GMap.SigmaPos} {pts : List (Pt K)} {label : Nat} {r : Nat} {t : GMap K}
    (hpts : pts ≠ [])
    (hfit : (Op.addEdge a b pts label).fits s)
    (e : s.addEdge a b pts label = .ok (r, t)) : GoodGeom t := by
  by_cases hi : s.initialized
  · unfold GMap.addEdge at e; rw [if_pos hi] at e; cases e
  obtain ⟨π, hg⟩ := hM.graph.exists_rep
  cases hA : s.sigmaAnchor a with
  | ok A =>
    cases hB : s.sigmaAnchor b with
    | ok B =>
      obtain ⟨t', π', h1, h2, ⟨sg, sgi, node', h3, h4⟩⟩ := addEdge_spec hg hi hA hB hpts label
      rw [h1] at e
      cases e
      obtain ⟨⟨n, nd, f1, f2, f3⟩, ⟨n', nd', f1', f2', f3'⟩⟩ := hfit
      rw [sigmaAnchor_node hA] at f1
      rw [sigmaAnchor_node hB] at f1'
      cases f1; cases f1'
      refine ⟨fun l e he => ?_, areaOK_uninit h2.labels (by rw [h3]; exact hi)⟩
      rw [h3] at he ⊢
      simp only [Function.update_apply] at he
      show _ = (node' _).map _ ∧ _ = (node' _).map _
      rw [h4, h4]
      split_ifs at he with hl
      · cases he
        simp only [f2, f2', f3, f3', Option.map_some, and_self]
      · exact hG.geom l e he
    | _ => unfold GMap.addEdge at e; rw [if_neg hi] at e; simp [bind, hA, hB, Outcome.bind] at e
  | _ => unfold GMap.addEdge at e; rw [if_neg hi] at e; simp [bind, hA, Outcome.bind] at e

omit [LinearOrder K] in
theorem removeIsolatedNode_geom {s : GMap K} (hM : MapOK s) (hG : GoodGeom s) {h : Hooks K} {n : Nat} (hn : (s.node n).isSome = true)
    (hiso : ∀ d, s.startN? d ≠ some n) {r : Bool} {t : GMap K} (e : s.removeIsolatedNode h n = .ok (r, t)) : GoodGeom t := by
  obtain ⟨π, hg⟩ := hM.graph.exists_rep
  obtain ⟨nd, hnd⟩ := Option.isSome_iff_exists.mp hn
  have ha : nd.anchor = 0 := by
    by_contra ha
    exact hiso _ (hM.graph.anchor_start n nd hnd ha)
  rw [removeIsolatedNode_of (hg.labels.node_lt n hn) hnd] at e
  cases e
  split_ifs with hv
  · refine ⟨hG.geom.of_sub (hg.uninitNode hnd ha).graphOK (fun l e he => ⟨e, he, rfl, rfl, rfl⟩) ?_, hG.area⟩
    intro m md hm
    simp only [GMap.uninitNode, GMap.setNode, Function.update_apply] at hm
    split_ifs at hm
    exact ⟨md, hm, rfl⟩
  · exact hG

theorem removeEdge_geom {s : GMap K} (hs : Good s) (hG : GoodGeom s) {h : Hooks K} {d : Int} {r : Option Nat} {t : GMap K}
    (e : s.removeEdge h d = .ok (r, t)) : GoodGeom t := by
  have hM := hs.map
  by_cases hd : s.liveD d
  swap
  · exfalso
    by_cases hi : s.initialized
    · have q : s.removeEdge h d = (s.guaranteedEdge d).bind fun e => if e.leftF = e.rightF then s.removeBridge h d else s.mergeFaces h d := by
        unfold GMap.removeEdge; rw [if_pos hi]; rfl
      rw [q, guaranteedEdge_dead hd] at e; cases e
    · have q : s.removeEdge h d = (s.detachDart d).bind fun s => (s.detachDart (-d)).bind fun s => (s.guaranteedEdge d).bind fun _ => .ok (none, s.uninitEdge d.natAbs) := by
        unfold GMap.removeEdge; rw [if_neg hi]; rfl
      rw [q] at e
      unfold GMap.detachDart GMap.startLabel Outcome.map at e
      rw [guaranteedEdge_dead hd] at e
      cases e
  obtain ⟨ed, he⟩ := liveD_exists hd
  by_cases hi : s.initialized
  · have q : s.removeEdge h d = (s.guaranteedEdge d).bind fun e => if e.leftF = e.rightF then s.removeBridge h d else s.mergeFaces h d := by
      unfold GMap.removeEdge; rw [if_pos hi]; rfl
    rw [q, guaranteedEdge_of he, Outcome.bind_ok] at e
    split_ifs at e
    · exact removeBridge_geom hs hG e
    · exact mergeFaces_geom hs hG e
  · have q : s.removeEdge h d = (s.detachDart d).bind fun s => (s.detachDart (-d)).bind fun s => (s.guaranteedEdge d).bind fun _ => .ok (none, s.uninitEdge d.natAbs) := by
      unfold GMap.removeEdge; rw [if_neg hi]; rfl
    obtain ⟨π, hg⟩ := hM.graph.exists_rep
    obtain ⟨s1, s2, h1, h2, ⟨node', sg, sgi, h3⟩, G, SL, hn', -⟩ := hg.remove ((hg.live d).mpr hd) he
    have he2 : s2.edge d.natAbs = some ed := by rw [h3]; exact he
    rw [q, h1, Outcome.bind_ok, h2, Outcome.bind_ok, guaranteedEdge_of he2, Outcome.bind_ok] at e
    cases e
    refine ⟨hG.geom.of_sub G.graphOK ?_ ?_, areaOK_uninit G.labels (by rw [h3]; exact hi)⟩
    · intro l e' hl
      rw [h3] at hl
      simp only [GMap.uninitEdge, GMap.setEdge, Function.update_apply] at hl
      split_ifs at hl
      exact ⟨e', hl, rfl, rfl, rfl⟩
    · intro n nd hnd
      have hnd : s2.node n = some nd := hnd
      have := hn' n
      rw [hnd] at this
      cases hs : s.node n with
      | none => rw [hs] at this; cases this
      | some nd' =>
        rw [hs] at this
        exact ⟨nd', rfl, (Option.some.inj this).symm⟩

/-- Every fitting call keeps end points and areas right. -/
theorem call_geom {s t : GMap K} (hs : Good s) (hG : GoodGeom s) (h : Hooks K) (op : Op K) (hl : op.legal s) (hf : op.fits s)
    (e : op.run h s = .ok t) (hP : ¬ s.initialized → t.initialized → PlanarOK t) : GoodGeom t := by
  have mp : ∀ {A : Type} {o : Outcome (A × GMap K)}, o.map (·.2) = .ok t → ∃ r, o = .ok (r, t) := by
    intro A o h
    cases o with
    | ok x => obtain ⟨r, x⟩ := x; cases h; exact ⟨r, rfl⟩
    | _ => cases h
  cases op with
  | addNode p label => cases e; exact addNode_geom hs.map hG p label
  | addEdge a b pts label => obtain ⟨r, e⟩ := mp e; exact addEdge_geom hs.map hG hl.1 hf e
  | sortEdgesDirectly =>
    have e : s.sortEdgesDirectly = .ok t := e
    by_cases hi : s.initialized
    · unfold GMap.sortEdgesDirectly at e; rw [if_pos hi] at e; cases e
    · obtain ⟨π, hg⟩ := hs.map.graph.exists_rep
      rcases sortEdgesDirectly_spec hg hi with ⟨e', -⟩ | ⟨t', π', h1, h2, ⟨sg, sgi, h3⟩, -⟩
      · rw [e'] at e; cases e
      · rw [h1] at e; cases e
        exact ⟨by rw [h3]; exact hG.geom, areaOK_uninit h2.labels (by rw [h3]; exact hi)⟩
  | initializeMap pick =>
    have e : s.initializeMap pick = .ok t := e
    by_cases hi : s.initialized
    · unfold GMap.initializeMap at e; rw [if_pos hi] at e; cases e
    · rcases initializeMap_spec pick hs.map hi hs.fresh with ⟨e', -⟩ | ⟨s1, t', h0, h1, h2, h3, h4, h5, -⟩
      · rw [e'] at e; cases e
      · rw [h1] at e; cases e
        refine ⟨sameGraph_geom h4 ?_, h5 (fun d hd hb => (hP hi h3).bridges h2 h3 d hd hb)⟩
        rcases h0 with ⟨-, h0⟩ | ⟨-, h0⟩
        · rw [h0]; exact hG.geom
        · obtain ⟨π, hg⟩ := hs.map.graph.exists_rep
          rcases sortEdgesDirectly_spec hg hi with ⟨e', -⟩ | ⟨t', π', k1, k2, ⟨sg, sgi, k3⟩, -⟩
          · rw [e'] at h0; cases h0
          · rw [k1] at h0; cases h0; rw [k3]; exact hG.geom
  | removeIsolatedNode n => obtain ⟨r, e⟩ := mp e; exact removeIsolatedNode_geom hs.map hG hl.1 hl.2 e
  | mergeEdges d => obtain ⟨r, e⟩ := mp e; exact mergeEdges_geom hs.map hG e
  | splitEdge l i np =>
    obtain ⟨r, e⟩ := mp e
    refine splitEdge_geom hs.map hG ?_ e
    rintro p rfl
    exact hf
  | removeBridge d => obtain ⟨r, e⟩ := mp e; exact removeBridge_geom hs hG e
  | mergeFaces d => obtain ⟨r, e⟩ := mp e; exact mergeFaces_geom hs hG e
  | removeEdge d => obtain ⟨r, e⟩ := mp e; exact removeEdge_geom hs hG e
  | area f =>
    obtain ⟨r, e⟩ := mp e
    obtain ⟨x, t', h1, -, h2⟩ := area_step hs.map (f := f) hl
    rw [h1] at e; cases e
    exact ⟨by obtain ⟨f, h⟩ := h2.eq; rw [h]; exact hG.geom, h2.areaOK hs.map.graph.labels hG.area⟩
  | setFlags l flags =>
    have e : s.setFlags l flags = .ok t := e
    unfold GMap.setFlags GMap.guaranteedEdge at e
    cases he : s.edge l with
    | none => simp [he, bind] at e
    | some ed =>
      simp only [Int.natAbs_natCast, he, bind, Outcome.bind_ok] at e
      cases e
      have hE : ∀ x, (s.setEdge l (some { ed with flags := flags })).edge x = (s.edge x).map fun e' => if x = l then { e' with flags := flags } else e' := by
        intro x
        simp only [GMap.setEdge, Function.update_apply]
        by_cases hx : x = l
        · rw [hx, he]; simp
        · simp [hx]
      refine ⟨fun x e' hx => ?_, fun f F a hF ha => ?_⟩
      · rw [hE] at hx
        cases hs : s.edge x with
        | none => rw [hs] at hx; cases hx
        | some e0 =>
          rw [hs] at hx
          simp only [Option.map_some, Option.some.injEq] at hx
          have := hG.geom x e0 hs
          split_ifs at hx <;> subst hx <;> exact this
      · rw [hG.area f F a hF ha]
        obtain ⟨t, ht⟩ : ∃ t, t = s.setEdge l (some { ed with flags := flags }) := ⟨_, rfl⟩
        have hn : t.nEdges = s.nEdges := by rw [ht]; rfl
        rw [← ht] at hE ⊢
        have q1 : ∀ d, t.left? d = s.left? d := by
          intro d
          unfold GMap.left?
          rw [hE]
          cases s.edge d.natAbs with
          | none => rfl
          | some e0 =>
            simp only [Option.map_some]
            split_ifs <;> rfl
        have q2 : ∀ d, t.dartArea d = s.dartArea d := by
          intro d
          unfold GMap.dartArea
          rw [hE]
          cases s.edge d.natAbs with
          | none => rfl
          | some e0 =>
            simp only [Option.map_some]
            split_ifs <;> rfl
        have q3 : t.darts = s.darts := by
          unfold GMap.darts
          rw [hn]
          have : ∀ x, (t.edge x).isSome = (s.edge x).isSome := by intro x; rw [hE]; simp
          simp only [this]
        unfold GMap.faceSum GMap.leftDarts
        rw [q3]
        simp only [q1, q2]

omit [LinearOrder K] in
theorem RenamedBy.geom {s t : GMap K} {new : List Nat} {size : Nat} (h : RenamedBy new size s t) (hM : MapOK s) (hi : s.initialized)
    (hM' : MapOK t) (hG : GoodGeom s) : GoodGeom t := by
  have hsame : ∀ l e, t.edge l = some e → ∃ e', s.edge l = some e' ∧ e.pts = e'.pts ∧ e.startN = e'.startN ∧ e.endN = e'.endN := by
    intro l e he
    rw [h.edges] at he
    obtain ⟨e', h1, rfl⟩ := Option.map_eq_some_iff.mp he
    exact ⟨e', h1, rfl, rfl, rfl⟩
  have harea : ∀ d, t.dartArea d = s.dartArea d := by
    intro d
    unfold GMap.dartArea
    rw [h.edges]
    cases s.edge d.natAbs <;> rfl
  refine ⟨fun l e he => ?_, fun f F a hF ha => ?_⟩
  · obtain ⟨e', h1, h2, h3, h4⟩ := hsame l e he
    rw [h2, h3, h4, h.sigma.2.2.1]
    exact hG.geom l e' h1
  · obtain ⟨l, h1, h2⟩ := (h.faces f F).mp hF
    rw [hG.area l F a h1 ha]
    unfold GMap.faceSum
    have : t.leftDarts f = s.leftDarts l := by
      ext d
      rw [mem_leftDarts hM'.graph.labels, mem_leftDarts hM.graph.labels]
      exact h.left_iff hM hi (by simp [h1]) h2 d
    rw [this]
    exact Finset.sum_congr rfl fun d _ => (harea d).symm

/-- All maps reachable with fitting geometry have right end points and right cached areas. -/
theorem ReachG.geom {s : GMap K} (h : ReachG s) : GoodGeom s := by
  induction h with
  | empty => exact ⟨fun l e h => (by cases h), fun f F a h => (by cases h)⟩
  | call hk op h0 hl hf hr hp ih => exact call_geom h0.reach.good ih hk op hl hf hr hp
  | rename new size h0 hz e ih =>
    obtain ⟨h1, h2, h3, -⟩ := rename_good h0.reach.good hz e
    exact h2.geom h0.reach.good.map h3 h1.map ih

end Verif.GeoMap
