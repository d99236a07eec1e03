import Verif.EdgeCache.Spec
import Verif.Polygon.Caches
import Verif.GeoMap.PropLemmas

/-! # Lemmas: every operation keeps the caches of edges right -/

namespace Verif.EdgeCache
open Verif Verif.GeoMap Verif.Polygon

variable {K : Type} [Field K] [LinearOrder K] {dist : Pt K → Pt K → K}

/-- the caches of a polygon are right -/
structure CachesOK (dist : Pt K → Pt K → K) (p : Poly K) : Prop where
  len : LenOK dist p
  area : Polygon.AreaOK p
  box : BoxOK p

theorem CachesOK.call (hs : ∀ p q, dist q p = dist p q) {p p' : Poly K} {c : Call K} (hp : CachesOK dist p)
    (ho : ∀ q, c.other = some q → CachesOK dist q) (hf : Fits p c) (hc : c ≠ .clear) (ha : AreaSafe p c) (hb : BoxSafe p c)
    (h : c.run dist p = .ok p') : CachesOK dist p' :=
  ⟨lenOK_call hs hp.len (fun q hq => (ho q hq).len) hf hc h, areaOK_call hp.area (fun q hq => (ho q hq).area) hf ha h,
    boxOK_call hp.box (fun q hq => (ho q hq).box) hf hb h⟩

theorem cachesOK_none (pts : List (Pt K)) : CachesOK dist ⟨pts, none, none, none⟩ :=
  ⟨(by intro _ h; cases h), (by intro _ h; cases h), (by intro _ h; cases h)⟩

omit [Field K] [LinearOrder K] in
/-- operations that touch points of edges -/
def touches : Op K → Bool
  | .addEdge _ _ _ _ => true
  | .mergeEdges _ => true
  | .splitEdge _ _ _ => true
  | _ => false

theorem removeBridge_pts {s t : GMap K} (hs : Good s) {h : Hooks K} {d : Int} {r : Option Nat} (e : s.removeBridge h d = .ok (r, t))
    {l : Nat} {x : Edge K} (hx : t.edge l = some x) : ∃ y, s.edge l = some y ∧ x.pts = y.pts := by
  cases r with
  | none => rw [removeBridge_vetoed hs e] at hx; exact ⟨x, hx, rfl⟩
  | some f =>
    have E := removeBridge_effect hs e
    have hl : l ≠ d.natAbs := by
      rintro rfl
      exact E.edge_gone.2 (liveD_edge hx)
    exact ⟨x, by rw [← E.edges l hl]; exact hx, rfl⟩

theorem mergeFaces_pts {s t : GMap K} (hs : Good s) {h : Hooks K} {d : Int} {r : Option Nat} (e : s.mergeFaces h d = .ok (r, t))
    {l : Nat} {x : Edge K} (hx : t.edge l = some x) : ∃ y, s.edge l = some y ∧ x.pts = y.pts := by
  cases r with
  | none =>
    obtain ⟨f, hf⟩ := (mergeFaces_vetoed hs.map e).eq
    rw [hf] at hx; exact ⟨x, hx, rfl⟩
  | some f =>
    obtain ⟨ml, E⟩ := mergeFaces_effect hs e
    have hl : l ≠ d.natAbs := by
      rintro rfl
      exact E.edge_gone.2 (liveD_edge hx)
    have := E.edges l hl
    rw [hx] at this
    obtain ⟨y, h1, h2⟩ := Option.map_eq_some_iff.mp this.symm
    simp only [Prod.mk.injEq] at h2
    exact ⟨y, h1, h2.2.2.1.symm⟩

/-- The other operations leave the points of all edges alone. -/
theorem op_pts {s t : GMap K} (hs : Good s) {h : Hooks K} {op : Op K} (hl : op.legal s) (ht : touches op = false) (e : op.run h s = .ok t)
    {l : Nat} {x : Edge K} (hx : t.edge l = some x) : ∃ y, s.edge l = some y ∧ x.pts = y.pts := by
  have mp : ∀ {A : Type} {o : Outcome (A × GMap K)}, o.map (·.2) = .ok t → ∃ r, o = .ok (r, t) := by
    intro A o h
    cases o with
    | ok x => obtain ⟨r, x⟩ := x; cases h; exact ⟨r, rfl⟩
    | _ => cases h
  cases op with
  | addNode p label => cases e; exact ⟨x, hx, rfl⟩
  | addEdge a b pts label => cases ht
  | mergeEdges d => cases ht
  | splitEdge l i np => cases ht
  | sortEdgesDirectly =>
    have e : s.sortEdgesDirectly = .ok t := e
    by_cases hi : s.initialized
    · unfold GMap.sortEdgesDirectly at e; rw [if_pos hi] at e; cases e
    · obtain ⟨π, hg⟩ := hs.map.graph.exists_rep
      rcases sortEdgesDirectly_spec hg hi with ⟨e', -⟩ | ⟨t', π', h1, h2, ⟨sg, sgi, h3⟩, -⟩
      · rw [e'] at e; cases e
      · rw [h1] at e; cases e
        rw [h3] at hx; exact ⟨x, hx, rfl⟩
  | initializeMap pick =>
    have e : s.initializeMap pick = .ok t := e
    by_cases hi : s.initialized
    · unfold GMap.initializeMap at e; rw [if_pos hi] at e; cases e
    · rcases initializeMap_spec pick hs.map hi hs.fresh with ⟨e', -⟩ | ⟨s1, t', h0, h1, h2, h3, h4, h5, -⟩
      · rw [e'] at e; cases e
      · rw [h1] at e; cases e
        have h6 : s1.edge = s.edge := by
          rcases h0 with ⟨-, h0⟩ | ⟨-, h0⟩
          · rw [h0]
          · obtain ⟨π, hg⟩ := hs.map.graph.exists_rep
            rcases sortEdgesDirectly_spec hg hi with ⟨e', -⟩ | ⟨t', π', k1, k2, ⟨sg, sgi, k3⟩, -⟩
            · rw [e'] at h0; cases h0
            · rw [k1] at h0; cases h0; rw [k3]
        have := h4.edge l
        rw [hx, h6] at this
        obtain ⟨y, h1, h2⟩ := Option.map_eq_some_iff.mp this.symm
        simp only [Prod.mk.injEq] at h2
        exact ⟨y, h1, h2.2.2.1.symm⟩
  | removeIsolatedNode n =>
    obtain ⟨r, e⟩ := mp e
    obtain ⟨nd, hnd⟩ := Option.isSome_iff_exists.mp hl.1
    obtain ⟨π, hg⟩ := hs.map.graph.exists_rep
    rw [removeIsolatedNode_of (hg.labels.node_lt n hl.1) hnd] at e
    cases e
    split_ifs at hx <;> exact ⟨x, hx, rfl⟩
  | removeBridge d => obtain ⟨r, e⟩ := mp e; exact removeBridge_pts hs e hx
  | mergeFaces d => obtain ⟨r, e⟩ := mp e; exact mergeFaces_pts hs e hx
  | removeEdge d =>
    obtain ⟨r, e⟩ := mp e
    by_cases hi : s.initialized
    · have q : s.removeEdge h d = (s.guaranteedEdge d).bind fun e => if e.leftF = e.rightF then s.removeBridge h d else s.mergeFaces h d := by
        unfold GMap.removeEdge; rw [if_pos hi]; rfl
      rw [q] at e
      obtain ⟨ed, -, e⟩ := Outcome.bind_eq_ok.mp e
      split_ifs at e
      · exact removeBridge_pts hs e hx
      · exact mergeFaces_pts hs e hx
    · have q : s.removeEdge h d = (s.detachDart d).bind fun s => (s.detachDart (-d)).bind fun s => (s.guaranteedEdge d).bind fun _ => .ok (none, s.uninitEdge d.natAbs) := by
        unfold GMap.removeEdge; rw [if_neg hi]; rfl
      by_cases hd : s.liveD d
      swap
      · rw [q] at e
        unfold GMap.detachDart GMap.startLabel Outcome.map at e
        rw [guaranteedEdge_dead hd] at e
        cases e
      obtain ⟨ed, he⟩ := liveD_exists hd
      obtain ⟨π, hg⟩ := hs.map.graph.exists_rep
      obtain ⟨s1, s2, h1, h2, ⟨node', sg, sgi, h3⟩, G, SL, hn', -⟩ := hg.remove ((hg.live d).mpr hd) he
      have he2 : s2.edge d.natAbs = some ed := by rw [h3]; exact he
      rw [q, h1, Outcome.bind_ok, h2, Outcome.bind_ok, guaranteedEdge_of he2, Outcome.bind_ok] at e
      cases e
      rw [h3] at hx
      simp only [GMap.uninitEdge, GMap.setEdge, Function.update_apply] at hx
      split_ifs at hx
      exact ⟨x, hx, rfl⟩
  | area f =>
    obtain ⟨r, e⟩ := mp e
    obtain ⟨y, t', h1, -, h2⟩ := area_step hs.map (f := f) hl
    rw [h1] at e; cases e
    obtain ⟨f, h⟩ := h2.eq
    rw [h] at hx; exact ⟨x, hx, rfl⟩
  | setFlags k flags =>
    have e : s.setFlags k flags = .ok t := e
    unfold GMap.setFlags GMap.guaranteedEdge at e
    cases he : s.edge k with
    | none => simp [he, bind] at e
    | some ed =>
      simp only [Int.natAbs_natCast, he, bind, Outcome.bind_ok] at e
      cases e
      simp only [GMap.setEdge, Function.update_apply] at hx
      split_ifs at hx with hk
      · cases hx; exact ⟨ed, by rw [hk]; exact he, rfl⟩
      · exact ⟨x, hx, rfl⟩

/-- the invariant -/
structure Inv (dist : Pt K → Pt K → K) (c : State K) : Prop where
  reach : ReachG c.map
  edges : ∀ l e, c.map.edge l = some e → (c.poly l).pts = e.pts ∧ CachesOK dist (c.poly l)

omit [Field K] [LinearOrder K] in
/-- the edges that meet at a node of degree 2 fit together -/
theorem concat_fits {s : GMap K} (hG : GeomOK s) (hne : ∀ l e, s.edge l = some e → e.pts ≠ []) {l1 l2 : Nat} {e1 e2 : Edge K} {m : Nat}
    (h1 : s.edge l1 = some e1) (h2 : s.edge l2 = some e2)
    (m1 : e1.startN = m ∨ e1.endN = m) (m2 : e2.startN = m ∨ e2.endN = m) {p q : Poly K} (hp : p.pts = e1.pts) (hq : q.pts = e2.pts) :
    Fits p (.concatenate q (concatArgs e1 e2 m).1 (concatArgs e1 e2 m).2) := by
  have g1 := hG l1 e1 h1
  have g2 := hG l2 e2 h2
  refine ⟨by rw [hp]; exact hne _ _ h1, by rw [hq]; exact hne _ _ h2, ?_⟩
  rw [hp, hq]
  by_cases h : e1.startN = m
  · have hc : concatArgs e1 e2 m = (false, decide (e2.startN = m)) := by unfold concatArgs; rw [if_neg (by simpa using h)]
    rw [hc]
    simp only [Bool.false_eq_true, if_false, decide_eq_true_eq]
    rw [g1.1, h]
    split_ifs with h'
    · rw [g2.1, h']
    · rw [g2.2, m2.resolve_left h']
  · have hc : concatArgs e1 e2 m = (true, decide (e2.startN ≠ m)) := by unfold concatArgs; rw [if_pos h]
    rw [hc]
    simp only [if_true, decide_eq_true_eq]
    rw [g1.2, m1.resolve_left h]
    split_ifs with h'
    · rw [g2.2, m2.resolve_left h']
    · rw [g2.1, not_not.mp h']

omit [Field K] [LinearOrder K] in
theorem startOf_cases (e : Edge K) (d : Int) : e.startN = e.startOf d ∨ e.endN = e.startOf d := by
  unfold Edge.startOf
  split_ifs <;> simp

omit [Field K] [LinearOrder K] in
theorem concat_pts (e1 e2 : Edge K) (m n2 : Nat) :
    (GMap.mergedGeometry e1 e2 m n2).pts = concatPts e1.pts e2.pts (concatArgs e1 e2 m).1 (concatArgs e1 e2 m).2 := by
  unfold GMap.mergedGeometry concatArgs
  split_ifs <;> rfl

/-- The operations with caches return exactly when the operations return, with the same map; the invariant is kept. -/
theorem run_ok (hs : ∀ p q, dist q p = dist p q) {c : State K} (hI : Inv dist c) (h : Hooks K) {op : Op K} (hl : op.legal c.map)
    {t : GMap K} (e : op.run h c.map = .ok t) :
    ∃ c', c.run dist h op = .ok c' ∧ c'.map = t ∧ ∀ l x, t.edge l = some x → (c'.poly l).pts = x.pts ∧ CachesOK dist (c'.poly l) := by
  have hM := hI.reach.reach.good.map
  have hG := hI.reach.geom.geom
  have mp : ∀ {A : Type} {o : Outcome (A × GMap K)}, o.map (·.2) = .ok t → ∃ r, o = .ok (r, t) := by
    intro A o h
    cases o with
    | ok x => obtain ⟨r, x⟩ := x; cases h; exact ⟨r, rfl⟩
    | _ => cases h
  have other : touches op = false → c.run dist h op = (op.run h c.map).map (fun t => ⟨t, c.poly⟩) →
      ∃ c', c.run dist h op = .ok c' ∧ c'.map = t ∧ ∀ l x, t.edge l = some x → (c'.poly l).pts = x.pts ∧ CachesOK dist (c'.poly l) := by
    intro h1 h2
    refine ⟨⟨t, c.poly⟩, by rw [h2, e]; rfl, rfl, fun l x hx => ?_⟩
    obtain ⟨y, h3, h4⟩ := op_pts hI.reach.reach.good hl h1 e hx
    rw [h4]; exact hI.edges l y h3
  cases op with
  | addEdge a b pts label =>
    obtain ⟨r, e⟩ := mp e
    refine ⟨⟨t, Function.update c.poly r (Poly.ofPoints pts)⟩, by simp only [State.run, e, bind, Outcome.bind_ok], rfl, fun l x hx => ?_⟩
    by_cases hi : c.map.initialized
    · unfold GMap.addEdge at e; rw [if_pos hi] at e; cases e
    obtain ⟨π, hg⟩ := hM.graph.exists_rep
    cases hA : c.map.sigmaAnchor a with
    | ok A =>
      cases hB : c.map.sigmaAnchor b with
      | ok B =>
        obtain ⟨t', π', h1, h2, ⟨sg, sgi, node', h3, h4⟩⟩ := addEdge_spec hg hi hA hB hl.1 label
        rw [h1] at e
        cases e
        rw [h3] at hx
        simp only [Function.update_apply] at hx ⊢
        split_ifs at hx ⊢ with hk
        · cases hx; exact ⟨rfl, cachesOK_none _⟩
        · exact hI.edges l x hx
      | _ => unfold GMap.addEdge at e; rw [if_neg hi] at e; simp [bind, hA, hB, Outcome.bind] at e
    | _ => unfold GMap.addEdge at e; rw [if_neg hi] at e; simp [bind, hA, Outcome.bind] at e
  | mergeEdges d =>
    obtain ⟨r, e⟩ := mp e
    by_cases hp : ¬ c.map.liveD d ∨ (c.map.sigma d).natAbs = d.natAbs ∨ c.map.sigma (c.map.sigma d) ≠ d
    · rw [mergeEdges_precond h c.map d hp] at e; cases e
    push Not at hp
    obtain ⟨d1, d2, e1, e2, m, n2, nd, s1, hor, hs1, hM1, hD, -, -, heq, hMt⟩ := mergeEdges_spec hM h hp.1 hp.2.1 hp.2.2
    obtain ⟨f1, hf1⟩ := hs1.eq
    have q : s1.edge = c.map.edge := by rw [hf1]
    have he1 : c.map.edge d1.natAbs = some e1 := by rw [← q]; exact hD.he1
    have he2 : c.map.edge d2.natAbs = some e2 := by rw [← q]; exact hD.he2
    obtain ⟨π, hg⟩ := hM1.graph.exists_rep
    have m1 : e1.startOf d1 = m := by
      have := (hD.facts hg).2.2.2.2.2.2.1
      rw [startN?_of hD.he1] at this
      exact Option.some.inj this
    have hst : c.map.startLabel d = .ok m := by
      have m2 := hD.hm
      unfold GMap.startLabel
      rcases hor with ⟨rfl, -⟩ | ⟨-, rfl⟩
      · rw [guaranteedEdge_of he1]; simp [Outcome.map, m1]
      · rw [guaranteedEdge_of he2]; simp [Outcome.map, m2]
    rw [heq] at e
    split_ifs at e with hv
    · cases e
      have hk : mergedLabel c.map d d1.natAbs = d2.natAbs := by
        unfold mergedLabel
        rcases hor with ⟨rfl, rfl⟩ | ⟨rfl, rfl⟩
        · rw [if_pos rfl]
        · rw [if_neg hD.hn]
      have g1 : c.map.guaranteedEdge (d1.natAbs : Int) = .ok e1 := guaranteedEdge_of (by rw [Int.natAbs_natCast]; exact he1)
      have g2 : c.map.guaranteedEdge (d2.natAbs : Int) = .ok e2 := guaranteedEdge_of (by rw [Int.natAbs_natCast]; exact he2)
      refine ⟨⟨mergedState s1 d1 d2 e1 e2 m n2 nd, Function.update c.poly d1.natAbs ((c.poly d1.natAbs).concatenate dist (c.poly d2.natAbs)
        (concatArgs e1 e2 m).1 (concatArgs e1 e2 m).2)⟩, ?_, rfl, fun l x hx => ?_⟩
      · simp only [State.run, hst, bind, Outcome.bind_ok, heq, if_pos hv, hk, g1, g2]
      · simp only [mergedState, Function.update_apply, q] at hx ⊢
        split_ifs at hx ⊢ with k1 k2
        · cases hx
          obtain ⟨p1, c1⟩ := hI.edges _ _ he1
          obtain ⟨p2, c2⟩ := hI.edges _ _ he2
          refine ⟨?_, CachesOK.call hs c1 (c := .concatenate (c.poly d2.natAbs) (concatArgs e1 e2 m).1 (concatArgs e1 e2 m).2) ?_ ?_ (by simp) trivial trivial rfl⟩
          · rw [concat_pts]
            simp only [Poly.concatenate, p1, p2]
          · rintro q' hq'; cases hq'; exact c2
          · exact concat_fits hG hM.graph.pts_ne he1 he2 (m1 ▸ startOf_cases e1 d1) (hD.hm ▸ startOf_cases e2 d2) p1 p2
        · exact hI.edges l x hx
    · cases e
      refine ⟨⟨t, c.poly⟩, ?_, rfl, fun l x hx => hI.edges l x (by rw [← q]; exact hx)⟩
      simp only [State.run, hst, bind, Outcome.bind_ok, heq, if_neg hv]
  | splitEdge l i np =>
    obtain ⟨r, e⟩ := mp e
    have E := splitEdge_effect hM e
    obtain ⟨x, x1, x2, h1, h2, h3, h4, h5, -⟩ := E.halves
    obtain ⟨p1, c1⟩ := hI.edges l x h1
    have hi : i < x.pts.length - 1 := by
      by_contra hi
      unfold GMap.splitEdge GMap.guaranteedEdge at e
      simp only [Int.natAbs_natCast, h1, bind, Outcome.bind_ok, if_neg (hM.graph.pts_ne l x h1), hi, not_false_eq_true, if_true] at e
      cases e
    obtain ⟨p, i1, i2, i3⟩ : ∃ p, insertNew dist (c.poly l) i np = .ok p ∧ p.pts = splitPts x.pts i np ∧ CachesOK dist p := by
      cases np with
      | none => exact ⟨_, rfl, p1, c1⟩
      | some y =>
        refine ⟨_, by simp only [insertNew, Poly.insert]; rw [if_pos (show i + 1 ≤ (c.poly l).pts.length by rw [p1]; omega)], by simp only [splitPts, p1], ?_⟩
        refine CachesOK.call hs c1 (c := .insert (i + 1) y) (by rintro q hq; cases hq) trivial (by simp) trivial trivial ?_
        simp only [Call.run, Poly.insert]; rw [if_pos (show i + 1 ≤ (c.poly l).pts.length by rw [p1]; omega)]
    have hget : p.pts[splitIdx i np]?.isSome = true := by
      rw [i2]
      obtain ⟨y, nd, g1, -⟩ := E.node_new
      rw [h1] at g1
      have g1 : (splitPts x.pts i np)[splitIdx i np]? = some y := g1
      rw [g1]; rfl
    obtain ⟨y, hy⟩ := Option.isSome_iff_exists.mp hget
    obtain ⟨keep, rest, s1, s2, s3, s4, s5⟩ : ∃ keep rest, p.split (splitIdx i np) = .ok (keep, rest) ∧ keep.pts = p.pts.take (splitIdx i np + 1) ∧
        rest.pts = p.pts.drop (splitIdx i np) ∧ CachesOK dist keep ∧ CachesOK dist rest := by
      have hc : ∀ (call : Call K) (p' : Poly K), call = .splitKeep (splitIdx i np) ∨ call = .splitRest (splitIdx i np) → call.run dist p = .ok p' → CachesOK dist p' := by
        rintro call p' (rfl | rfl) hr
        · exact CachesOK.call hs i3 (c := .splitKeep (splitIdx i np)) (by rintro q hq; cases hq) trivial (by simp) trivial trivial hr
        · exact CachesOK.call hs i3 (c := .splitRest (splitIdx i np)) (by rintro q hq; cases hq) trivial (by simp) trivial trivial hr
      cases hsp : p.split (splitIdx i np) with
      | ok kr =>
        obtain ⟨keep, rest⟩ := kr
        refine ⟨keep, rest, rfl, ?_, ?_, hc _ _ (Or.inl rfl) (by simp only [Call.run, hsp, bind, Outcome.bind_ok]), hc _ _ (Or.inr rfl) (by simp only [Call.run, hsp, bind, Outcome.bind_ok])⟩
        · unfold Poly.split at hsp
          rw [hy] at hsp
          simp only at hsp
          split_ifs at hsp with h0
          · cases hsp
            rw [h0] at hy ⊢
            cases hpp : p.pts with
            | nil => rw [hpp] at hy; cases hy
            | cons a as => rw [hpp] at hy; cases hy; rfl
          · cases hsp; rfl
        · unfold Poly.split at hsp
          rw [hy] at hsp
          simp only at hsp
          split_ifs at hsp with h0
          · cases hsp; rw [h0]; rfl
          · cases hsp; rfl
      | _ =>
        unfold Poly.split at hsp
        rw [hy] at hsp
        simp only at hsp
        split_ifs at hsp
    refine ⟨⟨t, Function.update (Function.update c.poly l keep) r rest⟩, ?_, rfl, fun k z hz => ?_⟩
    · unfold State.run
      simp only [bind, e, Outcome.bind_ok, i1, s1]
    · simp only [Function.update_apply]
      split_ifs with k1 k2
      · subst k1; rw [h3] at hz; cases hz
        exact ⟨by rw [s3, i2, h5], s5⟩
      · subst k2; rw [h2] at hz; cases hz
        exact ⟨by rw [s2, i2, h4], s4⟩
      · rw [E.edges k k2 k1] at hz
        exact hI.edges k z hz
  | _ => exact other rfl rfl

theorem query_caches (hs : ∀ p q, dist q p = dist p q) {p : Poly K} (hp : CachesOK dist p) (q : Query) : (q.run dist p).pts = p.pts ∧ CachesOK dist (q.run dist p) := by
  cases q with
  | length =>
    refine ⟨?_, CachesOK.call hs hp (c := .queryLength) (by rintro q hq; cases hq) trivial (by simp) trivial trivial rfl⟩
    unfold Query.run Poly.length
    cases p.len <;> rfl
  | partialArea =>
    refine ⟨?_, CachesOK.call hs hp (c := .queryArea) (by rintro q hq; cases hq) trivial (by simp) trivial trivial rfl⟩
    unfold Query.run Poly.partialArea
    cases p.area <;> rfl
  | boundingBox =>
    refine ⟨?_, CachesOK.call hs hp (c := .queryBox) (by rintro q hq; cases hq) trivial (by simp) trivial trivial rfl⟩
    unfold Query.run Poly.boundingBox
    cases p.box <;> rfl

theorem Inv.query (hs : ∀ p q, dist q p = dist p q) {c : State K} (hI : Inv dist c) (l : Nat) (q : Query) : Inv dist (c.query dist l q) := by
  refine ⟨hI.reach, fun k e he => ?_⟩
  obtain ⟨h1, h2⟩ := hI.edges k e he
  simp only [State.query, Function.update_apply]
  split_ifs with hk
  · subst hk
    have := query_caches hs h2 q
    exact ⟨this.1.trans h1, this.2⟩
  · exact ⟨h1, h2⟩

theorem run_map {c c' : State K} {h : Hooks K} {op : Op K} (e : c.run dist h op = .ok c') : op.run h c.map = .ok c'.map := by
  have other : c.run dist h op = (op.run h c.map).map (fun t => ⟨t, c.poly⟩) → op.run h c.map = .ok c'.map := by
    intro h1
    rw [h1] at e
    cases h2 : op.run h c.map with
    | ok t => rw [h2] at e; cases e; rfl
    | _ => rw [h2] at e; cases e
  cases op with
  | addEdge a b pts label =>
    unfold State.run at e
    obtain ⟨⟨r, t⟩, h1, e⟩ := Outcome.bind_eq_ok.mp e
    cases e
    simp only [Op.run, h1]; rfl
  | mergeEdges d =>
    unfold State.run at e
    obtain ⟨m, -, e⟩ := Outcome.bind_eq_ok.mp e
    obtain ⟨⟨r, t⟩, h1, e⟩ := Outcome.bind_eq_ok.mp e
    simp only [Op.run, h1]
    cases r with
    | none => cases e; rfl
    | some l =>
      simp only at e
      obtain ⟨e1, -, e⟩ := Outcome.bind_eq_ok.mp e
      obtain ⟨e2, -, e⟩ := Outcome.bind_eq_ok.mp e
      cases e; rfl
  | splitEdge l i np =>
    unfold State.run at e
    obtain ⟨⟨r, t⟩, h1, e⟩ := Outcome.bind_eq_ok.mp e
    simp only at e
    obtain ⟨p, -, e⟩ := Outcome.bind_eq_ok.mp e
    obtain ⟨⟨k, r'⟩, -, e⟩ := Outcome.bind_eq_ok.mp e
    cases e
    simp only [Op.run, h1]; rfl
  | _ => exact other rfl

theorem Reach.inv (hs : ∀ p q, dist q p = dist p q) {c : State K} (hc : Reach dist c) : Inv dist c := by
  induction hc with
  | empty => exact ⟨.empty, fun l e h => by cases h⟩
  | @call c c' h op _ hl hf e hp ih =>
    have e1 := run_map e
    obtain ⟨c'', h1, h2, h3⟩ := run_ok hs ih h hl e1
    rw [e] at h1; cases h1
    exact ⟨.call h op ih.reach hl hf e1 hp, h3⟩
  | @rename c t lab new size _ h0 e ih =>
    refine ⟨.rename new size ih.reach h0 e, fun l x hx => ?_⟩
    obtain ⟨-, hR, -, -⟩ := rename_good ih.reach.reach.good h0 e
    simp only at hx
    rw [hR.edges] at hx
    obtain ⟨y, h1, rfl⟩ := Option.map_eq_some_iff.mp hx
    exact ih.edges l y h1
  | query l q _ ih => exact ih.query hs l q

end Verif.EdgeCache
