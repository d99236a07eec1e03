import Verif.GeoMap.Machine2

/-! # What the Euler operations change, and what they leave alone -/

namespace Verif.GeoMap
open Equiv Equiv.Perm Verif.PermLemmas

variable {K : Type} [Field K] [LinearOrder K]

/-! ## specification -/

/-- Effect of `mergeEdges`: the edge of dart `d2` and the node `m` disappear; the edge of `d1` takes
over the geometry and the far end of the merged edge; nothing else changes. -/
structure MergeEdgesEffect (s t : GMap K) (d1 d2 : Int) (m : Nat) : Prop where
  at_m : s.startN? d1 = some m ∧ s.startN? d2 = some m ∧ d1.natAbs ≠ d2.natAbs
  node_gone : (s.node m).isSome = true ∧ t.node m = none
  edge_gone : s.liveD d2 ∧ ¬ t.liveD d2
  survivor : ∃ e1 e2 e, s.edge d1.natAbs = some e1 ∧ s.edge d2.natAbs = some e2 ∧ t.edge d1.natAbs = some e ∧
    e.dartPts d1 = (e2.dartPts (-d2)).dropLast ++ e1.dartPts d1 ∧ e.flags = e1.flags
  start : t.startN? d1 = s.startN? (-d2) ∧ t.startN? (-d1) = s.startN? (-d1)
  lefts : ∀ x, t.liveD x → t.left? x = s.left? x
  edges : ∀ l, l ≠ d1.natAbs → l ≠ d2.natAbs → t.edge l = s.edge l
  nodes : ∀ n, n ≠ m → (t.node n).map (·.pos) = (s.node n).map (·.pos)
  sigma : ∀ x, t.liveD x → x ≠ d1 → s.nextSigma x ≠ -d2 → t.nextSigma x = s.nextSigma x
  faces : ∀ f, (t.face f).map (fun F => (F.area, F.pixelArea)) = (s.face f).map (fun F => (F.area, F.pixelArea))
  contours : ∀ x y, t.liveD x → t.liveD y → (t.phiReach x y ↔ s.phiReach x y)
  sizes : t.nNodes = s.nNodes ∧ t.nEdges = s.nEdges ∧ t.nFaces = s.nFaces
  counts : t.nodeCount + 1 = s.nodeCount ∧ t.edgeCount + 1 = s.edgeCount ∧ t.faceCount = s.faceCount

/-- Effect of `splitEdge`: a new node `nn` and a new edge `r` from `nn` to the old end node; the split
edge ends at `nn` and its points are distributed. -/
structure SplitEdgeEffect (s t : GMap K) (l i : Nat) (np : Option (Pt K)) (nn r : Nat) : Prop where
  fresh : nn = s.nNodes ∧ r = s.nEdges
  node_new : ∃ p nd, (splitPts ((s.edge l).elim [] (·.pts)) i np)[splitIdx i np]? = some p ∧ t.node nn = some nd ∧ nd.pos = p
  halves : ∃ e e1 e2, s.edge l = some e ∧ t.edge l = some e1 ∧ t.edge r = some e2 ∧
    e1.pts = (splitPts e.pts i np).take (splitIdx i np + 1) ∧ e2.pts = (splitPts e.pts i np).drop (splitIdx i np) ∧
    e1.flags = e.flags ∧ e2.flags = e.flags
  start : t.startN? l = s.startN? l ∧ t.startN? (-(l : Int)) = some nn ∧ t.startN? r = some nn ∧
    t.startN? (-(r : Int)) = s.startN? (-(l : Int))
  lefts : t.left? r = s.left? l ∧ t.left? (-(r : Int)) = s.left? (-(l : Int)) ∧ ∀ x, s.liveD x → t.left? x = s.left? x
  edges : ∀ k, k ≠ l → k ≠ r → t.edge k = s.edge k
  nodes : ∀ n, n ≠ nn → (t.node n).map (·.pos) = (s.node n).map (·.pos)
  sigma : ∀ x, s.liveD x → x ≠ -(l : Int) → s.nextSigma x ≠ -(l : Int) → t.nextSigma x = s.nextSigma x
  faces : t.face = s.face
  sizes : t.nNodes = s.nNodes + 1 ∧ t.nEdges = s.nEdges + 1 ∧ t.nFaces = s.nFaces
  counts : t.nodeCount = s.nodeCount + 1 ∧ t.edgeCount = s.edgeCount + 1 ∧ t.faceCount = s.faceCount

/-- Effect of `removeBridge`: the edge of `d` disappears, and those of its end nodes that became
isolated (unless a callback objects); nothing else changes. -/
structure RemoveBridgeEffect (s t : GMap K) (d : Int) (f : Nat) : Prop where
  face : s.left? d = some f ∧ s.left? (-d) = some f
  edge_gone : s.liveD d ∧ ¬ t.liveD d
  edges : ∀ l, l ≠ d.natAbs → t.edge l = s.edge l
  nodes : ∀ n, (t.node n).map (·.pos) = (s.node n).map (·.pos) ∨
    (t.node n = none ∧ (s.startN? d = some n ∨ s.startN? (-d) = some n) ∧ ∀ x, s.startN? x = some n → x.natAbs = d.natAbs)
  sigma : ∀ x, t.liveD x → (s.nextSigma x).natAbs ≠ d.natAbs → t.nextSigma x = s.nextSigma x
  faces : ∀ g, (t.face g).map (fun F => (F.area, F.pixelArea)) = (s.face g).map (fun F => (F.area, F.pixelArea))
  sizes : t.nNodes = s.nNodes ∧ t.nEdges = s.nEdges ∧ t.nFaces = s.nFaces
  counts : t.nodeCount ≤ s.nodeCount ∧ s.nodeCount ≤ t.nodeCount + 2 ∧ t.edgeCount + 1 = s.edgeCount ∧ t.faceCount = s.faceCount

/-- Effect of `mergeFaces`: the edge of `d` and the face `ml` disappear, and an end node of the edge
that became isolated (unless a callback objects).  Darts with `ml` on the left get `sl`. -/
structure MergeFacesEffect (s t : GMap K) (d : Int) (sl ml : Nat) : Prop where
  sides : (s.left? d = some sl ∧ s.left? (-d) = some ml) ∨ (s.left? d = some ml ∧ s.left? (-d) = some sl)
  distinct : sl ≠ ml ∧ ml ≠ 0
  edge_gone : s.liveD d ∧ ¬ t.liveD d
  face_gone : (s.face ml).isSome = true ∧ t.face ml = none
  lefts : ∀ x, t.liveD x → t.left? x = if s.left? x = some ml then some sl else s.left? x
  edges : ∀ l, l ≠ d.natAbs → (t.edge l).map (fun e => (e.startN, e.endN, e.pts, e.flags)) =
    (s.edge l).map (fun e => (e.startN, e.endN, e.pts, e.flags))
  nodes : ∀ n, (t.node n).map (·.pos) = (s.node n).map (·.pos) ∨
    (t.node n = none ∧ (s.startN? d = some n ∨ s.startN? (-d) = some n) ∧ ∀ x, s.startN? x = some n → x.natAbs = d.natAbs)
  sigma : ∀ x, t.liveD x → (s.nextSigma x).natAbs ≠ d.natAbs → t.nextSigma x = s.nextSigma x
  faces : ∀ g, g ≠ sl → g ≠ ml → t.face g = s.face g
  areas : ∃ S M T, s.face sl = some S ∧ s.face ml = some M ∧ t.face sl = some T ∧ T.pixelArea = S.pixelArea + M.pixelArea
  sizes : t.nNodes = s.nNodes ∧ t.nEdges = s.nEdges ∧ t.nFaces = s.nFaces
  counts : t.nodeCount ≤ s.nodeCount ∧ s.nodeCount ≤ t.nodeCount + 1 ∧ t.edgeCount + 1 = s.edgeCount ∧ t.faceCount + 1 = s.faceCount

/-! ## proofs -/

omit [Field K] [LinearOrder K] in
theorem liveD_edge {s : GMap K} {d : Int} {e : Edge K} (h : s.edge d.natAbs = some e) : s.liveD d := by
  unfold GMap.liveD; simp [h]

theorem mergeEdges_effect {s : GMap K} (hs : MapOK s) {h : Hooks K} {d : Int} {l : Nat} {t : GMap K}
    (e : s.mergeEdges h d = .ok (some l, t)) :
    ∃ d1 d2 m, ((d1 = d ∧ d2 = s.nextSigma d) ∨ (d1 = s.nextSigma d ∧ d2 = d)) ∧ l = d1.natAbs ∧ MergeEdgesEffect s t d1 d2 m := by
  by_cases hp : ¬ s.liveD d ∨ (s.sigma d).natAbs = d.natAbs ∨ s.sigma (s.sigma d) ≠ d
  · rw [mergeEdges_precond h s d hp] at e; cases e
  push Not at hp
  obtain ⟨d1, d2, e1, e2, m, n2, nd, s1, hor, hs1, hM1, hD, hoff, -, heq, hMt⟩ := mergeEdges_spec hs h hp.1 hp.2.1 hp.2.2
  rw [heq] at e
  split_ifs at e with hv
  swap
  · cases e
  cases e
  refine ⟨d1, d2, m, hor, rfl, ?_⟩
  obtain ⟨π, hg⟩ := hM1.graph.exists_rep
  obtain ⟨n12, n1m, n2m, hm2, p1, p2, st1, st2, sm, only, nm, ndm, hndm⟩ := hD.facts hg
  have G := mergedState_graph hg hD
  have D := mergedGeometry_dart hg hD
  obtain ⟨face1, h1⟩ := hs1.eq
  have q1 : s1.startN? = s.startN? := by rw [h1]; rfl
  have q2 : s1.left? = s.left? := by rw [h1]; rfl
  have q3 : s1.edge = s.edge := by rw [h1]
  have q4 : s1.node = s.node := by rw [h1]
  have q5 : s1.sigma = s.sigma := by rw [h1]
  have q6 : s1.phi = s.phi := by rw [h1]; rfl
  have q7 : s1.nNodes = s.nNodes ∧ s1.nEdges = s.nEdges ∧ s1.nFaces = s.nFaces ∧ s1.nodeCount = s.nodeCount ∧ s1.edgeCount = s.edgeCount ∧ s1.faceCount = s.faceCount := by
    rw [h1]; exact ⟨rfl, rfl, rfl, rfl, rfl, rfl⟩
  obtain ⟨q71, q72, q73, q74, q75, q76⟩ := q7
  have h10 := hg.ne_zero hD.h1
  have pl := hD.planar hM1
  have em : ∀ x, x ∈ (s1.darts.erase d2).erase (-d2) ↔ (mergedState s1 d1 d2 e1 e2 m n2 nd).liveD x := G.live
  have m1 : d1 ∈ (s1.darts.erase d2).erase (-d2) := Finset.mem_erase.mpr ⟨n1m, Finset.mem_erase.mpr ⟨n12, hD.h1⟩⟩
  have hn := hD.hn
  have m1' : -d1 ∈ (s1.darts.erase d2).erase (-d2) := Finset.mem_erase.mpr ⟨by omega, Finset.mem_erase.mpr ⟨by omega, hg.symm _ hD.h1⟩⟩
  constructor
  · rw [← q1]; exact ⟨st1, st2, hD.hn⟩
  · rw [← q4]; exact ⟨by simp [hndm], by simp [mergedState]⟩
  · refine ⟨liveD_edge (by rw [← q3]; exact hD.he2), ?_⟩
    unfold GMap.liveD mergedState; simp
  · refine ⟨e1, e2, GMap.mergedGeometry e1 e2 m n2, by rw [← q3]; exact hD.he1, by rw [← q3]; exact hD.he2, ?_, D.1, ?_⟩
    · simp only [mergedState]; rw [Function.update_of_ne hD.hn, Function.update_self]
    · unfold GMap.mergedGeometry; split_ifs <;> rfl
  · rw [mergedState_start hg hD m1, mergedState_start hg hD m1', if_pos rfl, if_neg (by omega), ← q1, sm]; exact ⟨rfl, rfl⟩
  · intro x hx
    rw [mergedState_left hg hD ((em x).mpr hx), q2]
  · intro l h1 h2
    simp only [mergedState]; rw [Function.update_of_ne h2, Function.update_of_ne h1, q3]
  · intro n hn
    simp only [mergedState]; rw [Function.update_of_ne hn]
    by_cases h2 : n = n2
    · rw [h2, Function.update_self, ← q4, hD.hnd]; rfl
    · rw [Function.update_of_ne h2, q4]
  · intro x hx hx1 hx2
    have hx := (em x).mpr hx
    have hxL : x ∈ s1.darts := (Finset.mem_erase.mp (Finset.mem_erase.mp hx).2).2
    show (mergedState s1 d1 d2 e1 e2 m n2 nd).sigma x = _
    rw [G.rep.eq x hx, replace_apply p1 p2 n12 n1m n2m (Finset.mem_erase.mp (Finset.mem_erase.mp hx).2).1 (Finset.mem_erase.mp hx).1, if_neg hx1]
    have : π x = s.nextSigma x := by rw [← hg.rep.eq x hxL]; show s1.sigma x = s.sigma x; rw [q5]
    rw [this, if_neg hx2]
  · intro f; exact hs1.face f
  · intro x y hx hy
    have hx := (em x).mpr hx
    have hy := (em y).mpr hy
    obtain ⟨x2, x1, hxL⟩ : x ≠ -d2 ∧ x ≠ d2 ∧ x ∈ s1.darts := by simpa [Finset.mem_erase] using hx
    obtain ⟨y2, y1, hyL⟩ : y ≠ -d2 ∧ y ≠ d2 ∧ y ∈ s1.darts := by simpa [Finset.mem_erase] using hy
    obtain ⟨ψ, hψ⟩ := hg.rep.exists_phi hg.symm
    have R := hg.rep.replace hD.h1 hD.h2 hm2 hD.h12 hD.h21 n12 n1m n2m (f' := (mergedState s1 d1 d2 e1 e2 m n2 nd).sigma)
      (finv' := (mergedState s1 d1 d2 e1 e2 m n2 nd).sigmaInv) rfl rfl
    have P := hg.rep.phi_replace hg.symm hψ hD.h1 hD.h2 rfl (hg.ne_zero hD.h2) hD.h12 hD.h21 n12 n1m R
    have a1 : (mergedState s1 d1 d2 e1 e2 m n2 nd).phiReach x y ↔ SameCycle (skip (skip ψ d2) (-d2)) x y := (P.sameCycle_iff hx).symm
    have a2 : s.phiReach x y ↔ SameCycle ψ x y := by
      rw [Rep.sameCycle_iff (f := s1.phi) hψ hxL]
      unfold GMap.phiReach; rw [q6]
    rw [a1, a2, sameCycle_skip _ x2 y2, sameCycle_skip _ x1 y1]
  · exact ⟨q71, q72, q73⟩
  · rw [← q74, ← q75, ← q76]; exact ⟨pl.2.2.1, pl.2.2.2, rfl⟩

theorem splitEdge_effect {s : GMap K} (hs : MapOK s) {l i : Nat} {np : Option (Pt K)} {r : Nat} {t : GMap K}
    (e : s.splitEdge l i np = .ok (r, t)) : SplitEdgeEffect s t l i np s.nNodes r := by
  cases he : s.edge l with
  | none =>
    unfold GMap.splitEdge GMap.guaranteedEdge at e
    simp [he, bind] at e
  | some ed =>
    have hpts := hs.graph.pts_ne l ed he
    by_cases hi : i < ed.pts.length - 1
    swap
    · unfold GMap.splitEdge GMap.guaranteedEdge at e
      simp only [Int.natAbs_natCast, he, bind, Outcome.bind_ok, if_neg hpts, hi, not_false_eq_true, if_true] at e
      cases e
    obtain ⟨cnd, p, hp, hC, heq, hMt⟩ := splitEdge_spec hs he np hi
    rw [heq] at e
    cases e
    obtain ⟨π, hg⟩ := hs.graph.exists_rep
    obtain ⟨h0, hlt, hn, hm, hr, hq, s1, s2⟩ := hC.facts hg
    have hidx := splitPts_get hi np
    have hL : (splitPts ed.pts i np).take (splitIdx i np + 1) ≠ [] := by
      intro h
      rw [List.take_eq_nil_iff] at h
      rcases h with h | h
      · omega
      · rw [h] at hp; simp at hp
    have hR : (splitPts ed.pts i np).drop (splitIdx i np) ≠ [] := by
      intro h
      rw [List.drop_eq_nil_iff] at h
      rw [List.getElem?_eq_none h] at hp; cases hp
    have hne : l ≠ s.nEdges := by omega
    have hnn : ed.endN ≠ s.nNodes := by
      have := hg.labels.node_lt ed.endN (by simp [hC.hcn]); omega
    have hstart := fun x => splitState_start (ptsL := (splitPts ed.pts i np).take (splitIdx i np + 1)) (ptsR := (splitPts ed.pts i np).drop (splitIdx i np)) (p := p) hg hC x
    have hleft := fun x => splitState_left (ptsL := (splitPts ed.pts i np).take (splitIdx i np + 1)) (ptsR := (splitPts ed.pts i np).drop (splitIdx i np)) (p := p) hg hC x
    constructor
    · exact ⟨rfl, rfl⟩
    · refine ⟨p, ⟨p, s.nEdges⟩, by rw [he]; exact hp, ?_, rfl⟩
      simp only [splitState]; rw [Function.update_of_ne (Ne.symm hnn), Function.update_self]
    · refine ⟨ed, { ed with pts := (splitPts ed.pts i np).take (splitIdx i np + 1), endN := s.nNodes },
        ⟨s.nNodes, ed.endN, ed.leftF, ed.rightF, (splitPts ed.pts i np).drop (splitIdx i np), ed.flags⟩, he,
        by simp only [splitState]; rw [Function.update_self], ?_, rfl, rfl, rfl, rfl⟩
      simp only [splitState]; rw [Function.update_of_ne (Ne.symm hne), Function.update_self]
    · rw [hstart, hstart, hstart, hstart]
      rw [if_neg (by omega), if_neg (by omega), if_pos (Or.inr rfl), if_pos (Or.inl rfl), if_neg (by omega), if_pos rfl]
      refine ⟨rfl, rfl, rfl, ?_⟩
      have := startN?_of (s := s) (d := -(l : Int)) (e := ed) (by simpa using he)
      rw [this, Edge.startOf, if_neg (by omega)]
    · rw [hleft, hleft, if_pos rfl, if_neg (by omega), if_pos rfl]
      refine ⟨rfl, rfl, fun x hx => ?_⟩
      have : x.natAbs < s.nEdges := hg.labels.edge_lt _ hx
      rw [hleft, if_neg (by omega), if_neg (by omega)]
    · intro k h1 h2
      simp only [splitState]; rw [Function.update_of_ne h1, Function.update_of_ne h2]
    · intro n hn
      simp only [splitState]
      by_cases h2 : n = ed.endN
      · rw [h2, Function.update_self, hC.hcn]; rfl
      · rw [Function.update_of_ne h2, Function.update_of_ne hn]
    · intro x hx hx1 hx2
      have hxL := (hg.live x).mpr hx
      have : x.natAbs < s.nEdges := hg.labels.edge_lt _ hx
      have G := splitState_graph (p := p) hg hC hL hR
      show (splitState s l ed _ _ p cnd).sigma x = _
      rw [G.rep.eq x (by simp [hxL]), split_apply (hg.rep.fix _ hr) (hg.rep.fix _ hq) (by omega) (by omega) (by omega)]
      have hp : π x = s.nextSigma x := (hg.rep.eq x hxL).symm
      rw [if_neg hx1, if_neg (by omega), if_neg (by omega), hp, if_neg hx2]
    · rfl
    · exact ⟨rfl, rfl, rfl⟩
    · have pl := hC.planar hs (p := p) hL hR
      exact ⟨pl.2.2.1, pl.2.2.2, rfl⟩

omit [Field K] [LinearOrder K] in
/-- a dart that is its own sigma successor is alone at its node -/
theorem alone_of_fix {s : GMap K} {L : Finset Int} {π : Perm Int} (hg : GraphRep s L π) {d : Int} (hd : d ∈ L) (hf : s.sigma d = d)
    {n : Nat} (hn : s.startN? d = some n) {x : Int} (hx : s.startN? x = some n) : x = d := by
  have hxL : x ∈ L := (hg.live x).mpr (liveD_of_start hx)
  obtain ⟨n', g1, g2, -⟩ := hg.starts d hd
  rw [hn] at g1; cases g1
  obtain ⟨nd, hnd⟩ := Option.isSome_iff_exists.mp g2
  rcases hg.nodes n nd hnd with ⟨-, h⟩ | ⟨-, -, h⟩
  · exact absurd hn (h d hd)
  · have h1 := (h d hd hn).symm.trans (h x hxL hx)
    have hp : π d = d := by rw [← hg.rep.eq d hd, hf]
    obtain ⟨k, hk⟩ := h1
    rw [zpow_apply_eq_self_of_apply_eq_self hp] at hk
    exact hk.symm

omit [Field K] [LinearOrder K] in
theorem skip2_apply {π : Perm Int} {d x : Int} (h : (π x).natAbs ≠ d.natAbs) (hx : x.natAbs ≠ d.natAbs) : skip (skip π d) (-d) x = π x := by
  have h1 : skip π d x = π x := by
    rw [skip_apply, if_neg (by rintro rfl; exact hx rfl), if_neg (by intro e; rw [e] at h; exact h rfl)]
  rw [skip_apply, if_neg (by rintro rfl; simp at hx), h1, if_neg (by intro e; rw [e] at h; simp at h)]

theorem removeBridge_effect {s : GMap K} (hs : Good s) {h : Hooks K} {d : Int} {f : Nat} {t : GMap K}
    (e : s.removeBridge h d = .ok (some f, t)) : RemoveBridgeEffect s t d f := by
  have hM := hs.map
  by_cases hp : ¬ s.liveD d ∨ ¬ s.initialized ∨ s.left? d ≠ s.left? (-d) ∨ s.startN? d = s.startN? (-d)
  · rw [removeBridge_precond_all hM h d hp] at e; cases e
  push Not at hp
  obtain ⟨hd, hi, hb, hn⟩ := hp
  have hP := hs.planar hi
  obtain ⟨f', F, ed, s2, t', gl, hF, he, heq, hR⟩ := removeBridge_spec hM hi h hd hb hn (hP.bridges hM hi d hd hb)
  rw [heq] at e
  split_ifs at e
  swap
  · cases e
  cases e
  obtain ⟨π, hg⟩ := hM.graph.exists_rep
  obtain ⟨ψ, hc⟩ := (hM.contours hi).exists_rep hg
  have hdL := (hg.live d).mpr hd
  have h0 := hg.ne_zero hdL
  have he' : s.edge (-d).natAbs = some ed := by simpa using he
  obtain ⟨G, C⟩ := hR.reps π ψ hg hc
  have st1 : s.startN? d = some (ed.startOf d) := startN?_of he
  have st2 : s.startN? (-d) = some (ed.endOf d) := by rw [startN?_of he', ed.startOf_neg h0]
  obtain ⟨rm1, rm2, as, ht, r1, r2⟩ := hR.t_eq
  obtain ⟨node', sg, sgi, e2⟩ := hR.ex
  have hsz : t.nNodes = s.nNodes ∧ t.nEdges = s.nEdges ∧ t.nFaces = s.nFaces ∧ t.faceCount = s.faceCount ∧ t.edgeCount = s.edgeCount - 1 ∧
      t.nodeCount = s.nodeCount - (if rm1 then 1 else 0) - (if rm2 then 1 else 0) := by
    rw [ht, e2]; unfold bridgeState; cases rm1 <;> cases rm2 <;> exact ⟨rfl, rfl, rfl, rfl, rfl, rfl⟩
  obtain ⟨z1, z2, z3, z4, z5, z6⟩ := hsz
  obtain ⟨-, -, k, c1, c2, c3, -⟩ := hR.planar hM hi hP hd he hb
  refine ⟨⟨gl, by rw [← hb]; exact gl⟩, ⟨hd, ?_⟩, ?_, ?_, ?_, ?_, ⟨z1, z2, z3⟩, ?_⟩
  · unfold GMap.liveD; rw [hR.edge]; simp
  · intro l hl; rw [hR.edge, Function.update_of_ne hl]
  · intro n
    have hnode : t.node n = if (rm1 = true ∧ n = ed.startOf d) ∨ (rm2 = true ∧ n = ed.endOf d) then none else s2.node n := by
      rw [ht]
      unfold bridgeState
      cases rm1 <;> cases rm2 <;>
        simp only [GMap.setFace, GMap.uninitNode, GMap.uninitEdge, GMap.setNode, GMap.setEdge, if_true, Bool.false_eq_true, if_false, Function.update_apply] <;>
        grind
    by_cases hc : (rm1 = true ∧ n = ed.startOf d) ∨ (rm2 = true ∧ n = ed.endOf d)
    · right
      refine ⟨by rw [hnode, if_pos hc], ?_⟩
      rcases hc with ⟨hr, rfl⟩ | ⟨hr, rfl⟩
      · rw [hr] at r1
        have r1 := (Bool.and_eq_true _ _).mp r1.symm
        refine ⟨Or.inl st1, fun x hx => ?_⟩
        rw [alone_of_fix hg hdL (of_decide_eq_true r1.1) st1 hx]
      · rw [hr] at r2
        have r2 := (Bool.and_eq_true _ _).mp r2.symm
        refine ⟨Or.inr st2, fun x hx => ?_⟩
        rw [alone_of_fix hg (hg.symm d hdL) (of_decide_eq_true r2.1) st2 hx, Int.natAbs_neg]
    · left
      rw [hnode, if_neg hc, hR.pos]
  · intro x hx hsx
    have hxL := (G.live x).mpr hx
    have hxs : x ∈ s.darts := (mem_eraseEdge.mp hxL).2.2
    have hxn : x.natAbs ≠ d.natAbs := by
      intro e; rw [← G.live] at hx; revert hx; unfold eraseEdge; simp only [Finset.mem_erase]; omega
    show t.sigma x = s.sigma x
    have hp : s.sigma x = π x := hg.rep.eq x hxs
    have hsx : (s.sigma x).natAbs ≠ d.natAbs := hsx
    rw [G.rep.eq x hxL, skip2_apply (by rw [← hp]; exact hsx) hxn, hp]
  · intro g
    obtain ⟨as, hf⟩ := hR.face
    rw [hf, Function.update_apply]
    split_ifs with hgf
    · rw [hgf, hF]; rfl
    · rfl
  · refine ⟨by omega, ?_, c2, c3⟩
    rw [z6]; split_ifs <;> omega

omit [Field K] [LinearOrder K] in
theorem mergeState_sizes (s2 : GMap K) (l : Nat) (rm : Bool) (n1 sl : Nat) (S' : Face K) (ml : Nat) :
    (mergeState s2 l rm n1 sl S' ml).nNodes = s2.nNodes ∧ (mergeState s2 l rm n1 sl S' ml).nEdges = s2.nEdges ∧
    (mergeState s2 l rm n1 sl S' ml).nFaces = s2.nFaces ∧
    (mergeState s2 l rm n1 sl S' ml).nodeCount = s2.nodeCount - (if rm then 1 else 0) ∧
    (mergeState s2 l rm n1 sl S' ml).node = if rm then Function.update s2.node n1 none else s2.node := by
  cases rm <;> simp [mergeState, GMap.setFace, GMap.uninitFace, GMap.uninitNode, GMap.uninitEdge, GMap.setNode, GMap.setEdge]

theorem mergeFaces_effect {s : GMap K} (hs : Good s) {h : Hooks K} {d : Int} {sl : Nat} {t : GMap K}
    (e : s.mergeFaces h d = .ok (some sl, t)) : ∃ ml, MergeFacesEffect s t d sl ml := by
  have hM := hs.map
  by_cases hp : ¬ s.liveD d ∨ ¬ s.initialized ∨ s.left? d = s.left? (-d)
  · rw [mergeFaces_precond_all hM h d hp] at e; cases e
  push Not at hp
  obtain ⟨hd, hi, hb⟩ := hp
  obtain ⟨r, sl', ml, S, M, a, b, ed, s0, s2, t', hr, gl, gr, hml, -, he, hS, hMf, hSa, hMa, hc0, hfr, heq, hR⟩ := mergeFaces_spec hM hi h hd hb
  rw [heq] at e
  split_ifs at e
  swap
  · cases e
  cases e
  have hP := hs.planar hi
  obtain ⟨π, hg⟩ := hM.graph.exists_rep
  obtain ⟨ψ, hc⟩ := (hM.contours hi).exists_rep hg
  obtain ⟨face', e0⟩ := hc0.eq
  have q1 : s0.startN? = s.startN? := by rw [e0]; rfl
  have q2 : s0.left? = s.left? := by rw [e0]; rfl
  have q3 : s0.edge = s.edge := by rw [e0]
  have q4 : s0.node = s.node := by rw [e0]
  have q5 : s0.sigma = s.sigma := by rw [e0]
  have q6 : s0.darts = s.darts := by rw [e0]; rfl
  have hi0 : s0.initialized := by rw [e0]; exact hi
  have hM0 := hc0.mapOK hM
  have hg0 : GraphRep s0 s0.darts π := by rw [q6]; exact hc0.graphRep hg
  have hc0' : ContoursRep s0 s0.darts ψ := by rw [q6]; exact hc0.contoursRep hc
  have hrn : r.natAbs = d.natAbs := by rcases hr with rfl | rfl <;> simp
  have hl0 : s0.liveD r := by unfold GMap.liveD; rw [q3, he]; rfl
  have hrL := (hg0.live r).mpr hl0
  have h0 := hg0.ne_zero hrL
  have hne : sl ≠ ml := by
    rintro rfl
    apply hb
    rcases hr with rfl | rfl
    · rw [gl, gr]
    · rw [neg_neg] at gr; rw [gl, gr]
  obtain ⟨G, C⟩ := hR.reps π ψ hg0 hc0'
  have he0 : s0.edge r.natAbs = some ed := by rw [q3]; exact he
  have he' : s0.edge (-r).natAbs = some ed := by simpa using he0
  have st1 : s0.startN? r = some (ed.startOf r) := startN?_of he0
  obtain ⟨node', sg, sgi, as, e2, -, rm, ht, hrm⟩ := hR.ex
  have hrel := SameGraph.relabel s0 (s0.leftDarts ml) sl
  have hnf : ((s0.relabel (s0.leftDarts ml) sl).nFaces = s0.nFaces) ∧ ((s0.relabel (s0.leftDarts ml) sl).faceCount = s0.faceCount) := ⟨rfl, rfl⟩
  obtain ⟨S', hS'⟩ : ∃ S', t = mergeState s2 r.natAbs rm (ed.startOf r) sl S' ml := ⟨_, ht⟩
  have hsz := mergeState_sizes s2 r.natAbs rm (ed.startOf r) sl S' ml
  rw [← hS'] at hsz
  have hsz2 : s2.nNodes = s.nNodes ∧ s2.nEdges = s.nEdges ∧ s2.nFaces = s.nFaces ∧ s2.nodeCount = s.nodeCount := by
    rw [e2, e0]; exact ⟨rfl, rfl, rfl, rfl⟩
  obtain ⟨z1, z2, z3, z4, z5⟩ := hsz
  obtain ⟨y1, y2, y3, y4⟩ := hsz2
  have hP0 : PlanarOK s0 := by rw [e0]; exact hP
  obtain ⟨-, k, c1, c2, c3, -⟩ := hR.planar hM0 hi0 hP0 hl0 he0 (by rw [q2]; exact gl) (by rw [q2]; exact gr) hne (by rw [hfr.2.2]; rfl)
  have n0 : s0.nodeCount = s.nodeCount ∧ s0.edgeCount = s.edgeCount ∧ s0.faceCount = s.faceCount := by rw [e0]; exact ⟨rfl, rfl, rfl⟩
  refine ⟨ml, ?_, ⟨hne, hml⟩, ⟨hd, ?_⟩, ⟨by simp [hMf], ?_⟩, ?_, ?_, ?_, ?_, ?_, ?_, ⟨by omega, by omega, by omega⟩, ?_⟩
  · rcases hr with rfl | rfl
    · exact Or.inl ⟨gl, gr⟩
    · rw [neg_neg] at gr; exact Or.inr ⟨gr, gl⟩
  · unfold GMap.liveD; rw [hR.edge, hrn]; simp
  · obtain ⟨as, hf⟩ := hR.face ml
    rw [hf, if_pos rfl]
  · intro x hx
    have hxL := (G.live x).mpr hx
    rw [(hR.startN x hxL).2, q2]
    unfold mergeLeft
    rfl
  · intro l hl
    rw [hR.edge, Function.update_of_ne (by rw [hrn]; exact hl)]
    have := hrel.edge l
    rw [q3] at this
    exact this
  · intro n
    have hnode : t.node n = if rm = true ∧ n = ed.startOf r then none else s2.node n := by
      rw [z5]
      cases rm <;> simp [Function.update_apply]
    by_cases hc : rm = true ∧ n = ed.startOf r
    · right
      refine ⟨by rw [hnode, if_pos hc], ?_⟩
      obtain ⟨hr', rfl⟩ := hc
      rw [hr'] at hrm
      have hrm := of_decide_eq_true ((Bool.and_eq_true _ _).mp hrm.symm).1
      rw [q1] at st1
      constructor
      · rcases hr with rfl | rfl
        · exact Or.inl st1
        · exact Or.inr st1
      · intro x hx
        by_contra hxn
        refine hrm x ?_ (by rw [q1]; exact hx)
        unfold eraseEdge
        simp only [Finset.mem_erase]
        refine ⟨by rintro rfl; simp at hxn; exact hxn hrn, by rintro rfl; exact hxn hrn, ?_⟩
        rw [q6]; exact (hg.live x).mpr (liveD_of_start hx)
    · left
      rw [hnode, if_neg hc, hR.pos, q4]
  · intro x hx hsx
    have hxL := (G.live x).mpr hx
    have hxs : x ∈ s0.darts := (mem_eraseEdge.mp hxL).2.2
    have hxn : x.natAbs ≠ r.natAbs := by
      intro e; rw [← G.live] at hx; revert hx; unfold eraseEdge; simp only [Finset.mem_erase]; omega
    show t.sigma x = s.sigma x
    have hp : s0.sigma x = π x := hg0.rep.eq x hxs
    have hsx : (s.sigma x).natAbs ≠ d.natAbs := hsx
    rw [← q5] at hsx ⊢
    rw [G.rep.eq x hxL, skip2_apply (by rw [← hp, hrn]; exact hsx) hxn, hp]
  · intro g h1 h2
    obtain ⟨as, hf⟩ := hR.face g
    rw [hf, if_neg h2, if_neg h1, hfr.1 g h1 h2]
  · obtain ⟨as, hf⟩ := hR.face sl
    rw [if_neg hne, if_pos rfl] at hf
    exact ⟨S, M, _, hS, hMf, hf, rfl⟩
  · refine ⟨by omega, ?_, by omega, by omega⟩
    rw [z4]; split_ifs <;> omega

end Verif.GeoMap
