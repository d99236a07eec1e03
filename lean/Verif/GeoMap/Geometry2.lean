import Verif.GeoMap.Geometry

/-! # Geometry: `splitEdge`, `removeBridge`, `mergeFaces` -/

namespace Verif.GeoMap
open Equiv Equiv.Perm Verif.PermLemmas

variable {K : Type}

/-! ## `splitEdge` -/

theorem splitPts_head {pts : List (Pt K)} {i : Nat} (hi : i < pts.length - 1) (np : Option (Pt K)) : (splitPts pts i np).head? = pts.head? := by
  cases np with
  | none => rfl
  | some p =>
    cases pts with
    | nil => simp at hi
    | cons a pts => simp [splitPts]

theorem splitPts_last {pts : List (Pt K)} {i : Nat} (hi : i < pts.length - 1) (np : Option (Pt K)) : (splitPts pts i np).getLast? = pts.getLast? := by
  cases np with
  | none => rfl
  | some p =>
    unfold splitPts
    rw [List.getLast?_eq_getElem?, List.length_insertIdx, if_pos (by omega), List.getLast?_eq_getElem?, List.getElem?_insertIdx,
      if_neg (by omega), if_neg (by omega)]
    congr 1
    
theorem take_head {l : List (Pt K)} {i : Nat} : (l.take (i + 1)).head? = l.head? := by
  cases l <;> rfl

theorem take_last {l : List (Pt K)} {i : Nat} {p : Pt K} (h : l[i]? = some p) : (l.take (i + 1)).getLast? = some p := by
  rw [List.take_add_one, h]; simp

theorem drop_head {l : List (Pt K)} {i : Nat} {p : Pt K} (h : l[i]? = some p) : (l.drop i).head? = some p := by
  rw [List.head?_drop, h]

theorem drop_last {l : List (Pt K)} {i : Nat} {p : Pt K} (h : l[i]? = some p) : (l.drop i).getLast? = l.getLast? := by
  obtain ⟨hi, -⟩ := List.getElem?_eq_some_iff.mp h
  rw [List.getLast?_drop, if_neg (by omega)]

theorem SplitCtx.geom {s : GMap K} {L : Finset Int} {π : Perm Int} (hg : GraphRep s L π) (hG : GeomOK s) {l : Nat} {e : Edge K} {cnd : Node K}
    (h : SplitCtx s L l e cnd) {i : Nat} (hi : i < e.pts.length - 1) {np : Option (Pt K)} {p : Pt K} (hp : (splitPts e.pts i np)[splitIdx i np]? = some p) :
    GeomOK (splitState s l e ((splitPts e.pts i np).take (splitIdx i np + 1)) ((splitPts e.pts i np).drop (splitIdx i np)) p cnd) := by
  obtain ⟨h0, hlt, hn, hm, hr, hq, s1, s2⟩ := h.facts hg
  obtain ⟨t, ht⟩ : ∃ t, t = splitState s l e ((splitPts e.pts i np).take (splitIdx i np + 1)) ((splitPts e.pts i np).drop (splitIdx i np)) p cnd := ⟨_, rfl⟩
  rw [← ht]
  have hge := hG l e h.he
  have hpos : ∀ n, n < s.nNodes → (t.node n).map (·.pos) = (s.node n).map (·.pos) := by
    intro n hn'
    rw [ht]
    simp only [splitState, Function.update_apply]
    by_cases g1 : n = e.endN
    · rw [if_pos g1, g1, h.hcn]; rfl
    · rw [if_neg g1, if_neg (by omega)]
  have hnew : (t.node s.nNodes).map (·.pos) = some p := by
    rw [ht]
    simp only [splitState, Function.update_apply]
    rw [if_neg (by omega)]; simp
  have hstart : ∀ x n, s.startN? x = some n → n < s.nNodes := by
    intro x n hx
    have := hg.start_mem ((hg.live x).mpr (liveD_of_start hx)) hx
    exact hg.labels.node_lt n ((mem_liveNodes hg.labels).mp this)
  intro l' e' hl
  have hl2 := hl
  rw [ht] at hl
  simp only [splitState, Function.update_apply] at hl
  split_ifs at hl with g1 g2
  · cases hl
    simp only
    rw [take_head, take_last hp, splitPts_head hi, hge.1, hnew, hpos _ (hstart _ _ s2)]
    exact ⟨rfl, rfl⟩
  · cases hl
    simp only
    rw [drop_head hp, drop_last hp, splitPts_last hi, hge.2, hnew, hpos _ hn]
    exact ⟨rfl, rfl⟩
  · have hl0 : l' ≠ 0 := by rintro rfl; rw [hg.labels.edge_zero] at hl; cases hl
    have hst : s.startN? (l' : Int) = some e'.startN := by
      rw [startN?_of (e := e') (by simpa using hl)]; unfold Edge.startOf; rw [if_pos (by omega)]
    have hen : s.startN? (-(l' : Int)) = some e'.endN := by
      rw [startN?_of (e := e') (by simpa using hl)]; unfold Edge.startOf; rw [if_neg (by omega)]
    rw [hpos _ (hstart _ _ hst), hpos _ (hstart _ _ hen)]
    exact hG l' e' hl

section
variable [Field K]

theorem area2_split {l : List (Pt K)} {i : Nat} {p : Pt K} (h : l[i]? = some p) : area2 (l.take (i + 1)) + area2 (l.drop i) = area2 l := by
  obtain ⟨hi, hp⟩ := List.getElem?_eq_some_iff.mp h
  have e1 : l.take (i + 1) = l.take i ++ [p] := by rw [List.take_add_one, h]; rfl
  have e2 : l.drop i = p :: l.drop (i + 1) := by rw [List.drop_eq_getElem_cons hi, hp]
  rw [e1, e2, ← area2_append, ← e2, List.take_append_drop]

theorem SplitCtx.faceSum {s : GMap K} {π : Perm Int} (hg : GraphRep s s.darts π) {l : Nat} {e : Edge K} {cnd : Node K}
    (h : SplitCtx s s.darts l e cnd) {i : Nat} (hi : i < e.pts.length - 1) {np : Option (Pt K)} {p : Pt K}
    (hp : (splitPts e.pts i np)[splitIdx i np]? = some p) (ha : area2 (splitPts e.pts i np) = area2 e.pts) (f : Nat) :
    (splitState s l e ((splitPts e.pts i np).take (splitIdx i np + 1)) ((splitPts e.pts i np).drop (splitIdx i np)) p cnd).faceSum f = s.faceSum f := by
  obtain ⟨h0, hlt, hn, hm, hr, hq, s1, s2⟩ := h.facts hg
  have hidx := splitPts_get hi np
  have hL : (splitPts e.pts i np).take (splitIdx i np + 1) ≠ [] := by
    intro h
    rw [List.take_eq_nil_iff] at h
    rcases h with h | h
    · omega
    · rw [h] at hidx; simp at hidx
  have hR : (splitPts e.pts i np).drop (splitIdx i np) ≠ [] := by
    intro h; rw [List.drop_eq_nil_iff] at h; omega
  have G := splitState_graph (p := p) hg h hL hR
  have hleft := splitState_left (ptsL := (splitPts e.pts i np).take (splitIdx i np + 1)) (ptsR := (splitPts e.pts i np).drop (splitIdx i np)) (p := p) hg h
  obtain ⟨t, ht⟩ : ∃ t, t = splitState s l e ((splitPts e.pts i np).take (splitIdx i np + 1)) ((splitPts e.pts i np).drop (splitIdx i np)) p cnd := ⟨_, rfl⟩
  rw [← ht] at G hleft ⊢
  have hsplit := area2_split hp
  have a1 : t.dartArea l + t.dartArea s.nEdges = s.dartArea l := by
    have x1 : t.dartArea l = partialArea ((splitPts e.pts i np).take (splitIdx i np + 1)) := by
      rw [GMap.dartArea_of (e := { e with pts := (splitPts e.pts i np).take (splitIdx i np + 1), endN := s.nNodes }) (by rw [ht]; simp [splitState])]
      unfold Edge.dartPts; rw [if_pos (by omega)]
    have x2 : t.dartArea s.nEdges = partialArea ((splitPts e.pts i np).drop (splitIdx i np)) := by
      rw [GMap.dartArea_of (e := ⟨s.nNodes, e.endN, e.leftF, e.rightF, (splitPts e.pts i np).drop (splitIdx i np), e.flags⟩)
        (by rw [ht]; simp only [splitState, Int.natAbs_natCast, Function.update_apply]; rw [if_neg (by omega)]; simp)]
      unfold Edge.dartPts; rw [if_pos (by omega)]
    have x3 : s.dartArea l = partialArea e.pts := by
      rw [GMap.dartArea_of (e := e) (by simpa using h.he)]
      unfold Edge.dartPts; rw [if_pos (by omega)]
    rw [x1, x2, x3]
    unfold partialArea
    rw [← ha, ← hsplit]; ring
  have a2 : ∀ x, x.natAbs ≠ l → x.natAbs ≠ s.nEdges → t.dartArea x = s.dartArea x := by
    intro x h1 h2
    unfold GMap.dartArea
    rw [ht]
    simp only [splitState, Function.update_apply, if_neg h1, if_neg h2]
  have l0 : (l : Int) ≠ 0 := by omega
  have r0 : (s.nEdges : Int) ≠ 0 := by omega
  have sum : ∀ u : GMap K, LabelsOK u → u.darts ⊆ t.darts → u.faceSum f = ∑ d ∈ t.darts, if u.left? d = some f then u.dartArea d else 0 := by
    intro u hu hs
    unfold GMap.faceSum GMap.leftDarts
    rw [Finset.sum_filter]
    refine Finset.sum_subset hs fun x _ hx => ?_
    rw [if_neg]
    intro hl
    exact hx ((mem_darts hu.edge_lt _).mpr (liveD_of_left hl))
  have mem : ∀ x, x ∈ t.darts ↔ x ∈ s.darts ∨ x = s.nEdges ∨ x = -(s.nEdges : Int) := by
    intro x
    rw [G.darts_eq]; simp only [Finset.mem_insert]; tauto
  rw [sum t G.labels (Finset.Subset.refl _), sum s hg.labels (fun x hx => (mem x).mpr (Or.inl hx))]
  have sNone : ∀ x, x ∉ s.darts → s.left? x = none := by
    intro x hx
    cases hh : s.left? x with
    | none => rfl
    | some y => exact absurd ((hg.live x).mpr (liveD_of_left hh)) hx
  have split : ∀ g : Int → K, ∑ d ∈ t.darts, g d = g l + (g (-l) + (g s.nEdges + (g (-s.nEdges) + ∑ d ∈ (((t.darts.erase (l : Int)).erase (-(l : Int))).erase (s.nEdges : Int)).erase (-(s.nEdges : Int)), g d))) := by
    intro g
    have m1 : (l : Int) ∈ t.darts := (mem _).mpr (Or.inl h.hl)
    have m2 : -(l : Int) ∈ t.darts.erase (l : Int) := by rw [Finset.mem_erase]; exact ⟨by omega, (mem _).mpr (Or.inl hm)⟩
    have m3 : (s.nEdges : Int) ∈ (t.darts.erase (l : Int)).erase (-(l : Int)) := by
      simp only [Finset.mem_erase]; exact ⟨by omega, by omega, (mem _).mpr (by tauto)⟩
    have m4 : -(s.nEdges : Int) ∈ ((t.darts.erase (l : Int)).erase (-(l : Int))).erase (s.nEdges : Int) := by
      simp only [Finset.mem_erase]; exact ⟨by omega, by omega, by omega, (mem _).mpr (by tauto)⟩
    rw [← Finset.add_sum_erase _ _ m1, ← Finset.add_sum_erase _ _ m2, ← Finset.add_sum_erase _ _ m3, ← Finset.add_sum_erase _ _ m4]
  rw [split, split]
  have rest : ∑ d ∈ (((t.darts.erase (l : Int)).erase (-(l : Int))).erase (s.nEdges : Int)).erase (-(s.nEdges : Int)), (if t.left? d = some f then t.dartArea d else 0)
      = ∑ d ∈ (((t.darts.erase (l : Int)).erase (-(l : Int))).erase (s.nEdges : Int)).erase (-(s.nEdges : Int)), (if s.left? d = some f then s.dartArea d else 0) := by
    refine Finset.sum_congr rfl fun x hx => ?_
    simp only [Finset.mem_erase] at hx
    have q : t.left? x = s.left? x := by rw [hleft, if_neg (by tauto), if_neg (by tauto)]
    rw [q, a2 x (by omega) (by omega)]
  have q1 : t.left? (l : Int) = s.left? l := by rw [hleft, if_neg (by omega), if_neg (by omega)]
  have q2 : t.left? (-(l : Int)) = s.left? (-(l : Int)) := by rw [hleft, if_neg (by omega), if_neg (by omega)]
  have q3 : t.left? (s.nEdges : Int) = s.left? l := by rw [hleft, if_pos rfl]
  have q4 : t.left? (-(s.nEdges : Int)) = s.left? (-(l : Int)) := by rw [hleft, if_neg (by omega), if_pos rfl]
  rw [rest, q1, q2, q3, q4, sNone _ hr, sNone _ hq, dartArea_neg t l0, dartArea_neg t r0, dartArea_neg s l0, ← a1]
  simp only [reduceCtorEq, if_false]
  split_ifs <;> ring

theorem faceSum_eq_sum (u : GMap K) (hu : LabelsOK u) {D : Finset Int} (hs : u.darts ⊆ D) (f : Nat) :
    u.faceSum f = ∑ d ∈ D, if u.left? d = some f then u.dartArea d else 0 := by
  unfold GMap.faceSum GMap.leftDarts
  rw [Finset.sum_filter]
  refine Finset.sum_subset hs fun x _ hx => ?_
  rw [if_neg]
  intro hl
  exact hx ((mem_darts hu.edge_lt _).mpr (liveD_of_left hl))

/-! ## removing an edge -/

/-- Areas of faces when edge `r` disappears and faces are relabelled by `ρ`. -/
theorem faceSum_erase {s t : GMap K} (hs : LabelsOK s) (ht : LabelsOK t) (hd0 : ∀ d ∈ s.darts, d ≠ 0) {r : Int} (hr : r ∈ s.darts) (hr' : -r ∈ s.darts)
    (hd : t.darts = eraseEdge s.darts r) (ha : ∀ x ∈ eraseEdge s.darts r, t.dartArea x = s.dartArea x) (ρ : Nat → Nat)
    (hl : ∀ x ∈ eraseEdge s.darts r, t.left? x = (s.left? x).map ρ) (hρ : (s.left? r).map ρ = (s.left? (-r)).map ρ) (f : Nat) :
    t.faceSum f = ∑ d ∈ s.darts, if (s.left? d).map ρ = some f then s.dartArea d else 0 := by
  have hne : -r ≠ r := by have := hd0 r hr; omega
  have e1 : s.darts = insert r (insert (-r) (eraseEdge s.darts r)) := by
    ext x
    simp only [Finset.mem_insert, mem_eraseEdge]
    constructor
    · intro hx
      by_cases h1 : x = r
      · exact Or.inl h1
      · by_cases h2 : x = -r
        · exact Or.inr (Or.inl h2)
        · exact Or.inr (Or.inr (by tauto))
    · rintro (h | h | h)
      · rw [h]; exact hr
      · rw [h]; exact hr'
      · tauto
  rw [faceSum_eq_sum t ht (Finset.Subset.refl _), hd]
  have split : ∀ g : Int → K, ∑ d ∈ s.darts, g d = g r + (g (-r) + ∑ d ∈ eraseEdge s.darts r, g d) := by
    intro g
    conv_lhs => rw [e1]
    rw [Finset.sum_insert, Finset.sum_insert]
    · rw [mem_eraseEdge]; tauto
    · rw [Finset.mem_insert, mem_eraseEdge]; tauto
  rw [split, hρ, dartArea_neg s (hd0 r hr)]
  have : ∀ (c : Prop) [Decidable c] (a b : K), (if c then a else 0) + ((if c then -a else 0) + b) = b := by
    intro c _ a b; split_ifs <;> ring
  rw [this]
  refine Finset.sum_congr rfl fun x hx => ?_
  rw [hl x hx, ha x hx]

theorem BridgeResult.edge [LinearOrder K] {h : Hooks K} {s : GMap K} {d : Int} {f : Nat} {F : Face K} {e : Edge K} {s2 t : GMap K}
    (R : BridgeResult h s d f F e s2 t) : t.edge = Function.update s.edge d.natAbs none := by
  obtain ⟨rm1, rm2, as, ht, -⟩ := R.t_eq
  obtain ⟨n', sg, sgi, h2⟩ := R.ex
  rw [ht, h2]
  unfold bridgeState
  cases rm1 <;> cases rm2 <;> rfl

theorem BridgeResult.face [LinearOrder K] {h : Hooks K} {s : GMap K} {d : Int} {f : Nat} {F : Face K} {e : Edge K} {s2 t : GMap K}
    (R : BridgeResult h s d f F e s2 t) : ∃ as, t.face = Function.update s.face f (some { F with anchors := as }) := by
  obtain ⟨rm1, rm2, as, ht, -⟩ := R.t_eq
  obtain ⟨n', sg, sgi, h2⟩ := R.ex
  refine ⟨as, ?_⟩
  rw [ht, h2]
  unfold bridgeState
  cases rm1 <;> cases rm2 <;> rfl

theorem BridgeResult.node [LinearOrder K] {h : Hooks K} {s : GMap K} {d : Int} {f : Nat} {F : Face K} {e : Edge K} {s2 t : GMap K}
    (R : BridgeResult h s d f F e s2 t) {n : Nat} {nd : Node K} (hn : t.node n = some nd) : ∃ nd', s.node n = some nd' ∧ nd'.pos = nd.pos := by
  obtain ⟨rm1, rm2, as, ht, -⟩ := R.t_eq
  have h2 : s2.node n = some nd := by
    rw [ht] at hn
    unfold bridgeState at hn
    cases rm1 <;> cases rm2 <;>
      simp only [GMap.setFace, GMap.uninitNode, GMap.uninitEdge, GMap.setNode, GMap.setEdge, if_true, Bool.false_eq_true, if_false, Function.update_apply] at hn <;>
      grind
  have := R.pos n
  rw [h2] at this
  cases hs : s.node n with
  | none => rw [hs] at this; cases this
  | some x => rw [hs] at this; exact ⟨x, rfl, (Option.some.inj this).symm⟩

theorem BridgeResult.geom [LinearOrder K] {h : Hooks K} {s : GMap K} {d : Int} {f : Nat} {F : Face K} {e : Edge K} {s2 t : GMap K}
    (R : BridgeResult h s d f F e s2 t) (hG : GeomOK s) : GeomOK t := by
  refine hG.of_sub R.ok.graph (fun l e' hl => ?_) (fun n nd hn => R.node hn)
  rw [R.edge, Function.update_apply] at hl
  split_ifs at hl
  exact ⟨e', hl, rfl, rfl, rfl⟩

theorem BridgeResult.faceSum [LinearOrder K] {h : Hooks K} {s : GMap K} {d : Int} {f : Nat} {F : Face K} {e : Edge K} {s2 t : GMap K}
    (R : BridgeResult h s d f F e s2 t) (hM : MapOK s) (hi : s.initialized) (hd : s.liveD d) (hb : s.left? d = s.left? (-d)) (g : Nat) :
    t.faceSum g = s.faceSum g := by
  obtain ⟨π, hg⟩ := hM.graph.exists_rep
  obtain ⟨ψ, hc⟩ := (hM.contours hi).exists_rep hg
  have hdL := (hg.live d).mpr hd
  obtain ⟨G, C⟩ := R.reps π ψ hg hc
  rw [faceSum_erase hg.labels G.labels (fun x hx => hg.ne_zero hx) hdL (hg.symm d hdL) G.darts_eq ?_ id ?_ (by rw [hb]) g,
    faceSum_eq_sum s hg.labels (Finset.Subset.refl _)]
  · simp only [Option.map_id, id]
  · intro x hx
    have : x.natAbs ≠ d.natAbs := by rw [mem_eraseEdge] at hx; omega
    unfold GMap.dartArea
    rw [R.edge, Function.update_of_ne this]
  · intro x hx
    rw [(R.startN x hx).2]; simp

theorem BridgeResult.areaOK [LinearOrder K] {h : Hooks K} {s : GMap K} {d : Int} {f : Nat} {F : Face K} {e : Edge K} {s2 t : GMap K}
    (R : BridgeResult h s d f F e s2 t) (hM : MapOK s) (hi : s.initialized) (hd : s.liveD d) (hb : s.left? d = s.left? (-d))
    (hF : s.face f = some F) (hA : AreaOK s) : AreaOK t := by
  intro g G a hG ha
  rw [R.faceSum hM hi hd hb]
  obtain ⟨as, hf⟩ := R.face
  rw [hf, Function.update_apply] at hG
  split_ifs at hG with hgf
  · cases hG
    rw [hgf]; exact hA f F a hF ha
  · exact hA g G a hG ha

/-! ## `mergeFaces` -/

theorem MergeResult.face {h : Hooks K} {s : GMap K} {r : Int} {sl ml : Nat} {S M : Face K} {e : Edge K} {s2 t : GMap K}
    (R : MergeResult h s r sl ml S M e s2 t) (g : Nat) : ∃ as, t.face g = if g = ml then none else
      if g = sl then some { anchors := as, area := S.area.bind fun x => M.area.map fun y => x + y, pixelArea := S.pixelArea + M.pixelArea } else s.face g := by
  obtain ⟨node', sg, sgi, as, h2, -, rm, ht, -⟩ := R.ex
  refine ⟨as, ?_⟩
  have e1 : (mergeState s2 r.natAbs rm (e.startOf r) sl
        { anchors := as, area := S.area.bind fun x => M.area.map fun y => x + y, pixelArea := S.pixelArea + M.pixelArea } ml).face =
      Function.update (Function.update s2.face sl (some { anchors := as, area := S.area.bind fun x => M.area.map fun y => x + y, pixelArea := S.pixelArea + M.pixelArea })) ml none := by
    unfold mergeState; cases rm <;> rfl
  have e2 : ∀ g, g ≠ sl → s2.face g = s.face g := by
    intro g hg
    rw [h2]
    show Function.update (s.relabel (s.leftDarts ml) sl).face sl _ g = _
    rw [Function.update_of_ne hg]; rfl
  rw [ht, e1, Function.update_apply, Function.update_apply]
  split_ifs with g1 g2
  · rfl
  · rfl
  · exact e2 g g2

theorem MergeResult.edge {h : Hooks K} {s : GMap K} {r : Int} {sl ml : Nat} {S M : Face K} {e : Edge K} {s2 t : GMap K}
    (R : MergeResult h s r sl ml S M e s2 t) : t.edge = Function.update (s.relabel (s.leftDarts ml) sl).edge r.natAbs none := by
  obtain ⟨node', sg, sgi, as, h2, -, rm, ht, -⟩ := R.ex
  rw [ht]
  have e1 : ∀ S', (mergeState s2 r.natAbs rm (e.startOf r) sl S' ml).edge = Function.update s2.edge r.natAbs none := by
    intro S'; unfold mergeState; cases rm <;> rfl
  rw [e1, h2]; rfl

theorem MergeResult.node {h : Hooks K} {s : GMap K} {r : Int} {sl ml : Nat} {S M : Face K} {e : Edge K} {s2 t : GMap K}
    (R : MergeResult h s r sl ml S M e s2 t) {n : Nat} {nd : Node K} (hn : t.node n = some nd) : ∃ nd', s.node n = some nd' ∧ nd'.pos = nd.pos := by
  obtain ⟨node', sg, sgi, as, -, -, rm, ht, -⟩ := R.ex
  have h2 : s2.node n = some nd := by
    rw [ht] at hn
    unfold mergeState at hn
    cases rm <;>
      simp only [GMap.setFace, GMap.uninitFace, GMap.uninitNode, GMap.uninitEdge, GMap.setNode, GMap.setEdge, if_true, Bool.false_eq_true, if_false, Function.update_apply] at hn <;>
      grind
  have := R.pos n
  rw [h2] at this
  cases hs : s.node n with
  | none => rw [hs] at this; cases this
  | some x => rw [hs] at this; exact ⟨x, rfl, (Option.some.inj this).symm⟩

theorem MergeResult.geom {h : Hooks K} {s : GMap K} {r : Int} {sl ml : Nat} {S M : Face K} {e : Edge K} {s2 t : GMap K}
    (R : MergeResult h s r sl ml S M e s2 t) (hG : GeomOK s) : GeomOK t := by
  refine hG.of_sub R.ok.graph (fun l e' hl => ?_) (fun n nd hn => R.node hn)
  rw [R.edge, Function.update_apply] at hl
  split_ifs at hl
  have := (SameGraph.relabel s (s.leftDarts ml) sl).edge l
  rw [hl] at this
  cases hs : s.edge l with
  | none => rw [hs] at this; cases this
  | some x =>
    rw [hs] at this
    simp only [Option.map_some, Option.some.injEq, Prod.mk.injEq] at this
    exact ⟨x, rfl, this.1.symm, this.2.1.symm, this.2.2.1.symm⟩

theorem MergeResult.faceSum {h : Hooks K} {s : GMap K} {r : Int} {sl ml : Nat} {S M : Face K} {e : Edge K} {s2 t : GMap K}
    (R : MergeResult h s r sl ml S M e s2 t) (hM : MapOK s) (hi : s.initialized) (hd : s.liveD r)
    (gl : s.left? r = some sl) (gr : s.left? (-r) = some ml) (hne : sl ≠ ml) (g : Nat) :
    t.faceSum g = if g = sl then s.faceSum sl + s.faceSum ml else if g = ml then 0 else s.faceSum g := by
  obtain ⟨π, hg⟩ := hM.graph.exists_rep
  obtain ⟨ψ, hc⟩ := (hM.contours hi).exists_rep hg
  have hdL := (hg.live r).mpr hd
  obtain ⟨G, C⟩ := R.reps π ψ hg hc
  rw [faceSum_erase hg.labels G.labels (fun x hx => hg.ne_zero hx) hdL (hg.symm r hdL) G.darts_eq ?_ (fun x => if x = ml then sl else x) ?_ (by rw [gl, gr]; simp) g,
    faceSum_eq_sum s hg.labels (Finset.Subset.refl _) sl, faceSum_eq_sum s hg.labels (Finset.Subset.refl _) ml, faceSum_eq_sum s hg.labels (Finset.Subset.refl _) g,
    ← Finset.sum_add_distrib]
  · split_ifs with g1 g2
    · refine Finset.sum_congr rfl fun x _ => ?_
      rw [g1]
      cases s.left? x with
      | none => simp
      | some y =>
        simp only [Option.map_some, Option.some.injEq]
        by_cases h1 : y = ml
        · simp [h1, hne.symm]
        · by_cases h2 : y = sl <;> simp [h1, h2]
          intro h3; exact absurd h3 hne
    · refine Finset.sum_eq_zero fun x _ => ?_
      rw [g2, if_neg]
      cases s.left? x with
      | none => simp
      | some y =>
        simp only [Option.map_some, Option.some.injEq]
        split_ifs with h1 <;> assumption
    · refine Finset.sum_congr rfl fun x _ => ?_
      have : (s.left? x).map (fun x => if x = ml then sl else x) = some g ↔ s.left? x = some g := by
        cases s.left? x with
        | none => simp
        | some y =>
          simp only [Option.map_some, Option.some.injEq]
          constructor
          · intro h; split_ifs at h with h1
            · exact absurd h.symm g1
            · exact h
          · intro h; rw [if_neg (by rw [h]; exact g2)]; exact h
      simp only [this]
  · intro x hx
    have hx' : x.natAbs ≠ r.natAbs := by rw [mem_eraseEdge] at hx; omega
    have e1 : t.dartArea x = (s.relabel (s.leftDarts ml) sl).dartArea x := by
      unfold GMap.dartArea
      rw [R.edge, Function.update_of_ne hx']
    rw [e1]
    exact congrFun (dartArea_congr fun l => by
      have := (SameGraph.relabel s (s.leftDarts ml) sl).edge l
      have := congrArg (Option.map (fun x : Nat × Nat × List (Pt K) × Nat => x.2.2.1)) this
      simpa [Option.map_map, Function.comp_def] using this) x
  · intro x hx
    rw [(R.startN x hx).2]
    unfold mergeLeft
    cases s.left? x with
    | none => simp
    | some y => simp only [Option.map_some, Option.some.injEq]; split_ifs <;> rfl

theorem MergeResult.areaOK {h : Hooks K} {s : GMap K} {r : Int} {sl ml : Nat} {S M : Face K} {e : Edge K} {s2 t : GMap K}
    (R : MergeResult h s r sl ml S M e s2 t) (hM : MapOK s) (hi : s.initialized) (hd : s.liveD r)
    (gl : s.left? r = some sl) (gr : s.left? (-r) = some ml) (hne : sl ≠ ml) (hS : s.face sl = some S) (hMf : s.face ml = some M) (hA : AreaOK s) : AreaOK t := by
  intro g G a hG ha
  rw [R.faceSum hM hi hd gl gr hne]
  obtain ⟨as, hf⟩ := R.face g
  rw [hf] at hG
  split_ifs at hG with h1 h2
  · cases hG
    rw [if_pos h2]
    simp only at ha
    cases hSa : S.area with
    | none => rw [hSa] at ha; cases ha
    | some x =>
      cases hMa : M.area with
      | none => rw [hSa, hMa] at ha; cases ha
      | some y =>
        rw [hSa, hMa] at ha
        simp only [Option.bind_some, Option.map_some, Option.some.injEq] at ha
        rw [← ha, hA sl S x hS hSa, hA ml M y hMf hMa]
  · rw [if_neg h2, if_neg h1]
    exact hA g G a hG ha

theorem AreasCached.areaOK {s t : GMap K} (h : AreasCached s t) (hl : LabelsOK s) (hA : AreaOK s) : AreaOK t := by
  have hsum : ∀ f, t.faceSum f = s.faceSum f := by
    intro f; obtain ⟨face', e⟩ := h.eq; rw [e]; rfl
  intro f F a hF ha
  rw [hsum]
  rcases h.faces f with e | ⟨G, h1, h2, h3⟩
  · rw [e] at hF; exact hA f F a hF ha
  · rw [h3] at hF; cases hF
    have ha := Option.some.inj ha
    rw [← ha, trueArea_eq hl]

end

end Verif.GeoMap
