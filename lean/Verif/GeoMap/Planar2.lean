import Verif.GeoMap.Planar

/-! # Planarity and the Euler formula under the Euler operations -/

namespace Verif.GeoMap
open Equiv Equiv.Perm Verif.PermLemmas

variable {K : Type}

/-- The map is planar (combinatorial Jordan curve theorem): for every set `w` of edges that meets
every node an even number of times there is a two-colouring `c` of the faces such that exactly the
edges of `w` have different colours on their sides. -/
def PlanarOK (s : GMap K) : Prop := Jordan s.darts s.startN? s.left?

/-- nodes `a` and `b` are connected by a path of edges -/
def GMap.Connected (s : GMap K) (a b : Nat) : Prop :=
  Relation.ReflTransGen (fun x y => ∃ d, s.startN? d = some x ∧ s.startN? (-d) = some y) a b

open Classical in
/-- number of connected components (an isolated node is a component) -/
noncomputable def GMap.components (s : GMap K) : Nat :=
  (s.liveNodes.image fun n => s.liveNodes.filter (s.Connected n)).card

/-- nodes − edges + faces − components; 1 for a planar map -/
noncomputable def GMap.euler (s : GMap K) : Int :=
  (s.nodeCount : Int) - s.edgeCount + s.faceCount - s.components

theorem GraphRep.darts_eq {s : GMap K} {L : Finset Int} {π : Perm Int} (h : GraphRep s L π) : s.darts = L := by
  ext d
  rw [mem_darts h.labels.edge_lt, h.live]

theorem connected_eq {s : GMap K} {L : Finset Int} {π : Perm Int} (h : GraphRep s L π) : s.Connected = Conn L s.startN? := by
  unfold GMap.Connected Conn
  have : (fun x y => ∃ d, s.startN? d = some x ∧ s.startN? (-d) = some y) = Adj L s.startN? := by
   funext a b
   apply propext
   constructor
   · rintro ⟨d, h1, h2⟩
     exact ⟨d, (h.live d).mpr (liveD_of_start h1), h1, h2⟩
   · rintro ⟨d, -, h1, h2⟩
     exact ⟨d, h1, h2⟩
  funext a b
  rw [this]

theorem components_eq {s : GMap K} {L : Finset Int} {π : Perm Int} (h : GraphRep s L π) :
    s.components = classes s.liveNodes (Conn L s.startN?) := by
  unfold GMap.components classes
  rw [connected_eq h]

theorem Conn.congr {L : Finset Int} {st st' : Int → Option Nat} (hsym : ∀ d ∈ L, -d ∈ L) (h : ∀ d ∈ L, st' d = st d) : Conn L st' = Conn L st := by
  unfold Conn
  congr 1
  funext a b
  apply propext
  constructor
  · rintro ⟨d, h1, h2, h3⟩
    exact ⟨d, h1, by rw [← h d h1]; exact h2, by rw [← h _ (hsym d h1)]; exact h3⟩
  · rintro ⟨d, h1, h2, h3⟩
    exact ⟨d, h1, by rw [h d h1]; exact h2, by rw [h _ (hsym d h1)]; exact h3⟩

theorem mem_liveNodes {s : GMap K} (h : LabelsOK s) {n : Nat} : n ∈ s.liveNodes ↔ (s.node n).isSome = true := by
  unfold GMap.liveNodes
  rw [Finset.mem_filter, Finset.mem_range]
  exact ⟨fun h => h.2, fun hn => ⟨h.node_lt n hn, hn⟩⟩

theorem GraphRep.start_phi {s : GMap K} {L : Finset Int} {π ψ : Perm Int} (h : GraphRep s L π) (hr : Rep L s.phi s.phiInv ψ) :
    ∀ d ∈ L, s.startN? (ψ d) = s.startN? (-d) := by
  intro d hd
  rw [← hr.eq d hd]
  have hm := h.rep.finv_mem (h.symm d hd)
  obtain ⟨n, h1, -, h3⟩ := h.starts _ hm
  show s.startN? (s.sigmaInv (-d)) = _
  rw [h1, ← h3, ← h.rep.eq _ hm, h.rep.f_finv (h.symm d hd)]

theorem GraphRep.start_exists {s : GMap K} {L : Finset Int} {π : Perm Int} (h : GraphRep s L π) :
    ∀ d ∈ L, ∃ n, s.startN? d = some n := by
  intro d hd
  obtain ⟨n, h1, -⟩ := h.starts d hd
  exact ⟨n, h1⟩

theorem GraphRep.start_mem {s : GMap K} {L : Finset Int} {π : Perm Int} (h : GraphRep s L π) {d : Int} (hd : d ∈ L) {n : Nat}
    (hn : s.startN? d = some n) : n ∈ s.liveNodes := by
  obtain ⟨n', h1, h2, -⟩ := h.starts d hd
  rw [hn] at h1; cases h1
  exact (mem_liveNodes h.labels).mpr h2

/-- In a planar map both sides of a bridge lie on one contour. -/
theorem PlanarOK.bridges {s : GMap K} (hM : MapOK s) (hi : s.initialized) (hP : PlanarOK s) : BridgesOK s := by
  obtain ⟨π, hg⟩ := hM.graph.exists_rep
  obtain ⟨ψ, hc⟩ := (hM.contours hi).exists_rep hg
  intro d hd hl
  have hdL := (hg.live d).mpr hd
  exact (hc.rep.sameCycle_iff hdL).mp (hP.bridge hc.rep hg.symm (hg.start_phi hc.rep) hdL hl)

/-- the number of classes after deleting nodes without edges -/
theorem classes_removeIf {V : Finset Nat} {L : Finset Int} {st : Int → Option Nat} (hsym : ∀ d ∈ L, -d ∈ L) {n : Nat} (hn : n ∈ V) (rm : Bool)
    (hiso : rm = true → ∀ d ∈ L, st d ≠ some n) :
    classes V (Conn L st) = classes (if rm then V.erase n else V) (Conn L st) + (if rm then 1 else 0) := by
  cases rm with
  | false => rfl
  | true =>
    refine classes_erase_single (conn_equivalence hsym) hn (fun k _ hk => ?_)
    rcases hk.cases_head with h | ⟨c, ⟨d, h1, h2, -⟩, -⟩
    · exact h.symm
    · exact absurd h2 (hiso rfl d h1)

theorem liveNodes_bridgeState (s2 : GMap K) (l : Nat) (rm1 rm2 : Bool) (n1 n2 f : Nat) (F : Face K) (as : List Int) :
    (bridgeState s2 l rm1 rm2 n1 n2 f F as).liveNodes =
      if rm2 then (if rm1 then s2.liveNodes.erase n1 else s2.liveNodes).erase n2 else (if rm1 then s2.liveNodes.erase n1 else s2.liveNodes) := by
  ext m
  cases rm1 <;> cases rm2 <;>
    simp only [bridgeState, GMap.liveNodes, GMap.uninitEdge, GMap.uninitNode, GMap.setFace, GMap.setEdge, GMap.setNode,
      Finset.mem_filter, Finset.mem_range, Finset.mem_erase, Function.update_apply, if_true, if_false, Bool.false_eq_true] <;>
    grind

theorem liveNodes_mergeState (s2 : GMap K) (l : Nat) (rm : Bool) (n1 sl ml : Nat) (F : Face K) :
    (mergeState s2 l rm n1 sl F ml).liveNodes = if rm then s2.liveNodes.erase n1 else s2.liveNodes := by
  ext m
  cases rm <;>
    simp only [mergeState, GMap.liveNodes, GMap.uninitEdge, GMap.uninitFace, GMap.uninitNode, GMap.setFace, GMap.setEdge, GMap.setNode,
      Finset.mem_filter, Finset.mem_range, Finset.mem_erase, Function.update_apply, if_true, if_false, Bool.false_eq_true] <;>
    grind

theorem eraseEdge_symm {L : Finset Int} (hsym : ∀ d ∈ L, -d ∈ L) (r : Int) : ∀ d ∈ eraseEdge L r, -d ∈ eraseEdge L r := by
  intro d hd
  rw [mem_eraseEdge] at hd ⊢
  exact ⟨by omega, by omega, hsym d hd.2.2⟩

theorem start_of_sigma_self {s : GMap K} {L : Finset Int} {π : Perm Int} (hg : GraphRep s L π) {d : Int} (hd : d ∈ L) (h : s.sigma d = d)
    {n : Nat} (hn : s.startN? d = some n) : ∀ x ∈ L, s.startN? x = some n → x = d := by
  intro x hx hxn
  have hc := (same_start_iff hg.rep hg.starts hg.nodes hd hx).mp (by rw [hn, hxn])
  have hp : π d = d := by rw [← hg.rep.eq d hd, h]
  exact ((sameCycle_fixed hp).mp hc).symm

/-- `removeBridge` on a planar map: planarity is kept, the two ends are disconnected, and the
number of components is right. -/
theorem BridgeResult.planar [Field K] [LinearOrder K] {h : Hooks K} {s : GMap K} {d : Int} {f : Nat} {F : Face K} {e : Edge K} {s2 t : GMap K}
    (R : BridgeResult h s d f F e s2 t) (hM : MapOK s) (hi : s.initialized) (hP : PlanarOK s) (hd : s.liveD d)
    (he : s.edge d.natAbs = some e) (hb : s.left? d = s.left? (-d)) :
    PlanarOK t ∧ ¬ t.Connected (e.startOf d) (e.endOf d) ∧
    (∃ k, t.nodeCount + k = s.nodeCount ∧ t.edgeCount + 1 = s.edgeCount ∧ t.faceCount = s.faceCount ∧
      t.components + k = s.components + 1 ∧ s.liveNodes.card = t.liveNodes.card + k) := by
  obtain ⟨π, hg⟩ := hM.graph.exists_rep
  obtain ⟨ψ, hc⟩ := (hM.contours hi).exists_rep hg
  have hdL := (hg.live d).mpr hd
  have h0 := hg.ne_zero hdL
  obtain ⟨G, C⟩ := R.reps π ψ hg hc
  have hst : ∀ x ∈ eraseEdge s.darts d, t.startN? x = s.startN? x := fun x hx => (R.startN x hx).1
  have hlf : ∀ x ∈ eraseEdge s.darts d, t.left? x = s.left? x := fun x hx => (R.startN x hx).2
  have hu : s.startN? d = some (e.startOf d) := startN?_of he
  have hv : s.startN? (-d) = some (e.endOf d) := by
    rw [startN?_of (d := -d) (e := e) (by simpa using he), e.startOf_neg h0]
  have hsE := eraseEdge_symm hg.symm d
  have hcongr : Conn (eraseEdge s.darts d) t.startN? = Conn (eraseEdge s.darts d) s.startN? := Conn.congr hsE hst
  have hdis := hP.disconnect hg.symm (fun x hx => hg.ne_zero hx) hdL hb hu hv
  refine ⟨?_, ?_, ?_⟩
  · unfold PlanarOK
    rw [G.darts_eq]
    exact Jordan.erase hP hdL (hg.symm d hdL) h0 hst (fun c _ x hx => by rw [hlf x hx]) hg.symm
  · rw [connected_eq G, hcongr]; exact hdis
  · obtain ⟨rm1, rm2, as, ht, hr1, hr2⟩ := R.t_eq
    have n12 : e.startOf d ≠ e.endOf d := fun hh => hdis (hh ▸ Conn.refl _ _ _)
    have hl2 : s2.liveNodes = s.liveNodes := by
      obtain ⟨node', sg, sgi, hs2⟩ := R.ex
      refine liveNodes_congr (by rw [hs2]) (fun m => ?_)
      have := congrArg Option.isSome (R.pos m)
      simpa using this
    have hm1 := hg.start_mem hdL hu
    have hm2 := hg.start_mem (hg.symm d hdL) hv
    have hiso1 : rm1 = true → ∀ x ∈ eraseEdge s.darts d, s.startN? x ≠ some (e.startOf d) := by
      intro hrm x hx hxn
      rw [hrm] at hr1
      have hr1 := hr1.symm
      rw [Bool.and_eq_true, decide_eq_true_eq] at hr1
      have := start_of_sigma_self hg hdL hr1.1 hu x (mem_eraseEdge.mp hx).2.2 hxn
      exact (mem_eraseEdge.mp hx).2.1 this
    have hiso2 : rm2 = true → ∀ x ∈ eraseEdge s.darts d, s.startN? x ≠ some (e.endOf d) := by
      intro hrm x hx hxn
      rw [hrm] at hr2
      have hr2 := hr2.symm
      rw [Bool.and_eq_true, decide_eq_true_eq] at hr2
      have := start_of_sigma_self hg (hg.symm d hdL) hr2.1 hv x (mem_eraseEdge.mp hx).2.2 hxn
      exact (mem_eraseEdge.mp hx).1 this
    have key : classes s.liveNodes (Conn (eraseEdge s.darts d) s.startN?) = s.components + 1 := by
      rw [components_eq hg]
      exact classes_join (conn_equivalence hg.symm) (conn_equivalence hsE) hm1 hm2
        (fun a _ b _ => conn_erase hg.symm hdL hu hv a b) hdis
    have k1 := classes_removeIf hsE hm1 rm1 hiso1
    have hm2' : e.endOf d ∈ (if rm1 then s.liveNodes.erase (e.startOf d) else s.liveNodes) := by
      cases rm1
      · exact hm2
      · exact Finset.mem_erase.mpr ⟨fun hh => n12 hh.symm, hm2⟩
    have k2 := classes_removeIf hsE hm2' rm2 hiso2
    have kt : t.components = classes (if rm2 then (if rm1 then s.liveNodes.erase (e.startOf d) else s.liveNodes).erase (e.endOf d) else
        (if rm1 then s.liveNodes.erase (e.startOf d) else s.liveNodes)) (Conn (eraseEdge s.darts d) s.startN?) := by
      rw [components_eq G, hcongr, ht, liveNodes_bridgeState, hl2]
    have c1 : (if rm1 then s.liveNodes.erase (e.startOf d) else s.liveNodes).card + (if rm1 then 1 else 0) = s.liveNodes.card := by
      cases rm1
      · rfl
      · exact Finset.card_erase_add_one hm1
    have c2 : t.liveNodes.card + (if rm2 then 1 else 0) = (if rm1 then s.liveNodes.erase (e.startOf d) else s.liveNodes).card := by
      rw [ht, liveNodes_bridgeState, hl2]
      cases rm2
      · rfl
      · exact Finset.card_erase_add_one hm2'
    have q1 := G.labels.node_count
    have q2 := hg.labels.node_count
    have q3 : 0 < s.edgeCount := by
      rw [hg.labels.edge_count, Finset.card_pos]
      refine ⟨d.natAbs, ?_⟩
      rw [GMap.liveEdges, Finset.mem_filter, Finset.mem_range]
      exact ⟨hg.labels.edge_lt _ hd, hd⟩
    have q4 : t.edgeCount = s.edgeCount - 1 ∧ t.faceCount = s.faceCount := by
      obtain ⟨node', sg, sgi, hs2⟩ := R.ex
      rw [ht, hs2]
      cases rm1 <;> cases rm2 <;> exact ⟨rfl, rfl⟩
    refine ⟨(if rm1 then 1 else 0) + (if rm2 then 1 else 0), ?_, ?_, q4.2, ?_, ?_⟩ <;> omega

/-- `mergeFaces` keeps planarity and the Euler formula. -/
theorem MergeResult.planar [Field K] {h : Hooks K} {s : GMap K} {r : Int} {sl ml : Nat} {S M : Face K} {e : Edge K} {s2 t : GMap K}
    (R : MergeResult h s r sl ml S M e s2 t) (hM : MapOK s) (hi : s.initialized) (hP : PlanarOK s) (hd : s.liveD r)
    (he : s.edge r.natAbs = some e) (gl : s.left? r = some sl) (gr : s.left? (-r) = some ml) (hne : sl ≠ ml) (hFM : (s.face ml).isSome) :
    PlanarOK t ∧ 
    (∃ k, t.nodeCount + k = s.nodeCount ∧ t.edgeCount + 1 = s.edgeCount ∧ t.faceCount + 1 = s.faceCount ∧
      t.components + k = s.components) := by
  obtain ⟨π, hg⟩ := hM.graph.exists_rep
  obtain ⟨ψ, hc⟩ := (hM.contours hi).exists_rep hg
  have hdL := (hg.live r).mpr hd
  have h0 := hg.ne_zero hdL
  obtain ⟨G, C⟩ := R.reps π ψ hg hc
  have hst : ∀ x ∈ eraseEdge s.darts r, t.startN? x = s.startN? x := fun x hx => (R.startN x hx).1
  have hlf : ∀ x ∈ eraseEdge s.darts r, t.left? x = mergeLeft s.left? sl ml x := fun x hx => (R.startN x hx).2
  have hu : s.startN? r = some (e.startOf r) := startN?_of he
  have hv : s.startN? (-r) = some (e.endOf r) := by
    rw [startN?_of (d := -r) (e := e) (by simpa using he), e.startOf_neg h0]
  have hsE := eraseEdge_symm hg.symm r
  have hcongr : Conn (eraseEdge s.darts r) t.startN? = Conn (eraseEdge s.darts r) s.startN? := Conn.congr hsE hst
  refine ⟨?_, ?_⟩
  · unfold PlanarOK
    rw [G.darts_eq]
    refine Jordan.erase hP hdL (hg.symm r hdL) h0 hst (fun c hc x hx => ?_) hg.symm
    rw [hlf x hx]
    unfold mergeLeft
    split_ifs with hx'
    · rw [hx', ← gl, hc, gr]
    · rfl
  · obtain ⟨node', sg, sgi, as, hs2, -, rm, ht, hrm⟩ := R.ex
    have hl2 : s2.liveNodes = s.liveNodes := by
      refine liveNodes_congr (by rw [hs2]; rfl) (fun m => ?_)
      have := congrArg Option.isSome (R.pos m)
      simpa using this
    have hm1 := hg.start_mem hdL hu
    have hiso1 : rm = true → ∀ x ∈ eraseEdge s.darts r, s.startN? x ≠ some (e.startOf r) := by
      intro hr x hx
      rw [hr] at hrm
      have hrm := hrm.symm
      rw [Bool.and_eq_true, decide_eq_true_eq] at hrm
      exact hrm.1 x hx
    have hnc : ¬ SameCycle ψ r (-r) := by
      intro hcc
      have := left_of_sameCycle hc.rep hc.lefts hdL hcc
      rw [gl, gr] at this
      exact hne (Option.some.inj this).symm
    have hcon := conn_of_contour hc.rep (hg.start_phi hc.rep) hdL hnc hu hv hg.start_exists
    have key : classes s.liveNodes (Conn (eraseEdge s.darts r) s.startN?) = s.components := by
      rw [components_eq hg]
      refine classes_congr (fun a _ b _ => ?_)
      rw [conn_erase hg.symm hdL hu hv a b]
      constructor
      · exact Or.inl
      · rintro (h | ⟨h1, h2⟩ | ⟨h1, h2⟩)
        · exact h
        · exact h1.trans ((hcon.symm hsE).trans h2)
        · exact h1.trans (hcon.trans h2)
    have k1 := classes_removeIf hsE hm1 rm hiso1
    have kt : t.components = classes (if rm then s.liveNodes.erase (e.startOf r) else s.liveNodes) (Conn (eraseEdge s.darts r) s.startN?) := by
      rw [components_eq G, hcongr, ht, liveNodes_mergeState, hl2]
    have c1 : t.liveNodes.card + (if rm then 1 else 0) = s.liveNodes.card := by
      rw [ht, liveNodes_mergeState, hl2]
      cases rm
      · rfl
      · exact Finset.card_erase_add_one hm1
    have q1 := G.labels.node_count
    have q2 := hg.labels.node_count
    have q3 : 0 < s.edgeCount := by
      rw [hg.labels.edge_count, Finset.card_pos]
      refine ⟨r.natAbs, ?_⟩
      rw [GMap.liveEdges, Finset.mem_filter, Finset.mem_range]
      exact ⟨hg.labels.edge_lt _ hd, hd⟩
    have q5 : 0 < s.faceCount := by
      rw [hg.labels.face_count, Finset.card_pos]
      refine ⟨ml, ?_⟩
      rw [GMap.liveFaces, Finset.mem_filter, Finset.mem_range]
      exact ⟨hg.labels.face_lt _ hFM, hFM⟩
    have q4 : t.edgeCount = s.edgeCount - 1 ∧ t.faceCount = s.faceCount - 1 := by
      rw [ht, hs2]
      cases rm <;> exact ⟨rfl, rfl⟩
    refine ⟨(if rm then 1 else 0), ?_, ?_, ?_, ?_⟩ <;> omega

/-! ## subdividing an edge -/

/-- `(L', st', lf')` is `(L, st, lf)` with the edge of `d1` subdivided: the part towards its start
`n2` is now the edge of `d2`, the new node is `m`. -/
structure Subdiv (L : Finset Int) (st lf : Int → Option Nat) (L' : Finset Int) (st' lf' : Int → Option Nat) (d1 d2 : Int) (m n2 : Nat) : Prop where
  h1 : d1 ∈ L'
  h2 : d2 ∈ L'
  hne : d1.natAbs ≠ d2.natAbs
  h0 : ∀ d ∈ L', d ≠ 0
  sym : ∀ d ∈ L', -d ∈ L'
  hL : L = eraseEdge L' d2
  s1 : st' d1 = some m
  s2 : st' d2 = some m
  sm : st' (-d2) = some n2
  only : ∀ x ∈ L', st' x = some m → x = d1 ∨ x = d2
  hst : ∀ x ∈ L, st x = if x = d1 then some n2 else st' x
  hlf : ∀ x ∈ L, lf x = lf' x
  nm : n2 ≠ m

theorem bd_move {L : Finset Int} {st st' : Int → Option Nat} {w : Nat → ZMod 2} {d1 : Int} (h1 : d1 ∈ L) {a b : Nat} (ha : st' d1 = some a)
    (hst : ∀ x ∈ L, st x = if x = d1 then some b else st' x) (n : Nat) :
    bd L st w n + (if a = n then w d1.natAbs else 0) = bd L st' w n + (if b = n then w d1.natAbs else 0) := by
  unfold bd
  rw [Finset.sum_filter, Finset.sum_filter, ← Finset.add_sum_erase L _ h1, ← Finset.add_sum_erase L (fun x => if st' x = some n then w x.natAbs else 0) h1]
  have : ∑ x ∈ L.erase d1, (if st x = some n then w x.natAbs else 0) = ∑ x ∈ L.erase d1, (if st' x = some n then w x.natAbs else 0) := by
    refine Finset.sum_congr rfl (fun x hx => ?_)
    obtain ⟨x1, x2⟩ := Finset.mem_erase.mp hx
    rw [hst x x2, if_neg x1]
  rw [this, hst d1 h1, if_pos rfl, ha]
  simp only [Option.some.injEq]
  ring

theorem bd_move2 {L : Finset Int} {st st' : Int → Option Nat} {w : Nat → ZMod 2} {d1 : Int} (h1 : d1 ∈ L) {a b : Nat} (ha : st' d1 = some a)
    (hst : ∀ x ∈ L, st x = if x = d1 then some b else st' x) (n : Nat) :
    bd L st w n = bd L st' w n + (if b = n then w d1.natAbs else 0) + (if a = n then w d1.natAbs else 0) := by
  rw [← bd_move h1 ha hst n, add_assoc, CharTwo.add_self_eq_zero, add_zero]

section
variable {L : Finset Int} {st lf : Int → Option Nat} {L' : Finset Int} {st' lf' : Int → Option Nat} {d1 d2 : Int} {m n2 : Nat}

theorem Subdiv.mem (S : Subdiv L st lf L' st' lf' d1 d2 m n2) {x : Int} : x ∈ L ↔ x ≠ -d2 ∧ x ≠ d2 ∧ x ∈ L' := by
  rw [S.hL, mem_eraseEdge]

theorem Subdiv.h1' (S : Subdiv L st lf L' st' lf' d1 d2 m n2) : d1 ∈ L := by
  have := S.hne
  rw [S.mem]; exact ⟨by omega, by omega, S.h1⟩

theorem Subdiv.sym' (S : Subdiv L st lf L' st' lf' d1 d2 m n2) : ∀ d ∈ L, -d ∈ L := by
  rw [S.hL]; exact eraseEdge_symm S.sym d2

/-- the boundary of an edge set before and after -/
theorem Subdiv.bd_eq (S : Subdiv L st lf L' st' lf' d1 d2 m n2) {w : Nat → ZMod 2} (hw : w d1.natAbs = w d2.natAbs) (n : Nat) :
    bd L st w n = bd L' st' w n := by
  rw [bd_eraseEdge S.h2 (S.sym _ S.h2) (S.h0 _ S.h2), bd_move2 S.h1' S.s1 S.hst, S.s2, S.sm, ← hw, S.hL]
  simp only [Option.some.injEq]
  ring

theorem Subdiv.jordan_coarse (S : Subdiv L st lf L' st' lf' d1 d2 m n2) (h : Jordan L' st' lf') : Jordan L st lf := by
  intro w hw
  have hne := S.hne
  have hwe : ∀ d ∈ L, Function.update w d2.natAbs (w d1.natAbs) d.natAbs = w d.natAbs := by
    intro d hd
    rw [S.mem] at hd
    rw [Function.update_of_ne (by omega)]
  obtain ⟨c, hc⟩ := h (Function.update w d2.natAbs (w d1.natAbs)) (by
    intro n
    rw [← S.bd_eq (by rw [Function.update_self, Function.update_of_ne hne]), bd_congr (st := st) (w := w) (fun _ _ => rfl) hwe, hw])
  refine ⟨c, fun d hd => ?_⟩
  rw [← hwe d hd, hc d (S.mem.mp hd).2.2, S.hlf d hd, S.hlf _ (S.sym' d hd)]

theorem Subdiv.jordan_fine (S : Subdiv L st lf L' st' lf' d1 d2 m n2) (h : Jordan L st lf) (l2 : lf' d2 = lf' (-d1)) (l1 : lf' (-d2) = lf' d1) :
    Jordan L' st' lf' := by
  intro w hw
  have hne := S.hne
  have hww : w d1.natAbs = w d2.natAbs := by
    have := hw m
    unfold bd at this
    have hf : L'.filter (fun d => st' d = some m) = {d1, d2} := by
      ext x
      simp only [Finset.mem_filter, Finset.mem_insert, Finset.mem_singleton]
      constructor
      · rintro ⟨x1, x2⟩; exact S.only x x1 x2
      · rintro (rfl | rfl)
        · exact ⟨S.h1, S.s1⟩
        · exact ⟨S.h2, S.s2⟩
    rw [hf, Finset.sum_pair (by intro e; rw [e] at hne; exact hne rfl), CharTwo.add_eq_zero] at this
    exact this
  obtain ⟨c, hc⟩ := h w (fun n => by rw [S.bd_eq hww, hw])
  have hd1 := hc d1 S.h1'
  rw [S.hlf _ S.h1', S.hlf _ (S.sym' _ S.h1')] at hd1
  refine ⟨c, fun d hd => ?_⟩
  by_cases e1 : d = d2
  · rw [e1, ← hww, hd1, l2, l1, add_comm]
  by_cases e2 : d = -d2
  · rw [e2, Int.natAbs_neg, neg_neg, ← hww, hd1, l2, l1]
  have hdL : d ∈ L := S.mem.mpr ⟨e2, e1, hd⟩
  rw [hc d hdL, S.hlf d hdL, S.hlf _ (S.sym' d hdL)]

theorem Subdiv.conn_iff (S : Subdiv L st lf L' st' lf' d1 d2 m n2) {a b : Nat} (ha : a ≠ m) (hb : b ≠ m) : Conn L st a b ↔ Conn L' st' a b := by
  have hne := S.hne
  have h01 := S.h0 _ S.h1
  have h02 := S.h0 _ S.h2
  constructor
  · intro h
    induction h with
    | refl => exact Conn.refl _ _ _
    | @tail y z _ h2 ih =>
      obtain ⟨d, h1, h2, h3⟩ := h2
      have hd := S.mem.mp h1
      have hmd := S.sym' d h1
      have k1 : Conn L' st' n2 m := Conn.single ⟨-d2, S.sym _ S.h2, S.sm, by rw [neg_neg]; exact S.s2⟩
      have hyz : Conn L' st' y z := by
        rw [S.hst d h1] at h2
        rw [S.hst _ hmd] at h3
        split_ifs at h2 with e1
        · subst e1
          rw [if_neg (by omega)] at h3
          cases h2
          exact k1.trans (Conn.single ⟨d, S.h1, S.s1, h3⟩)
        · split_ifs at h3 with e2
          · cases h3
            refine Conn.trans (b := m) (Conn.single ⟨d, hd.2.2, h2, by rw [e2]; exact S.s1⟩) (k1.symm S.sym)
          · exact Conn.single ⟨d, hd.2.2, h2, h3⟩
      have hy : y ≠ m := by
        intro e
        rw [S.hst d h1] at h2
        split_ifs at h2 with e1
        · cases h2; exact S.nm e
        · rw [e] at h2
          rcases S.only d hd.2.2 h2 with h | h
          · exact e1 h
          · exact hd.2.1 h
      exact (ih hy).trans hyz
  · intro h
    have key : ∀ z, Conn L' st' a z → Conn L st a (if z = m then n2 else z) := by
      intro z h
      induction h with
      | refl => rw [if_neg ha]; exact Conn.refl _ _ _
      | @tail y z _ h2 ih =>
        obtain ⟨d, h1, h2, h3⟩ := h2
        refine ih.trans ?_
        by_cases e1 : d = d2
        · rw [e1, S.s2] at h2
          rw [e1, S.sm] at h3
          cases h2; cases h3
          rw [if_pos rfl, if_neg S.nm]; exact Conn.refl _ _ _
        by_cases e2 : d = -d2
        · rw [e2, S.sm] at h2
          rw [e2, neg_neg, S.s2] at h3
          cases h2; cases h3
          rw [if_pos rfl, if_neg S.nm]; exact Conn.refl _ _ _
        have hdL : d ∈ L := S.mem.mpr ⟨e2, e1, h1⟩
        have hmL := S.sym' d hdL
        have hs1 := S.hst d hdL
        have hs2 := S.hst _ hmL
        refine Conn.single ⟨d, hdL, ?_, ?_⟩
        · rw [hs1]
          split_ifs with f1 f2 f3
          · rfl
          · rw [f1, S.s1] at h2
            exact absurd (Option.some.inj h2).symm f2
          · rw [f3] at h2
            rcases S.only d h1 h2 with h | h
            · exact absurd h f1
            · exact absurd h e1
          · exact h2
        · rw [hs2]
          split_ifs with f1 f2 f3
          · rfl
          · rw [f1, S.s1] at h3
            exact absurd (Option.some.inj h3).symm f2
          · rw [f3] at h3
            rcases S.only _ (S.sym d h1) h3 with h | h
            · exact absurd h f1
            · exact absurd h (by omega)
          · exact h3
    have := key b h
    rwa [if_neg hb] at this

theorem Subdiv.classes_eq (S : Subdiv L st lf L' st' lf' d1 d2 m n2) {V : Finset Nat} (hm : m ∈ V) (hn : n2 ∈ V) :
    classes (V.erase m) (Conn L st) = classes V (Conn L' st') := by
  rw [← classes_erase_of_rel (conn_equivalence S.sym) hm hn S.nm
    (Conn.single ⟨d2, S.h2, S.s2, S.sm⟩)]
  refine classes_congr (fun a ha b hb => ?_)
  exact S.conn_iff (Finset.mem_erase.mp ha).1 (Finset.mem_erase.mp hb).1

end

section
variable {s : GMap K} {L : Finset Int} {π ψ : Perm Int}

theorem Deg2.subdiv {d1 d2 : Int} {e1 e2 : Edge K} {m n2 : Nat} {nd : Node K} (hg : GraphRep s L π) (h : Deg2 s L d1 d2 e1 e2 m n2 nd) :
    Subdiv ((L.erase d2).erase (-d2)) (mergedState s d1 d2 e1 e2 m n2 nd).startN? (mergedState s d1 d2 e1 e2 m n2 nd).left?
      L s.startN? s.left? d1 d2 m n2 := by
  obtain ⟨n12, n1m, n2m, hm2, p1, p2, s1, s2, sm, only, nm, -⟩ := h.facts hg
  exact ⟨h.h1, h.h2, h.hn, fun d hd => hg.ne_zero hd, hg.symm, rfl, s1, s2, sm, only, fun x hx => mergedState_start hg h hx,
    fun x hx => mergedState_left hg h hx, nm⟩

/-- `mergeEdges` keeps planarity, components, and removes one node and one edge. -/
theorem Deg2.planar {d1 d2 : Int} {e1 e2 : Edge K} {m n2 : Nat} {nd : Node K} (hM : MapOK s) (h : Deg2 s s.darts d1 d2 e1 e2 m n2 nd) :
    (PlanarOK s → PlanarOK (mergedState s d1 d2 e1 e2 m n2 nd)) ∧
      (mergedState s d1 d2 e1 e2 m n2 nd).components = s.components ∧
      (mergedState s d1 d2 e1 e2 m n2 nd).nodeCount + 1 = s.nodeCount ∧
      (mergedState s d1 d2 e1 e2 m n2 nd).edgeCount + 1 = s.edgeCount := by
  obtain ⟨π, hg⟩ := hM.graph.exists_rep
  have G := mergedState_graph hg h
  have S := h.subdiv hg
  obtain ⟨n12, n1m, n2m, hm2, p1, p2, s1, s2, sm, only, nm, ndm, hndm⟩ := h.facts hg
  have hm := hg.start_mem h.h1 s1
  have hn := hg.start_mem hm2 sm
  have hl : (mergedState s d1 d2 e1 e2 m n2 nd).liveNodes = s.liveNodes.erase m := by
    ext x
    rw [Finset.mem_erase, mem_liveNodes hg.labels, mem_liveNodes G.labels]
    simp only [mergedState, Function.update_apply]
    have := h.hnd
    grind
  refine ⟨fun hP => ?_, ?_, ?_, ?_⟩
  · unfold PlanarOK
    rw [G.darts_eq]
    exact S.jordan_coarse hP
  · rw [components_eq G, components_eq hg, hl]
    exact S.classes_eq hm hn
  · have : 0 < s.nodeCount := by rw [hg.labels.node_count, Finset.card_pos]; exact ⟨m, hm⟩
    show s.nodeCount - 1 + 1 = _
    omega
  · have : 0 < s.edgeCount := by
      rw [hg.labels.edge_count, Finset.card_pos]
      refine ⟨d1.natAbs, ?_⟩
      rw [GMap.liveEdges, Finset.mem_filter, Finset.mem_range]
      have := (hg.live _).mp h.h1
      exact ⟨hg.labels.edge_lt _ this, this⟩
    show s.edgeCount - 1 + 1 = _
    omega

theorem SplitCtx.subdiv {l : Nat} {e : Edge K} {cnd : Node K} (hg : GraphRep s L π) (h : SplitCtx s L l e cnd) {ptsL ptsR : List (Pt K)} {p : Pt K}
    (hL : ptsL ≠ []) (hR : ptsR ≠ []) :
    Subdiv L s.startN? s.left? (insert (-(s.nEdges : Int)) (insert (s.nEdges : Int) L)) (splitState s l e ptsL ptsR p cnd).startN?
      (splitState s l e ptsL ptsR p cnd).left? (-(l : Int)) s.nEdges s.nNodes e.endN := by
  obtain ⟨h0, hlt, hn, hm, hr, hq, s1, s2⟩ := h.facts hg
  have G := splitState_graph (p := p) hg h hL hR
  have hst := splitState_start (ptsL := ptsL) (ptsR := ptsR) (p := p) hg h
  have hlf := splitState_left (ptsL := ptsL) (ptsR := ptsR) (p := p) hg h
  have hpos := hg.labels.edges_pos
  refine ⟨?_, by simp, by omega, fun d hd => G.ne_zero hd, G.symm, ?_, ?_, ?_, ?_, ?_, ?_, ?_, by omega⟩
  · simp [hm]
  · ext x
    rw [mem_eraseEdge]
    simp only [Finset.mem_insert]
    constructor
    · intro hx
      exact ⟨fun e => hq (e ▸ hx), fun e => hr (e ▸ hx), Or.inr (Or.inr hx)⟩
    · rintro ⟨h1, h2, h3 | h3 | h3⟩
      · exact absurd h3 h1
      · exact absurd h3 h2
      · exact h3
  · rw [hst, if_pos (Or.inr rfl)]
  · rw [hst, if_pos (Or.inl rfl)]
  · rw [hst, if_neg (by omega), if_pos rfl]
  · intro x hx hx'
    rw [hst] at hx'
    split_ifs at hx' with f1 f2
    · exact f1.symm
    · have := Option.some.inj hx'; omega
    · simp only [Finset.mem_insert] at hx
      rcases hx with hx | hx | hx
      · exact absurd hx f2
      · exact absurd (Or.inl hx) f1
      · have := hg.start_mem hx hx'
        rw [mem_liveNodes hg.labels] at this
        have := hg.labels.node_lt _ this
        omega
  · intro x hx
    rw [hst]
    have e1 : x ≠ s.nEdges := fun e => hr (e ▸ hx)
    have e2 : x ≠ -(s.nEdges : Int) := fun e => hq (e ▸ hx)
    split_ifs with f1 f2
    · rw [f1, s1]
    · exact absurd f1 (by simp_all)
    · rfl
  · intro x hx
    have e1 : x ≠ s.nEdges := fun e => hr (e ▸ hx)
    have e2 : x ≠ -(s.nEdges : Int) := fun e => hq (e ▸ hx)
    rw [hlf, if_neg e1, if_neg e2]

/-- `splitEdge` keeps planarity and components, and adds one node and one edge. -/
theorem SplitCtx.planar {l : Nat} {e : Edge K} {cnd : Node K} (hM : MapOK s) (h : SplitCtx s s.darts l e cnd) {ptsL ptsR : List (Pt K)} {p : Pt K}
    (hL : ptsL ≠ []) (hR : ptsR ≠ []) :
    (PlanarOK s → PlanarOK (splitState s l e ptsL ptsR p cnd)) ∧
      (splitState s l e ptsL ptsR p cnd).components = s.components ∧
      (splitState s l e ptsL ptsR p cnd).nodeCount = s.nodeCount + 1 ∧
      (splitState s l e ptsL ptsR p cnd).edgeCount = s.edgeCount + 1 := by
  obtain ⟨π, hg⟩ := hM.graph.exists_rep
  have G := splitState_graph (p := p) hg h hL hR
  have S := h.subdiv (p := p) hg hL hR
  obtain ⟨h0, hlt, hn, hm, hr, hq, s1, s2⟩ := h.facts hg
  have hlf := splitState_left (ptsL := ptsL) (ptsR := ptsR) (p := p) hg h
  have hl : s.liveNodes = (splitState s l e ptsL ptsR p cnd).liveNodes.erase s.nNodes := by
    ext x
    rw [Finset.mem_erase, mem_liveNodes hg.labels, mem_liveNodes G.labels]
    simp only [splitState, Function.update_apply]
    have := h.hcn
    have := hg.labels.node_lt x
    grind
  have hmem : s.nNodes ∈ (splitState s l e ptsL ptsR p cnd).liveNodes := by
    rw [mem_liveNodes G.labels]
    simp only [splitState, Function.update_apply]
    grind
  have hmem2 : e.endN ∈ (splitState s l e ptsL ptsR p cnd).liveNodes := by
    rw [mem_liveNodes G.labels]
    simp only [splitState, Function.update_apply]
    grind
  refine ⟨fun hP => ?_, ?_, rfl, rfl⟩
  · unfold PlanarOK
    rw [G.darts_eq]
    refine S.jordan_fine hP ?_ ?_
    · rw [hlf, hlf, if_pos rfl, neg_neg, if_neg (by omega), if_neg (by omega)]
    · rw [hlf, hlf, if_neg (by omega), if_pos rfl, if_neg (by omega), if_neg (by omega)]
  · rw [components_eq G, components_eq hg, hl]
    exact (S.classes_eq hmem hmem2).symm

end

end Verif.GeoMap
