import Verif.GeoMap.Spec
import Verif.GeoMap.Orbit2

/-! # Internal form of the consistency conditions -/

namespace Verif.GeoMap
open Equiv Equiv.Perm Verif.PermLemmas

variable {K : Type}

/-- every dart of `L` starts at an existing node, sigma keeps the node -/
def StartsOK (L : Finset Int) (π : Perm Int) (st : Int → Option Nat) (node : Nat → Option (Node K)) : Prop :=
  ∀ d ∈ L, ∃ n, st d = some n ∧ (node n).isSome = true ∧ st (π d) = some n

/-- anchors of nodes -/
def NodesOK (L : Finset Int) (π : Perm Int) (st : Int → Option Nat) (node : Nat → Option (Node K)) : Prop :=
  ∀ n nd, node n = some nd →
    (nd.anchor = 0 ∧ ∀ d ∈ L, st d ≠ some n) ∨
    (nd.anchor ∈ L ∧ st nd.anchor = some n ∧ ∀ d ∈ L, st d = some n → SameCycle π nd.anchor d)

/-- `as` has exactly one dart of each phi cycle whose darts have `f` on the left -/
structure ContourList (L : Finset Int) (ψ : Perm Int) (lf : Int → Option Nat) (f : Nat) (as : List Int) : Prop where
  left : ∀ a ∈ as, a ∈ L ∧ lf a = some f
  cover : ∀ d ∈ L, lf d = some f → ∃ a ∈ as, SameCycle ψ a d
  unique : as.Pairwise (fun a b => ¬ SameCycle ψ a b)

def LeftsOK (L : Finset Int) (ψ : Perm Int) (lf : Int → Option Nat) (face : Nat → Option (Face K)) : Prop :=
  ∀ d ∈ L, ∃ f, lf d = some f ∧ (face f).isSome = true ∧ lf (ψ d) = some f

def FacesOK (L : Finset Int) (ψ : Perm Int) (lf : Int → Option Nat) (face : Nat → Option (Face K)) : Prop :=
  ∀ f F, face f = some F → ContourList L ψ lf f F.anchors

/-- labels and counts -/
structure LabelsOK (s : GMap K) : Prop where
  edges_pos : 0 < s.nEdges
  edge_zero : s.edge 0 = none
  node_lt : ∀ n, (s.node n).isSome = true → n < s.nNodes
  edge_lt : ∀ n, (s.edge n).isSome = true → n < s.nEdges
  face_lt : ∀ n, (s.face n).isSome = true → n < s.nFaces
  node_count : s.nodeCount = s.liveNodes.card
  edge_count : s.edgeCount = s.liveEdges.card
  face_count : s.faceCount = s.liveFaces.card
  pts_ne : ∀ l e, s.edge l = some e → e.pts ≠ []

structure GraphRep (s : GMap K) (L : Finset Int) (π : Perm Int) : Prop where
  labels : LabelsOK s
  live : ∀ d, d ∈ L ↔ s.liveD d
  rep : Rep L s.sigma s.sigmaInv π
  starts : StartsOK L π s.startN? s.node
  nodes : NodesOK L π s.startN? s.node

structure ContoursRep (s : GMap K) (L : Finset Int) (ψ : Perm Int) : Prop where
  rep : Rep L s.phi s.phiInv ψ
  lefts : LeftsOK L ψ s.left? s.face
  faces : FacesOK L ψ s.left? s.face
  face_zero : (s.face 0).isSome = true

/-- the set of live darts -/
def GMap.darts (s : GMap K) : Finset Int :=
  (Finset.Icc (-(s.nEdges : Int)) s.nEdges).filter fun d => (s.edge d.natAbs).isSome

theorem mem_darts {s : GMap K} (h : ∀ n, (s.edge n).isSome = true → n < s.nEdges) (d : Int) :
    d ∈ s.darts ↔ s.liveD d := by
  unfold GMap.darts GMap.liveD
  rw [Finset.mem_filter, Finset.mem_Icc]
  constructor
  · exact fun h => h.2
  · intro hd
    have := h _ hd
    exact ⟨⟨by omega, by omega⟩, hd⟩

theorem startN?_eq_none {s : GMap K} {d : Int} : s.startN? d = none ↔ ¬ s.liveD d := by
  simp [GMap.startN?, GMap.liveD]

theorem liveD_of_start {s : GMap K} {d : Int} {n : Nat} (h : s.startN? d = some n) : s.liveD d := by
  by_contra hc
  rw [← startN?_eq_none] at hc
  simp [hc] at h

theorem liveD_of_left {s : GMap K} {d : Int} {n : Nat} (h : s.left? d = some n) : s.liveD d := by
  unfold GMap.left? at h
  unfold GMap.liveD
  cases he : s.edge d.natAbs <;> simp [he] at h ⊢

theorem liveD_neg {s : GMap K} {d : Int} : s.liveD (-d) ↔ s.liveD d := by
  simp [GMap.liveD]

theorem LabelsOK.liveD_ne_zero {s : GMap K} (h : LabelsOK s) {d : Int} (hd : s.liveD d) : d ≠ 0 := by
  rintro rfl
  simp [GMap.liveD, h.edge_zero] at hd

theorem GraphRep.symm {s : GMap K} {L : Finset Int} {π : Perm Int} (h : GraphRep s L π) :
    ∀ d ∈ L, -d ∈ L := by
  intro d hd
  rw [h.live, liveD_neg, ← h.live]; exact hd

theorem GraphRep.ne_zero {s : GMap K} {L : Finset Int} {π : Perm Int} (h : GraphRep s L π) {d : Int}
    (hd : d ∈ L) : d ≠ 0 := h.labels.liveD_ne_zero ((h.live d).mp hd)

theorem GraphOK.labels {s : GMap K} (h : GraphOK s) : LabelsOK s :=
  ⟨h.edges_pos, h.edge_zero, h.node_lt, h.edge_lt, h.face_lt, h.node_count, h.edge_count, h.face_count,
    h.pts_ne⟩

theorem GraphOK.exists_rep {s : GMap K} (h : GraphOK s) : ∃ π, GraphRep s s.darts π := by
  have hl := mem_darts h.edge_lt
  obtain ⟨π, hπ⟩ : ∃ π, Rep s.darts s.sigma s.sigmaInv π := by
    apply Rep.exists_of_closed
    · intro d hd
      rw [hl] at hd ⊢
      exact h.sigma_live d hd
    · intro d hd
      rw [hl] at hd ⊢
      exact h.sigmaInv_live d hd
  refine ⟨π, h.labels, hl, hπ, ?_, ?_⟩
  · intro d hd
    have hd' := (hl d).mp hd
    obtain ⟨n, hn⟩ : ∃ n, s.startN? d = some n := by
      rw [← Option.ne_none_iff_exists']
      intro hc; exact (startN?_eq_none.mp hc) hd'
    refine ⟨n, hn, h.start_live d n hn, ?_⟩
    rw [← hπ.eq d hd, ← hn]
    exact h.start_sigma d hd'
  · intro n nd hnd
    by_cases h0 : nd.anchor = 0
    · exact Or.inl ⟨h0, fun d _ => h.anchor_zero n nd hnd h0 d⟩
    · right
      have hs := h.anchor_start n nd hnd h0
      have hm : nd.anchor ∈ s.darts := (hl _).mpr (liveD_of_start hs)
      refine ⟨hm, hs, fun d _ hdn => ?_⟩
      exact (hπ.sameCycle_iff hm).mpr (h.anchor_cover n nd hnd h0 d hdn)

theorem GraphRep.graphOK {s : GMap K} {L : Finset Int} {π : Perm Int} (h : GraphRep s L π) : GraphOK s where
  edges_pos := h.labels.edges_pos
  edge_zero := h.labels.edge_zero
  node_lt := h.labels.node_lt
  edge_lt := h.labels.edge_lt
  face_lt := h.labels.face_lt
  node_count := h.labels.node_count
  edge_count := h.labels.edge_count
  face_count := h.labels.face_count
  pts_ne := h.labels.pts_ne
  sigma_live := by
    intro d hd
    rw [← h.live] at hd
    exact ⟨(h.live _).mp (h.rep.f_mem hd), h.rep.finv_f hd⟩
  sigmaInv_live := by
    intro d hd
    rw [← h.live] at hd
    exact ⟨(h.live _).mp (h.rep.finv_mem hd), h.rep.f_finv hd⟩
  start_live := by
    intro d n hn
    obtain ⟨n', h1, h2, -⟩ := h.starts d ((h.live d).mpr (liveD_of_start hn))
    rw [hn] at h1; cases h1; exact h2
  start_sigma := by
    intro d hd
    rw [← h.live] at hd
    obtain ⟨n', h1, -, h3⟩ := h.starts d hd
    show s.startN? (s.sigma d) = _
    rw [h.rep.eq d hd, h1, h3]
  anchor_zero := by
    intro n nd hnd h0 d hd
    rcases h.nodes n nd hnd with ⟨-, h1⟩ | ⟨h1, -⟩
    · exact h1 d ((h.live d).mpr (liveD_of_start hd)) hd
    · exact h.ne_zero h1 h0
  anchor_start := by
    intro n nd hnd h0
    rcases h.nodes n nd hnd with ⟨h1, -⟩ | ⟨h1, h2, -⟩
    · exact absurd h1 h0
    · exact h2
  anchor_cover := by
    intro n nd hnd h0 d hd
    rcases h.nodes n nd hnd with ⟨h1, -⟩ | ⟨h1, -, h3⟩
    · exact absurd h1 h0
    · exact (h.rep.sameCycle_iff h1).mp (h3 d ((h.live d).mpr (liveD_of_start hd)) hd)

theorem ContoursOK.exists_rep {s : GMap K} {L : Finset Int} {π : Perm Int} (hg : GraphRep s L π) (h : ContoursOK s) :
    ∃ ψ, ContoursRep s L ψ := by
  obtain ⟨ψ, hψ⟩ := hg.rep.exists_phi hg.symm
  have hψ : Rep L s.phi s.phiInv ψ := hψ
  refine ⟨ψ, hψ, ?_, ?_, h.face_zero⟩
  · intro d hd
    have hd' := (hg.live d).mp hd
    obtain ⟨f, F, h1, h2⟩ := h.face_live d hd'
    refine ⟨f, h1, by simp [h2], ?_⟩
    rw [← hψ.eq d hd, ← h1]
    exact h.left_phi d hd'
  · intro f F hF
    have hm : ∀ a ∈ F.anchors, a ∈ L := fun a ha =>
      (hg.live a).mpr (liveD_of_left (h.anchor_left f F a hF ha))
    refine ⟨fun a ha => ⟨hm a ha, h.anchor_left f F a hF ha⟩, ?_, ?_⟩
    · intro d _ hdf
      obtain ⟨a, ha, hr⟩ := h.anchor_cover f F d hF hdf
      exact ⟨a, ha, (hψ.sameCycle_iff (hm a ha)).mpr hr⟩
    · refine List.Pairwise.imp_of_mem ?_ (h.anchor_unique f F hF)
      intro a b ha _ hab hc
      exact hab ((hψ.sameCycle_iff (hm a ha)).mp hc)

theorem ContoursRep.contoursOK {s : GMap K} {L : Finset Int} {π ψ : Perm Int} (hg : GraphRep s L π)
    (h : ContoursRep s L ψ) : ContoursOK s where
  face_live := by
    intro d hd
    obtain ⟨f, h1, h2, -⟩ := h.lefts d ((hg.live d).mpr hd)
    obtain ⟨F, hF⟩ := Option.isSome_iff_exists.mp h2
    exact ⟨f, F, h1, hF⟩
  left_phi := by
    intro d hd
    rw [← hg.live] at hd
    obtain ⟨f, h1, -, h2⟩ := h.lefts d hd
    rw [h.rep.eq d hd, h1, h2]
  anchor_left := fun f F a hF ha => ((h.faces f F hF).left a ha).2
  anchor_cover := by
    intro f F d hF hd
    obtain ⟨a, ha, hc⟩ := (h.faces f F hF).cover d ((hg.live d).mpr (liveD_of_left hd)) hd
    exact ⟨a, ha, (h.rep.sameCycle_iff ((h.faces f F hF).left a ha).1).mp hc⟩
  anchor_unique := by
    intro f F hF
    refine List.Pairwise.imp_of_mem ?_ (h.faces f F hF).unique
    intro a b ha _ hab hc
    exact hab ((h.rep.sameCycle_iff ((h.faces f F hF).left a ha).1).mpr hc)
  face_zero := h.face_zero

/-! ## ContourList -/

namespace ContourList
variable {L : Finset Int} {ψ : Perm Int} {lf : Int → Option Nat} {f : Nat} {as bs : List Int}

theorem perm (h : ContourList L ψ lf f as) (hp : as.Perm bs) : ContourList L ψ lf f bs where
  left := fun a ha => h.left a (hp.mem_iff.mpr ha)
  cover := by
    intro d hd hl
    obtain ⟨a, ha, hc⟩ := h.cover d hd hl
    exact ⟨a, hp.mem_iff.mp ha, hc⟩
  unique := (hp.pairwise_iff (fun {a b} hab hc => hab hc.symm)).mp h.unique

theorem nodup (h : ContourList L ψ lf f as) : as.Nodup :=
  h.unique.imp (fun {a b} hab (e : a = b) => hab (e ▸ SameCycle.refl _ _))

theorem eq_of_sameCycle (h : ContourList L ψ lf f as) {a b : Int} (ha : a ∈ as) (hb : b ∈ as)
    (hc : SameCycle ψ a b) : a = b := by
  obtain ⟨i, hi, rfl⟩ := List.getElem_of_mem ha
  obtain ⟨j, hj, rfl⟩ := List.getElem_of_mem hb
  have u := List.pairwise_iff_getElem.mp h.unique
  rcases Nat.lt_trichotomy i j with hij | rfl | hij
  · exact absurd hc (u i j hi hj hij)
  · rfl
  · exact absurd hc.symm (u j i hj hi hij)

/-- anchors may be moved along their contour -/
theorem move (h : ContourList L ψ lf f as) (h2 : List.Forall₂ (fun a b => SameCycle ψ a b ∧ b ∈ L ∧ lf b = some f) as bs) :
    ContourList L ψ lf f bs where
  left := by
    intro b hb
    have hh := List.forall₂_iff_get.mp h2
    obtain ⟨i, hi, rfl⟩ := List.getElem_of_mem hb
    exact (hh.2 i (by rw [hh.1]; exact hi) hi).2
  cover := by
    intro d hd hl
    obtain ⟨a, ha, hc⟩ := h.cover d hd hl
    obtain ⟨i, hi, rfl⟩ := List.getElem_of_mem ha
    have hh := List.forall₂_iff_get.mp h2
    have := hh.2 i hi (by rw [← hh.1]; exact hi)
    exact ⟨_, List.getElem_mem _, this.1.symm.trans hc⟩
  unique := by
    have hh := List.forall₂_iff_get.mp h2
    rw [List.pairwise_iff_getElem]
    intro i j hi hj hij hc
    have hi' : i < as.length := by rw [hh.1]; exact hi
    have hj' : j < as.length := by rw [hh.1]; exact hj
    have u := (List.pairwise_iff_getElem.mp h.unique) i j hi' hj' hij
    have e1 := (hh.2 i hi' hi).1
    have e2 := (hh.2 j hj' hj).1
    exact u ((e1.trans hc).trans e2.symm)

end ContourList

/-! ## evaluating accessors -/

theorem guaranteedEdge_of {s : GMap K} {d : Int} {e : Edge K} (h : s.edge d.natAbs = some e) :
    s.guaranteedEdge d = .ok e := by simp [GMap.guaranteedEdge, h]

theorem guaranteedEdge_dead {s : GMap K} {d : Int} (h : ¬ s.liveD d) : s.guaranteedEdge d = .precond := by
  unfold GMap.liveD at h
  cases he : s.edge d.natAbs <;> simp_all [GMap.guaranteedEdge]

theorem derefNode_of {s : GMap K} (hl : LabelsOK s) {n : Nat} {x : Node K} (h : s.node n = some x) :
    s.derefNode n = .ok x := by
  have := hl.node_lt n (by simp [h])
  simp [GMap.derefNode, h, this]

theorem derefFace_of {s : GMap K} (hl : LabelsOK s) {n : Nat} {x : Face K} (h : s.face n = some x) :
    s.derefFace (some n) = .ok x := by
  have := hl.face_lt n (by simp [h])
  simp [GMap.derefFace, h, this]

theorem liveD_exists {s : GMap K} {d : Int} (h : s.liveD d) : ∃ e, s.edge d.natAbs = some e :=
  Option.isSome_iff_exists.mp h

theorem startN?_of {s : GMap K} {d : Int} {e : Edge K} (h : s.edge d.natAbs = some e) :
    s.startN? d = some (e.startOf d) := by simp [GMap.startN?, h]

theorem left?_of {s : GMap K} {d : Int} {e : Edge K} (h : s.edge d.natAbs = some e) :
    s.left? d = e.leftOf d := by simp [GMap.left?, h]

theorem Edge.startOf_neg (e : Edge K) {d : Int} (h : d ≠ 0) : e.startOf (-d) = e.endOf d := by
  unfold Edge.startOf Edge.endOf
  by_cases h1 : 0 < d
  · have : ¬ 0 < -d := by omega
    rw [if_neg this, if_pos h1]
  · have : 0 < -d := by omega
    rw [if_pos this, if_neg h1]

theorem Edge.leftOf_neg (e : Edge K) {d : Int} (h : d ≠ 0) : e.leftOf (-d) = e.rightOf d := by
  unfold Edge.leftOf Edge.rightOf
  by_cases h1 : 0 < d
  · have : ¬ 0 < -d := by omega
    rw [if_neg this, if_pos h1]
  · have : 0 < -d := by omega
    rw [if_pos this, if_neg h1]

theorem Edge.rightOf_neg (e : Edge K) {d : Int} (h : d ≠ 0) : e.rightOf (-d) = e.leftOf d := by
  have := e.leftOf_neg (d := -d) (by omega)
  rw [neg_neg] at this; exact this.symm

/-! ## detachDart -/

/-- node table after `detachDart d` at node `n` -/
def detachNodes (node : Nat → Option (Node K)) (n : Nat) (nd : Node K) (d succ : Int) : Nat → Option (Node K) :=
  if nd.anchor = d then
    Function.update node n (some { nd with anchor := if succ ≠ d then succ else 0 })
  else node

theorem detachDart_eq {s : GMap K} {d : Int} {e : Edge K} {nd : Node K} (he : s.edge d.natAbs = some e)
    (hn : s.derefNode (e.startOf d) = .ok nd) :
    s.detachDart d = .ok { s with
      sigma := Function.update s.sigma (s.sigmaInv d) (s.sigma d)
      sigmaInv := Function.update s.sigmaInv (s.sigma d) (s.sigmaInv d)
      node := detachNodes s.node (e.startOf d) nd d (s.sigma d) } := by
  unfold GMap.detachDart GMap.startLabel
  rw [guaranteedEdge_of he]
  simp only [Outcome.map, Outcome.bind_ok, bind, hn, GMap.setSigma, GMap.setSigmaInv, GMap.setNode, detachNodes]
  split_ifs <;> rfl

theorem NodesOK.detach {L : Finset Int} {f finv : Int → Int} {π : Perm Int} {st : Int → Option Nat} {node : Nat → Option (Node K)}
    (h : NodesOK L π st node) (hr : Rep L f finv π) (hs : StartsOK L π st node) {d : Int} (hd : d ∈ L) {n : Nat} {nd : Node K}
    (hn : st d = some n) (hnd : node n = some nd) :
    NodesOK (L.erase d) (skip π d) st (detachNodes node n nd d (f d)) := by
  intro n' nd' hnd'
  have fd := hr.eq d hd
  unfold detachNodes at hnd'
  by_cases ha : nd.anchor = d
  · rw [if_pos ha] at hnd'
    by_cases hnn : n' = n
    · subst hnn
      rw [Function.update_self] at hnd'
      cases hnd'
      rcases h n' nd hnd with ⟨h0, h1⟩ | ⟨h0, h1, h2⟩
      · exact absurd hn (h1 d hd)
      · rw [ha] at h2
        by_cases hsucc : f d = d
        · left
          refine ⟨by simp [hsucc], fun x hx hxn => ?_⟩
          rw [Finset.mem_erase] at hx
          have := h2 x hx.2 hxn
          rw [sameCycle_fixed (by rw [← fd, hsucc])] at this
          exact hx.1 this.symm
        · right
          simp only [ne_eq, hsucc, not_false_eq_true, if_true]
          refine ⟨Finset.mem_erase.mpr ⟨hsucc, hr.f_mem hd⟩, ?_, fun x hx hxn => ?_⟩
          · obtain ⟨m, g1, -, g3⟩ := hs d hd
            rw [hn] at g1; cases g1
            rw [fd]; exact g3
          · rw [Finset.mem_erase] at hx
            rw [sameCycle_skip π hsucc hx.1, fd]
            exact sameCycle_apply_left.mpr (h2 x hx.2 hxn)
    · rw [Function.update_of_ne hnn] at hnd'
      rcases h n' nd' hnd' with ⟨h0, h1⟩ | ⟨h0, h1, h2⟩
      · exact Or.inl ⟨h0, fun x hx => h1 x (Finset.mem_erase.mp hx).2⟩
      · right
        have hne : nd'.anchor ≠ d := by
          intro e; rw [e, hn] at h1; exact hnn (Option.some.inj h1).symm
        refine ⟨Finset.mem_erase.mpr ⟨hne, h0⟩, h1, fun x hx hxn => ?_⟩
        rw [Finset.mem_erase] at hx
        rw [sameCycle_skip π hne hx.1]
        exact h2 x hx.2 hxn
  · rw [if_neg ha] at hnd'
    rcases h n' nd' hnd' with ⟨h0, h1⟩ | ⟨h0, h1, h2⟩
    · exact Or.inl ⟨h0, fun x hx => h1 x (Finset.mem_erase.mp hx).2⟩
    · right
      have hne : nd'.anchor ≠ d := by
        intro e
        rw [e, hn] at h1
        have := (Option.some.inj h1); subst this
        rw [hnd] at hnd'; cases hnd'; exact ha e
      refine ⟨Finset.mem_erase.mpr ⟨hne, h0⟩, h1, fun x hx hxn => ?_⟩
      rw [Finset.mem_erase] at hx
      rw [sameCycle_skip π hne hx.1]
      exact h2 x hx.2 hxn

theorem detachNodes_isSome {node : Nat → Option (Node K)} {n : Nat} {nd : Node K} {d succ : Int}
    (hnd : node n = some nd) (m : Nat) : (detachNodes node n nd d succ m).isSome = (node m).isSome := by
  unfold detachNodes
  by_cases ha : nd.anchor = d
  · rw [if_pos ha]
    by_cases h : m = n
    · subst h; simp [hnd]
    · simp [Function.update_of_ne h]
  · rw [if_neg ha]

theorem detachNodes_pos {node : Nat → Option (Node K)} {n : Nat} {nd : Node K} {d succ : Int}
    (hnd : node n = some nd) (m : Nat) : (detachNodes node n nd d succ m).map (·.pos) = (node m).map (·.pos) := by
  unfold detachNodes
  by_cases ha : nd.anchor = d
  · rw [if_pos ha]
    by_cases h : m = n
    · subst h; simp [hnd]
    · simp [Function.update_of_ne h]
  · rw [if_neg ha]

theorem StartsOK.detach {L : Finset Int} {f finv : Int → Int} {π : Perm Int} {st : Int → Option Nat} {node node' : Nat → Option (Node K)}
    (_hr : Rep L f finv π) (hs : StartsOK L π st node) {d : Int} (hd : d ∈ L)
    (hn : ∀ m, (node' m).isSome = (node m).isSome) : StartsOK (L.erase d) (skip π d) st node' := by
  intro x hx
  rw [Finset.mem_erase] at hx
  obtain ⟨m, h1, h2, h3⟩ := hs x hx.2
  refine ⟨m, h1, by rw [hn]; exact h2, ?_⟩
  rw [skip_apply]
  split_ifs with g1 g2
  · exact absurd g1 hx.1
  · obtain ⟨m', k1, -, k3⟩ := hs d hd
    rw [g2, k1] at h3
    rw [k3, h3]
  · exact h3

/-- detaching both darts of an edge -/
theorem detach_both {s : GMap K} {L : Finset Int} {π : Perm Int} (h : GraphRep s L π) {r : Int} (hr : r ∈ L)
    {e : Edge K} (he : s.edge r.natAbs = some e) :
    ∃ s1 s2, s.detachDart r = .ok s1 ∧ s1.detachDart (-r) = .ok s2 ∧
      (∃ node' sg sgi, s2 = { s with node := node', sigma := sg, sigmaInv := sgi }) ∧
      Rep ((L.erase r).erase (-r)) s2.sigma s2.sigmaInv (skip (skip π r) (-r)) ∧
      StartsOK ((L.erase r).erase (-r)) (skip (skip π r) (-r)) s.startN? s2.node ∧
      NodesOK ((L.erase r).erase (-r)) (skip (skip π r) (-r)) s.startN? s2.node ∧
      (∀ m, (s2.node m).map (·.pos) = (s.node m).map (·.pos)) ∧
      (∀ m, m ≠ e.startOf r → m ≠ e.endOf r → s2.node m = s.node m) := by
  have h0 := h.ne_zero hr
  have hst : s.startN? r = some (e.startOf r) := startN?_of he
  have hst' : s.startN? (-r) = some (e.endOf r) := by
    rw [startN?_of (s := s) (d := -r) (e := e) (by simpa using he), e.startOf_neg h0]
  obtain ⟨n, g1, g2, -⟩ := h.starts r hr
  rw [hst] at g1; cases g1
  obtain ⟨nd, hnd⟩ := Option.isSome_iff_exists.mp g2
  have hmr : -r ∈ L.erase r := Finset.mem_erase.mpr ⟨by omega, h.symm r hr⟩
  have R1 := h.rep.detach hr
  have N1 := h.nodes.detach h.rep h.starts hr hst hnd
  have S1 := StartsOK.detach (node' := detachNodes s.node (e.startOf r) nd r (s.sigma r)) h.rep h.starts hr
    (fun m => detachNodes_isSome hnd m)
  obtain ⟨n', k1, k2, -⟩ := S1 (-r) hmr
  rw [hst'] at k1; cases k1
  obtain ⟨nd', hnd'⟩ := Option.isSome_iff_exists.mp k2
  have hlt : e.endOf r < s.nNodes := by
    apply h.labels.node_lt
    rw [← detachNodes_isSome hnd (d := r) (succ := s.sigma r)]; exact k2
  refine ⟨_, _, detachDart_eq he (derefNode_of h.labels hnd), detachDart_eq (e := e) (nd := nd') ?_ ?_, ⟨_, _, _, rfl⟩,
    R1.detach hmr, ?_, ?_, ?_, ?_⟩
  · simpa using he
  · rw [e.startOf_neg h0]
    simp [GMap.derefNode, hlt, hnd']
  · rw [e.startOf_neg h0]
    exact StartsOK.detach R1 S1 hmr (fun m => detachNodes_isSome hnd' m)
  · have := N1.detach R1 S1 hmr (n := e.endOf r) (nd := nd') hst' hnd'
    rw [e.startOf_neg h0]
    exact this
  · intro m
    simp only [e.startOf_neg h0]
    rw [detachNodes_pos hnd', detachNodes_pos hnd]
  · intro m m1 m2
    simp only [e.startOf_neg h0]
    unfold detachNodes
    split_ifs <;> simp [Function.update_of_ne m1, Function.update_of_ne m2]

end Verif.GeoMap

namespace Verif.GeoMap
open Equiv Equiv.Perm Verif.PermLemmas
variable {K : Type}

/-- two darts start at the same node iff they are in the same sigma orbit -/
theorem same_start_iff {L : Finset Int} {f finv : Int → Int} {π : Perm Int} {st : Int → Option Nat} {node : Nat → Option (Node K)}
    (_hr : Rep L f finv π) (hs : StartsOK L π st node) (hn : NodesOK L π st node) {x y : Int} (hx : x ∈ L) (hy : y ∈ L) :
    st x = st y ↔ SameCycle π x y := by
  constructor
  · intro h
    obtain ⟨n, h1, h2, -⟩ := hs x hx
    obtain ⟨nd, hnd⟩ := Option.isSome_iff_exists.mp h2
    rcases hn n nd hnd with ⟨-, g⟩ | ⟨-, -, g⟩
    · exact absurd h1 (g x hx)
    · exact (g x hx h1).symm.trans (g y hy (h ▸ h1))
  · intro h
    refine (sameCycle_iff_of_inv (f := π) (P := fun z => (z ∈ L ∧ st z = st x)) (fun z => ?_) h).mp ⟨hx, rfl⟩ |>.2.symm
    constructor
    · rintro ⟨hz, e⟩
      obtain ⟨n, h1, -, h3⟩ := hs z hz
      exact ⟨_hr.mem hz, by rw [h3, ← e, h1]⟩
    · rintro ⟨hz, e⟩
      have hz' := _hr.mem_iff.mp hz
      obtain ⟨n, h1, -, h3⟩ := hs z hz'
      exact ⟨hz', by rw [h1, ← h3, e]⟩

theorem left_of_sameCycle {L : Finset Int} {f finv : Int → Int} {ψ : Perm Int} {lf : Int → Option Nat} {face : Nat → Option (Face K)}
    (hr : Rep L f finv ψ) (hl : LeftsOK L ψ lf face) {x y : Int} (hx : x ∈ L) (h : SameCycle ψ x y) : lf y = lf x := by
  refine ((sameCycle_iff_of_inv (f := ψ) (P := fun z => (z ∈ L ∧ lf z = lf x)) (fun z => ?_) h).mp ⟨hx, rfl⟩).2
  constructor
  · rintro ⟨hz, e⟩
    obtain ⟨n, h1, -, h3⟩ := hl z hz
    exact ⟨hr.mem hz, by rw [h3, ← e, h1]⟩
  · rintro ⟨hz, e⟩
    have hz' := hr.mem_iff.mp hz
    obtain ⟨n, h1, -, h3⟩ := hl z hz'
    exact ⟨hz', by rw [h1, ← h3, e]⟩

theorem ContourList.congr {L : Finset Int} {ψ : Perm Int} {lf lf' : Int → Option Nat} {f : Nat} {as : List Int}
    (h : ContourList L ψ lf f as) (he : ∀ x ∈ L, lf' x = lf x) : ContourList L ψ lf' f as where
  left := fun a ha => ⟨(h.left a ha).1, by rw [he a (h.left a ha).1]; exact (h.left a ha).2⟩
  cover := fun d hd hl => h.cover d hd (by rw [← he d hd]; exact hl)
  unique := h.unique

/-- skipping two darts that are no anchors -/
theorem ContourList.skip2 {L : Finset Int} {ψ : Perm Int} {lf : Int → Option Nat} {f : Nat} {as : List Int}
    (h : ContourList L ψ lf f as) {x y : Int} (hx : ∀ a ∈ as, a ≠ x ∧ a ≠ y) :
    ContourList ((L.erase x).erase y) (skip (skip ψ x) y) lf f as where
  left := fun a ha => ⟨by simp [hx a ha, (h.left a ha).1], (h.left a ha).2⟩
  cover := by
    intro d hd hl
    simp only [Finset.mem_erase] at hd
    obtain ⟨a, ha, hc⟩ := h.cover d hd.2.2 hl
    refine ⟨a, ha, ?_⟩
    rw [sameCycle_skip _ (hx a ha).2 hd.1, sameCycle_skip _ (hx a ha).1 hd.2.1]
    exact hc
  unique := by
    refine List.Pairwise.imp_of_mem ?_ h.unique
    intro a b ha hb hab hc
    apply hab
    rwa [sameCycle_skip _ (hx a ha).2 (hx b hb).2, sameCycle_skip _ (hx a ha).1 (hx b hb).1] at hc

theorem LeftsOK.skip2 {L : Finset Int} {f finv : Int → Int} {ψ : Perm Int} {lf : Int → Option Nat} {face : Nat → Option (Face K)}
    (hr : Rep L f finv ψ) (h : LeftsOK L ψ lf face) {x y : Int} {g ginv : Int → Int}
    (hr' : Rep ((L.erase x).erase y) g ginv (skip (skip ψ x) y)) :
    LeftsOK ((L.erase x).erase y) (skip (skip ψ x) y) lf face := by
  intro d hd
  have hd' := hd
  simp only [Finset.mem_erase] at hd
  obtain ⟨f, h1, h2, -⟩ := h d hd.2.2
  refine ⟨f, h1, h2, ?_⟩
  have hm := hr'.mem hd'
  simp only [Finset.mem_erase] at hm
  have hc : SameCycle (skip (skip ψ x) y) d (skip (skip ψ x) y d) := sameCycle_apply_right.mpr (SameCycle.refl _ _)
  rw [sameCycle_skip _ hd.1 hm.1, sameCycle_skip _ hd.2.1 hm.2.1] at hc
  rw [left_of_sameCycle hr h hd.2.2 hc, h1]

end Verif.GeoMap
