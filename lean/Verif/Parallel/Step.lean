import Verif.Parallel.Model
import Verif.GeoMap.Machine2

/-! # Merging one split node into the surviving node -/

namespace Verif.Parallel
open Verif Verif.GeoMap Equiv Equiv.Perm Verif.PermLemmas
variable {K : Type}

/-- exactly the darts `a` and `b` start at the node `k`, and they belong to different edges -/
structure Two (s : GMap K) (k : Nat) (a b : Int) : Prop where
  ne : a ≠ b
  ne' : b ≠ -a
  sa : s.startN? a = some k
  sb : s.startN? b = some k
  ab : s.sigma a = b
  ba : s.sigma b = a

theorem mem_of_start {s : GMap K} {L : Finset Int} {π : Perm Int} (hg : GraphRep s L π) {d : Int} {n : Nat} (h : s.startN? d = some n) : d ∈ L :=
  (hg.live d).2 (liveD_of_start h)

theorem node_of_start {s : GMap K} {L : Finset Int} {π : Perm Int} (hg : GraphRep s L π) {d : Int} {n : Nat} (h : s.startN? d = some n) :
    ∃ nd, s.node n = some nd := by
  obtain ⟨n', h1, h2, -⟩ := hg.starts d (mem_of_start hg h)
  rw [h] at h1; cases h1
  exact Option.isSome_iff_exists.1 h2

theorem Two.only {s : GMap K} {L : Finset Int} {π : Perm Int} (hg : GraphRep s L π) {k : Nat} {a b : Int} (h : Two s k a b) {d : Int}
    (hd : s.startN? d = some k) : d = a ∨ d = b := by
  have hm := mem_of_start hg h.sa
  have hc := (same_start_iff hg.rep hg.starts hg.nodes hm (mem_of_start hg hd)).1 (by rw [h.sa, hd])
  have e1 : π a = b := by rw [← hg.rep.eq a hm, h.ab]
  have e2 : π b = a := by rw [← hg.rep.eq b (mem_of_start hg h.sb), h.ba]
  refine (sameCycle_iff_of_inv (f := π) (P := fun z => z = a ∨ z = b) (fun z => ?_) hc).1 (Or.inl rfl)
  constructor
  · rintro (rfl | rfl)
    · exact Or.inr e1
    · exact Or.inl e2
  · rintro (e | e)
    · right; exact π.injective (by rw [e, e2])
    · left; exact π.injective (by rw [e, e1])

theorem Two.degree {s : GMap K} {L : Finset Int} {π : Perm Int} (hg : GraphRep s L π) {k : Nat} {a b : Int} (h : Two s k a b) :
    s.hasDegree k 2 = .ok true := by
  obtain ⟨nd, hnd⟩ := node_of_start hg h.sa
  rw [((degree_eq hg hnd).2 2).2]
  have : L.filter (fun d => s.startN? d = some k) = {a, b} := by
    ext d
    simp only [Finset.mem_filter, Finset.mem_insert, Finset.mem_singleton]
    constructor
    · rintro ⟨-, hd⟩; exact h.only hg hd
    · rintro (rfl | rfl)
      · exact ⟨mem_of_start hg h.sa, h.sa⟩
      · exact ⟨mem_of_start hg h.sb, h.sb⟩
  rw [this, Finset.card_pair h.ne]; rfl

/-! ## maps that differ only in one node -/

/-- `t` is `s` up to the data of the (existing) node `k` -/
def EqOff (k : Nat) (s t : GMap K) : Prop :=
  ∃ nt, t = { s with node := nt } ∧ (∀ j, j ≠ k → nt j = s.node j) ∧ (nt k).isSome = true ∧ (s.node k).isSome = true

theorem EqOff.detach {k : Nat} {s t s' : GMap K} (h : EqOff k s t) {d : Int} (hs : s.detachDart d = .ok s') :
    ∃ t', t.detachDart d = .ok t' ∧ EqOff k s' t' := by
  obtain ⟨nt, rfl, h1, h2, h3⟩ := h
  obtain ⟨x, hx⟩ := Option.isSome_iff_exists.1 h2
  obtain ⟨y, hy⟩ := Option.isSome_iff_exists.1 h3
  have hs' := hs
  unfold GMap.detachDart at hs
  obtain ⟨n, hn, hs⟩ := Outcome.bind_eq_ok.1 hs
  obtain ⟨nd, hnd, hs⟩ := Outcome.bind_eq_ok.1 hs
  have he : ∃ e, s.edge d.natAbs = some e ∧ n = e.startOf d := by
    unfold GMap.startLabel GMap.guaranteedEdge at hn
    cases he : s.edge d.natAbs with
    | none => simp [he, Outcome.map] at hn
    | some e => simp [he, Outcome.map] at hn; exact ⟨e, rfl, hn.symm⟩
  obtain ⟨e, he, rfl⟩ := he
  have hsn : s.node (e.startOf d) = some nd := by
    unfold GMap.derefNode at hnd
    split_ifs at hnd
    cases hq : s.node (e.startOf d) with
    | none => simp [hq] at hnd
    | some q => simp [hq] at hnd; rw [hnd]
  have hlt : e.startOf d < s.nNodes := by
    unfold GMap.derefNode at hnd
    by_contra hc
    rw [if_neg hc] at hnd; simp at hnd
  obtain ⟨md, hmd⟩ : ∃ md, nt (e.startOf d) = some md := by
    by_cases hk : e.startOf d = k
    · exact ⟨x, by rw [hk, hx]⟩
    · exact ⟨nd, by rw [h1 _ hk, hsn]⟩
  rw [detachDart_eq he hnd] at hs'
  refine ⟨_, detachDart_eq (s := { s with node := nt }) (e := e) (nd := md) he (by simp [GMap.derefNode, hlt, hmd]), ?_⟩
  cases hs'
  refine ⟨_, rfl, fun j hj => ?_, ?_, ?_⟩
  · unfold detachNodes
    by_cases hk : e.startOf d = k
    · have hjk : j ≠ e.startOf d := by rw [hk]; exact hj
      split_ifs <;> simp [Function.update_of_ne hjk, h1 j hj]
    · have : md = nd := by rw [h1 _ hk, hsn] at hmd; exact (Option.some.inj hmd).symm
      subst this
      by_cases hja : j = e.startOf d
      · subst hja; split_ifs <;> simp [h1 _ hj]
      · split_ifs <;> simp [Function.update_of_ne hja, h1 j hj]
  · rw [detachNodes_isSome hmd]; exact h2
  · rw [detachNodes_isSome hsn]; exact h3

theorem EqOff.insert {k : Nat} {s t : GMap K} (h : EqOff k s t) (c b : Int) :
    EqOff k (s.insertSigmaPredecessor c b) (t.insertSigmaPredecessor c b) := by
  obtain ⟨nt, rfl, h1, h2, h3⟩ := h
  unfold GMap.insertSigmaPredecessor
  by_cases hc : c = 0
  · simp only [if_pos hc]; exact ⟨nt, rfl, h1, h2, h3⟩
  · simp only [if_neg hc]; exact ⟨nt, rfl, h1, h2, h3⟩

theorem EqOff.setEdge {k : Nat} {s t : GMap K} (h : EqOff k s t) (l : Nat) (e : Option (Edge K)) : EqOff k (s.setEdge l e) (t.setEdge l e) := by
  obtain ⟨nt, rfl, h1, h2, h3⟩ := h
  exact ⟨nt, rfl, h1, h2, h3⟩

theorem EqOff.edge {k : Nat} {s t : GMap K} (h : EqOff k s t) : t.edge = s.edge := by
  obtain ⟨nt, rfl, -⟩ := h; rfl

theorem EqOff.uninitEdge {k : Nat} {s t : GMap K} (h : EqOff k s t) (l : Nat) : EqOff k (s.uninitEdge l) (t.uninitEdge l) := by
  obtain ⟨nt, rfl, h1, h2, h3⟩ := h
  exact ⟨nt, rfl, h1, h2, h3⟩

theorem EqOff.uninitNode {k : Nat} {s t : GMap K} (h : EqOff k s t) : t.uninitNode k = s.uninitNode k := by
  obtain ⟨nt, rfl, h1, h2, h3⟩ := h
  unfold GMap.uninitNode GMap.setNode
  have : Function.update nt k none = Function.update s.node k none := by
    funext j
    by_cases hj : j = k
    · subst hj; simp
    · rw [Function.update_of_ne hj, Function.update_of_ne hj, h1 j hj]
  simp only [this]

theorem EqOff.initialized {k : Nat} {s t : GMap K} (h : EqOff k s t) : t.initialized ↔ s.initialized := by
  obtain ⟨nt, rfl, -⟩ := h; rfl

theorem EqOff.deref {k : Nat} {s t : GMap K} (h : EqOff k s t) (hk : k < s.nNodes) : ∃ x, t.derefNode k = .ok x := by
  obtain ⟨nt, rfl, h1, h2, h3⟩ := h
  obtain ⟨x, hx⟩ := Option.isSome_iff_exists.1 h2
  exact ⟨x, by simp [GMap.derefNode, hk, hx]⟩

/-! ## the relocated edge -/

theorem relocate_start (e : Edge K) {b : Int} (hb : b ≠ 0) (n : Nat) (p : Pt K) :
    (relocate e b n p).startOf b = n ∧ (relocate e b n p).startOf (-b) = e.startOf (-b) := by
  unfold relocate Edge.startOf
  by_cases h : b < 0
  · rw [if_pos h, if_neg (by omega), if_pos (by omega), if_pos (by omega)]; exact ⟨rfl, rfl⟩
  · rw [if_neg h, if_pos (by omega), if_neg (by omega), if_neg (by omega)]; exact ⟨rfl, rfl⟩

theorem relocate_pts {e : Edge K} (b : Int) (n : Nat) (p : Pt K) : (relocate e b n p).pts.length = e.pts.length := by
  unfold relocate; split_ifs <;> simp

/-- the start nodes after relocating `b` -/
theorem relocated_start {s : GMap K} {b : Int} (hb : b ≠ 0) {e : Edge K} (he : s.edge b.natAbs = some e) (n : Nat) (p : Pt K) (d : Int) :
    (s.setEdge b.natAbs (some (relocate e b n p))).startN? d = if d = b then some n else s.startN? d := by
  unfold GMap.startN? GMap.setEdge
  simp only
  by_cases h : d.natAbs = b.natAbs
  · rw [h, Function.update_self, he]
    have : d = b ∨ d = -b := by omega
    rcases this with rfl | rfl
    · simp [(relocate_start e hb n p).1]
    · rw [if_neg (by omega)]; simp [(relocate_start e hb n p).2]
  · rw [Function.update_of_ne h, if_neg (by rintro rfl; exact h rfl)]

theorem Rep.unique {L : Finset Int} {f finv : Int → Int} {π π' : Perm Int} (h : Rep L f finv π) (h' : Rep L f finv π') : π = π' := by
  ext d
  by_cases hd : d ∈ L
  · rw [← h.eq d hd, ← h'.eq d hd]
  · rw [h.fix d hd, h'.fix d hd]

/-- the edges after the step -/
def edgesAfter (s : GMap K) (x : Int) (n : Nat) (p : Pt K) (a b : Int) (l : Nat) : Option (Edge K) :=
  if l = a.natAbs then none
  else (s.edge l).map fun e =>
    let e1 := if l = b.natAbs then relocate e b n p else e
    if l = x.natAbs then { e1 with flags := e1.flags ||| ((s.edge a.natAbs).map (·.flags)).getD 0 } else e1

/-- What one merge step does, in terms of the map before. -/
structure Merged (s t : GMap K) (L : Finset Int) (π : Perm Int) (x : Int) (n : Nat) (p : Pt K) (c : Int) (k : Nat) (a b : Int) : Prop where
  graph : GraphRep t (eraseEdge L a) (skip (skip (ins (skip π b) b c) a) (-a))
  start : ∀ d, t.startN? d = if d = a ∨ d = -a then none else if d = b then some n else s.startN? d
  gone : t.node k = none
  pos : ∀ j, j ≠ k → (t.node j).map (·.pos) = (s.node j).map (·.pos)
  edge : t.edge = edgesAfter s x n p a b
  nNodes : t.nNodes = s.nNodes
  nEdges : t.nEdges = s.nEdges
  nFaces : t.nFaces = s.nFaces
  nodeCount : t.nodeCount + 1 = s.nodeCount
  edgeCount : t.edgeCount + 1 = s.edgeCount

variable [Field K] [LinearOrder K]

theorem mergeStep_spec {s : GMap K} {L : Finset Int} {π : Perm Int} (hg : GraphRep s L π) (hi : ¬ s.initialized) {h : Hooks K}
    (hh : ∀ s n, h.removeNode s n = true) {x : Int} {n : Nat} {p : Pt K} {c : Int} {m : MergeDart} {k : Nat} {a b : Int}
    (hT : Two s k a b) (ha : m.dart s = a) (hkn : k ≠ n) (hc : s.startN? c = some n) (hx : s.liveD x) :
    ∃ t, mergeStep h x n p c m s = .ok (b, t) ∧ Merged s t L π x n p c k a b := by
  have haL := mem_of_start hg hT.sa
  have hbL := mem_of_start hg hT.sb
  have hcL := mem_of_start hg hc
  have ha0 := hg.ne_zero haL
  have hb0 := hg.ne_zero hbL
  obtain ⟨nd, hnd⟩ := node_of_start hg hT.sa
  obtain ⟨sd, hsd⟩ := node_of_start hg hc
  obtain ⟨ea, hea⟩ := liveD_exists ((hg.live a).1 haL)
  obtain ⟨eb, heb⟩ := liveD_exists ((hg.live b).1 hbL)
  obtain ⟨ex, hex⟩ := liveD_exists hx
  have hpa : π a = b := by rw [← hg.rep.eq a haL, hT.ab]
  have hpb : π b = a := by rw [← hg.rep.eq b hbL, hT.ba]
  have hsb : eb.startOf b = k := by have := hT.sb; rw [startN?_of heb] at this; exact Option.some.inj this
  have hsa : ea.startOf a = k := by have := hT.sa; rw [startN?_of hea] at this; exact Option.some.inj this
  have hcb : c ≠ b := by rintro rfl; rw [hT.sb] at hc; exact hkn (Option.some.inj hc)
  have hab' : a.natAbs ≠ b.natAbs := by have := hT.ne; have := hT.ne'; omega
  -- detach at the old node first
  have R1 := hg.rep.detach hbL
  have N1 := hg.nodes.detach hg.rep hg.starts hbL hT.sb hnd
  have S1 := StartsOK.detach (node' := detachNodes s.node k nd b (s.sigma b)) hg.rep hg.starts hbL (fun m => detachNodes_isSome hnd m)
  -- V2: detached and relocated
  let V2 : GMap K := { s with
      sigma := Function.update s.sigma (s.sigmaInv b) (s.sigma b)
      sigmaInv := Function.update s.sigmaInv (s.sigma b) (s.sigmaInv b)
      node := detachNodes s.node k nd b (s.sigma b)
      edge := Function.update s.edge b.natAbs (some (relocate eb b n p)) }
  have st2 : ∀ d, V2.startN? d = if d = b then some n else s.startN? d := relocated_start hb0 heb n p
  have st2' : ∀ d ∈ L.erase b, V2.startN? d = s.startN? d := fun d hd => by
    rw [st2, if_neg (Finset.mem_erase.1 hd).1]
  have rot2 : Rot V2 (L.erase b) (skip π b) := by
    refine ⟨R1, ?_, ?_, ?_⟩
    · intro d hd
      obtain ⟨q, g1, g2, g3⟩ := S1 d hd
      exact ⟨q, by rw [st2' d hd]; exact g1, g2, by rw [st2' _ (R1.mem hd)]; exact g3⟩
    · intro j jd hj
      rcases N1 j jd hj with ⟨g1, g2⟩ | ⟨g1, g2, g3⟩
      · exact Or.inl ⟨g1, fun d hd => by rw [st2' d hd]; exact g2 d hd⟩
      · exact Or.inr ⟨g1, by rw [st2' _ g1]; exact g2, fun d hd hdj => g3 d hd (by rw [← st2' d hd]; exact hdj)⟩
    · intro h0; exact hg.ne_zero (Finset.mem_erase.1 h0).2 rfl
  have hcE : c ∈ L.erase b := Finset.mem_erase.2 ⟨hcb, hcL⟩
  have hn2 : V2.node n = some sd := by
    show detachNodes s.node k nd b (s.sigma b) n = some sd
    unfold detachNodes
    by_cases hb1 : nd.anchor = b
    · rw [if_pos hb1, Function.update_of_ne (Ne.symm hkn)]; exact hsd
    · rw [if_neg hb1]; exact hsd
  obtain ⟨π3, rot3⟩ := rot2.insertDart' (x := b) (y := c) (n := n) (nd := sd) (by simp) hb0 (by rw [st2]; simp) hn2 hcE
    (by rw [st2' c hcE]; exact hc)
  have hc0 : c ≠ 0 := hg.ne_zero hcL
  have hπ3 : π3 = ins (skip π b) b c := by
    refine Rep.unique rot3.rep ?_
    have := R1.insert_before (x := b) (y := c) (by simp) hcE
    unfold GMap.insertSigmaPredecessor; rw [if_neg hc0]; exact this
  have hLb : insert b (L.erase b) = L := Finset.insert_erase hbL
  rw [hLb, hπ3] at rot3
  obtain ⟨sg, sgi, hV3⟩ := insert_fields V2 c b
  -- V4: with the flags
  let fl : Edge K → Edge K := fun e1 => { e1 with flags := e1.flags ||| ea.flags }
  let e2 : Edge K := if x.natAbs = b.natAbs then relocate eb b n p else ex
  have he2 : (V2.insertSigmaPredecessor c b).edge x.natAbs = some e2 := by
    rw [hV3]
    show Function.update s.edge b.natAbs (some (relocate eb b n p)) x.natAbs = some e2
    by_cases hxb : x.natAbs = b.natAbs
    · simp only [e2]; rw [hxb, Function.update_self, if_pos rfl]
    · simp only [e2]; rw [Function.update_of_ne hxb, if_neg hxb, hex]
  have hea2 : (V2.insertSigmaPredecessor c b).edge a.natAbs = some ea := by
    rw [hV3]
    show Function.update s.edge b.natAbs (some (relocate eb b n p)) a.natAbs = some ea
    rw [Function.update_of_ne hab', hea]
  let V4 : GMap K := (V2.insertSigmaPredecessor c b).setEdge x.natAbs (some (fl e2))
  have st4 : V4.startN? = V2.startN? := by
    funext d
    rw [← startN?_insert V2 c b]
    show (Function.update (V2.insertSigmaPredecessor c b).edge x.natAbs (some (fl e2)) d.natAbs).map _ = _
    by_cases hd : d.natAbs = x.natAbs
    · rw [hd, Function.update_self]
      unfold GMap.startN?; rw [hd, he2]; rfl
    · rw [Function.update_of_ne hd]; rfl
  have some4 : ∀ l, (V4.edge l).isSome = (s.edge l).isSome := by
    intro l
    show (Function.update (V2.insertSigmaPredecessor c b).edge x.natAbs (some (fl e2)) l).isSome = _
    by_cases hl : l = x.natAbs
    · subst hl; rw [Function.update_self, hex]; rfl
    · rw [Function.update_of_ne hl, hV3]
      show (Function.update s.edge b.natAbs (some (relocate eb b n p)) l).isSome = _
      by_cases hl2 : l = b.natAbs
      · subst hl2; rw [Function.update_self, heb]; rfl
      · rw [Function.update_of_ne hl2]
  have pts4 : ∀ l e, V4.edge l = some e → ∃ e', s.edge l = some e' ∧ e.pts.length = e'.pts.length := by
    intro l e hl
    have hl : Function.update (V2.insertSigmaPredecessor c b).edge x.natAbs (some (fl e2)) l = some e := hl
    by_cases hlx : l = x.natAbs
    · subst hlx; rw [Function.update_self] at hl; cases hl
      refine ⟨ex, hex, ?_⟩
      show e2.pts.length = _
      by_cases hxb : x.natAbs = b.natAbs
      · simp only [e2]; rw [if_pos hxb, relocate_pts]
        rw [hxb, heb] at hex; cases hex; rfl
      · simp only [e2]; rw [if_neg hxb]
    · rw [Function.update_of_ne hlx, hV3] at hl
      have hl : Function.update s.edge b.natAbs (some (relocate eb b n p)) l = some e := hl
      by_cases hl2 : l = b.natAbs
      · subst hl2; rw [Function.update_self] at hl; cases hl
        exact ⟨eb, heb, relocate_pts b n p⟩
      · rw [Function.update_of_ne hl2] at hl; exact ⟨e, hl, rfl⟩
  have node4 : V4.node = V2.node := by show (V2.insertSigmaPredecessor c b).node = _; rw [hV3]
  have nsome : ∀ j, (V4.node j).isSome = (s.node j).isSome := fun j => by rw [node4]; exact detachNodes_isSome hnd j
  have f4 : V4.nNodes = s.nNodes ∧ V4.nEdges = s.nEdges ∧ V4.nFaces = s.nFaces ∧ V4.nodeCount = s.nodeCount ∧ V4.edgeCount = s.edgeCount := by
    simp only [V4, GMap.setEdge]; rw [hV3]; exact ⟨rfl, rfl, rfl, rfl, rfl⟩
  have g4 : GraphRep V4 L (ins (skip π b) b c) := by
    have hf : V4.nNodes = s.nNodes ∧ V4.nEdges = s.nEdges ∧ V4.nFaces = s.nFaces ∧ V4.face = s.face ∧ V4.nodeCount = s.nodeCount ∧
        V4.edgeCount = s.edgeCount ∧ V4.faceCount = s.faceCount := by
      simp only [V4, GMap.setEdge]; rw [hV3]; exact ⟨rfl, rfl, rfl, rfl, rfl, rfl, rfl⟩
    obtain ⟨f1, f2, f3, f4, f5, f6, f7⟩ := hf
    refine ⟨⟨by rw [f2]; exact hg.labels.edges_pos, ?_, ?_, ?_, ?_, ?_, ?_, ?_, ?_⟩, ?_, ?_, ?_, ?_⟩
    · have := some4 0; rw [hg.labels.edge_zero] at this
      exact Option.not_isSome_iff_eq_none.1 (by rw [this]; simp)
    · intro j hj; rw [f1]; exact hg.labels.node_lt j (by rw [← nsome]; exact hj)
    · intro j hj; rw [f2]; exact hg.labels.edge_lt j (by rw [← some4]; exact hj)
    · intro j hj; rw [f3]; rw [f4] at hj; exact hg.labels.face_lt j hj
    · rw [f5, hg.labels.node_count]; unfold GMap.liveNodes; rw [f1]; simp only [nsome]
    · rw [f6, hg.labels.edge_count]; unfold GMap.liveEdges; rw [f2]; simp only [some4]
    · rw [f7, hg.labels.face_count]; unfold GMap.liveFaces; rw [f3, f4]
    · intro l e hl
      obtain ⟨e', he', hlen⟩ := pts4 l e hl
      have := hg.labels.pts_ne _ _ he'
      intro h0; rw [h0] at hlen; exact this (List.length_eq_zero_iff.1 hlen.symm)
    · intro d; rw [hg.live]; unfold GMap.liveD; rw [some4]
    · exact rot3.rep
    · rw [st4, node4]
      have := rot3.starts
      rw [startN?_insert, hV3] at this; exact this
    · rw [st4, node4]
      have := rot3.nodes
      rw [startN?_insert, hV3] at this; exact this
  have hea4 : V4.edge a.natAbs = some (if a.natAbs = x.natAbs then fl e2 else ea) := by
    show Function.update (V2.insertSigmaPredecessor c b).edge x.natAbs (some (fl e2)) a.natAbs = _
    by_cases h1 : a.natAbs = x.natAbs
    · rw [h1, Function.update_self, if_pos rfl]
    · rw [Function.update_of_ne h1, if_neg h1, hea2]
  obtain ⟨W1, W2, d1, d2, ⟨node', sg', sgi', hW2⟩, g5, s5, p5, -⟩ := g4.remove haL hea4
  -- nothing starts at k any more
  have hk5 : ∀ d ∈ eraseEdge L a, (W2.uninitEdge a.natAbs).startN? d ≠ some k := by
    intro d hd hdk
    rw [(s5 d hd).1, st4, st2] at hdk
    rw [mem_eraseEdge] at hd
    by_cases h1 : d = b
    · rw [if_pos h1] at hdk; exact hkn (Option.some.inj hdk).symm
    · rw [if_neg h1] at hdk
      rcases hT.only hg hdk with e | e
      · exact hd.2.1 e
      · exact h1 e
  have hn5 : ((W2.uninitEdge a.natAbs).node k).isSome = true := by
    have := p5 k
    rw [node4] at this
    have h2 : (V2.node k).isSome = true := by rw [show (V2.node k).isSome = (s.node k).isSome from detachNodes_isSome hnd k, hnd]; rfl
    obtain ⟨q, hq⟩ := Option.isSome_iff_exists.1 h2
    rw [hq] at this
    show (W2.node k).isSome = true
    cases hw : W2.node k with
    | none => rw [hw] at this; simp at this
    | some _ => rfl
  obtain ⟨kd, hkd⟩ := Option.isSome_iff_exists.1 hn5
  have hkd0 : kd.anchor = 0 := by
    rcases g5.nodes k kd hkd with ⟨g, -⟩ | ⟨g1, g2, -⟩
    · exact g
    · exact absurd g2 (hk5 _ g1)
  have g6 := g5.uninitNode hkd hkd0
  -- the actual execution
  have hAb : (s.setEdge b.natAbs (some (relocate eb b n p))).detachDart b = .ok { s with
      sigma := Function.update s.sigma (s.sigmaInv b) (s.sigma b)
      sigmaInv := Function.update s.sigmaInv (s.sigma b) (s.sigmaInv b)
      node := s.node
      edge := Function.update s.edge b.natAbs (some (relocate eb b n p)) } := by
    rw [detachDart_eq (e := relocate eb b n p) (nd := sd) (by simp [GMap.setEdge])
      (by rw [(relocate_start eb hb0 n p).1]; exact derefNode_of (s := s) hg.labels hsd)]
    have : sd.anchor ≠ b := by
      intro e
      rcases hg.nodes n sd hsd with ⟨-, g⟩ | ⟨-, g, -⟩
      · exact g c hcL hc
      · rw [e, hT.sb] at g; exact hkn (Option.some.inj g)
    simp only [GMap.setEdge, detachNodes, this, if_false]
  have q2 : EqOff k V2 { s with
      sigma := Function.update s.sigma (s.sigmaInv b) (s.sigma b)
      sigmaInv := Function.update s.sigmaInv (s.sigma b) (s.sigmaInv b)
      node := s.node
      edge := Function.update s.edge b.natAbs (some (relocate eb b n p)) } := by
    refine ⟨s.node, rfl, fun j hj => ?_, by rw [hnd]; rfl, ?_⟩
    · show _ = detachNodes s.node k nd b (s.sigma b) j
      unfold detachNodes; split_ifs <;> simp [Function.update_of_ne hj]
    · rw [show (V2.node k).isSome = (s.node k).isSome from detachNodes_isSome hnd k, hnd]; rfl
  have q3 := q2.insert c b
  have q4 := q3.setEdge x.natAbs (some (fl e2))
  obtain ⟨U1, u1, q5⟩ := q4.detach d1
  obtain ⟨U2, u2, q6⟩ := q5.detach d2
  have q7 := q6.uninitEdge a.natAbs
  have hU2a : ∃ e, U2.edge a.natAbs = some e := by
    rw [q6.edge, hW2]; exact ⟨_, hea4⟩
  obtain ⟨eu, heu⟩ := hU2a
  have hlt : k < (W2.uninitEdge a.natAbs).nNodes := g5.labels.node_lt k hn5
  obtain ⟨ku, hku⟩ := q7.deref hlt
  refine ⟨(W2.uninitEdge a.natAbs).uninitNode k, ?_, g6, ?_, ?_, ?_, ?_, ?_, ?_, ?_, ?_, ?_⟩
  · unfold mergeStep
    simp only [ha]
    unfold GMap.startLabel
    rw [guaranteedEdge_of hea]
    simp only [Outcome.map, Outcome.bind_ok]
    rw [hsa, hT.degree hg]
    simp only [Outcome.bind_ok]
    rw [if_neg (by simp), hT.ab, heb]
    simp only
    rw [if_neg (hg.labels.pts_ne _ _ heb), hAb]
    simp only [Outcome.bind_ok]
    unfold propagateFlags
    have i1 : (({ s with
      sigma := Function.update s.sigma (s.sigmaInv b) (s.sigma b)
      sigmaInv := Function.update s.sigmaInv (s.sigma b) (s.sigmaInv b)
      node := s.node
      edge := Function.update s.edge b.natAbs (some (relocate eb b n p)) } : GMap K).insertSigmaPredecessor c b).edge x.natAbs = some e2 := by rw [q3.edge]; exact he2
    have i2 : (({ s with
      sigma := Function.update s.sigma (s.sigmaInv b) (s.sigma b)
      sigmaInv := Function.update s.sigmaInv (s.sigma b) (s.sigmaInv b)
      node := s.node
      edge := Function.update s.edge b.natAbs (some (relocate eb b n p)) } : GMap K).insertSigmaPredecessor c b).edge a.natAbs = some ea := by rw [q3.edge]; exact hea2
    rw [i1, i2]
    simp only [Outcome.bind_ok]
    unfold GMap.removeEdge
    rw [if_neg (by
      rw [q4.initialized]
      show ¬ 0 < V4.nFaces
      have : V4.nFaces = s.nFaces := by simp only [V4, GMap.setEdge]; rw [hV3]
      rw [this]; exact hi)]
    simp only [bind]
    have hu1 : ((({ s with
      sigma := Function.update s.sigma (s.sigmaInv b) (s.sigma b)
      sigmaInv := Function.update s.sigmaInv (s.sigma b) (s.sigmaInv b)
      node := s.node
      edge := Function.update s.edge b.natAbs (some (relocate eb b n p)) } : GMap K).insertSigmaPredecessor c b).setEdge x.natAbs (some { e2 with flags := e2.flags ||| ea.flags })).detachDart a = .ok U1 := u1
    rw [hu1]
    simp only [Outcome.bind_ok]
    rw [u2]
    simp only [Outcome.bind_ok]
    rw [guaranteedEdge_of heu]
    simp only [Outcome.bind_ok]
    unfold GMap.removeIsolatedNode
    simp only [bind]
    rw [hku]
    simp only [Outcome.bind_ok, hh, if_true]
    rw [q7.uninitNode]
  · intro d
    have e1 : ((W2.uninitEdge a.natAbs).uninitNode k).startN? d = (Function.update V4.edge a.natAbs none d.natAbs).map (·.startOf d) := by
      rw [hW2]; rfl
    rw [e1]
    by_cases hd : d = a ∨ d = -a
    · rw [if_pos hd, show d.natAbs = a.natAbs by omega, Function.update_self]; rfl
    · rw [if_neg hd, Function.update_of_ne (by omega), ← st2]
      exact congrFun st4 d
  · simp [GMap.uninitNode, GMap.setNode]
  · intro j hj
    have := p5 j
    rw [node4] at this
    show (Function.update W2.node k none j).map _ = _
    rw [Function.update_of_ne hj, this]
    exact detachNodes_pos hnd j
  · funext l
    have e1 : ((W2.uninitEdge a.natAbs).uninitNode k).edge l = Function.update V4.edge a.natAbs none l := by
      rw [hW2]; rfl
    rw [e1]
    unfold edgesAfter
    by_cases hl : l = a.natAbs
    · rw [if_pos hl, hl, Function.update_self]
    · rw [Function.update_of_ne hl, if_neg hl, hea]
      show Function.update (V2.insertSigmaPredecessor c b).edge x.natAbs (some (fl e2)) l = _
      by_cases hlx : l = x.natAbs
      · rw [hlx, Function.update_self, hex]
        simp only [Option.map_some, if_true, Option.getD_some, fl, e2]
        by_cases hxb : x.natAbs = b.natAbs
        · have : eb = ex := by rw [hxb, heb] at hex; exact Option.some.inj hex
          simp [hxb, this]
        · simp [hxb]
      · rw [Function.update_of_ne hlx, hV3]
        show Function.update s.edge b.natAbs (some (relocate eb b n p)) l = _
        by_cases hlb : l = b.natAbs
        · have hbx : b.natAbs ≠ x.natAbs := by rw [← hlb]; exact hlx
          rw [hlb, Function.update_self, heb]
          simp [hbx]
        · rw [Function.update_of_ne hlb]
          simp only [if_neg hlx, if_neg hlb, Option.map_id']
  · rw [hW2]; exact f4.1
  · rw [hW2]; exact f4.2.1
  · rw [hW2]; exact f4.2.2.1
  · have hpos : 0 < s.nodeCount := by
      rw [hg.labels.node_count, Finset.card_pos]
      exact ⟨k, by simp [GMap.liveNodes, hnd, hg.labels.node_lt k (by simp [hnd])]⟩
    have e1 : ((W2.uninitEdge a.natAbs).uninitNode k).nodeCount = V4.nodeCount - 1 := by rw [hW2]; rfl
    rw [e1, f4.2.2.2.1]; omega
  · have hpos : 0 < s.edgeCount := by
      rw [hg.labels.edge_count, Finset.card_pos]
      exact ⟨a.natAbs, by simp [GMap.liveEdges, hea, hg.labels.edge_lt a.natAbs (by simp [hea])]⟩
    have e1 : ((W2.uninitEdge a.natAbs).uninitNode k).edgeCount = V4.edgeCount - 1 := by rw [hW2]; rfl
    rw [e1, f4.2.2.2.2]; omega

end Verif.Parallel
