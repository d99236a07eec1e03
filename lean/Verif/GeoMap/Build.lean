import Verif.GeoMap.ModelInit
import Verif.GeoMap.Planar2

/-! # Construction operations keep the map consistent -/

namespace Verif.GeoMap
open Equiv Equiv.Perm Verif.PermLemmas

variable {K : Type}

/-! ## inserting a dart into an orbit -/

theorem Rep.insert_before {L : Finset Int} {f finv : Int → Int} {π : Perm Int} (h : Rep L f finv π) {x y : Int} (hx : x ∉ L) (hy : y ∈ L) :
    Rep (insert x L) (Function.update (Function.update f (finv y) x) x y) (Function.update (Function.update finv y x) x (finv y)) (ins π x y) := by
  have px := h.fix x hx
  have hxy : y ≠ x := fun e => hx (e ▸ hy)
  have e0 := h.eqi y hy
  have hinv : (ins π x y)⁻¹ = π⁻¹ * swap x y := by simp [ins, mul_inv_rev]
  have pix : π⁻¹ x = x := h.fixi hx
  have hiy : π⁻¹ y ≠ x := by intro e; rw [Perm.inv_eq_iff_eq] at e; rw [px] at e; exact hxy e
  refine ⟨fun d hd => ?_, fun d hd => ?_, fun d hd => ?_⟩
  · rw [e0]
    rw [Finset.mem_insert] at hd
    simp only [Function.update_apply, ins, Perm.mul_apply]
    by_cases h1 : d = x
    · rw [if_pos h1, h1, px, swap_apply_left]
    · rw [if_neg h1]
      have hdL := hd.resolve_left h1
      by_cases h2 : d = π⁻¹ y
      · rw [if_pos h2, h2]; simp
      · rw [if_neg h2, h.eq d hdL]
        have a1 : π d ≠ y := fun e => h2 (by rw [← e]; simp)
        have a2 : π d ≠ x := fun e => h1 (π.injective (by rw [e, px]))
        rw [swap_apply_of_ne_of_ne a2 a1]
  · rw [e0, hinv]
    rw [Finset.mem_insert] at hd
    simp only [Function.update_apply, Perm.mul_apply]
    by_cases h1 : d = x
    · rw [if_pos h1, h1, swap_apply_left]
    · rw [if_neg h1]
      have hdL := hd.resolve_left h1
      by_cases h2 : d = y
      · rw [if_pos h2, h2, swap_apply_right, pix]
      · rw [if_neg h2, h.eqi d hdL, swap_apply_of_ne_of_ne h1 h2]
  · rw [Finset.mem_insert, not_or] at hd
    rw [ins, Perm.mul_apply, h.fix d hd.2, swap_apply_of_ne_of_ne hd.1 (fun e => hd.2 (e ▸ hy))]

theorem Rep.insert_single {L : Finset Int} {f finv : Int → Int} {π : Perm Int} (h : Rep L f finv π) {x : Int} (hx : x ∉ L) :
    Rep (insert x L) (Function.update f x x) (Function.update finv x x) π := by
  refine ⟨fun d hd => ?_, fun d hd => ?_, fun d hd => ?_⟩
  · rw [Finset.mem_insert] at hd
    by_cases h1 : d = x
    · subst h1; rw [Function.update_self, h.fix _ hx]
    · rw [Function.update_of_ne h1, h.eq d (hd.resolve_left h1)]
  · rw [Finset.mem_insert] at hd
    by_cases h1 : d = x
    · subst h1; rw [Function.update_self, h.fixi hx]
    · rw [Function.update_of_ne h1, h.eqi d (hd.resolve_left h1)]
  · rw [Finset.mem_insert, not_or] at hd
    exact h.fix d hd.2

/-- rotation systems while darts are being inserted -/
structure Rot (s : GMap K) (L : Finset Int) (π : Perm Int) : Prop where
  rep : Rep L s.sigma s.sigmaInv π
  starts : StartsOK L π s.startN? s.node
  nodes : NodesOK L π s.startN? s.node
  zero : (0 : Int) ∉ L

theorem startN?_insert (s : GMap K) (y x : Int) : (s.insertSigmaPredecessor y x).startN? = s.startN? := by
  unfold GMap.insertSigmaPredecessor; split_ifs <;> rfl

theorem insert_fields (s : GMap K) (y x : Int) : ∃ sg sgi, s.insertSigmaPredecessor y x = { s with sigma := sg, sigmaInv := sgi } := by
  unfold GMap.insertSigmaPredecessor; split_ifs
  · exact ⟨_, _, rfl⟩
  · exact ⟨_, _, rfl⟩

/-- Inserting dart `x` before `y` (a dart of the same node, or 0 if the node has none); the node's
anchor is set to `a`, which is the old one or `x`. -/
theorem Rot.insertDart {s : GMap K} {L : Finset Int} {π : Perm Int} (h : Rot s L π) {x y a : Int} {n : Nat} {nd : Node K}
    (hx : x ∉ L) (hx0 : x ≠ 0) (hn : s.startN? x = some n) (hnd : s.node n = some nd)
    (hy : (y = 0 ∧ nd.anchor = 0 ∧ a = x) ∨ (y ∈ L ∧ s.startN? y = some n ∧ (a = x ∨ a = nd.anchor))) :
    ∃ π', Rot ((s.insertSigmaPredecessor y x).setNode n (some { nd with anchor := a })) (insert x L) π' := by
  obtain ⟨sg, sgi, hs⟩ := insert_fields s y x
  have hst : ((s.insertSigmaPredecessor y x).setNode n (some { nd with anchor := a })).startN? = s.startN? := by rw [hs]; rfl
  have hno : ((s.insertSigmaPredecessor y x).setNode n (some { nd with anchor := a })).node =
      Function.update s.node n (some { nd with anchor := a }) := by rw [hs]; rfl
  have hsome : ∀ m, (Function.update s.node n (some { nd with anchor := a }) m).isSome = (s.node m).isSome := by
    intro m
    by_cases e : m = n
    · subst e; rw [Function.update_self, hnd]; rfl
    · rw [Function.update_of_ne e]
  have hz : (0 : Int) ∉ insert x L := by
    rw [Finset.mem_insert, not_or]; exact ⟨hx0.symm, h.zero⟩
  have hneL : ∀ {d}, d ∈ L → d ≠ x := fun hd e => hx (e ▸ hd)
  rcases hy with ⟨rfl, ha0, rfl⟩ | ⟨hyL, hyn, ha⟩
  · refine ⟨π, ?_, ?_, ?_, hz⟩
    · have := h.rep.insert_single hx
      unfold GMap.insertSigmaPredecessor; rw [if_pos rfl]; exact this
    · rw [hst, hno]
      intro d hd
      rw [Finset.mem_insert] at hd
      rcases hd with rfl | hd
      · exact ⟨n, hn, by rw [hsome, hnd]; rfl, by rw [h.rep.fix _ hx]; exact hn⟩
      · obtain ⟨m, g1, g2, g3⟩ := h.starts d hd
        exact ⟨m, g1, by rw [hsome]; exact g2, g3⟩
    · rw [hst, hno]
      intro m md hmd
      have hold : ∀ d ∈ L, s.startN? d ≠ some n := by
        rcases h.nodes n nd hnd with ⟨-, g⟩ | ⟨g, -⟩
        · exact g
        · rw [ha0] at g; exact absurd g h.zero
      by_cases e : m = n
      · subst e
        rw [Function.update_self] at hmd; cases hmd
        right
        refine ⟨Finset.mem_insert_self _ _, hn, fun d hd hdn => ?_⟩
        rw [Finset.mem_insert] at hd
        rcases hd with rfl | hd
        · exact SameCycle.refl _ _
        · exact absurd hdn (hold d hd)
      · rw [Function.update_of_ne e] at hmd
        rcases h.nodes m md hmd with ⟨g1, g2⟩ | ⟨g1, g2, g3⟩
        · left
          refine ⟨g1, fun d hd => ?_⟩
          rw [Finset.mem_insert] at hd
          rcases hd with rfl | hd
          · rw [hn]; exact fun e' => e (Option.some.inj e').symm
          · exact g2 d hd
        · right
          refine ⟨Finset.mem_insert_of_mem g1, g2, fun d hd hdn => ?_⟩
          rw [Finset.mem_insert] at hd
          rcases hd with rfl | hd
          · rw [hn] at hdn; exact absurd (Option.some.inj hdn).symm e
          · exact g3 d hd hdn
  · have hy0 : y ≠ 0 := fun e => h.zero (e ▸ hyL)
    have px := h.rep.fix x hx
    have hxy : y ≠ x := hneL hyL
    refine ⟨ins π x y, ?_, ?_, ?_, hz⟩
    · have := h.rep.insert_before hx hyL
      unfold GMap.insertSigmaPredecessor; rw [if_neg hy0]; exact this
    · rw [hst, hno]
      intro d hd
      rw [Finset.mem_insert] at hd
      rcases hd with rfl | hd
      · exact ⟨n, hn, by rw [hsome, hnd]; rfl, by rw [ins_self π px]; exact hyn⟩
      · obtain ⟨m, g1, g2, g3⟩ := h.starts d hd
        refine ⟨m, g1, by rw [hsome]; exact g2, ?_⟩
        by_cases e : π d = y
        · have : ins π x y d = x := by
            have := ins_pred π x y
            rwa [← e, show π⁻¹ (π d) = d by simp, e] at this
          rw [this, hn, ← hyn, ← e, g3]
        · rw [ins_of_ne π px (hneL hd) e]; exact g3
    · rw [hst, hno]
      have hcov : ∀ d ∈ insert x L, s.startN? d = some n → SameCycle (ins π x y) y d := by
        intro d hd hdn
        rw [Finset.mem_insert] at hd
        rcases hd with rfl | hd
        · refine SameCycle.symm ?_
          rw [sameCycle_ins_self π px hxy hxy]
        · rw [sameCycle_ins π px hxy (hneL hd)]
          rcases h.nodes n nd hnd with ⟨-, g⟩ | ⟨-, -, g⟩
          · exact absurd hyn (g y hyL)
          · exact (g y hyL hyn).symm.trans (g d hd hdn)
      intro m md hmd
      by_cases e : m = n
      · subst e
        rw [Function.update_self] at hmd; cases hmd
        right
        have haL : a ∈ insert x L ∧ s.startN? a = some m := by
          rcases ha with rfl | rfl
          · exact ⟨Finset.mem_insert_self _ _, hn⟩
          · rcases h.nodes m nd hnd with ⟨-, g⟩ | ⟨g1, g2, g⟩
            · exact absurd hyn (g y hyL)
            · exact ⟨Finset.mem_insert_of_mem g1, g2⟩
        exact ⟨haL.1, haL.2, fun d hd hdn => (hcov a haL.1 haL.2).symm.trans (hcov d hd hdn)⟩
      · rw [Function.update_of_ne e] at hmd
        rcases h.nodes m md hmd with ⟨g1, g2⟩ | ⟨g1, g2, g3⟩
        · left
          refine ⟨g1, fun d hd => ?_⟩
          rw [Finset.mem_insert] at hd
          rcases hd with rfl | hd
          · rw [hn]; exact fun e' => e (Option.some.inj e').symm
          · exact g2 d hd
        · right
          refine ⟨Finset.mem_insert_of_mem g1, g2, fun d hd hdn => ?_⟩
          rw [Finset.mem_insert] at hd
          rcases hd with rfl | hd
          · rw [hn] at hdn; exact absurd (Option.some.inj hdn).symm e
          · rw [sameCycle_ins π px (hneL g1) (hneL hd)]; exact g3 d hd hdn

/-- the same without touching the anchor -/
theorem Rot.insertDart' {s : GMap K} {L : Finset Int} {π : Perm Int} (h : Rot s L π) {x y : Int} {n : Nat} {nd : Node K}
    (hx : x ∉ L) (hx0 : x ≠ 0) (hn : s.startN? x = some n) (hnd : s.node n = some nd) (hyL : y ∈ L) (hyn : s.startN? y = some n) :
    ∃ π', Rot (s.insertSigmaPredecessor y x) (insert x L) π' := by
  obtain ⟨π', h'⟩ := h.insertDart (a := nd.anchor) hx hx0 hn hnd (Or.inr ⟨hyL, hyn, Or.inr rfl⟩)
  have e : (s.insertSigmaPredecessor y x).setNode n (some { nd with anchor := nd.anchor }) = s.insertSigmaPredecessor y x := by
    obtain ⟨sg, sgi, hs⟩ := insert_fields s y x
    rw [hs]
    unfold GMap.setNode
    have : Function.update s.node n (some nd) = s.node := by rw [← hnd]; exact Function.update_eq_self _ _
    simp only [this]
  rw [e] at h'
  exact ⟨π', h'⟩

/-- what the insertion position of a new dart must satisfy in the current state -/
def AnchorOK (s : GMap K) (L : Finset Int) (A : GMap.SigmaAnchor) : Prop :=
  (s.node A.node).isSome = true ∧ (A.singular = false → A.dart ∈ L ∧ s.startN? A.dart = some A.node)

theorem Rot.attach {s : GMap K} {L : Finset Int} {π : Perm Int} (h : Rot s L π) (hlt : ∀ m, (s.node m).isSome = true → m < s.nNodes)
    {A : GMap.SigmaAnchor} (hA : AnchorOK s L A) {x : Int} (hx : x ∉ L) (hx0 : x ≠ 0) (hn : s.startN? x = some A.node) :
    ∃ t π', s.attach A A.node x = .ok t ∧ Rot t (insert x L) π' ∧
      (∃ sg sgi node', t = { s with sigma := sg, sigmaInv := sgi, node := node' } ∧ ∀ m, (node' m).map (·.pos) = (s.node m).map (·.pos)) := by
  obtain ⟨nd, hnd⟩ := Option.isSome_iff_exists.mp hA.1
  unfold GMap.attach
  cases hs : A.singular with
  | true =>
    have hd : s.derefNode A.node = .ok nd := by simp [GMap.derefNode, hnd, hlt _ hA.1]
    simp only [if_true, bind, hd, Outcome.bind_ok]
    have hcase : (nd.anchor = 0 ∧ nd.anchor = 0 ∧ x = x) ∨ (nd.anchor ∈ L ∧ s.startN? nd.anchor = some A.node ∧ (x = x ∨ x = nd.anchor)) := by
      rcases h.nodes _ nd hnd with ⟨g, -⟩ | ⟨g1, g2, -⟩
      · exact Or.inl ⟨g, g, rfl⟩
      · exact Or.inr ⟨g1, g2, Or.inl rfl⟩
    obtain ⟨π', h'⟩ := h.insertDart hx hx0 hn hnd hcase
    refine ⟨_, π', rfl, h', ?_⟩
    obtain ⟨sg, sgi, e⟩ := insert_fields s nd.anchor x
    refine ⟨sg, sgi, _, by rw [e]; rfl, fun m => ?_⟩
    by_cases em : m = A.node
    · subst em; rw [Function.update_self, hnd]; rfl
    · rw [Function.update_of_ne em]
  | false =>
    simp only [Bool.false_eq_true, if_false]
    obtain ⟨g1, g2⟩ := hA.2 hs
    obtain ⟨π', h'⟩ := h.insertDart' hx hx0 hn hnd g1 g2
    refine ⟨_, π', rfl, h', ?_⟩
    obtain ⟨sg, sgi, e⟩ := insert_fields s A.dart x
    exact ⟨sg, sgi, s.node, by rw [e], fun m => rfl⟩

theorem sigmaAnchor_ok {s : GMap K} {L : Finset Int} {π : Perm Int} (hg : GraphRep s L π) {p : GMap.SigmaPos} {A : GMap.SigmaAnchor}
    (h : s.sigmaAnchor p = .ok A) : AnchorOK s L A := by
  cases p with
  | node n =>
    simp only [GMap.sigmaAnchor, bind, Outcome.bind_eq_ok] at h
    obtain ⟨nd, h1, h2⟩ := h
    have hnd : s.node n = some nd := by
      unfold GMap.derefNode at h1
      split_ifs at h1
      cases hh : s.node n <;> simp_all
    split_ifs at h2 with g1 g2
    · cases h2; exact ⟨by simp [hnd], by simp⟩
    · cases h2
      refine ⟨by simp [hnd], fun _ => ?_⟩
      rcases hg.nodes n nd hnd with ⟨g, -⟩ | ⟨q1, q2, -⟩
      · exact absurd g g1
      · exact ⟨q1, q2⟩
  | dart d =>
    simp only [GMap.sigmaAnchor, bind, Outcome.bind_eq_ok] at h
    obtain ⟨n, h1, h2⟩ := h
    cases h2
    have hd : s.liveD d ∧ s.startN? d = some n := by
      unfold GMap.startLabel GMap.guaranteedEdge at h1
      cases he : s.edge d.natAbs with
      | none => rw [he] at h1; cases h1
      | some e =>
        rw [he] at h1
        cases h1
        exact ⟨by simp [GMap.liveD, he], startN?_of he⟩
    have hdL := (hg.live d).mpr hd.1
    obtain ⟨m, g1, g2, -⟩ := hg.starts d hdL
    rw [hd.2] at g1; cases g1
    exact ⟨g2, fun _ => ⟨hdL, hd.2⟩⟩

/-- `sigmaAnchor` never runs into undefined behaviour for an existing node label or any dart -/
theorem sigmaAnchor_cases {s : GMap K} {L : Finset Int} {π : Perm Int} (_hg : GraphRep s L π) (p : GMap.SigmaPos)
    (hp : ∀ n, p = .node n → n < s.nNodes → (s.node n).isSome = true) :
    (∃ A, s.sigmaAnchor p = .ok A) ∨ s.sigmaAnchor p = .precond := by
  cases p with
  | node n =>
    unfold GMap.sigmaAnchor GMap.derefNode
    by_cases h : n < s.nNodes
    · obtain ⟨nd, hnd⟩ := Option.isSome_iff_exists.mp (hp n rfl h)
      simp only [h, if_true, hnd, bind, Outcome.bind_ok]
      split_ifs
      · exact Or.inl ⟨_, rfl⟩
      · exact Or.inr rfl
      · exact Or.inl ⟨_, rfl⟩
    · simp [h, bind]
  | dart d =>
    simp only [GMap.sigmaAnchor, GMap.startLabel, GMap.guaranteedEdge]
    cases s.edge d.natAbs with
    | none => right; rfl
    | some e => left; exact ⟨_, rfl⟩

/-- the state with a new, unattached edge -/
theorem newEdge_start {s : GMap K} (h0 : 0 < s.nEdges) (e : Edge K) (x : Int) :
    (s.newEdge e).2.startN? x = if x = s.nEdges then some e.startN else if x = -(s.nEdges : Int) then some e.endN else s.startN? x := by
  unfold GMap.newEdge GMap.startN?
  simp only [Function.update_apply]
  by_cases hx : x.natAbs = s.nEdges
  · rw [if_pos hx]
    rcases (by omega : x = s.nEdges ∨ x = -(s.nEdges : Int)) with rfl | rfl
    · rw [if_pos rfl]
      simp only [Option.map_some, Edge.startOf]
      rw [if_pos (by omega)]
    · rw [if_neg (by omega), if_pos rfl]
      simp only [Option.map_some, Edge.startOf]
      rw [if_neg (by omega)]
  · rw [if_neg hx, if_neg (by omega), if_neg (by omega)]

section AddEdge
variable [Field K] [LinearOrder K]

/-- `addEdge` on a consistent graph: the graph stays consistent, exactly one edge with the given end
nodes and points is added, nothing else changes (except sigma neighbours and anchors). -/
theorem addEdge_spec {s : GMap K} {π : Perm Int} (hg : GraphRep s s.darts π) (hi : ¬ s.initialized) {p q : GMap.SigmaPos} {A B : GMap.SigmaAnchor}
    (hA : s.sigmaAnchor p = .ok A) (hB : s.sigmaAnchor q = .ok B) {pts : List (Pt K)} (hpts : pts ≠ []) (label : Nat) :
    ∃ t π', s.addEdge p q pts label = .ok (max s.nEdges label, t) ∧
      GraphRep t (insert (-((max s.nEdges label : Nat) : Int)) (insert ((max s.nEdges label : Nat) : Int) s.darts)) π' ∧
      (∃ sg sgi node', t = { s with
          nEdges := max s.nEdges label + 1, edgeCount := s.edgeCount + 1,
          edge := Function.update s.edge (max s.nEdges label) (some ⟨A.node, B.node, none, none, pts, 0⟩),
          sigma := sg, sigmaInv := sgi, node := node' } ∧
        ∀ m, (node' m).map (·.pos) = (s.node m).map (·.pos)) := by
  have okA := sigmaAnchor_ok hg hA
  have okB := sigmaAnchor_ok hg hB
  have hpos := hg.labels.edges_pos
  obtain ⟨l, hl⟩ : ∃ l, l = max s.nEdges label := ⟨_, rfl⟩
  have hlpos : 0 < l := by omega
  have hle : s.nEdges ≤ l := by omega
  have hnot : ∀ d : Int, d.natAbs = l → d ∉ s.darts := by
    intro d hd hc
    rw [hg.live] at hc
    have := hg.labels.edge_lt _ hc
    omega
  rw [← hl]
  obtain ⟨s1, hs1⟩ : ∃ s1, s1 = ({ s with nEdges := l } : GMap K).newEdge ⟨A.node, B.node, none, none, pts, 0⟩ := ⟨_, rfl⟩
  have hst := newEdge_start (s := { s with nEdges := l }) hlpos ⟨A.node, B.node, none, none, pts, 0⟩
  rw [← hs1] at hst
  have hst : ∀ x, s1.2.startN? x = if x = (l : Int) then some A.node else if x = -(l : Int) then some B.node else s.startN? x := hst
  have hstL : ∀ d ∈ s.darts, s1.2.startN? d = s.startN? d := by
    intro d hd
    rw [hst, if_neg (fun e => hnot d (by omega) hd), if_neg (fun e => hnot d (by omega) hd)]
  have hnode1 : s1.2.node = s.node := by rw [hs1]; rfl
  have hN1 : s1.2.nNodes = s.nNodes := by rw [hs1]; rfl
  have R1 : Rot s1.2 s.darts π := by
    refine ⟨by rw [hs1]; exact hg.rep, ?_, ?_, fun h => hg.ne_zero h rfl⟩
    · intro d hd
      obtain ⟨n, g1, g2, g3⟩ := hg.starts d hd
      refine ⟨n, by rw [hstL d hd]; exact g1, by rw [hnode1]; exact g2, ?_⟩
      rw [hstL _ (hg.rep.mem hd)]; exact g3
    · intro n nd hnd
      rw [hnode1] at hnd
      rcases hg.nodes n nd hnd with ⟨g1, g2⟩ | ⟨g1, g2, g3⟩
      · exact Or.inl ⟨g1, fun d hd => by rw [hstL d hd]; exact g2 d hd⟩
      · exact Or.inr ⟨g1, by rw [hstL _ g1]; exact g2, fun d hd hdn => g3 d hd (by rw [← hstL d hd]; exact hdn)⟩
  have okA1 : AnchorOK s1.2 s.darts A := by
    refine ⟨by rw [hnode1]; exact okA.1, fun h => ?_⟩
    obtain ⟨g1, g2⟩ := okA.2 h
    exact ⟨g1, by rw [hstL _ g1]; exact g2⟩
  obtain ⟨s2, π2, f2, R2, sg2, sgi2, node2, e2, pos2⟩ := R1.attach (by rw [hnode1, hN1]; exact hg.labels.node_lt) okA1
    (hnot (l : Int) (by omega)) (by omega) (by rw [hst, if_pos rfl])
  have hst2 : s2.startN? = s1.2.startN? := by rw [e2]; rfl
  have some2 : ∀ m, (s2.node m).isSome = (s.node m).isSome := by
    intro m
    have := congrArg Option.isSome (pos2 m)
    rw [e2, ← hnode1]; simpa using this
  have hmnot : -(l : Int) ∉ insert (l : Int) s.darts := by
    rw [Finset.mem_insert, not_or]
    exact ⟨by omega, hnot _ (by omega)⟩
  have hstm : s2.startN? (-(l : Int)) = some B.node := by rw [hst2, hst, if_neg (by omega), if_pos rfl]
  have hlt2 : ∀ m, (s2.node m).isSome = true → m < s2.nNodes := by
    intro m hm
    rw [some2] at hm
    have : s2.nNodes = s.nNodes := by rw [e2]; exact hN1
    rw [this]; exact hg.labels.node_lt m hm
  have hE : ∃ t π', s2.attachEnd A B pts (l : Int) = .ok t ∧ Rot t (insert (-(l : Int)) (insert (l : Int) s.darts)) π' ∧
      (∃ sg sgi node', t = { s2 with sigma := sg, sigmaInv := sgi, node := node' } ∧ ∀ m, (node' m).map (·.pos) = (s2.node m).map (·.pos)) := by
    unfold GMap.attachEnd
    by_cases hc : B.same A ∧ partialArea pts < 0
    · rw [if_pos hc]
      have hAB : A.node = B.node := by
        have h1 := hc.1
        unfold GMap.SigmaAnchor.same at h1
        split_ifs at h1 with c1 c2
        · exact (of_decide_eq_true h1).symm
        · have hd := of_decide_eq_true h1
          have b1 : B.singular = false := by simpa using c2
          have a1 : A.singular = false := by rw [← b1]; exact (not_not.mp c1).symm
          have x1 := (okA.2 a1).2
          have x2 := (okB.2 b1).2
          rw [← hd, x2] at x1
          exact (Option.some.inj x1).symm
      obtain ⟨nd, hnd⟩ := Option.isSome_iff_exists.mp (by rw [some2]; exact okB.1 : (s2.node B.node).isSome = true)
      obtain ⟨π', h'⟩ := R2.insertDart' hmnot (by omega) hstm hnd (Finset.mem_insert_self _ _) (by rw [hst2, hst, if_pos rfl, hAB])
      obtain ⟨sg, sgi, e⟩ := insert_fields s2 (l : Int) (-(l : Int))
      exact ⟨_, π', rfl, h', sg, sgi, s2.node, by rw [e], fun m => rfl⟩
    · rw [if_neg hc]
      have okB2 : AnchorOK s2 (insert (l : Int) s.darts) B := by
        refine ⟨by rw [some2]; exact okB.1, fun h => ?_⟩
        obtain ⟨g1, g2⟩ := okB.2 h
        exact ⟨Finset.mem_insert_of_mem g1, by rw [hst2, hstL _ g1]; exact g2⟩
      exact R2.attach hlt2 okB2 hmnot (by omega) hstm
  obtain ⟨t, π', f3, R3, sg3, sgi3, node3, e3, pos3⟩ := hE
  have tform : t = { s with
          nEdges := l + 1, edgeCount := s.edgeCount + 1,
          edge := Function.update s.edge l (some ⟨A.node, B.node, none, none, pts, 0⟩),
          sigma := sg3, sigmaInv := sgi3, node := node3 } := by
    rw [e3, e2, hs1]; rfl
  have pos : ∀ m, (node3 m).map (·.pos) = (s.node m).map (·.pos) := by
    intro m
    rw [pos3 m, e2]
    show (node2 m).map _ = _
    rw [pos2 m, hnode1]
  have somet : ∀ m, (t.node m).isSome = (s.node m).isSome := by
    intro m
    have := congrArg Option.isSome (pos m)
    rw [tform]; simpa using this
  refine ⟨t, π', ?_, ?_, sg3, sgi3, node3, tform, pos⟩
  · unfold GMap.addEdge
    rw [if_neg hi]
    simp only [bind, hA, hB, Outcome.bind_ok]
    rw [← hl, ← hs1]
    simp only [f2, Outcome.bind_ok, f3]
  · have live : ∀ d : Int, d ∈ insert (-(l : Int)) (insert (l : Int) s.darts) ↔ t.liveD d := by
      intro d
      rw [tform]
      simp only [Finset.mem_insert, GMap.liveD, Function.update_apply, hg.live]
      by_cases hd : d.natAbs = l
      · rw [if_pos hd]
        simp only [Option.isSome_some, iff_true]
        omega
      · rw [if_neg hd]
        constructor
        · rintro (h | h | h)
          · omega
          · omega
          · exact h
        · exact fun h => Or.inr (Or.inr h)
    refine ⟨⟨?_, ?_, ?_, ?_, ?_, ?_, ?_, ?_, ?_⟩, live, R3.rep, R3.starts, R3.nodes⟩
    · rw [tform]; exact Nat.succ_pos _
    · rw [tform]
      show Function.update s.edge l _ 0 = none
      rw [Function.update_of_ne (by omega)]; exact hg.labels.edge_zero
    · intro m hm
      rw [somet] at hm
      rw [tform]; exact hg.labels.node_lt m hm
    · intro m hm
      rw [tform] at hm ⊢
      simp only [Function.update_apply] at hm
      show m < l + 1
      split_ifs at hm with h1
      · omega
      · have := hg.labels.edge_lt m hm; omega
    · intro m hm
      rw [tform] at hm ⊢
      exact hg.labels.face_lt m hm
    · rw [liveNodes_congr (t := t) (s := s) (by rw [tform]) somet, ← hg.labels.node_count, tform]
    · have e1 : t.liveEdges = insert l s.liveEdges := by
        ext m
        rw [tform]
        simp only [GMap.liveEdges, Finset.mem_filter, Finset.mem_range, Finset.mem_insert, Function.update_apply]
        by_cases hm : m = l
        · subst hm; simp
        · simp only [hm, if_false, false_or]
          constructor
          · rintro ⟨-, h⟩; exact ⟨hg.labels.edge_lt m h, h⟩
          · rintro ⟨h1, h⟩; exact ⟨by omega, h⟩
      rw [e1, Finset.card_insert_of_notMem, ← hg.labels.edge_count, tform]
      simp only [GMap.liveEdges, Finset.mem_filter, Finset.mem_range, not_and]
      intro h; omega
    · rw [liveFaces_congr (t := t) (s := s) (by rw [tform]) (fun m => by rw [tform]), ← hg.labels.face_count, tform]
    · intro m e he
      rw [tform] at he
      simp only [Function.update_apply] at he
      split_ifs at he with h1
      · cases he; exact hpts
      · exact hg.labels.pts_ne m e he

end AddEdge

/-- `addNode` -/
theorem addNodeAt_spec {s : GMap K} {L : Finset Int} {π : Perm Int} (hg : GraphRep s L π) (p : Pt K) (label : Nat) :
    (s.addNodeAt p label).1 = max s.nNodes label ∧ GraphRep (s.addNodeAt p label).2 L π := by
  refine ⟨rfl, ?_⟩
  obtain ⟨l, hl⟩ : ∃ l, l = max s.nNodes label := ⟨_, rfl⟩
  have ht : (s.addNodeAt p label).2 = { s with nNodes := l + 1, node := Function.update s.node l (some ⟨p, 0⟩), nodeCount := s.nodeCount + 1 } := by
    rw [hl]; rfl
  rw [ht]
  have hle : s.nNodes ≤ l := by omega
  have hnone : s.node l = none := by
    cases h : s.node l with
    | none => rfl
    | some x => have := hg.labels.node_lt l (by simp [h]); omega
  have hno : ∀ d ∈ L, s.startN? d ≠ some l := by
    intro d hd e
    obtain ⟨n, g1, g2, -⟩ := hg.starts d hd
    rw [e] at g1; cases g1
    rw [hnone] at g2; cases g2
  refine ⟨⟨hg.labels.edges_pos, hg.labels.edge_zero, ?_, hg.labels.edge_lt, hg.labels.face_lt, ?_, hg.labels.edge_count, hg.labels.face_count, hg.labels.pts_ne⟩,
    hg.live, hg.rep, ?_, ?_⟩
  · intro m hm
    simp only [Function.update_apply] at hm
    show m < l + 1
    split_ifs at hm with h1
    · omega
    · have := hg.labels.node_lt m hm; omega
  · have e1 : ({ s with nNodes := l + 1, node := Function.update s.node l (some ⟨p, 0⟩), nodeCount := s.nodeCount + 1 } : GMap K).liveNodes = insert l s.liveNodes := by
      ext m
      simp only [GMap.liveNodes, Finset.mem_filter, Finset.mem_range, Finset.mem_insert, Function.update_apply]
      by_cases hm : m = l
      · subst hm; simp
      · simp only [hm, if_false, false_or]
        constructor
        · rintro ⟨-, h⟩; exact ⟨hg.labels.node_lt m h, h⟩
        · rintro ⟨h1, h⟩; exact ⟨by omega, h⟩
    rw [e1, Finset.card_insert_of_notMem, ← hg.labels.node_count]
    simp only [GMap.liveNodes, Finset.mem_filter, Finset.mem_range, not_and]
    intro h; omega
  · intro d hd
    obtain ⟨n, g1, g2, g3⟩ := hg.starts d hd
    refine ⟨n, g1, ?_, g3⟩
    show (Function.update s.node l _ n).isSome = true
    rw [Function.update_of_ne (fun e => hno d hd (by rw [g1, e]))]; exact g2
  · intro m md hmd
    simp only [Function.update_apply] at hmd
    split_ifs at hmd with h1
    · cases hmd; subst h1; exact Or.inl ⟨rfl, hno⟩
    · exact hg.nodes m md hmd

end Verif.GeoMap
