import Verif.Euler.Dual

/-! # The contours of a planar map: nodes − edges + contours = 2 · components

Isolated nodes are left out on both sides.  The proof gives every contour a face of its own
(as `initializeMap` does before it embeds contours) and applies `euler_dual`. -/

namespace Verif.GeoMap
open Equiv Equiv.Perm Verif.PermLemmas

variable {K : Type}

/-- number of contours stored in all faces -/
def GMap.contourCount (s : GMap K) : Nat := ∑ f ∈ s.liveFaces, (s.face f).elim 0 (·.anchors.length)

open Classical in
/-- nodes with at least one dart -/
noncomputable def GMap.edgeNodes (s : GMap K) : Finset Nat := s.liveNodes.filter fun n => ∃ d, s.startN? d = some n

open Classical in
/-- number of connected components that have edges -/
noncomputable def GMap.edgeComponents (s : GMap K) : Nat :=
  (s.edgeNodes.image fun n => s.liveNodes.filter (s.Connected n)).card

open Classical in
noncomputable def cycles (L : Finset Int) (ψ : Perm Int) : Nat := (L.image fun d => L.filter (SameCycle ψ d)).card

theorem connected_symm {s : GMap K} {a b : Nat} (h : s.Connected a b) : s.Connected b a := by
  induction h with
  | refl => exact Relation.ReflTransGen.refl
  | tail _ h ih =>
    obtain ⟨d, h1, h2⟩ := h
    exact Relation.ReflTransGen.head ⟨-d, h2, by rw [neg_neg]; exact h1⟩ ih

theorem connected_class {s : GMap K} {V : Finset Nat} {a b : Nat} [DecidablePred (s.Connected a)] [DecidablePred (s.Connected b)] (hb : b ∈ V) :
    V.filter (s.Connected a) = V.filter (s.Connected b) ↔ s.Connected a b := by
  constructor
  · intro h
    have : b ∈ V.filter (s.Connected b) := by rw [Finset.mem_filter]; exact ⟨hb, Relation.ReflTransGen.refl⟩
    rw [← h, Finset.mem_filter] at this
    exact this.2
  · intro h
    ext x
    simp only [Finset.mem_filter, and_congr_right_iff]
    exact fun _ => ⟨fun g => (connected_symm h).trans g, fun g => h.trans g⟩

/-- isolated nodes are components of their own -/
theorem components_isolated (s : GMap K) : s.components + s.edgeNodes.card = s.edgeComponents + s.liveNodes.card := by
  classical
  have hsub : s.edgeNodes ⊆ s.liveNodes := Finset.filter_subset _ _
  have h1 : s.liveNodes = s.edgeNodes ∪ (s.liveNodes \ s.edgeNodes) := by
    rw [Finset.union_sdiff_of_subset hsub]
  have key : s.components = s.edgeComponents + (s.liveNodes \ s.edgeNodes).card := by
    have e : s.components = ((s.edgeNodes ∪ (s.liveNodes \ s.edgeNodes)).image fun n => s.liveNodes.filter (s.Connected n)).card := by
      rw [← h1]; unfold GMap.components; congr!
    have iso : ∀ a ∈ s.liveNodes \ s.edgeNodes, ∀ b, s.Connected a b → a = b := by
      intro a ha b hab
      rcases Relation.ReflTransGen.cases_head hab with h | ⟨c, ⟨d, h1, -⟩, -⟩
      · exact h
      · rw [Finset.mem_sdiff] at ha
        exfalso; apply ha.2
        unfold GMap.edgeNodes
        rw [Finset.mem_filter]
        exact ⟨ha.1, d, h1⟩
    rw [e, Finset.image_union, Finset.card_union_of_disjoint, Finset.card_image_of_injOn (s := s.liveNodes \ s.edgeNodes)]
    · unfold GMap.edgeComponents; congr!
    · intro a ha b hb h
      simp only at h
      rw [connected_class (Finset.mem_sdiff.mp hb).1] at h
      exact iso a ha b h
    · rw [Finset.disjoint_left]
      intro y h1 h2
      obtain ⟨a, ha, rfl⟩ := Finset.mem_image.mp h1
      obtain ⟨b, hb, h⟩ := Finset.mem_image.mp h2
      rw [connected_class (hsub ha)] at h
      have := iso b hb a h
      subst this
      exact (Finset.mem_sdiff.mp hb).2 ha
  rw [key]
  have := Finset.card_sdiff_add_card_eq_card hsub
  omega

theorem contour_connected {s : GMap K} {L : Finset Int} {π ψ : Perm Int} (hg : GraphRep s L π) (hr : Rep L s.phi s.phiInv ψ) {a x : Int}
    (ha : a ∈ L) (hc : SameCycle ψ a x) {n m : Nat} (hn : s.startN? a = some n) (hm : s.startN? x = some m) : s.Connected n m := by
  obtain ⟨k, rfl⟩ := (hr.sameCycle_iff ha).mp hc
  clear hc
  induction k generalizing m with
  | zero => rw [Function.iterate_zero, id, hn] at hm; cases hm; exact Relation.ReflTransGen.refl
  | succ k ih =>
    have hk := (hr.iterate_mem ha k).2
    obtain ⟨m', hm'⟩ := hg.start_exists _ hk
    refine (ih hm').trans (Relation.ReflTransGen.single ⟨s.phi^[k] a, hm', ?_⟩)
    rw [← hm, Function.iterate_succ_apply', hr.eq _ hk, hg.start_phi hr _ hk]

/-- around a node the faces are joined across the edges -/
theorem node_dual {s : GMap K} {L : Finset Int} {π ψ : Perm Int} (hg : GraphRep s L π) (hc : ContoursRep s L ψ) {a x : Int}
    (ha : a ∈ L) (hx : x ∈ L) (h : s.startN? a = s.startN? x) {f g : Nat} (hf : s.left? a = some f) (hgx : s.left? x = some g) :
    s.DualConn f g := by
  obtain ⟨k, rfl⟩ := (hg.rep.sameCycle_iff ha).mp ((same_start_iff hg.rep hg.starts hg.nodes ha hx).mp h)
  clear h hx
  induction k generalizing g with
  | zero => rw [Function.iterate_zero, id, hf] at hgx; cases hgx; exact Relation.ReflTransGen.refl
  | succ k ih =>
    have hk := (hg.rep.iterate_mem ha k).2
    obtain ⟨f', hf', -⟩ := hc.lefts _ hk
    have hy := hg.rep.f_mem hk
    refine (ih hf').trans (Relation.ReflTransGen.single ⟨-(s.sigma (s.sigma^[k] a)), ?_, ?_⟩)
    · have h1 := (hc.contoursOK hg).left_phi _ ((hg.live _).mp (hg.symm _ hy))
      rw [← h1]
      have : s.phi (-(s.sigma (s.sigma^[k] a))) = s.sigma^[k] a := by
        show s.sigmaInv (- -(s.sigma (s.sigma^[k] a))) = _
        rw [neg_neg, hg.rep.finv_f hk]
      rw [this, hf']
    · rw [neg_neg, ← hgx, Function.iterate_succ_apply']

theorem connected_dual {s : GMap K} {L : Finset Int} {π ψ : Perm Int} (hg : GraphRep s L π) (hc : ContoursRep s L ψ) {a x : Int}
    (ha : a ∈ L) (hx : x ∈ L) {n m : Nat} (hn : s.startN? a = some n) (hm : s.startN? x = some m) (h : s.Connected n m) {f g : Nat}
    (hf : s.left? a = some f) (hgx : s.left? x = some g) : s.DualConn f g := by
  induction h generalizing x g with
  | refl => exact node_dual hg hc ha hx (by rw [hn, hm]) hf hgx
  | tail _ hstep ih =>
    obtain ⟨d, h1, h2⟩ := hstep
    have hd := (hg.live d).mpr (liveD_of_start h1)
    obtain ⟨p, hp, -⟩ := hc.lefts _ hd
    obtain ⟨q, hq, -⟩ := hc.lefts _ (hg.symm _ hd)
    exact (ih hd h1 hp).trans ((Relation.ReflTransGen.single ⟨d, hp, hq⟩).trans
      (node_dual hg hc (hg.symm _ hd) hx (by rw [h2, hm]) hq hgx))

/-- The faces store every contour once. -/
theorem contourCount_eq {s : GMap K} {L : Finset Int} {ψ : Perm Int} (hl : ∀ n, (s.face n).isSome = true → n < s.nFaces)
    (hc : ContoursRep s L ψ) : s.contourCount = cycles L ψ := by
  classical
  have hA : ∀ f F, s.face f = some F → (s.face f).elim 0 (·.anchors.length) = (F.anchors.toFinset.image fun d => L.filter (SameCycle ψ d)).card := by
    intro f F hF
    have h := hc.faces f F hF
    rw [hF, Finset.card_image_of_injOn, List.toFinset_card_of_nodup h.nodup]
    · rfl
    · intro a ha b hb e
      simp only at e
      have ha' := List.mem_toFinset.mp ha
      have hb' := List.mem_toFinset.mp hb
      apply h.eq_of_sameCycle ha' hb'
      have : b ∈ L.filter (SameCycle ψ b) := by
        rw [Finset.mem_filter]; exact ⟨(h.left b hb').1, SameCycle.refl _ _⟩
      rw [← e, Finset.mem_filter] at this
      exact this.2
  let A : Nat → Finset (Finset Int) := fun f => (s.face f).elim ∅ fun F => F.anchors.toFinset.image fun d => L.filter (SameCycle ψ d)
  have h1 : s.contourCount = ∑ f ∈ s.liveFaces, (A f).card := by
    unfold GMap.contourCount
    refine Finset.sum_congr rfl (fun f hf => ?_)
    obtain ⟨F, hF⟩ := Option.isSome_iff_exists.mp ((mem_liveFaces hl).mp hf)
    rw [hA f F hF]
    simp only [A, hF, Option.elim]
  have hleft : ∀ {a x}, a ∈ L → SameCycle ψ a x → s.left? x = s.left? a := by
    intro a x ha h
    obtain ⟨k, rfl⟩ := (hc.rep.sameCycle_iff ha).mp h
    clear h
    induction k with
    | zero => rfl
    | succ k ih =>
      have hk := (hc.rep.iterate_mem ha k).2
      obtain ⟨f, h1, -, h2⟩ := hc.lefts _ hk
      rw [Function.iterate_succ_apply', hc.rep.eq _ hk, h2, ← ih, h1]
  have hmem : ∀ f y, y ∈ A f → ∃ F a, s.face f = some F ∧ a ∈ F.anchors ∧ y = L.filter (SameCycle ψ a) := by
    intro f y hy
    cases hF : s.face f with
    | none => simp [A, hF] at hy
    | some F =>
      simp only [A, hF, Option.elim, Finset.mem_image, List.mem_toFinset] at hy
      obtain ⟨a, ha, rfl⟩ := hy
      exact ⟨F, a, rfl, ha, rfl⟩
  have h2 : (L.image fun d => L.filter (SameCycle ψ d)) = s.liveFaces.biUnion A := by
    ext y
    rw [Finset.mem_image, Finset.mem_biUnion]
    constructor
    · rintro ⟨d, hd, rfl⟩
      obtain ⟨f, hf, hF, -⟩ := hc.lefts d hd
      obtain ⟨F, hF⟩ := Option.isSome_iff_exists.mp hF
      obtain ⟨a, ha, hcy⟩ := (hc.faces f F hF).cover d hd hf
      refine ⟨f, (mem_liveFaces hl).mpr (by rw [hF]; rfl), ?_⟩
      simp only [A, hF, Option.elim, Finset.mem_image, List.mem_toFinset]
      refine ⟨a, ha, ?_⟩
      ext z
      simp only [Finset.mem_filter, and_congr_right_iff]
      exact fun _ => ⟨fun h => hcy.symm.trans h, fun h => hcy.trans h⟩
    · rintro ⟨f, -, hy⟩
      obtain ⟨F, a, hF, ha, rfl⟩ := hmem f y hy
      exact ⟨a, ((hc.faces f F hF).left a ha).1, rfl⟩
  unfold cycles
  rw [h1, show (L.image fun d => L.filter (SameCycle ψ d)) = s.liveFaces.biUnion A from h2, Finset.card_biUnion]
  intro f _ g _ hfg
  rw [Function.onFun, Finset.disjoint_left]
  intro y hy1 hy2
  obtain ⟨F, a, hF, ha, rfl⟩ := hmem f y hy1
  obtain ⟨G, b, hG, hb, e⟩ := hmem g _ hy2
  have hb' := (hc.faces g G hG).left b hb
  have ha' := (hc.faces f F hF).left a ha
  have : b ∈ L.filter (SameCycle ψ b) := by
    rw [Finset.mem_filter]; exact ⟨hb'.1, SameCycle.refl _ _⟩
  rw [← e, Finset.mem_filter] at this
  have := hleft ha'.1 this.2
  rw [ha'.2, hb'.2] at this
  cases this
  exact hfg rfl

/-- `s` without its faces -/
def GMap.noFaces (s : GMap K) : GMap K :=
  { s with
    face := fun _ => none
    nFaces := 0
    faceCount := 0
    edge := fun l => (s.edge l).map fun e => { e with leftF := none, rightF := none } }

theorem noFaces_startN? (s : GMap K) : s.noFaces.startN? = s.startN? := by
  funext d
  unfold GMap.startN? GMap.noFaces
  rw [Option.map_map]; rfl

theorem noFaces_left? (s : GMap K) (d : Int) : s.noFaces.left? d = none := by
  unfold GMap.left? GMap.noFaces
  cases h : s.edge d.natAbs with
  | none => simp [h]
  | some e => simp [h, Edge.leftOf]

theorem noFaces_rep {s : GMap K} {L : Finset Int} {π : Perm Int} (hg : GraphRep s L π) : GraphRep s.noFaces L π := by
  have hsome : ∀ l, (s.noFaces.edge l).isSome = (s.edge l).isSome := by
    intro l; simp [GMap.noFaces]
  refine ⟨⟨hg.labels.edges_pos, ?_, hg.labels.node_lt, ?_, ?_, hg.labels.node_count, ?_, ?_, ?_⟩, ?_, hg.rep, ?_, ?_⟩
  · simp [GMap.noFaces, hg.labels.edge_zero]
  · intro l hl; rw [hsome] at hl; exact hg.labels.edge_lt l hl
  · intro n hn; simp [GMap.noFaces] at hn
  · have : s.noFaces.liveEdges = s.liveEdges := by
      unfold GMap.liveEdges
      show (Finset.range s.nEdges).filter _ = _
      refine Finset.filter_congr (fun l _ => ?_)
      rw [hsome]
    rw [this]; exact hg.labels.edge_count
  · simp [GMap.noFaces, GMap.liveFaces]
  · intro l e he
    simp only [GMap.noFaces, Option.map_eq_some_iff] at he
    obtain ⟨e', he', rfl⟩ := he
    exact hg.labels.pts_ne l e' he'
  · intro d
    rw [hg.live]
    unfold GMap.liveD
    rw [hsome]
  · rw [noFaces_startN?]; exact hg.starts
  · rw [noFaces_startN?]; exact hg.nodes

variable [Field K] [LinearOrder K]

/-- Planar maps: nodes − edges + contours = 2 · components, without isolated nodes. -/
theorem genus_zero {s : GMap K} (hs : Good s) (hi : s.initialized) :
    (s.edgeNodes.card : Int) - s.edgeCount + s.contourCount = 2 * s.edgeComponents := by
  classical
  obtain ⟨π, hg⟩ := hs.map.graph.exists_rep
  obtain ⟨ψ, hc⟩ := (hs.map.contours hi).exists_rep hg
  have hr0 : Rep s.darts s.noFaces.phi s.noFaces.phiInv ψ := hc.rep
  obtain ⟨t, -, hC, htc, hS⟩ := initContours_spec (noFaces_rep hg) hr0 rfl (fun d _ => noFaces_left? s d)
  have hg' := hC.graph
  have hst : t.startN? = s.startN? := by rw [hS.startN?, noFaces_startN?]
  have hdt : t.darts = s.darts := hg'.darts_eq
  have hti : t.initialized := hC.pos
  have hsL : ∀ {a x}, a ∈ s.darts → SameCycle ψ a x → s.left? x = s.left? a := by
    intro a x ha h
    obtain ⟨k, rfl⟩ := (hc.rep.sameCycle_iff ha).mp h
    clear h
    induction k with
    | zero => rfl
    | succ k ih =>
      have hk := (hc.rep.iterate_mem ha k).2
      obtain ⟨f, h1, -, h2⟩ := hc.lefts _ hk
      rw [Function.iterate_succ_apply', hc.rep.eq _ hk, h2, ← ih, h1]
  -- the contour of a face of `t`
  let anc : Nat → Int := fun f => ((t.face f).bind (·.anchors.head?)).getD 0
  have hanc : ∀ d ∈ s.darts, ∀ f, t.left? d = some f → f ≠ 0 ∧ anc f ∈ s.darts ∧ SameCycle ψ (anc f) d := by
    intro d hd f hf
    obtain ⟨h0, hF⟩ := hC.left d hd f hf
    obtain ⟨F, hF⟩ := Option.isSome_iff_exists.mp hF
    obtain ⟨as, h1, h2⟩ := hC.face f (hg'.labels.face_lt f (by rw [hF]; rfl))
    rcases h2 with ⟨h2, -⟩ | ⟨-, a, rfl⟩
    · exact absurd h2 h0
    have ha : anc f = a := by simp [anc, h1]
    obtain ⟨b, hb, hcy⟩ := (htc.faces f _ h1).cover d hd hf
    rw [List.mem_singleton] at hb
    subst hb
    rw [ha]
    exact ⟨h0, ((htc.faces f _ h1).left b (by simp)).1, hcy⟩
  have hface : ∀ f ∈ t.liveFaces, f ≠ 0 → anc f ∈ s.darts ∧ t.left? (anc f) = some f ∧ t.face f = some ⟨[anc f], none, 0⟩ := by
    intro f hf h0
    obtain ⟨as, h1, h2⟩ := hC.face f (hg'.labels.face_lt f ((mem_liveFaces hg'.labels.face_lt).mp hf))
    rcases h2 with ⟨h2, -⟩ | ⟨-, a, rfl⟩
    · exact absurd h2 h0
    have ha : anc f = a := by simp [anc, h1]
    rw [ha]
    have := (htc.faces f _ h1).left a (by simp)
    exact ⟨this.1, this.2, h1⟩
  have hP : PlanarOK t := by
    intro w hw
    rw [hdt, hst] at hw
    obtain ⟨c, hc'⟩ := hs.planar hi w hw
    refine ⟨fun o => c (o.bind fun f => s.left? (anc f)), ?_⟩
    intro d hd
    rw [hdt] at hd
    rw [hc' d hd]
    have key : ∀ x ∈ s.darts, s.left? x = (t.left? x).bind fun f => s.left? (anc f) := by
      intro x hx
      obtain ⟨f, hf, -⟩ := htc.lefts x hx
      rw [hf, Option.bind_some]
      obtain ⟨-, h1, h2⟩ := hanc x hx f hf
      exact hsL h1 h2
    rw [key d hd, key _ (hg.symm d hd)]
  have hgood : Good t := ⟨MapOK.of_reps hg' (fun _ => ⟨ψ, htc⟩), fun h => absurd hti h, fun _ => hP⟩
  have hlive : t.liveNodes = s.liveNodes := by
    unfold GMap.liveNodes
    rw [hS.node, hS.nNodes]; rfl
  have hconn : t.Connected = s.Connected := by
    unfold GMap.Connected; rw [hst]
  have hcomp : t.components = s.components := by
    unfold GMap.components; rw [hlive, hconn]
  -- the key of a face is the component of its contour
  let cls : Nat → Finset Nat := fun n => s.liveNodes.filter (s.Connected n)
  let k : Nat → Finset Nat := fun f => if f = 0 then ∅ else (s.startN? (anc f)).elim ∅ cls
  have hkf : ∀ f ∈ t.liveFaces, f ≠ 0 → ∃ n, s.startN? (anc f) = some n ∧ n ∈ s.liveNodes ∧ k f = cls n := by
    intro f hf h0
    obtain ⟨h1, -, -⟩ := hface f hf h0
    obtain ⟨n, hn⟩ := hg.start_exists _ h1
    refine ⟨n, hn, hg.start_mem h1 hn, ?_⟩
    simp only [k, if_neg h0, hn, Option.elim]
  have hne : ∀ n ∈ s.liveNodes, cls n ≠ ∅ := by
    intro n hn
    apply Finset.ne_empty_of_mem (a := n)
    simp only [cls, Finset.mem_filter]
    exact ⟨hn, Relation.ReflTransGen.refl⟩
  have h0t : (0 : Nat) ∈ t.liveFaces := (mem_liveFaces hg'.labels.face_lt).mpr htc.face_zero
  have heul : t.euler = ((t.liveFaces.image k).card : Int) := by
    apply euler_dual hgood hti
    intro f hf g hgl
    constructor
    · intro h
      by_cases hf0 : f = 0
      · by_cases hg0 : g = 0
        · subst hf0 hg0; exact Relation.ReflTransGen.refl
        · obtain ⟨n, -, hn, hk⟩ := hkf g hgl hg0
          rw [hk] at h
          simp only [k, if_pos hf0] at h
          exact absurd h.symm (hne n hn)
      · by_cases hg0 : g = 0
        · obtain ⟨n, -, hn, hk⟩ := hkf f hf hf0
          rw [hk] at h
          simp only [k, if_pos hg0] at h
          exact absurd h (hne n hn)
        · obtain ⟨n, hn1, hn2, hk⟩ := hkf f hf hf0
          obtain ⟨m, hm1, hm2, hk'⟩ := hkf g hgl hg0
          rw [hk, hk'] at h
          have hcn := (connected_class hm2).mp h
          obtain ⟨a1, a2, -⟩ := hface f hf hf0
          obtain ⟨b1, b2, -⟩ := hface g hgl hg0
          exact connected_dual hg' htc a1 b1 (by rw [hst]; exact hn1) (by rw [hst]; exact hm1) (by rw [hconn]; exact hcn) a2 b2
    · intro h
      induction h with
      | refl => rfl
      | @tail u v _ hstep ih =>
        obtain ⟨d, h1, h2⟩ := hstep
        have hd : d ∈ s.darts := (hg'.live d).mpr (liveD_of_left h1)
        have hd' := hg.symm d hd
        obtain ⟨u0, u1, u2⟩ := hanc d hd u h1
        obtain ⟨v0, v1, v2⟩ := hanc _ hd' v h2
        have hul : u ∈ t.liveFaces := (mem_liveFaces hg'.labels.face_lt).mpr (hC.left d hd u h1).2
        obtain ⟨n, hn1, hn2, hk⟩ := hkf u hul u0
        obtain ⟨m, hm1, hm2, hk'⟩ := hkf v hgl v0
        rw [ih hul, hk, hk']
        obtain ⟨p, hp⟩ := hg.start_exists d hd
        obtain ⟨q, hq⟩ := hg.start_exists _ hd'
        have c1 := contour_connected hg hc.rep u1 u2 hn1 hp
        have c2 := contour_connected hg hc.rep v1 v2 hm1 hq
        exact (connected_class hm2).mpr (c1.trans ((Relation.ReflTransGen.single ⟨d, hp, hq⟩).trans (connected_symm c2)))
  have himg : t.liveFaces.image k = insert ∅ (s.edgeNodes.image cls) := by
    ext y
    rw [Finset.mem_image, Finset.mem_insert, Finset.mem_image]
    constructor
    · rintro ⟨f, hf, rfl⟩
      by_cases h0 : f = 0
      · left; simp only [k, if_pos h0]
      · right
        obtain ⟨n, hn1, hn2, hk⟩ := hkf f hf h0
        refine ⟨n, ?_, hk.symm⟩
        unfold GMap.edgeNodes
        rw [Finset.mem_filter]
        exact ⟨hn2, _, hn1⟩
    · rintro (rfl | ⟨n, hn, rfl⟩)
      · exact ⟨0, h0t, by simp [k]⟩
      · unfold GMap.edgeNodes at hn
        rw [Finset.mem_filter] at hn
        obtain ⟨hn, d, hd⟩ := hn
        have hdL : d ∈ s.darts := (hg.live d).mpr (liveD_of_start hd)
        obtain ⟨f, hf, hF, -⟩ := htc.lefts d hdL
        obtain ⟨f0, f1, f2⟩ := hanc d hdL f hf
        have hfl : f ∈ t.liveFaces := (mem_liveFaces hg'.labels.face_lt).mpr hF
        obtain ⟨m, hm1, hm2, hk⟩ := hkf f hfl f0
        refine ⟨f, hfl, ?_⟩
        rw [hk]
        exact (connected_class hn).mpr (contour_connected hg hc.rep f1 f2 hm1 hd)
  have hcard : (t.liveFaces.image k).card = s.edgeComponents + 1 := by
    rw [himg, Finset.card_insert_of_notMem]
    · rfl
    · intro h
      obtain ⟨n, hn, e⟩ := Finset.mem_image.mp h
      exact hne n (Finset.filter_subset _ _ hn) e
  have hcount : t.faceCount = s.contourCount + 1 := by
    rw [contourCount_eq hg.labels.face_lt hc, ← contourCount_eq hg'.labels.face_lt htc, hg'.labels.face_count]
    unfold GMap.contourCount
    rw [← Finset.insert_erase h0t, Finset.card_insert_of_notMem (Finset.notMem_erase _ _), Finset.sum_insert (Finset.notMem_erase _ _)]
    obtain ⟨as, h1, h2⟩ := hC.face 0 hC.pos
    rcases h2 with ⟨-, rfl⟩ | ⟨h2, -⟩
    swap
    · exact absurd rfl h2
    rw [h1]
    have : ∑ f ∈ t.liveFaces.erase 0, (t.face f).elim 0 (·.anchors.length) = ∑ f ∈ t.liveFaces.erase 0, 1 := by
      refine Finset.sum_congr rfl (fun f hf => ?_)
      rw [Finset.mem_erase] at hf
      obtain ⟨-, -, h3⟩ := hface f hf.2 hf.1
      rw [h3]; rfl
    rw [this]
    simp
  rw [hcard] at heul
  have hnc : t.nodeCount = s.liveNodes.card := by rw [hS.nodeCount]; exact hg.labels.node_count
  have hec : t.edgeCount = s.edgeCount := hS.edgeCount
  unfold GMap.euler at heul
  rw [hcount, hcomp, hnc, hec] at heul
  have := components_isolated s
  push_cast at heul
  omega

end Verif.GeoMap
