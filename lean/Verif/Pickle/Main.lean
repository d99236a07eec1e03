import Verif.Pickle.Restore

/-!
# Unpickling an initialised map
-/

namespace Verif.Pickle
open Equiv Equiv.Perm Verif Verif.GeoMap Verif.PermLemmas

variable {K : Type}

/-- representatives of the same cycles are equally many -/
theorem ContourList.length_le {L : Finset Int} {ψ : Perm Int} {lf lf' : Int → Option Nat} {f f' : Nat} {as bs : List Int}
    (ha : ContourList L ψ lf f as) (hb : ContourList L ψ lf' f' bs) (h : ∀ d ∈ L, lf d = some f → lf' d = some f') : as.length ≤ bs.length := by
  classical
  have key : ∀ a ∈ as, ∃ b ∈ bs, SameCycle ψ b a := fun a haa => hb.cover a (ha.left a haa).1 (h a (ha.left a haa).1 (ha.left a haa).2)
  choose! φ h1 h2 using key
  have hn : as.Nodup := ha.nodup
  rw [← List.toFinset_card_of_nodup hn]
  refine (Finset.card_le_card_of_injOn φ (t := bs.toFinset) ?_ ?_).trans (List.toFinset_card_le bs)
  · intro a haa
    have := h1 a (List.mem_toFinset.mp haa)
    exact List.mem_toFinset.mpr this
  · intro a haa b hbb e
    have haa := List.mem_toFinset.mp haa
    have hbb := List.mem_toFinset.mp hbb
    exact ha.eq_of_sameCycle haa hbb ((h2 a haa).symm.trans (e ▸ h2 b hbb))

variable [Field K] [LinearOrder K] [IsStrictOrderedRing K]

/-- the edge flags and the faces that are pickled -/
def flagList (s : GMap K) : List Nat := (List.range s.nEdges).filterMap fun l => (s.edge l).map (·.flags)
def faceList (s : PMap K) : List (Nat × Int × Nat) :=
  (List.range s.map.nFaces).filterMap fun f => (s.map.face f).map fun F => (s.faceFlags f % 2 ^ 28, F.anchors.headD 0, f)

omit [Field K] [LinearOrder K] [IsStrictOrderedRing K] in
theorem mem_faceList {s : PMap K} (hl : LabelsOK s.map) {x : Nat × Int × Nat} :
    x ∈ faceList s ↔ ∃ F, s.map.face x.2.2 = some F ∧ x = (s.faceFlags x.2.2 % 2 ^ 28, F.anchors.headD 0, x.2.2) := by
  unfold faceList
  simp only [List.mem_filterMap, List.mem_range, Option.map_eq_some_iff]
  constructor
  · rintro ⟨f, -, F, hF, rfl⟩
    exact ⟨F, hF, rfl⟩
  · rintro ⟨F, hF, e⟩
    exact ⟨x.2.2, hl.face_lt _ (by simp [hF]), F, hF, e.symm⟩

omit [Field K] [LinearOrder K] [IsStrictOrderedRing K] in
theorem faceList_length {s : PMap K} (hl : LabelsOK s.map) : (faceList s).length = s.map.faceCount := by
  rw [hl.face_count]
  unfold faceList GMap.liveFaces
  generalize s.map.nFaces = n
  induction n with
  | zero => rfl
  | succ n ih =>
    rw [List.range_succ, List.filterMap_append, List.length_append, ih, Finset.range_add_one, Finset.filter_insert]
    cases h : s.map.face n with
    | none => simp [h]
    | some F =>
      rw [List.filterMap_cons_some (by rw [h]; rfl)]
      simp only [Option.isSome_some, if_true]
      rw [Finset.card_insert_of_notMem (by simp)]
      rfl

omit [Field K] [LinearOrder K] [IsStrictOrderedRing K] in
theorem faceList_pairwise (s : PMap K) : (faceList s).Pairwise fun x y => x.2.2 ≠ y.2.2 := by
  unfold faceList
  refine List.Pairwise.filterMap (R := fun a b : Nat => a ≠ b) _ ?_ List.nodup_range
  intro a b hab x hx y hy
  obtain ⟨F, -, rfl⟩ := Option.map_eq_some_iff.mp hx
  obtain ⟨F', -, rfl⟩ := Option.map_eq_some_iff.mp hy
  exact hab

theorem restore_initialized {pick : GMap K → Int → Option Nat} {s : PMap K} {π ψ : Perm Int} (hg : GraphRep s.map s.map.darts π)
    (hc : ContoursRep s.map s.map.darts ψ) (hi : s.map.initialized) (hs : s.map.edgesSorted = true) (hreg : Regions s.map) (hfind : Finds s.map pick)
    (hP : PlanarOK s.map) {g : GMap K} (hr : Rebuilt s.map g π) :
    ∃ t1 t2 fl new t, g.initializeMap pick = .ok t1 ∧ restoreEdgeFlags (List.range t1.nEdges) (flagList s.map) t1 = .ok t2 ∧
      restoreFaces t2 t2.faceCount (faceList s) (fun _ => 0) (List.replicate t2.nFaces 0) = .ok (fl, new) ∧
      relabelFaces t2 fl new s.map.nFaces = .ok t ∧ SameMap s t ∧ Good t.map ∧ ContoursSigned t.map ∧ AreaOK t.map := by
  -- the graph
  have hd : g.darts = s.map.darts := by
    ext d
    rw [hg.live, mem_darts hr.graph.labels.edge_lt, liveD_bare hr.edges]
  obtain ⟨L, hL⟩ : ∃ L, L = s.map.darts := ⟨_, rfl⟩
  have hgL : GraphRep s.map L π := by rw [hL]; exact hg
  have hcL : ContoursRep s.map L ψ := by rw [hL]; exact hc
  have hgg : GraphRep g L π := by rw [hL]; exact hr.graph
  have hsig : ∀ d ∈ L, g.sigma d = s.map.sigma d := fun d hdL => by rw [hgg.rep.eq d hdL, hgL.rep.eq d hdL]
  have hsigi : ∀ d ∈ L, g.sigmaInv d = s.map.sigmaInv d := fun d hdL => by rw [hgg.rep.eqi d hdL, hgL.rep.eqi d hdL]
  have hphi : GeoMap.Rep L g.phi g.phiInv ψ := by
    refine ⟨fun d hdL => ?_, fun d hdL => ?_, hcL.rep.fix⟩
    · rw [← hcL.rep.eq d hdL]; exact hsigi _ (hgL.symm d hdL)
    · rw [← hcL.rep.eqi d hdL]
      show -(g.sigma d) = -(s.map.sigma d)
      rw [hsig d hdL]
  have hleft0 : ∀ d, g.left? d = none := by
    intro d
    unfold GMap.left?
    rw [hr.edges]
    cases s.map.edge d.natAbs with
    | none => rfl
    | some e => simp [bare, Edge.leftOf]
  rw [← hL] at hd
  obtain ⟨t1, i1, i2, i3, i4, i5, i6, i7, i8⟩ := initializeMap_groups (pick := pick) (o := s.map) (g := g) (π := π) (ψ := ψ)
    (by rw [hd]; exact hgL) (by rw [hd]; exact hcL) hreg hfind
    (fun l => by rw [hr.edges]; cases s.map.edge l <;> rfl) (by rw [hd]; exact hsig) (by rw [hd]; exact hgg) (by rw [hd]; exact hphi) hr.nFaces hleft0 (hr.sorted.trans hs)
  rw [hd] at i2 i3 i8
  -- flags of the edges
  have hedge1 : ∀ l, (t1.edge l).map (fun e => (e.startN, e.endN, e.pts, e.flags)) = (s.map.edge l).map (fun e => (e.startN, e.endN, e.pts, 0)) := by
    intro l
    rw [i4.edge, hr.edges]
    cases s.map.edge l <;> rfl
  have hsome1 : ∀ l, (t1.edge l).isSome = (s.map.edge l).isSome := fun l => by simpa using congrArg Option.isSome (hedge1 l)
  have hle : t1.nEdges ≤ s.map.nEdges := by rw [i4.nEdges]; exact hr.le
  have hfl : flagList s.map = (List.range t1.nEdges).filterMap (fun l => (s.map.edge l).map (·.flags)) ++
      ((List.range (s.map.nEdges - t1.nEdges)).map (t1.nEdges + ·)).filterMap (fun l => (s.map.edge l).map (·.flags)) := by
    unfold flagList
    rw [← List.filterMap_append, ← List.range_add, Nat.add_sub_cancel' hle]
  have hflag : ∃ t2, restoreEdgeFlags (List.range t1.nEdges) (flagList s.map) t1 = .ok t2 ∧ Flagged t1 t2 (fun l => ((s.map.edge l).map (·.flags)).getD 0) := by
    rw [hfl, restoreEdgeFlags_spec (fun l => (s.map.edge l).map (·.flags)) (List.range t1.nEdges) t1 _ List.nodup_range (fun l _ => by rw [hsome1]; simp)]
    refine ⟨_, rfl, ⟨_, rfl⟩, fun l => ?_⟩
    show (if l ∈ List.range t1.nEdges then _ else _) = _
    cases h1 : t1.edge l with
    | none => simp
    | some e =>
      rw [if_pos (List.mem_range.mpr (i2.labels.edge_lt l (by simp [h1])))]
      have := hedge1 l
      rw [h1] at this
      cases h2 : s.map.edge l with
      | none => rw [h2] at this; cases this
      | some e' =>
        rw [h2] at this
        simp only [Option.map_some, Option.some.injEq, Prod.mk.injEq] at this
        simp [this.2.2.2]
  obtain ⟨t2, j1, j2⟩ := hflag
  have hg2 := j2.graph i2
  have hc2 := j2.contours i3
  obtain ⟨f1, f2, f3, f4, f5, f6, f7, f8, f9, f10, f11⟩ := j2.frame
  have hleft2 := j2.left
  -- the faces correspond
  have hne : ∀ f F, s.map.face f = some F → F.anchors ≠ [] := by
    intro f F hF
    by_cases h0 : f = 0
    · subst h0; exact (hreg.infinite F hF).1
    · obtain ⟨a, ha, -⟩ := hreg.outer f F hF h0
      exact List.ne_nil_of_mem ha
  obtain ⟨G, hG⟩ : ∃ G : Nat → Nat, G = fun f => (t1.left? (((s.map.face f).map fun F => F.anchors.headD 0).getD 0)).getD 0 := ⟨_, rfl⟩
  have hhead : ∀ f F, s.map.face f = some F → F.anchors.headD 0 ∈ L ∧ s.map.left? (F.anchors.headD 0) = some f := by
    intro f F hF
    have h1 := hne f F hF
    have h2 := hcL.faces f F hF
    cases hA : F.anchors with
    | nil => exact absurd hA h1
    | cons a as => exact h2.left a (by rw [hA]; simp)
  have hGl : ∀ f F, s.map.face f = some F → t1.left? (F.anchors.headD 0) = some (G f) ∧ (t1.face (G f)).isSome = true := by
    intro f F hF
    obtain ⟨k, h1, h2, -⟩ := i3.lefts _ (hhead f F hF).1
    have : G f = k := by
      rw [hG]
      simp only [hF, Option.map_some, Option.getD_some, h1]
    rw [this]; exact ⟨h1, h2⟩
  have hGd : ∀ f, (s.map.face f).isSome = true → ∀ d ∈ L, (t1.left? d = some (G f) ↔ s.map.left? d = some f) := by
    intro f hf d hdL
    obtain ⟨F, hF⟩ := Option.isSome_iff_exists.mp hf
    obtain ⟨h1, h2⟩ := hhead f F hF
    rw [← (hGl f F hF).1, ← h2]
    exact i8.same d hdL _ h1
  have hG0 : G 0 = 0 := by
    obtain ⟨F, hF⟩ := Option.isSome_iff_exists.mp hcL.face_zero
    obtain ⟨h1, h2⟩ := hhead 0 F hF
    have := (i8.zero _ h1).mpr h2
    rw [(hGl 0 F hF).1] at this
    exact Option.some.inj this
  have hGinj : ∀ f f', (s.map.face f).isSome = true → (s.map.face f').isSome = true → G f = G f' → f = f' := by
    intro f f' hf hf' e
    obtain ⟨F, hF⟩ := Option.isSome_iff_exists.mp hf
    obtain ⟨h1, h2⟩ := hhead f F hF
    have := (hGd f' hf' _ h1).mp (by rw [← e]; exact (hGl f F hF).1)
    rw [h2] at this
    exact Option.some.inj this
  have hGsurj : ∀ k, (t1.face k).isSome = true → ∃ f, (s.map.face f).isSome = true ∧ G f = k := by
    intro k hk
    by_cases h0 : k = 0
    · exact ⟨0, hcL.face_zero, by rw [hG0, h0]⟩
    · obtain ⟨F, hF⟩ := Option.isSome_iff_exists.mp hk
      obtain ⟨a, rest, hA, -⟩ := i6.outer k F hF h0
      obtain ⟨haL, hak⟩ := (i3.faces k F hF).left a (by rw [hA]; simp)
      obtain ⟨f, h1, h2, -⟩ := hcL.lefts a haL
      refine ⟨f, h2, ?_⟩
      have := (hGd f h2 a haL).mpr h1
      rw [hak] at this
      exact (Option.some.inj this).symm
  have hcount : t1.faceCount = s.map.faceCount := by
    rw [i2.labels.face_count, hgL.labels.face_count]
    symm
    refine Finset.card_bij (fun f _ => G f) ?_ ?_ ?_
    · intro f hf
      simp only [GMap.liveFaces, Finset.mem_filter, Finset.mem_range] at hf ⊢
      obtain ⟨F, hF⟩ := Option.isSome_iff_exists.mp hf.2
      exact ⟨i2.labels.face_lt _ (hGl f F hF).2, (hGl f F hF).2⟩
    · intro f hf f' hf' e
      simp only [GMap.liveFaces, Finset.mem_filter] at hf hf'
      exact hGinj f f' hf.2 hf'.2 e
    · intro k hk
      simp only [GMap.liveFaces, Finset.mem_filter, Finset.mem_range] at hk
      obtain ⟨f, h1, h2⟩ := hGsurj k hk.2
      refine ⟨f, ?_, h2⟩
      simp only [GMap.liveFaces, Finset.mem_filter, Finset.mem_range]
      exact ⟨hgL.labels.face_lt f h1, h1⟩
  -- the new labels
  have hmem : ∀ x ∈ faceList s, t2.left? x.2.1 = some (G x.2.2) ∧ (t2.face (G x.2.2)).isSome = true := by
    intro x hx
    obtain ⟨F, hF, hx'⟩ := (mem_faceList hgL.labels).mp hx
    have hx1 : x.2.1 = F.anchors.headD 0 := by rw [hx']
    rw [hx1, hleft2, f2]
    exact hGl _ F hF
  obtain ⟨fl, new, r1, r2, r3, -⟩ := restoreFaces_spec hg2.labels G (faceList s) (fun _ => 0) (List.replicate t2.nFaces 0) (by simp) hmem
    ((faceList_pairwise s).imp_of_mem fun {x y} hx hy h e => by
      obtain ⟨F, hF, -⟩ := (mem_faceList hgL.labels).mp hx
      obtain ⟨F', hF', -⟩ := (mem_faceList hgL.labels).mp hy
      exact h (hGinj _ _ (by simp [hF]) (by simp [hF']) e))
  have hnew : ∀ f, (s.map.face f).isSome = true → new[G f]? = some f ∧ fl (G f) = s.faceFlags f % 2 ^ 28 := by
    intro f hf
    obtain ⟨F, hF⟩ := Option.isSome_iff_exists.mp hf
    have := r3 (s.faceFlags f % 2 ^ 28, F.anchors.headD 0, f) ((mem_faceList hgL.labels).mpr ⟨F, hF, rfl⟩)
    refine ⟨this.1, ?_⟩
    rw [this.2]
    simp
  rw [faceList_length hgL.labels, ← hcount, ← f10] at r1
  have hM2 : MapOK t2 := MapOK.of_reps hg2 fun _ => ⟨ψ, hc2⟩
  have hi2 : t2.initialized := by unfold GMap.initialized at i5 ⊢; rw [f7]; exact i5
  have hface2 : ∀ k, (t2.face k).isSome = true → ∃ f, (s.map.face f).isSome = true ∧ G f = k := by rw [f2]; exact hGsurj
  rcases changeFaceLabels_spec hM2 new s.map.nFaces with ⟨lab, -, h⟩ | ⟨t, lab, e, -, hR, -⟩
  · exfalso
    rcases h with h | h | ⟨l, h1, f, h2, h3⟩ | ⟨l, k, h1, h2, h3, h4⟩
    · exact h hi2
    · exact h r2
    · obtain ⟨f', h4, h5⟩ := hface2 l h1
      rw [← h5, (hnew f' h4).1] at h2
      have := hgL.labels.face_lt f' h4
      have := Option.some.inj h2
      omega
    · obtain ⟨f, q1, q2⟩ := hface2 l h2
      obtain ⟨f', q3, q4⟩ := hface2 k h3
      rw [← q2, ← q4, (hnew f q1).1, (hnew f' q3).1] at h4
      exact h1 (by rw [← q2, ← q4, Option.some.inj h4])
  have hleft : ∀ d ∈ L, ∀ f, s.map.left? d = some f → (t1.left? d).bind (new[·]?) = some f := by
    intro d hdL f hf
    obtain ⟨f', h1, h2, -⟩ := hcL.lefts d hdL
    rw [hf] at h1
    cases h1
    rw [(hGd f h2 d hdL).mpr hf]
    exact (hnew f h2).1
  have hedges : ∀ l, t.edge l = s.map.edge l := by
    intro l
    rw [hR.edges, j2.edges]
    cases he : s.map.edge l with
    | none =>
      have := hsome1 l
      rw [he] at this
      cases h1 : t1.edge l with
      | none => rfl
      | some e1 => rw [h1] at this; cases this
    | some e =>
      have h1 := hedge1 l
      rw [he] at h1
      cases he1 : t1.edge l with
      | none => rw [he1] at h1; cases h1
      | some e1 =>
        rw [he1] at h1
        simp only [Option.map_some, Option.some.injEq, Prod.mk.injEq] at h1
        obtain ⟨a1, a2, a3, -⟩ := h1
        have hl0 : l ≠ 0 := by rintro rfl; rw [hgL.labels.edge_zero] at he; cases he
        have hp : ((l : Int)) ∈ L := (hgL.live _).mpr (by unfold GMap.liveD; simp [he])
        have hm : (-(l : Int)) ∈ L := hgL.symm _ hp
        have b1 : ∀ (m : GMap K) (x : Edge K), m.edge l = some x → m.left? (l : Int) = x.leftF := by
          intro m x hx
          rw [left?_of (d := (l : Int)) (by simpa using hx), Edge.leftOf, if_pos (by omega)]
        have b2 : ∀ (m : GMap K) (x : Edge K), m.edge l = some x → m.left? (-(l : Int)) = x.rightF := by
          intro m x hx
          rw [left?_of (d := (-(l : Int))) (by simpa using hx), Edge.leftOf, if_neg (by omega)]
        obtain ⟨f, c1, -, -⟩ := hcL.lefts _ hp
        obtain ⟨f', c2, -, -⟩ := hcL.lefts _ hm
        have d1 := hleft _ hp f c1
        have d2 := hleft _ hm f' c2
        rw [b1 t1 e1 he1, ← c1, b1 s.map e he] at d1
        rw [b2 t1 e1 he1, ← c2, b2 s.map e he] at d2
        cases e
        cases e1
        simp only at a1 a2 a3 d1 d2
        simp [a1, a2, a3, d1, d2]
  obtain ⟨u1, u2, u3, u4, u5, u6, u7, u8, u9⟩ := hR.sigma
  have h00 : new[0]? = some 0 := by
    have := (hnew 0 hcL.face_zero).1
    rw [hG0] at this; exact this
  have hMt := hR.mapOK hM2 hi2 h00
  have hnodes : ∀ n, (t.node n).map (·.pos) = (s.map.node n).map (·.pos) := by
    intro n; rw [u3, f1, i4.node]; exact hr.nodes n
  have hdt : t.darts = L := by
    ext d
    rw [mem_darts hMt.graph.edge_lt, hgL.live]
    unfold GMap.liveD; rw [hedges]
  have hleftt : t.left? = s.map.left? := by funext d; unfold GMap.left?; rw [hedges]
  have hstartt : t.startN? = s.map.startN? := by funext d; unfold GMap.startN?; rw [hedges]
  have hsamef : ∀ f, (t.face f).isSome = (s.map.face f).isSome := by
    intro f
    rw [Bool.eq_iff_iff]
    constructor
    · intro h
      obtain ⟨F, hF⟩ := Option.isSome_iff_exists.mp h
      obtain ⟨l, q1, q2⟩ := (hR.faces f F).mp hF
      obtain ⟨f', q3, q4⟩ := hface2 l (by simp [q1])
      rw [← q4, (hnew f' q3).1] at q2
      cases q2
      exact q3
    · intro h
      obtain ⟨F, hF⟩ := Option.isSome_iff_exists.mp h
      rw [hR.face (by rw [f2]; exact (hGl f F hF).2) (hnew f h).1, f2]
      exact (hGl f F hF).2
  have hfacet : ∀ f F', t.face f = some F' → (s.map.face f).isSome = true ∧ t1.face (G f) = some F' := by
    intro f F' hF'
    have hf : (s.map.face f).isSome = true := by rw [← hsamef]; simp [hF']
    obtain ⟨F, hF⟩ := Option.isSome_iff_exists.mp hf
    refine ⟨hf, ?_⟩
    rw [← f2, ← hR.face (by rw [f2]; exact (hGl f F hF).2) (hnew f hf).1]; exact hF'
  have hphit : t.phi = t1.phi := by rw [hR.phi, j2.phi.1]
  have horb : t.orbitArea = t1.orbitArea := by
    have : ∀ l, (t.edge l).map (·.pts) = (t1.edge l).map (·.pts) := by
      intro l
      rw [hR.edges, j2.edges]
      cases t1.edge l <;> rfl
    have hd1 : t1.darts = L := by
      ext d
      rw [mem_darts i2.labels.edge_lt, i2.live]
    funext a
    unfold GMap.orbitArea GMap.phiReach
    rw [hdt, hd1, dartArea_congr this, hphit]
  have hdart : t.dartArea = t1.dartArea := by
    refine dartArea_congr fun l => ?_
    rw [hR.edges, j2.edges]
    cases t1.edge l <;> rfl
  have hit : t.initialized := hMt.graph.face_lt 0 (by rw [hsamef]; exact hcL.face_zero)
  have hreach : ∀ a ∈ L, ∀ b, SameCycle ψ a b → s.map.phiReach a b := fun a ha b h => (hcL.rep.sameCycle_iff ha).mp h
  refine ⟨t1, t2, fl, new, ⟨t, moveFlags t2 new fl⟩, i1, j1, r1, ?_, ?_, ?_, ?_, ?_⟩
  · unfold relabelFaces
    simp only [bind, e, Outcome.bind_ok, if_true]
  · refine ⟨hnodes, hedges, ?_, ?_, ?_, ?_, ?_, ?_, u6, hsamef, ?_, ?_⟩
    · intro d hdl
      show t.sigma d = s.map.sigma d
      rw [u1, f3, i4.sigma]; exact hsig d ((hgL.live d).mpr hdl)
    · intro d hdl
      show t.sigmaInv d = s.map.sigmaInv d
      rw [u2, f4, i4.sigmaInv]; exact hsigi d ((hgL.live d).mpr hdl)
    · show t.nodeCount = _
      rw [hMt.graph.node_count, hgL.labels.node_count]
      congr 1
      ext n
      have := congrArg Option.isSome (hnodes n)
      simp only [Option.isSome_map] at this
      simp only [GMap.liveNodes, Finset.mem_filter, Finset.mem_range, this]
      exact ⟨fun h => ⟨hgL.labels.node_lt n h.2, h.2⟩, fun h => ⟨hMt.graph.node_lt n (by rw [this]; exact h.2), h.2⟩⟩
    · show t.edgeCount = _
      rw [hMt.graph.edge_count, hgL.labels.edge_count]
      congr 1
      ext n
      simp only [GMap.liveEdges, Finset.mem_filter, Finset.mem_range, hedges]
      exact ⟨fun h => ⟨hgL.labels.edge_lt n h.2, h.2⟩, fun h => ⟨hMt.graph.edge_lt n (by rw [hedges]; exact h.2), h.2⟩⟩
    · show t.faceCount = _
      rw [u9, f10, hcount]
    · show t.edgesSorted = _
      obtain ⟨x, y, ht⟩ := hR.eq
      rw [ht]
      show t2.edgesSorted = _
      rw [f11, i4.sorted]; exact hr.sorted
    · intro f F F' hF hF'
      obtain ⟨hf, hF1⟩ := hfacet f F' hF'
      have cl := hcL.faces f F hF
      have cl1 := i3.faces _ _ hF1
      refine ⟨le_antisymm (ContourList.length_le cl1 cl fun d hdL h => (hGd f hf d hdL).mp h) (ContourList.length_le cl cl1 fun d hdL h => (hGd f hf d hdL).mpr h), ?_, ?_⟩
      · intro a ha
        obtain ⟨haL, hal⟩ := cl.left a ha
        obtain ⟨b, hb, hab⟩ := cl1.cover a haL ((hGd f hf a haL).mpr hal)
        exact ⟨b, hb, hreach a haL b hab.symm⟩
      · intro b hb
        obtain ⟨hbL, hbl⟩ := cl1.left b hb
        obtain ⟨a, ha, hab⟩ := cl.cover b hbL ((hGd f hf b hbL).mp hbl)
        exact ⟨a, ha, hreach a (cl.left a ha).1 b hab⟩
    · intro f hf
      obtain ⟨F, hF⟩ := Option.isSome_iff_exists.mp hf
      show moveFlags t2 new fl f = _
      rw [moveFlags_eq hR.inj (by rw [f2]; exact (hGl f F hF).2) (hnew f hf).1]
      exact (hnew f hf).2
  · refine ⟨hMt, fun h => absurd hit h, fun _ => ?_⟩
    unfold PlanarOK at hP ⊢
    show Jordan t.darts t.startN? t.left?
    rw [hdt, hleftt, hstartt, hL]
    exact hP
  · refine ⟨fun f F hF h0 => ?_, fun F hF => ?_⟩
    · obtain ⟨hf, hF1⟩ := hfacet f F hF
      have : G f ≠ 0 := fun h => h0 (hGinj f 0 hf hcL.face_zero (by rw [h, hG0]))
      have key := i6.outer _ _ hF1 this
      show ∃ a rest, F.anchors = a :: rest ∧ 0 < t.orbitArea a ∧ ∀ b ∈ rest, t.orbitArea b ≤ 0
      rw [horb]; exact key
    · obtain ⟨hf, hF1⟩ := hfacet 0 F hF
      rw [hG0] at hF1
      show ∀ b ∈ F.anchors, t.orbitArea b ≤ 0
      rw [horb]; exact i6.infinite F hF1
  · have hB : BridgesOK t1 := by
      intro d hdl he
      have hdL := (i2.live d).mpr hdl
      have := hP.bridges (MapOK.of_reps hgL fun _ => ⟨ψ, hcL⟩) hi d ((hgL.live d).mp hdL) ((i8.same d hdL _ (hgL.symm d hdL)).mp he)
      have := (hcL.rep.sameCycle_iff hdL).mpr this
      exact (i3.rep.sameCycle_iff hdL).mp this
    have hA := i7 hB
    intro f F a hF ha
    obtain ⟨hf, hF1⟩ := hfacet f F hF
    rw [hA _ F a hF1 ha]
    show t1.faceSum (G f) = t.faceSum f
    unfold GMap.faceSum
    have : t.leftDarts f = t1.leftDarts (G f) := by
      ext d
      rw [mem_leftDarts hMt.graph.labels, mem_leftDarts i2.labels, hleftt]
      constructor
      · intro h
        exact (hGd f hf d ((hgL.live d).mpr (liveD_of_left h))).mpr h
      · intro h
        exact (hGd f hf d ((i2.live d).mpr (liveD_of_left h))).mp h
    rw [this, hdart]

end Verif.Pickle
