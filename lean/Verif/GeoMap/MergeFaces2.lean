import Verif.GeoMap.MergeFaces

/-! # `mergeFaces`: the state -/

namespace Verif.GeoMap
open Equiv Equiv.Perm Verif.PermLemmas

variable {K : Type}

structure MergeCtx (s : GMap K) (π ψ : Perm Int) (r : Int) (sl ml : Nat) (S M : Face K) (e : Edge K) : Prop where
  hg : GraphRep s s.darts π
  hc : ContoursRep s s.darts ψ
  hrL : r ∈ s.darts
  he : s.edge r.natAbs = some e
  gl : s.left? r = some sl
  gr : s.left? (-r) = some ml
  hS : s.face sl = some S
  hM : s.face ml = some M
  ne : sl ≠ ml
  m0 : ml ≠ 0

/-- the darts whose left face is merged -/
def GMap.leftDarts (s : GMap K) (f : Nat) : Finset Int := s.darts.filter fun x => s.left? x = some f

/-- the state after a merge of faces -/
def mergeState (s2 : GMap K) (l : Nat) (rm : Bool) (n1 sl : Nat) (S' : Face K) (ml : Nat) : GMap K :=
  (((if rm then (s2.uninitEdge l).uninitNode n1 else s2.uninitEdge l)).setFace sl (some S')).uninitFace ml

namespace MergeCtx
variable {s : GMap K} {π ψ : Perm Int} {r : Int} {sl ml : Nat} {S M : Face K} {e : Edge K}

theorem hmL (C : MergeCtx s π ψ r sl ml S M e) : -r ∈ s.darts := C.hg.symm r C.hrL
theorem h0 (C : MergeCtx s π ψ r sl ml S M e) : r ≠ 0 := C.hg.ne_zero C.hrL
theorem hinv (C : MergeCtx s π ψ r sl ml S M e) : ∀ x ∈ s.darts, ∀ y, SameCycle ψ x y → s.left? y = s.left? x :=
  fun _ hx _ h => left_of_sameCycle C.hc.rep C.hc.lefts hx h

theorem relabelContours (C : MergeCtx s π ψ r sl ml S M e) :
    GMap.relabelContours sl M.anchors s = .ok (s.relabel (s.leftDarts ml) sl) := by
  classical
  have cl := C.hc.faces ml M C.hM
  have := relabelContours_eq C.hc.rep (fun d hd => ⟨(C.hg.live d).mp hd, C.hg.ne_zero hd⟩) C.hg.card_le sl
    (fun a ha => (cl.left a ha).1) cl.unique (P := ∅) (by
      intro a ha x hx
      refine ⟨by simp, ?_⟩
      rw [C.hinv a (cl.left a ha).1 x hx, (cl.left a ha).2]
      exact fun h => C.ne (Option.some.inj h).symm)
  rw [relabel_empty] at this
  rw [this]
  congr 2
  ext x
  simp only [Finset.empty_union, Finset.mem_filter, GMap.leftDarts]
  constructor
  · rintro ⟨hx, a, ha, hc⟩
    exact ⟨hx, by rw [C.hinv a (cl.left a ha).1 x hc, (cl.left a ha).2]⟩
  · rintro ⟨hx, h⟩
    exact ⟨hx, cl.cover x hx h⟩

/-- left face labels after relabelling -/
theorem relabelled (C : MergeCtx s π ψ r sl ml S M e) {x : Int} (hx : x ∈ s.darts) :
    (s.relabel (s.leftDarts ml) sl).left? x = mergeLeft s.left? sl ml x := by
  rw [relabel_left s _ sl ((C.hg.live x).mp hx) (C.hg.ne_zero hx)]
  unfold mergeLeft GMap.leftDarts
  simp [hx]

theorem contours (C : MergeCtx s π ψ r sl ml S M e) {t : GMap K} {S' : Face K} {a1 a2 : Int} {A B Cs : List Int}
    (hFc : t.face = Function.update (Function.update s.face sl (some S')) ml none)
    (SL : ∀ x ∈ eraseEdge s.darts r, t.left? x = mergeLeft s.left? sl ml x)
    (R : Rep (eraseEdge s.darts r) t.sigma t.sigmaInv (skip (skip π r) (-r)))
    (h1 : S.anchors.Perm (a1 :: A)) (hr1 : SameCycle ψ a1 r)
    (h2 : M.anchors.Perm (a2 :: B)) (hr2 : SameCycle ψ a2 (-r)) (hJ : JoinAnchor s.darts ψ r Cs)
    (hp : S'.anchors.Perm (Cs ++ A ++ B)) :
    ContoursRep t (eraseEdge s.darts r) (phiRemoved ψ r) := by
  have hc := C.hc
  have hjoin := merge_contour_join hc.rep C.hrL C.hinv C.hmL C.gl C.gr C.ne
    ((hc.faces sl S C.hS).perm h1) hr1 ((hc.faces ml M C.hM).perm h2) hr2 hJ
  have hphi : Rep (eraseEdge s.darts r) t.phi t.phiInv (phiRemoved ψ r) :=
    C.hg.rep.phi_remove C.hg.symm hc.rep C.hrL rfl C.h0 R
  have hsl : t.face sl = some S' := by
    rw [hFc, Function.update_of_ne C.ne, Function.update_self]
  refine ⟨hphi, ?_, ?_, ?_⟩
  · intro x hx
    obtain ⟨-, -, x3⟩ := mem_eraseEdge.mp hx
    obtain ⟨g, k1, k2, -⟩ := hc.lefts x x3
    have hm := hphi.mem hx
    have hstep : t.left? (phiRemoved ψ r x) = t.left? x := by
      rw [SL _ hm, SL _ hx]
      exact merge_lefts hc.rep C.hrL C.hinv C.hmL C.gl C.gr C.ne hx hm (sameCycle_apply_right.mpr (SameCycle.refl _ _))
    by_cases hgm : g = ml
    · refine ⟨sl, ?_, by rw [hsl]; rfl, ?_⟩
      · rw [SL x hx]; unfold mergeLeft; rw [if_pos (by rw [k1, hgm])]
      · rw [hstep, SL x hx]; unfold mergeLeft; rw [if_pos (by rw [k1, hgm])]
    · have : s.left? x ≠ some ml := by rw [k1]; exact fun h => hgm (Option.some.inj h)
      refine ⟨g, ?_, ?_, ?_⟩
      · rw [SL x hx]; unfold mergeLeft; rw [if_neg this, k1]
      · by_cases hgs : g = sl
        · rw [hgs, hsl]; rfl
        · rw [hFc, Function.update_of_ne hgm, Function.update_of_ne hgs]; exact k2
      · rw [hstep, SL x hx]; unfold mergeLeft; rw [if_neg this, k1]
  · intro g G' hG'
    by_cases hgs : g = sl
    · subst hgs
      rw [hsl] at hG'; cases hG'
      exact (hjoin.perm hp.symm).congr (fun x hx => SL x hx)
    · by_cases hgm : g = ml
      · rw [hgm, hFc, Function.update_self] at hG'; cases hG'
      · rw [hFc, Function.update_of_ne hgm, Function.update_of_ne hgs] at hG'
        refine (contour_untouched (hc.faces g G' hG') ?_).congr_iff ?_
        · intro b hbm hbl
          constructor
          · intro h'
            have := C.hinv b hbm _ h'
            rw [C.gl, hbl] at this; exact hgs (Option.some.inj this).symm
          · intro h'
            have := C.hinv b hbm _ h'
            rw [C.gr, hbl] at this; exact hgm (Option.some.inj this).symm
        · intro x hx
          rw [SL x hx]
          unfold mergeLeft
          split_ifs with h
          · rw [h]
            constructor
            · intro h'; exact absurd (Option.some.inj h').symm hgs
            · intro h'; exact absurd (Option.some.inj h').symm hgm
          · rfl
  · rw [hFc, Function.update_of_ne (Ne.symm C.m0)]
    by_cases hgf : 0 = sl
    · rw [hgf]; simp
    · rw [Function.update_of_ne hgf]; exact hc.face_zero

end MergeCtx

section
variable [Field K]

/-- What is known about the state `t` after merging the faces of `r`. -/
structure MergeResult (h : Hooks K) (s : GMap K) (r : Int) (sl ml : Nat) (S M : Face K) (e : Edge K) (s2 t : GMap K) : Prop where
  ex : ∃ node' sg sgi as, s2 = { (s.relabel (s.leftDarts ml) sl).setFace sl (some { S with anchors := as }) with
      node := node', sigma := sg, sigmaInv := sgi } ∧
    (∃ i1 i2 C, as.Perm (C ++ S.anchors.eraseIdx i1 ++ M.anchors.eraseIdx i2) ∧ C.length ≤ 1) ∧
    ∃ rm, t = mergeState s2 r.natAbs rm (e.startOf r) sl
        { anchors := as, area := S.area.bind fun x => M.area.map fun y => x + y, pixelArea := S.pixelArea + M.pixelArea } ml ∧
      rm = (decide (∀ d ∈ eraseEdge s.darts r, s.startN? d ≠ some (e.startOf r)) && h.removeNode s2 (e.startOf r))
  pos : ∀ m, (s2.node m).map (·.pos) = (s.node m).map (·.pos)
  other : ∀ m, m ≠ e.startOf r → m ≠ e.endOf r → s2.node m = s.node m
  reps : ∀ π ψ, GraphRep s s.darts π → ContoursRep s s.darts ψ →
    GraphRep t (eraseEdge s.darts r) (skip (skip π r) (-r)) ∧ ContoursRep t (eraseEdge s.darts r) (phiRemoved ψ r)
  startN : ∀ x ∈ eraseEdge s.darts r, t.startN? x = s.startN? x ∧ t.left? x = mergeLeft s.left? sl ml x
  ok : MapOK t
  list : ∀ π ψ, GraphRep s s.darts π → ContoursRep s s.darts ψ → ∃ i1 i2 a1 a2 F, S.anchors[i1]? = some a1 ∧ SameCycle ψ a1 r ∧
    M.anchors[i2]? = some a2 ∧ SameCycle ψ a2 (-r) ∧ t.face sl = some F ∧ MergeList ψ r i1 i2 S.anchors M.anchors F.anchors

theorem mergeFacesApply_spec {s : GMap K} {π ψ : Perm Int} {r : Int} {sl ml : Nat} {S M : Face K} {e : Edge K} {b : K}
    (C : MergeCtx s π ψ r sl ml S M e) (hMa : M.area = some b) (h : Hooks K) :
    ∃ s2 t, s.mergeFacesApply h r S M (e.startOf r) sl ml = .ok t ∧ MergeResult h s r sl ml S M e s2 t := by
  have hg := C.hg
  have hc := C.hc
  obtain ⟨s1, hs1⟩ : ∃ s1, s1 = s.relabel (s.leftDarts ml) sl := ⟨_, rfl⟩
  have G1 : GraphRep s1 s.darts π := by rw [hs1]; exact hg.relabel _ _
  have R1 : Rep s.darts s1.phi s1.phiInv ψ := by rw [hs1]; exact hc.rep
  have clS := hc.faces sl S C.hS
  have clM := hc.faces ml M C.hM
  obtain ⟨i1, a1, f1, g1, c1⟩ := findComponentAnchor_eq (s := s1) R1 G1.card_le (fun a ha => (clS.left a ha).1) (clS.cover r C.hrL C.gl)
  obtain ⟨i2, a2, f2, g2, c2⟩ := findComponentAnchor_eq (s := s1) R1 G1.card_le (fun a ha => (clM.left a ha).1) (clM.cover (-r) C.hmL C.gr)
  obtain ⟨as, Cs, f3, hJ, hP, hlist⟩ := mergedAnchors_eq (s := s1) R1 C.hrL C.hmL C.h0 C.hinv C.gl C.gr C.ne g1 g2 c1 c2
  obtain ⟨hi1, e1⟩ := List.getElem?_eq_some_iff.mp g1
  obtain ⟨hi2, e2⟩ := List.getElem?_eq_some_iff.mp g2
  have p1 : S.anchors.Perm (a1 :: S.anchors.eraseIdx i1) := by
    have := List.getElem_cons_eraseIdx_perm hi1
    rw [e1] at this; exact this.symm
  have p2 : M.anchors.Perm (a2 :: M.anchors.eraseIdx i2) := by
    have := List.getElem_cons_eraseIdx_perm hi2
    rw [e2] at this; exact this.symm
  have G1' : GraphRep (s1.setFace sl (some { S with anchors := as })) s.darts π := by
    refine G1.setFace ?_
    rw [hs1]
    show (s.face sl).isSome = true
    rw [C.hS]; rfl
  obtain ⟨ef, hef, hest, heen⟩ : ∃ e', s1.edge r.natAbs = some e' ∧ e'.startOf = e.startOf ∧ e'.endOf = e.endOf := by
    exact ⟨{ e with leftF := if (r.natAbs : Int) ∈ s.leftDarts ml then some sl else e.leftF
                    rightF := if -(r.natAbs : Int) ∈ s.leftDarts ml then some sl else e.rightF },
      by rw [hs1]; simp only [GMap.relabel, C.he, Option.map_some], rfl, rfl⟩
  obtain ⟨t1, s2, d1, d2, hs2, G2, SL, P, O⟩ := G1'.remove C.hrL hef
  obtain ⟨node', sg, sgi, hs2⟩ := hs2
  -- the start node
  obtain ⟨nd, hnd⟩ : ∃ nd, s.node (e.startOf r) = some nd := by
    obtain ⟨n, k1, k2, -⟩ := hg.starts r C.hrL
    rw [startN?_of C.he] at k1; cases k1
    exact Option.isSome_iff_exists.mp k2
  obtain ⟨md, hmd⟩ : ∃ md, s2.node (e.startOf r) = some md := by
    have := P (e.startOf r)
    have h' : (s1.setFace sl (some { S with anchors := as })).node (e.startOf r) = some nd := by rw [hs1]; exact hnd
    rw [h'] at this
    cases h2 : s2.node (e.startOf r) with
    | none => simp [h2] at this
    | some md => exact ⟨md, rfl⟩
  have lt1 : e.startOf r < s2.nNodes := by
    rw [hs2, hs1]; exact hg.labels.node_lt _ (by simp [hnd])
  have hst0 : ∀ x, (s1.setFace sl (some { S with anchors := as })).startN? x = s.startN? x := by
    intro x
    simp only [GMap.startN?, hs1, GMap.setFace, GMap.relabel, Option.map_map]
    rfl
  have hst : ∀ x ∈ eraseEdge s.darts r, (s2.uninitEdge r.natAbs).startN? x = s.startN? x := by
    intro x hx
    rw [(SL x hx).1, hst0]
  have hlf : ∀ x ∈ eraseEdge s.darts r, (s2.uninitEdge r.natAbs).left? x = mergeLeft s.left? sl ml x := by
    intro x hx
    rw [(SL x hx).2, ← C.relabelled (mem_eraseEdge.mp hx).2.2, hs1]; rfl
  have hz : md.anchor = 0 ↔ ∀ d ∈ eraseEdge s.darts r, s.startN? d ≠ some (e.startOf r) := by
    rcases G2.nodes (e.startOf r) md hmd with ⟨k1, k2⟩ | ⟨k1, k2, -⟩
    · simp only [k1, true_iff]
      intro d hd; rw [← hst d hd]; exact k2 d hd
    · have := G2.ne_zero k1
      simp only [this, false_iff]
      push Not
      exact ⟨md.anchor, k1, by rw [← hst _ k1, k2]⟩
  obtain ⟨rm, hrm⟩ : ∃ rm, rm = (decide (∀ d ∈ eraseEdge s.darts r, s.startN? d ≠ some (e.startOf r)) && h.removeNode s2 (e.startOf r)) := ⟨_, rfl⟩
  have hrem : s2.removeIfIsolated h (e.startOf r) = .ok (if rm then s2.uninitNode (e.startOf r) else s2) := by
    unfold GMap.removeIfIsolated
    have : s2.derefNode (e.startOf r) = .ok md := by simp [GMap.derefNode, lt1, hmd]
    rw [this]
    simp only [bind, Outcome.bind_ok]
    by_cases ha : md.anchor = 0
    · rw [if_pos ha, removeIsolatedNode_of lt1 hmd, Outcome.bind_ok]
      have := hz.mp ha
      rw [hrm, decide_eq_true this, Bool.true_and]
    · rw [if_neg ha]
      have : ¬ ∀ d ∈ eraseEdge s.darts r, s.startN? d ≠ some (e.startOf r) := fun h' => ha (hz.mpr h')
      rw [hrm, decide_eq_false this, Bool.false_and]; rfl
  have hfaces : (if rm then s2.uninitNode (e.startOf r) else s2).face =
      Function.update s.face sl (some { S with anchors := as }) := by
    rw [hs2, hs1]; cases rm <;> rfl
  have hnF : (if rm then s2.uninitNode (e.startOf r) else s2).nFaces = s.nFaces := by
    rw [hs2, hs1]; cases rm <;> rfl
  have dS : (if rm then s2.uninitNode (e.startOf r) else s2).derefFace (some sl) = .ok { S with anchors := as } := by
    have : sl < s.nFaces := hg.labels.face_lt _ (by simp [C.hS])
    simp [GMap.derefFace, hfaces, hnF, this]
  have dM : (if rm then s2.uninitNode (e.startOf r) else s2).derefFace (some ml) = .ok M := by
    have : ml < s.nFaces := hg.labels.face_lt _ (by simp [C.hM])
    simp [GMap.derefFace, hfaces, hnF, this, Function.update_of_ne (Ne.symm C.ne), C.hM]
  have aM : (if rm then s2.uninitNode (e.startOf r) else s2).faceArea (some ml) =
      .ok (b, (if rm then s2.uninitNode (e.startOf r) else s2)) := by
    unfold GMap.faceArea
    rw [dM]
    simp only [bind, Outcome.bind_ok, hMa]
  obtain ⟨S', hS'⟩ : ∃ S' : Face K, S' = { anchors := as, area := S.area.bind fun x => M.area.map fun y => x + y, pixelArea := S.pixelArea + M.pixelArea } := ⟨_, rfl⟩
  refine ⟨s2, mergeState s2 r.natAbs rm (e.startOf r) sl S' ml, ?_, ?_⟩
  · unfold GMap.mergeFacesApply
    simp only [bind, C.relabelContours, Outcome.bind_ok]
    rw [← hs1]
    simp only [f1, f2, f3, Outcome.bind_ok, d1, d2, hrem, dS, aM, dM]
    congr 1
    have : S.area.map (fun x => x + b) = S.area.bind fun x => M.area.map fun y => x + y := by
      rw [hMa]; cases S.area <;> rfl
    unfold mergeState
    rw [hS', ← this]
    cases rm <;> rfl
  · have hex : ∀ m, (if rm then (s2.uninitEdge r.natAbs).uninitNode (e.startOf r) else s2.uninitEdge r.natAbs).edge m =
        (s2.uninitEdge r.natAbs).edge m := by intro m; cases rm <;> rfl
    have hstart : ∀ x, (mergeState s2 r.natAbs rm (e.startOf r) sl S' ml).startN? x = (s2.uninitEdge r.natAbs).startN? x := by
      intro x; unfold mergeState; cases rm <;> rfl
    have hleft : ∀ x, (mergeState s2 r.natAbs rm (e.startOf r) sl S' ml).left? x = (s2.uninitEdge r.natAbs).left? x := by
      intro x; unfold mergeState; cases rm <;> rfl
    have reps : ∀ π ψ, GraphRep s s.darts π → ContoursRep s s.darts ψ →
        GraphRep (mergeState s2 r.natAbs rm (e.startOf r) sl S' ml) (eraseEdge s.darts r) (skip (skip π r) (-r)) ∧
        ContoursRep (mergeState s2 r.natAbs rm (e.startOf r) sl S' ml) (eraseEdge s.darts r) (phiRemoved ψ r) := by
      intro π' ψ' hg' hc'
      have eπ := hg.rep.unique hg'.rep
      have eψ := hc.rep.unique hc'.rep
      subst eπ; subst eψ
      have G3 : GraphRep (if rm then (s2.uninitEdge r.natAbs).uninitNode (e.startOf r) else s2.uninitEdge r.natAbs)
          (eraseEdge s.darts r) (skip (skip π r) (-r)) := by
        cases hb : rm with
        | false => exact G2
        | true =>
          refine G2.uninitNode (nd := md) hmd ?_
          rw [hrm, Bool.and_eq_true, decide_eq_true_eq] at hb
          exact hz.mpr hb.1
      have hf3 : (if rm then (s2.uninitEdge r.natAbs).uninitNode (e.startOf r) else s2.uninitEdge r.natAbs).face =
          Function.update s.face sl (some { S with anchors := as }) := by
        rw [hs2, hs1]; cases rm <;> rfl
      have G4 := G3.setFace (f := sl) (F := S') (by rw [hf3]; simp)
      have hf4 : ((if rm then (s2.uninitEdge r.natAbs).uninitNode (e.startOf r) else s2.uninitEdge r.natAbs).setFace sl (some S')).face =
          Function.update s.face sl (some S') := by
        simp only [GMap.setFace, hf3, Function.update_idem]
      refine ⟨G4.uninitFace (f := ml) ?_, ?_⟩
      · rw [hf4, Function.update_of_ne (Ne.symm C.ne), C.hM]; rfl
      · refine C.contours (S' := S') (a1 := a1) (a2 := a2) ?_ ?_ (G4.rep) p1 c1 p2 c2 hJ (by rw [hS']; exact hP)
        · show Function.update ((if rm then (s2.uninitEdge r.natAbs).uninitNode (e.startOf r) else s2.uninitEdge r.natAbs).setFace sl (some S')).face ml none = _
          rw [hf4]
        · intro x hx; rw [hleft]; exact hlf x hx
    refine ⟨⟨node', sg, sgi, as, by rw [← hs1]; exact hs2, ⟨i1, i2, Cs, hP, ?_⟩, rm, by rw [← hS'], hrm⟩, ?_, ?_, reps, ?_, ?_, ?_⟩
    · rcases hJ with ⟨rfl, -⟩ | ⟨c, rfl, -⟩ <;> simp
    · intro m; rw [P m, hs1]; rfl
    · intro m m1 m2; rw [O m (by rw [hest]; exact m1) (by rw [heen]; exact m2), hs1]; rfl
    · intro x hx
      rw [hstart, hleft]
      exact ⟨hst x hx, hlf x hx⟩
    · obtain ⟨G, Cn⟩ := reps π ψ hg hc
      exact MapOK.of_reps G (fun _ => ⟨_, Cn⟩)
    · intro π' ψ' hg' hc'
      rw [← hc.rep.unique hc'.rep]
      refine ⟨i1, i2, a1, a2, S', g1, c1, g2, c2, ?_, by rw [hS']; exact hlist⟩
      have hsm := C.ne
      have : ∀ S', (mergeState s2 r.natAbs rm (e.startOf r) sl S' ml).face = Function.update (Function.update s2.face sl (some S')) ml none := by
        intro S'; unfold mergeState; cases rm <;> rfl
      rw [this, Function.update_of_ne hsm, Function.update_self]

end

end Verif.GeoMap
