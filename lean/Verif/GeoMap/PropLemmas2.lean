import Verif.GeoMap.PropLemmas

/-! # Lemmas for the property theorems: areas, anchors of vetoed calls -/

namespace Verif.GeoMap
open Equiv Equiv.Perm Verif.PermLemmas

variable {K : Type}

/-! ## areas -/

section
variable [Field K]

theorem mergeEdges_faceSum {s : GMap K} (hM : MapOK s) (hG : GeomOK s) {h : Hooks K} {d : Int} {r : Option Nat} {t : GMap K}
    (hi : s.initialized) (e : s.mergeEdges h d = .ok (r, t)) (f : Nat) : t.faceSum f = s.faceSum f := by
  by_cases hp : ¬ s.liveD d ∨ (s.sigma d).natAbs = d.natAbs ∨ s.sigma (s.sigma d) ≠ d
  · rw [mergeEdges_precond h s d hp] at e; cases e
  push Not at hp
  obtain ⟨d1, d2, e1, e2, m, n2, nd, s1, -, hs1, hM1, hD, -, -, heq, hMt⟩ := mergeEdges_spec hM h hp.1 hp.2.1 hp.2.2
  have hG1 : GeomOK s1 := by obtain ⟨f, h⟩ := hs1.eq; rw [h]; exact hG
  have h2 : s1.faceSum f = s.faceSum f := by obtain ⟨f', h⟩ := hs1.eq; rw [h]; rfl
  rw [heq] at e
  split_ifs at e with hv
  · cases e
    obtain ⟨π, hg⟩ := hM1.graph.exists_rep
    have hi1 : s1.initialized := by obtain ⟨f, h⟩ := hs1.eq; rw [h]; exact hi
    obtain ⟨ψ, hc⟩ := (hM1.contours hi1).exists_rep hg
    rw [hD.faceSum hg hc hG1, h2]
  · cases e; exact h2

theorem splitEdge_faceSum {s : GMap K} (hM : MapOK s) {l i : Nat} {np : Option (Pt K)} {r : Nat} {t : GMap K}
    (hfit : ∀ p, np = some p → ∀ e a b, s.edge l = some e → e.pts[i]? = some a → e.pts[i + 1]? = some b → OnLine a b p)
    (e : s.splitEdge l i np = .ok (r, t)) (f : Nat) : t.faceSum f = s.faceSum f := by
  cases he : s.edge l with
  | none =>
    unfold GMap.splitEdge GMap.guaranteedEdge at e
    simp [he, bind] at e
  | some ed =>
    have hpts := hM.graph.pts_ne l ed he
    by_cases hi : i < ed.pts.length - 1
    · obtain ⟨cnd, p, hp, hC, heq, hMt⟩ := splitEdge_spec hM he np hi
      rw [heq] at e
      cases e
      obtain ⟨π, hg⟩ := hM.graph.exists_rep
      have ha : area2 (splitPts ed.pts i np) = area2 ed.pts := by
        cases np with
        | none => rfl
        | some q =>
          exact area2_insert (List.getElem?_eq_getElem (by omega)) (List.getElem?_eq_getElem (by omega))
            (hfit q rfl ed _ _ he (List.getElem?_eq_getElem (by omega)) (List.getElem?_eq_getElem (by omega)))
      exact hC.faceSum hg hi hp ha f
    · unfold GMap.splitEdge GMap.guaranteedEdge at e
      simp only [Int.natAbs_natCast, he, bind, Outcome.bind_ok, if_neg hpts, hi, not_false_eq_true, if_true] at e
      cases e

variable [LinearOrder K]

theorem removeBridge_faceSum {s : GMap K} (hs : Good s) {h : Hooks K} {d : Int} {r : Option Nat} {t : GMap K}
    (e : s.removeBridge h d = .ok (r, t)) (f : Nat) : t.faceSum f = s.faceSum f := by
  have hM := hs.map
  by_cases hp : ¬ s.liveD d ∨ ¬ s.initialized ∨ s.left? d ≠ s.left? (-d) ∨ s.startN? d = s.startN? (-d)
  · rw [removeBridge_precond_all hM h d hp] at e; cases e
  push Not at hp
  obtain ⟨hd, hi, hb, hn⟩ := hp
  obtain ⟨f', F, e', s2, t', gl, hF, he, heq, hR⟩ := removeBridge_spec hM hi h hd hb hn ((hs.planar hi).bridges hM hi d hd hb)
  rw [heq] at e
  split_ifs at e
  · cases e
    exact hR.faceSum hM hi hd hb f
  · cases e; rfl

theorem mergeFaces_faceSum {s : GMap K} (hM : MapOK s) {h : Hooks K} {d : Int} {sl : Nat} {t : GMap K}
    (e : s.mergeFaces h d = .ok (some sl, t)) : ∃ ml, ((s.left? d = some sl ∧ s.left? (-d) = some ml) ∨ (s.left? d = some ml ∧ s.left? (-d) = some sl)) ∧ sl ≠ ml ∧
      ∀ g, t.faceSum g = if g = sl then s.faceSum sl + s.faceSum ml else if g = ml then 0 else s.faceSum g := by
  by_cases hp : ¬ s.liveD d ∨ ¬ s.initialized ∨ s.left? d = s.left? (-d)
  · rw [mergeFaces_precond_all hM h d hp] at e; cases e
  push Not at hp
  obtain ⟨hd, hi, hb⟩ := hp
  obtain ⟨r, sl', ml, S, M, a, b, e', s0, s2, t', hr, gl, gr, hml, -, he, hS, hMf, hSa, hMa, hc0, hfr, heq, hR⟩ := mergeFaces_spec hM hi h hd hb
  rw [heq] at e
  split_ifs at e
  · cases e
    have e0 : s0.edge = s.edge := by obtain ⟨f, h⟩ := hc0.eq; rw [h]
    have l0 : s0.left? = s.left? := by unfold GMap.left?; rw [e0]
    have hi0 : s0.initialized := by show 0 < s0.nFaces; rw [hc0.planar.2.2.1]; exact hi
    have hne : sl ≠ ml := by
      intro e'
      apply hb
      rcases hr with h | h
      · rw [h] at gl gr; rw [gl, gr, e']
      · rw [h, neg_neg] at gr; rw [h] at gl; rw [gl, gr, e']
    have hl0 : s0.liveD r := by unfold GMap.liveD; rw [e0, he]; rfl
    have hs0 : ∀ g, s0.faceSum g = s.faceSum g := by intro g; obtain ⟨f, h⟩ := hc0.eq; rw [h]; rfl
    refine ⟨ml, ?_, hne, fun g => ?_⟩
    · rcases hr with h | h
      · rw [h] at gl gr; exact Or.inl ⟨gl, gr⟩
      · rw [h, neg_neg] at gr; rw [h] at gl; exact Or.inr ⟨gr, gl⟩
    · have := hR.faceSum (hc0.mapOK hM) hi0 hl0 (by rw [l0]; exact gl) (by rw [l0]; exact gr) hne g
      rw [this, hs0, hs0, hs0]
  · cases e

omit [LinearOrder K] in
/-- `area()` returns the area of the face, cached or not. -/
theorem faceArea_value {s : GMap K} (hM : MapOK s) (hA : AreaOK s) {f : Nat} (hF : (s.face f).isSome = true) :
    ∃ t, s.faceArea (some f) = .ok (s.faceSum f, t) ∧ AreasCached s t := by
  obtain ⟨π, hg⟩ := hM.graph.exists_rep
  have hi : s.initialized := by
    have := hg.labels.face_lt f hF
    show 0 < s.nFaces
    omega
  obtain ⟨ψ, hc⟩ := (hM.contours hi).exists_rep hg
  obtain ⟨F, hF⟩ := Option.isSome_iff_exists.mp hF
  obtain ⟨x, t, h1, h2, -, -, h3⟩ := faceArea_spec hg hc hF
  have : x = s.faceSum f := by
    rcases h3 with h3 | ⟨-, h3⟩
    · exact hA f F x hF h3
    · rw [h3, trueArea_eq hg.labels]
  subst this
  exact ⟨t, h1, h2⟩

omit [LinearOrder K] in
open Classical in
/-- The area of a face is the sum over its contours. -/
theorem faceSum_contours {s : GMap K} (hM : MapOK s) {f : Nat} {F : Face K} (hF : s.face f = some F) :
    s.faceSum f = (F.anchors.map s.orbitArea).sum := by
  obtain ⟨π, hg⟩ := hM.graph.exists_rep
  have hi : s.initialized := by
    have := hg.labels.face_lt f (by simp [hF])
    show 0 < s.nFaces
    omega
  obtain ⟨ψ, hc⟩ := (hM.contours hi).exists_rep hg
  have hcl := hc.faces f F hF
  have key : ∀ as : List Int, (∀ a ∈ as, a ∈ s.darts) → as.Pairwise (fun a b => ¬ SameCycle ψ a b) →
      ∑ x ∈ s.darts.filter (fun x => ∃ a ∈ as, SameCycle ψ a x), s.dartArea x = (as.map s.orbitArea).sum := by
    intro as
    induction as with
    | nil => intro _ _; simp
    | cons a as ih =>
      intro hm hu
      rw [List.pairwise_cons] at hu
      rw [List.map_cons, List.sum_cons, ← ih (fun x hx => hm x (by simp [hx])) hu.2]
      have ha := hm a (by simp)
      have : s.orbitArea a = ∑ x ∈ s.darts.filter (SameCycle ψ a), s.dartArea x := by
        unfold GMap.orbitArea
        congr 1
        ext x
        simp only [Finset.mem_filter]
        rw [hc.rep.sameCycle_iff ha]; rfl
      rw [this, ← Finset.sum_union]
      · congr 1
        ext x
        simp only [Finset.mem_union, Finset.mem_filter, List.mem_cons, exists_eq_or_imp]
        tauto
      · rw [Finset.disjoint_left]
        intro x hx hx'
        rw [Finset.mem_filter] at hx hx'
        obtain ⟨-, b, hb, hbx⟩ := hx'
        exact hu.1 b hb (hx.2.trans hbx.symm)
  rw [← key F.anchors (fun a ha => (hcl.left a ha).1) hcl.unique]
  unfold GMap.faceSum
  congr 1
  ext x
  rw [mem_leftDarts hg.labels, Finset.mem_filter]
  constructor
  · intro hx
    have hxL := (hg.live x).mpr (liveD_of_left hx)
    exact ⟨hxL, hcl.cover x hxL hx⟩
  · rintro ⟨hxL, a, ha, hax⟩
    have := (hcl.left a ha).2
    rw [← this]
    have hh : ∀ y, SameCycle ψ a y → s.left? y = s.left? a := by
      intro y hy
      have hiff := sameCycle_le (f := ψ) (R := fun u v => s.left? u = s.left? v) ⟨fun _ => rfl, Eq.symm, Eq.trans⟩ (fun u => by
        by_cases hu : u ∈ s.darts
        · obtain ⟨g, g1, -, g2⟩ := hc.lefts u hu
          rw [g1, g2]
        · rw [hc.rep.fix u hu]) hy
      exact hiff.symm
    exact hh x hax

end

/-! ## anchors -/

theorem moveAnchorOff_reach (s : GMap K) (l : Nat) : ∀ as : List Int, List.Forall₂ s.phiReach as (s.moveAnchorOff l as)
  | [] => .nil
  | a :: as => by
    unfold GMap.moveAnchorOff
    split_ifs
    · exact .cons ⟨1, rfl⟩ (List.forall₂_same.mpr fun x _ => ⟨0, rfl⟩)
    · exact .cons ⟨0, rfl⟩ (moveAnchorOff_reach s l as)

/-- corresponding faces have the same contours, possibly with other anchor darts -/
def SameContours (s : GMap K) (a b : Option (Face K)) : Prop :=
  match a, b with
  | none, none => True
  | some F, some G => List.Forall₂ s.phiReach F.anchors G.anchors ∧ G.pixelArea = F.pixelArea ∧ G.area = F.area
  | _, _ => False

theorem phiReach_trans {s : GMap K} {a b c : Int} (h : s.phiReach a b) (g : s.phiReach b c) : s.phiReach a c := by
  obtain ⟨i, rfl⟩ := h
  obtain ⟨j, rfl⟩ := g
  exact ⟨j + i, Function.iterate_add_apply _ _ _ _⟩

theorem forall₂_trans {s : GMap K} : ∀ {as bs cs : List Int}, List.Forall₂ s.phiReach as bs → List.Forall₂ s.phiReach bs cs → List.Forall₂ s.phiReach as cs
  | _, _, _, .nil, .nil => .nil
  | _, _, _, .cons h t, .cons h' t' => .cons (phiReach_trans h h') (forall₂_trans t t')

theorem SameContours.refl (s : GMap K) (a : Option (Face K)) : SameContours s a a := by
  cases a with
  | none => trivial
  | some F => exact ⟨List.forall₂_same.mpr fun x _ => ⟨0, rfl⟩, rfl, rfl⟩

theorem SameContours.trans {s : GMap K} {a b c : Option (Face K)} (h : SameContours s a b) (g : SameContours s b c) : SameContours s a c := by
  cases a <;> cases b <;> cases c <;> first | trivial | exact h.elim | exact g.elim | skip
  exact ⟨forall₂_trans h.1 g.1, g.2.1.trans h.2.1, g.2.2.trans h.2.2⟩

theorem moveFaceAnchor_same {s t : GMap K} {l : Nat} {f : Option Nat} (h : s.moveFaceAnchor l f = .ok t) :
    (∃ face', t = { s with face := face' }) ∧ ∀ g, SameContours s (s.face g) (t.face g) := by
  cases f with
  | none => unfold GMap.moveFaceAnchor GMap.derefFace at h; cases h
  | some f =>
    unfold GMap.moveFaceAnchor GMap.derefFace at h
    by_cases hf : f < s.nFaces
    swap
    · simp [hf, bind] at h
    cases hF : s.face f with
    | none => simp [hf, hF, bind] at h
    | some F =>
      simp only [hf, hF, bind, if_true, Outcome.bind_ok] at h
      cases h
      refine ⟨⟨_, rfl⟩, fun g => ?_⟩
      simp only [GMap.setFace, Function.update_apply]
      split_ifs with hg
      · rw [hg, hF]; exact ⟨moveAnchorOff_reach s l _, rfl, rfl⟩
      · exact SameContours.refl _ _

theorem moveAnchors_same {s t : GMap K} {d : Int} {e2 : Edge K} (h : s.moveAnchors d e2 = .ok t) :
    (∃ face', t = { s with face := face' }) ∧ ∀ g, SameContours s (s.face g) (t.face g) := by
  unfold GMap.moveAnchors at h
  split_ifs at h
  · obtain ⟨u, h1, h2⟩ := Outcome.bind_eq_ok.mp h
    obtain ⟨⟨f1, rfl⟩, g1⟩ := moveFaceAnchor_same h1
    obtain ⟨⟨f2, rfl⟩, g2⟩ := moveFaceAnchor_same h2
    exact ⟨⟨f2, rfl⟩, fun g => (g1 g).trans (g2 g)⟩
  · cases h; exact ⟨⟨s.face, rfl⟩, fun g => SameContours.refl _ _⟩

theorem mergeEdges_veto_anchors {s : GMap K} (hM : MapOK s) {h : Hooks K} {d : Int} {t : GMap K} (e : s.mergeEdges h d = .ok (none, t)) :
    (∃ face', t = { s with face := face' }) ∧ ∀ g, SameContours s (s.face g) (t.face g) := by
  by_cases hp : ¬ s.liveD d ∨ (s.sigma d).natAbs = d.natAbs ∨ s.sigma (s.sigma d) ≠ d
  · rw [mergeEdges_precond h s d hp] at e; cases e
  push Not at hp
  obtain ⟨d1, d2, e1, e2, m, n2, nd, s1, -, hs1, hM1, -, hoff, -, heq, -⟩ := mergeEdges_spec hM h hp.1 hp.2.1 hp.2.2
  rw [heq] at e
  split_ifs at e
  · cases e
  · cases e; exact moveAnchors_same hoff.2.1

end Verif.GeoMap
