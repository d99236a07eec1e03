import Verif.GeoMap.Inv

/-! # `mergeEdges` keeps the map consistent -/

namespace Verif.GeoMap
open Equiv Equiv.Perm Verif.PermLemmas

variable {K : Type}

/-! ## counting -/

theorem card_liveNodes_update_none {s t : GMap K} {n : Nat} (hn : t.nNodes = s.nNodes)
    (ht : t.node = Function.update s.node n none) (hlt : n < s.nNodes) (hs : (s.node n).isSome = true) :
    t.liveNodes = s.liveNodes.erase n ∧ t.liveNodes.card = s.liveNodes.card - 1 ∧ 0 < s.liveNodes.card := by
  have e : t.liveNodes = s.liveNodes.erase n := by
    ext m
    simp only [GMap.liveNodes, Finset.mem_filter, Finset.mem_range, Finset.mem_erase, hn, ht]
    by_cases h : m = n
    · subst h; simp
    · simp [h]
  have hm : n ∈ s.liveNodes := by simp [GMap.liveNodes, hlt, hs]
  exact ⟨e, by rw [e, Finset.card_erase_of_mem hm], Finset.card_pos.mpr ⟨n, hm⟩⟩

theorem card_liveEdges_update_none {s t : GMap K} {n : Nat} (hn : t.nEdges = s.nEdges)
    (ht : t.edge = Function.update s.edge n none) (hlt : n < s.nEdges) (hs : (s.edge n).isSome = true) :
    t.liveEdges = s.liveEdges.erase n ∧ t.liveEdges.card = s.liveEdges.card - 1 ∧ 0 < s.liveEdges.card := by
  have e : t.liveEdges = s.liveEdges.erase n := by
    ext m
    simp only [GMap.liveEdges, Finset.mem_filter, Finset.mem_range, Finset.mem_erase, hn, ht]
    by_cases h : m = n
    · subst h; simp
    · simp [h]
  have hm : n ∈ s.liveEdges := by simp [GMap.liveEdges, hlt, hs]
  exact ⟨e, by rw [e, Finset.card_erase_of_mem hm], Finset.card_pos.mpr ⟨n, hm⟩⟩

theorem card_liveFaces_update_none {s t : GMap K} {n : Nat} (hn : t.nFaces = s.nFaces)
    (ht : t.face = Function.update s.face n none) (hlt : n < s.nFaces) (hs : (s.face n).isSome = true) :
    t.liveFaces = s.liveFaces.erase n ∧ t.liveFaces.card = s.liveFaces.card - 1 ∧ 0 < s.liveFaces.card := by
  have e : t.liveFaces = s.liveFaces.erase n := by
    ext m
    simp only [GMap.liveFaces, Finset.mem_filter, Finset.mem_range, Finset.mem_erase, hn, ht]
    by_cases h : m = n
    · subst h; simp
    · simp [h]
  have hm : n ∈ s.liveFaces := by simp [GMap.liveFaces, hlt, hs]
  exact ⟨e, by rw [e, Finset.card_erase_of_mem hm], Finset.card_pos.mpr ⟨n, hm⟩⟩

theorem liveNodes_congr {s t : GMap K} (hn : t.nNodes = s.nNodes) (h : ∀ m, (t.node m).isSome = (s.node m).isSome) :
    t.liveNodes = s.liveNodes := by
  ext m; simp [GMap.liveNodes, hn, h]
theorem liveEdges_congr {s t : GMap K} (hn : t.nEdges = s.nEdges) (h : ∀ m, (t.edge m).isSome = (s.edge m).isSome) :
    t.liveEdges = s.liveEdges := by
  ext m; simp [GMap.liveEdges, hn, h]
theorem liveFaces_congr {s t : GMap K} (hn : t.nFaces = s.nFaces) (h : ∀ m, (t.face m).isSome = (s.face m).isSome) :
    t.liveFaces = s.liveFaces := by
  ext m; simp [GMap.liveFaces, hn, h]

/-! ## moving the anchors off the merged edge -/

theorem moveAnchorOff_forall₂ {s : GMap K} {L : Finset Int} {ψ : Perm Int} {lf : Int → Option Nat} {f : Nat} {l : Nat}
    (hr : Rep L s.phi s.phiInv ψ) (hl : ∀ d ∈ L, lf (ψ d) = lf d) {as : List Int}
    (h : ∀ a ∈ as, a ∈ L ∧ lf a = some f) :
    List.Forall₂ (fun a b => SameCycle ψ a b ∧ b ∈ L ∧ lf b = some f) as (s.moveAnchorOff l as) := by
  have hrefl : ∀ as : List Int, (∀ a ∈ as, a ∈ L ∧ lf a = some f) →
      List.Forall₂ (fun a b => SameCycle ψ a b ∧ b ∈ L ∧ lf b = some f) as as := by
    intro as h
    induction as with
    | nil => exact .nil
    | cons a as ih =>
      exact .cons ⟨SameCycle.refl _ _, h a (by simp)⟩ (ih fun x hx => h x (by simp [hx]))
  induction as with
  | nil => exact .nil
  | cons a as ih =>
    unfold GMap.moveAnchorOff
    have ha := h a (by simp)
    split_ifs with hc
    · refine .cons ⟨?_, ?_, ?_⟩ (hrefl _ fun x hx => h x (by simp [hx]))
      · rw [hr.eq a ha.1]; exact sameCycle_apply_right.mpr (SameCycle.refl _ _)
      · exact hr.f_mem ha.1
      · rw [hr.eq a ha.1, hl a ha.1]; exact ha.2
    · exact .cons ⟨SameCycle.refl _ _, ha⟩ (ih fun x hx => h x (by simp [hx]))

/-- how often an anchor has to be moved until it is off the edge -/
def wt (d2 : Int) (t : Bool) (x : Int) : Nat := if x = d2 then (if t then 2 else 1) else if x = -d2 then 1 else 0

theorem moveAnchorOff_weight {s : GMap K} {d1 d2 : Int} {t : Bool} (h0 : d2 ≠ 0)
    (hn : d1.natAbs ≠ d2.natAbs) (h1 : s.phi (-d2) = d1)
    (h2 : if t then s.phi d2 = -d2 else (s.phi d2).natAbs ≠ d2.natAbs) (as : List Int) :
    ((s.moveAnchorOff d2.natAbs as).map (wt d2 t)).sum = (as.map (wt d2 t)).sum - 1 := by
  induction as with
  | nil => rfl
  | cons a as ih =>
    unfold GMap.moveAnchorOff
    split_ifs with hc
    · have : a = d2 ∨ a = -d2 := by omega
      simp only [List.map_cons, List.sum_cons]
      rcases this with rfl | rfl
      · cases t with
        | true =>
          simp only [if_true] at h2
          have e : wt a true (s.phi a) = 1 := by
            rw [h2]; unfold wt
            rw [if_neg (by omega), if_pos rfl]
          have e' : wt a true a = 2 := by simp [wt]
          omega
        | false =>
          simp only [Bool.false_eq_true, if_false] at h2
          have e : wt a false (s.phi a) = 0 := by
            unfold wt
            rw [if_neg (by omega), if_neg (by omega)]
          have e' : wt a false a = 1 := by simp [wt]
          omega
      · have e : wt d2 t (s.phi (-d2)) = 0 := by
          rw [h1]; unfold wt
          rw [if_neg (by omega), if_neg (by omega)]
        have e' : wt d2 t (-d2) = 1 := by
          unfold wt
          rw [if_neg (by omega), if_pos rfl]
        omega
    · simp only [List.map_cons, List.sum_cons, ih]
      have e : wt d2 t a = 0 := by
        unfold wt; rw [if_neg (by omega), if_neg (by omega)]
      omega

theorem weight_zero {d2 : Int} {t : Bool} {as : List Int} (h : (as.map (wt d2 t)).sum = 0) :
    ∀ a ∈ as, a.natAbs ≠ d2.natAbs := by
  intro a ha hc
  have hz : wt d2 t a = 0 := by
    have : wt d2 t a ≤ (as.map (wt d2 t)).sum := List.single_le_sum (fun _ _ => Nat.zero_le _) _ (List.mem_map_of_mem ha)
    omega
  unfold wt at hz
  have : a = d2 ∨ a = -d2 := by omega
  rcases this with rfl | rfl
  · simp at hz; cases t <;> simp at hz
  · by_cases h : -d2 = d2
    · simp [h] at hz; cases t <;> simp at hz
    · simp [h] at hz

theorem weight_le {d2 : Int} {t : Bool} {as : List Int} (h0 : d2 ≠ 0) (hnd : as.Nodup)
    (ht : t = true → d2 ∈ as → -d2 ∉ as) :
    (as.map (wt d2 t)).sum ≤ 2 ∧ (t = false → (d2 ∈ as → -d2 ∉ as) → (as.map (wt d2 t)).sum ≤ 1) ∧
      (d2 ∉ as → (as.map (wt d2 t)).sum ≤ 1) := by
  have hzero : ∀ l : List Int, d2 ∉ l → -d2 ∉ l → (l.map (wt d2 t)).sum = 0 := by
    intro l h1 h2
    rw [List.sum_eq_zero]
    intro x hx
    rw [List.mem_map] at hx
    obtain ⟨y, hy, rfl⟩ := hx
    have : y ≠ d2 := fun e => h1 (e ▸ hy)
    have : y ≠ -d2 := fun e => h2 (e ▸ hy)
    simp [wt, *]
  have hone : ∀ l : List Int, l.Nodup → d2 ∉ l → (l.map (wt d2 t)).sum ≤ 1 ∧ (-d2 ∉ l → (l.map (wt d2 t)).sum = 0) := by
    intro l hl h1
    refine ⟨?_, fun h2 => hzero l h1 h2⟩
    by_cases h2 : -d2 ∈ l
    · have hp := List.perm_cons_erase h2
      rw [(hp.map (wt d2 t)).sum_eq, List.map_cons, List.sum_cons]
      rw [hzero (l.erase (-d2)) (fun h => h1 (List.mem_of_mem_erase h)) (hl.not_mem_erase)]
      have : wt d2 t (-d2) = 1 := by unfold wt; rw [if_neg (by omega), if_pos rfl]
      omega
    · rw [hzero l h1 h2]; omega
  by_cases h1 : d2 ∈ as
  · have hp := List.perm_cons_erase h1
    have e := (hp.map (wt d2 t)).sum_eq
    rw [List.map_cons, List.sum_cons] at e
    have hh := hone (as.erase d2) (hnd.erase d2) hnd.not_mem_erase
    have hmem : -d2 ∈ as.erase d2 ↔ -d2 ∈ as := List.mem_erase_of_ne (by omega)
    rw [hmem] at hh
    cases t with
    | true =>
      have hw : wt d2 true d2 = 2 := by simp [wt]
      have := hh.2 (ht rfl h1)
      refine ⟨by omega, by simp, fun h => absurd h1 h⟩
    | false =>
      have hw : wt d2 false d2 = 1 := by simp [wt]
      refine ⟨by omega, fun _ h => ?_, fun h => absurd h1 h⟩
      have := hh.2 (h h1); omega
  · have := (hone as hnd h1).1
    exact ⟨by omega, fun _ _ => this, fun _ => this⟩

/-- the map after moving the anchors of both faces (first part of `mergeEdges`) -/
theorem moveFaceAnchors {s : GMap K} {L : Finset Int} {π ψ : Perm Int} (hg : GraphRep s L π)
    (hc : ContoursRep s L ψ) {d1 d2 : Int} (h1 : d1 ∈ L) (h2 : d2 ∈ L) (h12 : s.sigma d1 = d2)
    (h21 : s.sigma d2 = d1) (hn : d1.natAbs ≠ d2.natAbs) {e2 : Edge K} (he : s.edge d2.natAbs = some e2) :
    ∃ face1 : Nat → Option (Face K),
      ((s.moveFaceAnchor d2.natAbs (e2.leftOf d2)).bind
        fun s' => s'.moveFaceAnchor d2.natAbs (e2.rightOf d2)) = .ok { s with face := face1 } ∧
      FacesOK L ψ s.left? face1 ∧ (∀ f, (face1 f).isSome = (s.face f).isSome) ∧
      (∀ f, (face1 f).map (fun F => (F.area, F.pixelArea)) = (s.face f).map (fun F => (F.area, F.pixelArea))) ∧
      (∀ f F1, face1 f = some F1 → ∀ a ∈ F1.anchors, a.natAbs ≠ d2.natAbs) := by
  have h0 := hg.ne_zero h2
  have hm2 : -d2 ∈ L := hg.symm d2 h2
  have hll : ∀ d ∈ L, s.left? (ψ d) = s.left? d := by
    intro d hd
    obtain ⟨f, g1, -, g3⟩ := hc.lefts d hd
    rw [g1, g3]
  have hp1 : s.phi (-d2) = d1 := by
    show s.sigmaInv (- -d2) = d1
    rw [neg_neg, ← h12, hg.rep.finv_f h1]
  -- left and right face
  obtain ⟨fl, gl, hFl, -⟩ := hc.lefts d2 h2
  obtain ⟨fr, gr, hFr, -⟩ := hc.lefts (-d2) hm2
  obtain ⟨Fl, hFl⟩ := Option.isSome_iff_exists.mp hFl
  obtain ⟨Fr, hFr⟩ := Option.isSome_iff_exists.mp hFr
  have el : e2.leftOf d2 = some fl := by rw [← gl]; exact (left?_of he).symm
  have er : e2.rightOf d2 = some fr := by
    rw [← gr, left?_of (s := s) (d := -d2) (e := e2) (by simpa using he), e2.leftOf_neg h0]
  -- phi d2 is not d2
  have hnd2 : s.phi d2 ≠ d2 := by
    intro e
    have h3 : s.sigma (s.sigmaInv (-d2)) = -d2 := hg.rep.f_finv hm2
    have e' : s.sigmaInv (-d2) = d2 := e
    rw [e', h21] at h3
    omega
  obtain ⟨t, ht⟩ : ∃ t : Bool, (t = true ↔ s.phi d2 = -d2) := ⟨decide (s.phi d2 = -d2), by simp⟩
  have ht2 : if t then s.phi d2 = -d2 else (s.phi d2).natAbs ≠ d2.natAbs := by
    cases t with
    | true => simpa using ht
    | false =>
      simp only [Bool.false_eq_true, false_iff, if_false] at ht ⊢
      omega
  have hteq : t = true → fl = fr := by
    intro h
    have e1 := hll d2 h2
    rw [← hc.rep.eq d2 h2, ht.mp h, gl, gr] at e1
    exact (Option.some.inj e1).symm
  have htc : t = true → SameCycle ψ d2 (-d2) := by
    intro h
    have := sameCycle_apply_right.mpr (SameCycle.refl ψ d2)
    rwa [← hc.rep.eq d2 h2, ht.mp h] at this
  have cl := hc.faces fl Fl hFl
  have cr := hc.faces fr Fr hFr
  have mv : ∀ f as, ContourList L ψ s.left? f as → ContourList L ψ s.left? f (s.moveAnchorOff d2.natAbs as) :=
    fun f as h => h.move (moveAnchorOff_forall₂ hc.rep hll h.left)
  have ex : ∀ as, ContourList L ψ s.left? fl as → t = true → d2 ∈ as → -d2 ∉ as := by
    intro as h h' m1 m2
    have := h.eq_of_sameCycle m1 m2 (htc h')
    omega
  have wz := fun as => moveAnchorOff_weight (s := s) (t := t) h0 hn hp1 ht2 as
  have other : ∀ f F, s.face f = some F → f ≠ fl → f ≠ fr → ∀ a ∈ F.anchors, a.natAbs ≠ d2.natAbs := by
    intro f F hF n1 n2 a ha hab
    have := ((hc.faces f F hF).left a ha).2
    have hh : a = d2 ∨ a = -d2 := by omega
    rcases hh with rfl | rfl
    · rw [gl] at this; exact n1 (Option.some.inj this).symm
    · rw [gr] at this; exact n2 (Option.some.inj this).symm
  have moveEq : ∀ (t : GMap K) (g : Nat) (G : Face K), t.nFaces = s.nFaces → t.sigma = s.sigma → t.sigmaInv = s.sigmaInv →
      t.face g = some G → (s.face g).isSome = true → t.moveFaceAnchor d2.natAbs (some g) =
        .ok { t with face := Function.update t.face g (some { G with anchors := s.moveAnchorOff d2.natAbs G.anchors }) } := by
    intro t g G e1 e2 e3 e4 e5
    have hlt := hg.labels.face_lt g e5
    have emv : ∀ as, t.moveAnchorOff d2.natAbs as = s.moveAnchorOff d2.natAbs as := by
      intro as
      induction as with
      | nil => rfl
      | cons a as ih => simp only [GMap.moveAnchorOff, GMap.phi, e3, ih]
    simp [GMap.moveFaceAnchor, GMap.derefFace, e1, hlt, e4, GMap.setFace, emv, bind]
  have step1 := moveEq s fl Fl rfl rfl rfl hFl (by simp [hFl])
  rw [el, er, step1, Outcome.bind_ok]
  by_cases hlr : fl = fr
  · -- both sides the same face
    subst hlr
    rw [hFl] at hFr; cases hFr
    refine ⟨_, moveEq _ fl { Fl with anchors := s.moveAnchorOff d2.natAbs Fl.anchors } rfl rfl rfl
      (by simp) (by simp [hFl]), ?_, ?_, ?_, ?_⟩
    · intro f F hF
      by_cases hf : f = fl
      · subst hf; simp at hF; subst hF
        exact mv _ _ (mv _ _ cl)
      · simp [Function.update_of_ne hf] at hF
        exact hc.faces f F hF
    · intro f
      by_cases hf : f = fl
      · subst hf; simp [hFl]
      · simp [Function.update_of_ne hf]
    · intro f
      by_cases hf : f = fl
      · subst hf; simp [hFl]
      · simp [Function.update_of_ne hf]
    · intro f F hF
      by_cases hf : f = fl
      · subst hf; simp at hF; subst hF
        apply weight_zero (t := t)
        rw [wz, wz]
        have := (weight_le (t := t) h0 cl.nodup (ex _ cl)).1
        omega
      · simp [Function.update_of_ne hf] at hF
        exact other f F hF hf hf
  · have htf : t = false := by
      cases t with
      | false => rfl
      | true => exact absurd (hteq rfl) hlr
    have hrl : fr ≠ fl := fun e => hlr e.symm
    refine ⟨_, moveEq _ fr Fr rfl rfl rfl (by simp [Function.update_of_ne hrl, hFr]) (by simp [hFr]), ?_, ?_, ?_, ?_⟩
    · intro f F hF
      by_cases hf : f = fr
      · subst hf; simp at hF; subst hF; exact mv _ _ cr
      · rw [Function.update_of_ne hf] at hF
        by_cases hf' : f = fl
        · subst hf'; simp at hF; subst hF; exact mv _ _ cl
        · simp [Function.update_of_ne hf'] at hF
          exact hc.faces f F hF
    · intro f
      by_cases hf : f = fr
      · subst hf; simp [hFr]
      · rw [Function.update_of_ne hf]
        by_cases hf' : f = fl
        · subst hf'; simp [hFl]
        · simp [Function.update_of_ne hf']
    · intro f
      by_cases hf : f = fr
      · subst hf; simp [hFr]
      · rw [Function.update_of_ne hf]
        by_cases hf' : f = fl
        · subst hf'; simp [hFl]
        · simp [Function.update_of_ne hf']
    · intro f F hF
      by_cases hf : f = fr
      · subst hf; simp at hF; subst hF
        apply weight_zero (t := t)
        rw [wz]
        have hnm : d2 ∉ Fr.anchors := by
          intro hm
          have := (cr.left _ hm).2
          rw [gl] at this; exact hlr (Option.some.inj this)
        have := (weight_le (t := t) h0 cr.nodup (by simp [htf])).2.2 hnm
        omega
      · rw [Function.update_of_ne hf] at hF
        by_cases hf' : f = fl
        · subst hf'; simp at hF; subst hF
          apply weight_zero (t := t)
          rw [wz]
          have hnm : -d2 ∉ Fl.anchors := by
            intro hm
            have := (cl.left _ hm).2
            rw [gr] at this; exact hrl (Option.some.inj this)
          have := (weight_le (t := t) h0 cl.nodup (by simp [htf])).2.1 htf (fun _ => hnm)
          omega
        · simp [Function.update_of_ne hf'] at hF
          exact other f F hF hf' hf

end Verif.GeoMap
