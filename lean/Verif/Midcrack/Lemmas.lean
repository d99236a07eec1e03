import Verif.Midcrack.Spec
import Verif.SetPosition.Props
import Verif.GeoMap.MergeFaces3
import Mathlib.Tactic.Linarith

/-! # Midcracks: lemmas -/

namespace Verif.Midcrack
open Verif Verif.GeoMap Verif.SetPosition Equiv Equiv.Perm Verif.PermLemmas

variable {K : Type}

theorem SameTopology.refl (s : GMap K) : SameTopology s s :=
  ⟨⟨rfl, rfl, rfl⟩, ⟨rfl, rfl, rfl⟩, ⟨rfl, rfl, rfl⟩, fun _ => rfl, fun _ => rfl, fun _ => rfl⟩

theorem SameTopology.trans {s t u : GMap K} (h : SameTopology s t) (k : SameTopology t u) : SameTopology s u where
  sizes := ⟨k.sizes.1.trans h.sizes.1, k.sizes.2.1.trans h.sizes.2.1, k.sizes.2.2.trans h.sizes.2.2⟩
  counts := ⟨k.counts.1.trans h.counts.1, k.counts.2.1.trans h.counts.2.1, k.counts.2.2.trans h.counts.2.2⟩
  sigma := ⟨k.sigma.1.trans h.sigma.1, k.sigma.2.1.trans h.sigma.2.1, k.sigma.2.2.trans h.sigma.2.2⟩
  node n := (k.node n).trans (h.node n)
  edge l := (k.edge l).trans (h.edge l)
  face f := (k.face f).trans (h.face f)

theorem map_isSome {α β : Type} {a b : Option α} {f : α → β} (h : a.map f = b.map f) : a.isSome = b.isSome := by
  have := congrArg Option.isSome h
  simpa using this

section Topology
variable {s t : GMap K} (h : SameTopology s t)
include h

theorem SameTopology.edge_some {l : Nat} {e : Edge K} (he : t.edge l = some e) : ∃ e', s.edge l = some e' ∧ e.startN = e'.startN ∧ e.endN = e'.endN ∧
    e.leftF = e'.leftF ∧ e.rightF = e'.rightF ∧ e.flags = e'.flags := by
  have := h.edge l
  rw [he] at this
  cases hs : s.edge l with
  | none => rw [hs] at this; simp at this
  | some e' =>
    rw [hs] at this
    simp only [Option.map_some, Option.some.injEq, Prod.mk.injEq] at this
    exact ⟨e', rfl, this⟩

theorem SameTopology.startN (d : Int) : t.startN? d = s.startN? d := by
  unfold GMap.startN?
  have := h.edge d.natAbs
  cases ht : t.edge d.natAbs with
  | none =>
    rw [ht] at this
    cases hs : s.edge d.natAbs with
    | none => rfl
    | some e => rw [hs] at this; simp at this
  | some e =>
    obtain ⟨e', he', h1, h2, -⟩ := h.edge_some ht
    rw [he']
    simp only [Option.map_some, Edge.startOf, h1, h2]

theorem SameTopology.left (d : Int) : t.left? d = s.left? d := by
  unfold GMap.left?
  have := h.edge d.natAbs
  cases ht : t.edge d.natAbs with
  | none =>
    rw [ht] at this
    cases hs : s.edge d.natAbs with
    | none => rfl
    | some e => rw [hs] at this; simp at this
  | some e =>
    obtain ⟨e', he', h1, h2, h3, h4, -⟩ := h.edge_some ht
    rw [he']
    simp only [Option.bind_some, Edge.leftOf, h3, h4]

theorem SameTopology.live (d : Int) : t.liveD d ↔ s.liveD d := by
  unfold GMap.liveD
  rw [map_isSome (h.edge d.natAbs)]

theorem SameTopology.phi : t.phi = s.phi := by
  funext d
  unfold GMap.phi
  rw [h.sigma.2.1]

theorem SameTopology.symm : SameTopology t s :=
  ⟨⟨h.sizes.1.symm, h.sizes.2.1.symm, h.sizes.2.2.symm⟩, ⟨h.counts.1.symm, h.counts.2.1.symm, h.counts.2.2.symm⟩,
    ⟨h.sigma.1.symm, h.sigma.2.1.symm, h.sigma.2.2.symm⟩, fun n => (h.node n).symm, fun l => (h.edge l).symm, fun f => (h.face f).symm⟩

theorem SameTopology.onlyLoop (l : Nat) : OnlyLoop t l ↔ OnlyLoop s l := by
  have key : ∀ {s t : GMap K}, SameTopology s t → OnlyLoop t l → OnlyLoop s l := by
    rintro s t h ⟨e, he, h1, h2⟩
    obtain ⟨e', he', g1, g2, -⟩ := h.edge_some he
    exact ⟨e', he', by rw [← g1, ← g2, h1], fun d hd => h2 d (by rw [h.startN, hd, g1])⟩
  exact ⟨key h, key h.symm⟩

theorem SameTopology.node_some {n : Nat} {nd : Node K} (hn : t.node n = some nd) : ∃ nd', s.node n = some nd' ∧ nd.anchor = nd'.anchor := by
  have := h.node n
  rw [hn] at this
  cases hs : s.node n with
  | none => rw [hs] at this; simp at this
  | some nd' =>
    rw [hs] at this
    exact ⟨nd', rfl, by simpa using this⟩

theorem SameTopology.face_some {f : Nat} {F : Face K} (hF : t.face f = some F) : ∃ F', s.face f = some F' ∧ F.anchors = F'.anchors := by
  have := h.face f
  rw [hF] at this
  cases hs : s.face f with
  | none => rw [hs] at this; simp at this
  | some F' =>
    rw [hs] at this
    simp only [Option.map_some, Option.some.injEq, Prod.mk.injEq] at this
    exact ⟨F', rfl, this.1⟩

theorem SameTopology.initialized : t.initialized ↔ s.initialized := by
  unfold GMap.initialized; rw [h.sizes.2.2]

/-- consistency does not depend on the geometry -/
theorem SameTopology.mapOK (hs : MapOK s) (hp : ∀ l e, t.edge l = some e → e.pts ≠ []) : MapOK t := by
  have hnl : t.liveNodes = s.liveNodes := by
    unfold GMap.liveNodes; rw [h.sizes.1]; congr 1; ext n; rw [map_isSome (h.node n)]
  have hel : t.liveEdges = s.liveEdges := by
    unfold GMap.liveEdges; rw [h.sizes.2.1]; congr 1; ext n; rw [map_isSome (h.edge n)]
  have hfl : t.liveFaces = s.liveFaces := by
    unfold GMap.liveFaces; rw [h.sizes.2.2]; congr 1; ext n; rw [map_isSome (h.face n)]
  have hns : t.nextSigma = s.nextSigma := by funext d; unfold GMap.nextSigma; rw [h.sigma.1]
  have hps : t.prevSigma = s.prevSigma := by funext d; unfold GMap.prevSigma; rw [h.sigma.2.1]
  have hg := hs.graph
  constructor
  · constructor
    · rw [h.sizes.2.1]; exact hg.edges_pos
    · have := h.edge 0
      rw [hg.edge_zero] at this
      simpa using this
    · intro n hn; rw [map_isSome (h.node n)] at hn; rw [h.sizes.1]; exact hg.node_lt n hn
    · intro n hn; rw [map_isSome (h.edge n)] at hn; rw [h.sizes.2.1]; exact hg.edge_lt n hn
    · intro n hn; rw [map_isSome (h.face n)] at hn; rw [h.sizes.2.2]; exact hg.face_lt n hn
    · rw [h.counts.1, hnl]; exact hg.node_count
    · rw [h.counts.2.1, hel]; exact hg.edge_count
    · rw [h.counts.2.2, hfl]; exact hg.face_count
    · exact hp
    · intro d hd; rw [h.live] at hd; rw [hns, hps, h.live]; exact hg.sigma_live d hd
    · intro d hd; rw [h.live] at hd; rw [hns, hps, h.live]; exact hg.sigmaInv_live d hd
    · intro d n hd; rw [h.startN] at hd; rw [map_isSome (h.node n)]; exact hg.start_live d n hd
    · intro d hd; rw [h.live] at hd; rw [hns, h.startN, h.startN]; exact hg.start_sigma d hd
    · intro n nd hn h0 d
      obtain ⟨nd', hn', ha⟩ := h.node_some hn
      rw [h.startN]; exact hg.anchor_zero n nd' hn' (by rw [← ha, h0]) d
    · intro n nd hn h0
      obtain ⟨nd', hn', ha⟩ := h.node_some hn
      rw [h.startN, ha]; exact hg.anchor_start n nd' hn' (by rw [← ha]; exact h0)
    · intro n nd hn h0 d hd
      obtain ⟨nd', hn', ha⟩ := h.node_some hn
      rw [h.startN] at hd
      have := hg.anchor_cover n nd' hn' (by rw [← ha]; exact h0) d hd
      unfold GMap.sigmaReach at this ⊢
      rw [hns, ha]; exact this
  · intro hi
    have hc := hs.contours (h.initialized.1 hi)
    constructor
    · intro d hd
      rw [h.live] at hd
      obtain ⟨f, F, h1, h2⟩ := hc.face_live d hd
      obtain ⟨F', h3, -⟩ := h.symm.face_some h2
      exact ⟨f, F', by rw [h.left]; exact h1, h3⟩
    · intro d hd; rw [h.live] at hd; rw [h.left, h.left, h.phi]; exact hc.left_phi d hd
    · intro f F a hF ha
      obtain ⟨F', h1, h2⟩ := h.face_some hF
      rw [h.left]; exact hc.anchor_left f F' a h1 (by rw [← h2]; exact ha)
    · intro f F d hF hd
      obtain ⟨F', h1, h2⟩ := h.face_some hF
      rw [h.left] at hd
      obtain ⟨a, ha, hr⟩ := hc.anchor_cover f F' d h1 hd
      exact ⟨a, by rw [h2]; exact ha, by unfold GMap.phiReach at hr ⊢; rw [h.phi]; exact hr⟩
    · intro f F hF
      obtain ⟨F', h1, h2⟩ := h.face_some hF
      have := hc.anchor_unique f F' h1
      rw [h2]
      refine this.imp fun hab hr => hab ?_
      unfold GMap.phiReach at hr ⊢; rw [← h.phi]; exact hr
    · rw [map_isSome (h.face 0)]; exact hc.face_zero

end Topology

/-! ## the new points -/

section Points
variable [Field K] [CharZero K]

theorem mid_double (p q : Pt K) : mid p q + mid p q = p + q := by
  have h2 : (2 : K) ≠ 0 := two_ne_zero
  ext <;> simp only [mid, Prod.fst_add, Prod.snd_add] <;> field_simp <;> ring

omit [CharZero K] in
theorem midArray_getElem {b : Bool} {pts : List (Pt K)} {i : Nat} (h0 : 0 < i) (hi : i < pts.length) :
    ∃ p q, pts[i - 1]? = some p ∧ pts[i]? = some q ∧ (midArray b pts)[i]? = some (mid p q) := by
  refine ⟨pts[i - 1], pts[i], List.getElem?_eq_getElem _, List.getElem?_eq_getElem _, ?_⟩
  unfold midArray
  rw [List.getElem?_map, List.getElem?_range (by split_ifs <;> omega), Option.map_some, if_pos ⟨h0, hi⟩]
  rw [List.getD_eq_getElem?_getD, List.getD_eq_getElem?_getD, List.getElem?_eq_getElem (by omega : i - 1 < pts.length), List.getElem?_eq_getElem hi]
  rfl

omit [CharZero K] in
theorem midArray_length (b : Bool) (pts : List (Pt K)) : (midArray b pts).length = pts.length + if b then 0 else 1 := by
  simp [midArray]

theorem newPoints_kept {pts : List (Pt K)} (h : 2 ≤ pts.length) : ∃ m, newPoints false pts = .ok m ∧ Kept pts m := by
  unfold newPoints
  have hl := midArray_length false pts
  simp only [Bool.false_eq_true, if_false] at hl ⊢
  obtain ⟨a, ha⟩ : ∃ a, pts.head? = some a := by
    cases pts with
    | nil => simp at h
    | cons a l => exact ⟨a, rfl⟩
  obtain ⟨b, hb⟩ : ∃ b, pts.getLast? = some b := by
    rw [List.getLast?_eq_getElem?]
    exact ⟨_, List.getElem?_eq_getElem (by omega)⟩
  rw [ha, hb]
  refine ⟨_, rfl, by simp [hl], ?_, ?_, ?_⟩
  · rw [List.head?_eq_getElem?, List.getElem?_set_ne (by omega), List.getElem?_set_self (by omega), ha]
  · rw [List.getLast?_eq_getElem?, List.length_set, List.length_set, List.getElem?_set_self (by simp; omega), hb]
  · intro i h0 hi
    obtain ⟨p, q, h1, h2, h3⟩ := midArray_getElem (b := false) h0 hi
    exact ⟨p, q, mid p q, h1, h2, by rw [List.getElem?_set_ne (by omega), List.getElem?_set_ne (by omega), h3], mid_double p q⟩

theorem newPoints_turned {pts : List (Pt K)} (h : 2 ≤ pts.length) : ∃ m, newPoints true pts = .ok m ∧ Turned pts m := by
  unfold newPoints
  have hl := midArray_length true pts
  simp only [if_true, Nat.add_zero] at hl ⊢
  obtain ⟨b, hb⟩ : ∃ b, (midArray true pts).getLast? = some b := by
    rw [List.getLast?_eq_getElem?]
    exact ⟨_, List.getElem?_eq_getElem (by omega)⟩
  rw [hb]
  refine ⟨_, rfl, by simp [hl], ?_, ?_⟩
  · rw [List.head?_eq_getElem?, List.getElem?_set_self (by omega), List.getLast?_eq_getElem?, List.length_set, List.getElem?_set_ne (by omega),
      ← List.getLast?_eq_getElem?, hb]
  · intro i h0 hi
    obtain ⟨p, q, h1, h2, h3⟩ := midArray_getElem (b := true) h0 hi
    exact ⟨p, q, mid p q, h1, h2, by rw [List.getElem?_set_ne (by omega), h3], mid_double p q⟩

end Points

/-! ## one edge -/

/-- the test in line 260 -/
theorem moveNode_eq {s : GMap K} (hs : MapOK s) {l : Nat} {e : Edge K} (he : s.edge l = some e) : ∃ b,
    (if e.startN = e.endN then s.hasDegree e.startN 2 else .ok false) = .ok b ∧ (b = true ↔ OnlyLoop s l) := by
  obtain ⟨π, hg⟩ := hs.graph.exists_rep
  have hl0 : l ≠ 0 := fun h => by rw [h, hs.graph.edge_zero] at he; cases he
  by_cases hloop : e.startN = e.endN
  · rw [if_pos hloop]
    have h1 : s.startN? (l : Int) = some e.startN := by
      unfold GMap.startN?
      rw [Int.natAbs_natCast, he, Option.map_some, Edge.startOf, if_pos (by omega)]
    have h2 : s.startN? (-(l : Int)) = some e.startN := by
      unfold GMap.startN?
      rw [Int.natAbs_neg, Int.natAbs_natCast, he, Option.map_some, Edge.startOf, if_neg (by omega), hloop]
    obtain ⟨nd, hnd⟩ := Option.isSome_iff_exists.1 (hs.graph.start_live _ _ h1)
    rw [((degree_eq hg hnd).2 2).2]
    refine ⟨_, rfl, ?_⟩
    rw [decide_eq_true_iff]
    have hsub : ({(l : Int), -(l : Int)} : Finset Int) ⊆ s.darts.filter (fun d => s.startN? d = some e.startN) := by
      intro d hd
      simp only [Finset.mem_insert, Finset.mem_singleton] at hd
      rw [Finset.mem_filter]
      rcases hd with rfl | rfl
      · exact ⟨(hg.live _).2 (liveD_of_start h1), h1⟩
      · exact ⟨(hg.live _).2 (liveD_of_start h2), h2⟩
    have hcard : ({(l : Int), -(l : Int)} : Finset Int).card = 2 := Finset.card_pair (by omega)
    constructor
    · intro h
      refine ⟨e, he, hloop, fun d hd => ?_⟩
      have heq := Finset.eq_of_subset_of_card_le hsub (by rw [h, hcard])
      have : d ∈ s.darts.filter (fun d => s.startN? d = some e.startN) := Finset.mem_filter.2 ⟨(hg.live _).2 (liveD_of_start hd), hd⟩
      rw [← heq] at this
      simp only [Finset.mem_insert, Finset.mem_singleton] at this
      omega
    · rintro ⟨e', he', -, h⟩
      rw [he] at he'; cases he'
      rw [← hcard]
      congr 1
      refine Finset.Subset.antisymm (fun d hd => ?_) hsub
      have := h d (Finset.mem_filter.1 hd).2
      simp only [Finset.mem_insert, Finset.mem_singleton]
      omega
  · rw [if_neg hloop]
    refine ⟨false, rfl, by simp, ?_⟩
    rintro ⟨e', he', h, -⟩
    rw [he] at he'; cases he'
    exact absurd h hloop

section Step
variable [Field K] [CharZero K]

/-- the effect of one round of the loop -/
theorem edgeStep_ok {s t : GMap K} (hs : MapOK s) (hlong : Long s) {k : Nat} (hT : SameTopology s t) (hm : Midcracked (· < k) s t) (hlt : Long t) :
    ∃ u, edgeStep t k = .ok u ∧ SameTopology s u ∧ Midcracked (· < k + 1) s u ∧ Long u := by
  have htok : MapOK t := hT.mapOK hs fun l e he h => by have := hlt l e he; rw [h] at this; simp at this
  unfold edgeStep
  cases he : t.edge k with
  | none =>
    have hse : s.edge k = none := by
      have := hT.edge k
      rw [he] at this
      cases h : s.edge k with
      | none => rfl
      | some e => rw [h] at this; simp at this
    refine ⟨t, rfl, hT, ⟨fun l e hl => ?_, fun n nd hn => ?_⟩, hlt⟩
    · obtain ⟨e', h1, h2, h3, h4⟩ := hm.edge l e hl
      have hlk : l ≠ k := by rintro rfl; rw [hse] at hl; cases hl
      exact ⟨e', h1, fun h => h2 (by omega), fun h => h3 (by omega), fun h => h4 (by omega)⟩
    · obtain ⟨nd', h1, h2, h3⟩ := hm.node n nd hn
      have hlk : ∀ l e, s.edge l = some e → l ≠ k := by rintro l e hl rfl; rw [hse] at hl; cases hl
      refine ⟨nd', h1, fun h => h2 fun l e hl => h l e (by omega), fun l e e' hl ho hle => h3 l e e' ?_ ho hle⟩
      have := hlk l e hle; omega
  | some e' =>
    obtain ⟨e, hse, g1, g2, g3, g4, g5⟩ := hT.edge_some he
    obtain ⟨e1, he1, hpts, -⟩ := hm.edge k e hse
    rw [he] at he1; cases he1
    have hpts := hpts (by omega)
    have hlen := hlong k e hse
    obtain ⟨b, hb, hbo⟩ := moveNode_eq htok he
    rw [hT.onlyLoop] at hbo
    simp only
    rw [hb, Outcome.bind_ok, hpts]
    cases b with
    | false =>
      have hno : ¬ OnlyLoop s k := fun h => by have := hbo.2 h; cases this
      obtain ⟨m, hm1, hm2⟩ := newPoints_kept hlen
      rw [hm1, Outcome.bind_ok]
      simp only [Bool.false_eq_true, if_false, Outcome.bind_ok, he]
      refine ⟨_, rfl, hT.trans ⟨⟨rfl, rfl, rfl⟩, ⟨rfl, rfl, rfl⟩, ⟨rfl, rfl, rfl⟩, fun _ => rfl, fun l => ?_, fun _ => rfl⟩, ⟨fun l el hl => ?_, fun n nd hn => ?_⟩, fun l el hl => ?_⟩
      · unfold GMap.setEdge
        simp only [Function.update_apply]
        split_ifs with h
        · rw [h, he]; rfl
        · rfl
      · unfold GMap.setEdge
        by_cases hlk : l = k
        · subst hlk
          rw [hse] at hl; cases hl
          exact ⟨_, Function.update_self _ _ _, fun h => absurd (by omega) h, fun _ h => absurd h hno, fun _ _ => hm2⟩
        · obtain ⟨e2, h1, h2, h3, h4⟩ := hm.edge l el hl
          exact ⟨e2, by simp only; rw [Function.update_of_ne hlk, h1], fun h => h2 (by omega), fun h => h3 (by omega), fun h => h4 (by omega)⟩
      · obtain ⟨nd', h1, h2, h3⟩ := hm.node n nd hn
        refine ⟨nd', h1, fun h => h2 fun l e hl => h l e (by omega), fun l e e2 hl ho hle hn' hu => ?_⟩
        have hlk : l ≠ k := by rintro rfl; exact hno ho
        unfold GMap.setEdge at hu
        simp only at hu
        rw [Function.update_of_ne hlk] at hu
        exact h3 l e e2 (by omega) ho hle hn' hu
      · unfold GMap.setEdge at hl
        simp only [Function.update_apply] at hl
        split_ifs at hl with h
        · cases hl; simp only; rw [hm2.length]; omega
        · exact hlt l el hl
    | true =>
      have hyes : OnlyLoop s k := hbo.1 rfl
      obtain ⟨m, hm1, hm2⟩ := newPoints_turned hlen
      rw [hm1, Outcome.bind_ok]
      obtain ⟨p, hp⟩ : ∃ p, m.head? = some p := by
        rw [List.head?_eq_getElem?]
        exact ⟨_, List.getElem?_eq_getElem (by rw [hm2.length]; omega)⟩
      simp only [if_true, hp]
      obtain ⟨eo, heo, hloop, honly⟩ := hyes
      rw [hse] at heo; cases heo
      have hstart : t.startN? (k : Int) = some e.startN := by
        unfold GMap.startN?
        have hk0 : k ≠ 0 := fun h => by rw [h, hs.graph.edge_zero] at hse; cases hse
        rw [Int.natAbs_natCast, he, Option.map_some, Edge.startOf, if_pos (by omega), g1]
      obtain ⟨nd0, hnd0⟩ := Option.isSome_iff_exists.1 (htok.graph.start_live _ _ hstart)
      obtain ⟨v, hv, hmv⟩ := setPosition_moved htok.graph hnd0 p
      rw [g1, hv, Outcome.bind_ok]
      obtain ⟨pts2, hve, -⟩ := hmv.edge k e' he
      rw [hve]
      simp only
      -- the other edges do not end at the node
      have hother : ∀ l el, l ≠ k → t.edge l = some el → v.edge l = some el := by
        intro l el hlk hl
        obtain ⟨pts', h1, h2, h3⟩ := hmv.edge l el hl
        have hl0 : l ≠ 0 := fun h => by rw [h, htok.graph.edge_zero] at hl; cases hl
        have hs1 : t.startN? (l : Int) = some el.startN := by
          unfold GMap.startN?
          rw [Int.natAbs_natCast, hl, Option.map_some, Edge.startOf, if_pos (by omega)]
        have hs2 : t.startN? (-(l : Int)) = some el.endN := by
          unfold GMap.startN?
          rw [Int.natAbs_neg, Int.natAbs_natCast, hl, Option.map_some, Edge.startOf, if_neg (by omega)]
        have n1 : el.startN ≠ e.startN := fun h => by
          have := honly (l : Int) (by rw [← hT.startN, hs1, h])
          omega
        have n2 : el.endN ≠ e.startN := fun h => by
          have := honly (-(l : Int)) (by rw [← hT.startN, hs2, h])
          omega
        have : pts' = el.pts := by
          apply List.ext_getElem? 
          intro i
          by_cases hi : i < el.pts.length
          · exact (h3 i hi).2 (by rintro (⟨-, h⟩ | ⟨-, h⟩); exacts [n1 h, n2 h])
          · rw [List.getElem?_eq_none (by omega), List.getElem?_eq_none (by omega)]
        rw [h1, this]
      have hTv : SameTopology t v := by
        refine ⟨by rw [hmv.rest]; exact ⟨rfl, rfl, rfl⟩, by rw [hmv.rest]; exact ⟨rfl, rfl, rfl⟩, by rw [hmv.rest]; exact ⟨rfl, rfl, rfl⟩, fun n => ?_, fun l => ?_, fun f => by rw [hmv.rest]⟩
        · by_cases hn : n = e.startN
          · rw [hn, hmv.node nd0 hnd0, hnd0]; rfl
          · rw [hmv.other_node n hn]
        · cases hl : t.edge l with
          | none => rw [hmv.no_edge l hl]
          | some el =>
            obtain ⟨pts', h1, -⟩ := hmv.edge l el hl
            rw [h1]; rfl
      refine ⟨_, rfl, (hT.trans hTv).trans ⟨⟨rfl, rfl, rfl⟩, ⟨rfl, rfl, rfl⟩, ⟨rfl, rfl, rfl⟩, fun _ => rfl, fun l => ?_, fun _ => rfl⟩, ⟨fun l el hl => ?_, fun n nd hn => ?_⟩, fun l el hl => ?_⟩
      · unfold GMap.setEdge
        simp only [Function.update_apply]
        split_ifs with h
        · rw [h, hve]; rfl
        · rfl
      · unfold GMap.setEdge
        by_cases hlk : l = k
        · subst hlk
          rw [hse] at hl; cases hl
          exact ⟨_, Function.update_self _ _ _, fun h => absurd (by omega) h, fun _ _ => hm2, fun _ h => absurd ⟨e, hse, hloop, honly⟩ h⟩
        · obtain ⟨e2, h1, h2, h3, h4⟩ := hm.edge l el hl
          exact ⟨e2, by simp only; rw [Function.update_of_ne hlk]; exact hother l e2 hlk h1, fun h => h2 (by omega), fun h => h3 (by omega), fun h => h4 (by omega)⟩
      · obtain ⟨nd', h1, h2, h3⟩ := hm.node n nd hn
        by_cases hne : n = e.startN
        · subst hne
          rw [hnd0] at h1; cases h1
          refine ⟨{ nd0 with pos := p }, hmv.node nd0 hnd0, fun h => absurd rfl (h k e (by omega) ⟨e, hse, hloop, honly⟩ hse), fun l el e2 hl ho hle hn' hu => ?_⟩
          have hlk : l = k := by
            have hl0 : l ≠ 0 := fun h => by rw [h, hs.graph.edge_zero] at hle; cases hle
            have := honly (l : Int) (by
              unfold GMap.startN?
              rw [Int.natAbs_natCast, hle, Option.map_some, Edge.startOf, if_pos (by omega), hn'])
            omega
          subst hlk
          unfold GMap.setEdge at hu
          simp only at hu
          rw [Function.update_self] at hu
          cases hu
          exact hp
        · refine ⟨nd', by show v.node n = _; rw [hmv.other_node n hne, h1], fun h => h2 fun l e hl => h l e (by omega), fun l el e2 hl ho hle hn' hu => ?_⟩
          have hlk : l ≠ k := by
            rintro rfl
            rw [hse] at hle; cases hle
            exact hne hn'.symm
          unfold GMap.setEdge at hu
          simp only at hu
          rw [Function.update_of_ne hlk] at hu
          have hut : t.edge l = some e2 := by
            obtain ⟨e3, q1, -⟩ := hm.edge l el hle
            have := hother l e3 hlk q1
            rw [hu] at this; cases this
            exact q1
          exact h3 l el e2 (by omega) ho hle hn' hut
      · unfold GMap.setEdge at hl
        simp only [Function.update_apply] at hl
        split_ifs at hl with h
        · cases hl; simp only; rw [hm2.length]; omega
        · cases ht : t.edge l with
          | none => rw [hmv.no_edge l ht] at hl; cases hl
          | some e3 =>
            rw [hother l e3 h ht] at hl; cases hl
            exact hlt l _ ht

theorem edgeSteps_ok {s : GMap K} (hs : MapOK s) (hlong : Long s) : ∀ (n k : Nat) {t : GMap K}, SameTopology s t → Midcracked (· < k) s t → Long t →
    ∃ u, edgeSteps (List.range' k n) t = .ok u ∧ SameTopology s u ∧ Midcracked (· < k + n) s u ∧ Long u
  | 0, k, t, hT, hm, hl => ⟨t, rfl, hT, hm, hl⟩
  | n + 1, k, t, hT, hm, hl => by
    obtain ⟨u, e1, h1, h2, h3⟩ := edgeStep_ok hs hlong hT hm hl
    obtain ⟨v, e2, g1, g2, g3⟩ := edgeSteps_ok hs hlong n (k + 1) h1 h2 h3
    refine ⟨v, ?_, g1, by rw [show k + (n + 1) = k + 1 + n by omega]; exact g2, g3⟩
    rw [List.range'_succ, edgeSteps, e1, Outcome.bind_ok, e2]

omit [CharZero K] in
theorem Midcracked.start (s : GMap K) : Midcracked (· < 0) s s :=
  ⟨fun l e hl => ⟨e, hl, fun _ => rfl, fun h => absurd h (by omega), fun h => absurd h (by omega)⟩,
    fun n nd hn => ⟨nd, hn, fun _ => rfl, fun l _ _ h => absurd h (by omega)⟩⟩

end Step

end Verif.Midcrack
