import Verif.GeoMap.MergeEdges

/-! # `mergeEdges` keeps the map consistent (second part) -/

namespace Verif.GeoMap
open Equiv Equiv.Perm Verif.PermLemmas

variable {K : Type}

theorem replace_apply {π : Perm Int} {d1 d2 e x : Int} (p1 : π d1 = d2) (p2 : π d2 = d1) (_n12 : d1 ≠ d2)
    (n1e : d1 ≠ e) (n2e : d2 ≠ e) (hx2 : x ≠ d2) (hxe : x ≠ e) :
    (swap d1 e * skip (skip π d2) d1 * swap d1 e) x =
      if x = d1 then (if π e = e then d1 else π e) else if π x = e then d1 else π x := by
  have inj : ∀ a b, π a = π b ↔ a = b := fun a b => π.injective.eq_iff
  have i1 := inj x e
  have i2 := inj x d1
  have i3 := inj x d2
  have i4 := inj e d1
  have i5 := inj e d2
  simp only [skip_apply, Perm.mul_apply, swap_apply_def]
  grind

theorem replace_sameCycle {π : Perm Int} {d1 d2 e u v : Int} (_n12 : d1 ≠ d2) (n1e : d1 ≠ e) (n2e : d2 ≠ e)
    (hu2 : u ≠ d2) (hue : u ≠ e) (hv2 : v ≠ d2) (hve : v ≠ e) :
    SameCycle (swap d1 e * skip (skip π d2) d1 * swap d1 e) u v ↔
      SameCycle π (if u = d1 then e else u) (if v = d1 then e else v) := by
  have hc : (swap d1 e * skip (skip π d2) d1 * swap d1 e) = swap d1 e * skip (skip π d2) d1 * (swap d1 e)⁻¹ := by simp
  rw [hc, sameCycle_conj]
  have key : ∀ w, w ≠ d2 → w ≠ e → (swap d1 e)⁻¹ w = if w = d1 then e else w := by
    intro w _ he
    simp only [swap_inv, swap_apply_def]
    split_ifs <;> simp_all
  rw [key u hu2 hue, key v hv2 hve]
  have a : ∀ w, w ≠ d2 → (if w = d1 then e else w) ≠ d2 := by intro w hw; split_ifs <;> omega
  have b : ∀ w : Int, (if w = d1 then e else w) ≠ d1 := by intro w; split_ifs <;> omega
  rw [sameCycle_skip _ (b u) (b v), sameCycle_skip _ (a u hu2) (a v hv2)]

/-- the state after the second part of `mergeEdges` -/
def mergedState (s : GMap K) (d1 d2 : Int) (e1 e2 : Edge K) (m n2 : Nat) (nd : Node K) : GMap K :=
  { s with
    edge := Function.update (Function.update s.edge d1.natAbs (some (GMap.mergedGeometry e1 e2 m n2))) d2.natAbs none
    node := Function.update (Function.update s.node n2 (some { nd with anchor := d1 })) m none
    nodeCount := s.nodeCount - 1
    edgeCount := s.edgeCount - 1
    sigma := if s.sigma (-d2) = -d2 then Function.update s.sigma d1 d1 else
      Function.update (Function.update s.sigma (s.sigmaInv (-d2)) d1) d1 (s.sigma (-d2))
    sigmaInv := if s.sigma (-d2) = -d2 then Function.update s.sigmaInv d1 d1 else
      Function.update (Function.update s.sigmaInv (s.sigma (-d2)) d1) d1 (s.sigmaInv (-d2)) }

/-- what `mergeEdges` needs: two darts of different edges alone at their node -/
structure Deg2 (s : GMap K) (L : Finset Int) (d1 d2 : Int) (e1 e2 : Edge K) (m n2 : Nat) (nd : Node K) : Prop where
  h1 : d1 ∈ L
  h2 : d2 ∈ L
  h12 : s.sigma d1 = d2
  h21 : s.sigma d2 = d1
  hn : d1.natAbs ≠ d2.natAbs
  he1 : s.edge d1.natAbs = some e1
  he2 : s.edge d2.natAbs = some e2
  hm : e2.startOf d2 = m
  hn2 : e2.endOf d2 = n2
  hnd : s.node n2 = some nd

variable {s : GMap K} {L : Finset Int} {π ψ : Perm Int} {d1 d2 : Int} {e1 e2 : Edge K} {m n2 : Nat} {nd : Node K}

theorem Deg2.exists (hg : GraphRep s L π) {d1 d2 : Int} (h1 : d1 ∈ L) (h12 : s.sigma d1 = d2)
    (h21 : s.sigma d2 = d1) (hn : d1.natAbs ≠ d2.natAbs) :
    ∃ e1 e2 m n2 nd, Deg2 s L d1 d2 e1 e2 m n2 nd := by
  have h2 : d2 ∈ L := h12 ▸ hg.rep.f_mem h1
  obtain ⟨e1, he1⟩ := liveD_exists ((hg.live _).mp h1)
  obtain ⟨e2, he2⟩ := liveD_exists ((hg.live _).mp h2)
  obtain ⟨n, g1, g2, -⟩ := hg.starts (-d2) (hg.symm _ h2)
  obtain ⟨nd, hnd⟩ := Option.isSome_iff_exists.mp g2
  rw [startN?_of (s := s) (d := -d2) (e := e2) (by simpa using he2), e2.startOf_neg (hg.ne_zero h2)] at g1
  exact ⟨e1, e2, _, n, nd, h1, h2, h12, h21, hn, he1, he2, rfl, Option.some.inj g1, hnd⟩

theorem Deg2.facts (hg : GraphRep s L π) (h : Deg2 s L d1 d2 e1 e2 m n2 nd) :
    d1 ≠ d2 ∧ d1 ≠ -d2 ∧ d2 ≠ -d2 ∧ -d2 ∈ L ∧ π d1 = d2 ∧ π d2 = d1 ∧ s.startN? d1 = some m ∧ s.startN? d2 = some m ∧
      s.startN? (-d2) = some n2 ∧ (∀ x ∈ L, s.startN? x = some m → x = d1 ∨ x = d2) ∧ n2 ≠ m ∧
      (∃ ndm, s.node m = some ndm) := by
  have hn := h.hn
  have h0 := hg.ne_zero h.h2
  have hm2 := hg.symm _ h.h2
  have p1 : π d1 = d2 := by rw [← hg.rep.eq _ h.h1, h.h12]
  have p2 : π d2 = d1 := by rw [← hg.rep.eq _ h.h2, h.h21]
  have s2 : s.startN? d2 = some m := by rw [startN?_of h.he2, h.hm]
  obtain ⟨n, g1, g2, g3⟩ := hg.starts d2 h.h2
  have s1 : s.startN? d1 = some m := by rw [← p2, g3, ← g1, s2]
  have sm : s.startN? (-d2) = some n2 := by
    rw [startN?_of (s := s) (d := -d2) (e := e2) (by simpa using h.he2), e2.startOf_neg h0, h.hn2]
  have only : ∀ x ∈ L, s.startN? x = some m → x = d1 ∨ x = d2 := by
    intro x hx hxm
    have hc := (same_start_iff hg.rep hg.starts hg.nodes h.h1 hx).mp (by rw [s1, hxm])
    refine (sameCycle_iff_of_inv (f := π) (P := fun z => z = d1 ∨ z = d2) (fun z => ?_) hc).mp (Or.inl rfl)
    constructor
    · rintro (rfl | rfl)
      · exact Or.inr p1
      · exact Or.inl p2
    · rintro (e | e)
      · right; apply π.injective; rw [e, p2]
      · left; apply π.injective; rw [e, p1]
  refine ⟨by rintro rfl; exact hn rfl, by rintro rfl; simp at hn, by omega, hm2, p1, p2, s1, s2, sm, only, ?_, ?_⟩
  · rintro rfl
    rcases only _ hm2 sm with e | e
    · rw [← e] at hn; simp at hn
    · omega
  · rw [s2] at g1; cases g1
    exact Option.isSome_iff_exists.mp g2

theorem mergedState_start (hg : GraphRep s L π) (h : Deg2 s L d1 d2 e1 e2 m n2 nd) {x : Int}
    (hx : x ∈ (L.erase d2).erase (-d2)) :
    (mergedState s d1 d2 e1 e2 m n2 nd).startN? x = if x = d1 then some n2 else s.startN? x := by
  obtain ⟨n12, n1m, n2m, hm2, p1, p2, s1, s2, sm, only, nm, -⟩ := h.facts hg
  simp only [Finset.mem_erase] at hx
  have hxn : x.natAbs ≠ d2.natAbs := by omega
  have hxL := hx.2.2
  have hx0 := hg.ne_zero hxL
  have h10 := hg.ne_zero h.h1
  unfold GMap.startN? mergedState
  simp only [Function.update_of_ne hxn]
  by_cases hx1 : x.natAbs = d1.natAbs
  · rw [hx1, Function.update_self]
    rw [startN?_of h.he1] at s1
    have s1 := Option.some.inj s1
    have h1m : s.startN? (-d1) ≠ some m := by
      intro hc
      rcases only _ (hg.symm _ h.h1) hc with e | e
      · omega
      · have := h.hn; omega
    rw [startN?_of (s := s) (d := -d1) (e := e1) (by simpa using h.he1)] at h1m
    have h1m : e1.startOf (-d1) ≠ m := fun e => h1m (by rw [e])
    have hxx : x = d1 ∨ x = -d1 := by omega
    have hn11 : -d1 ≠ d1 := by omega
    simp only [Option.map_some, h.he1]
    unfold GMap.mergedGeometry Edge.startOf at *
    rcases hxx with rfl | rfl
    · split_ifs <;> simp_all
    · simp only [hn11, if_false]
      by_cases hd : 0 < d1
      · have hd' : ¬ 0 < -d1 := by omega
        simp only [hd, hd', if_true, if_false] at s1 h1m ⊢
        rw [if_neg (by simpa using s1)]
      · have hd' : 0 < -d1 := by omega
        simp only [hd, hd', if_true, if_false] at s1 h1m ⊢
        rw [if_pos h1m]
  · rw [Function.update_of_ne hx1]
    rw [if_neg (by rintro rfl; exact hx1 rfl)]

theorem mergedState_left (_hg : GraphRep s L π) (h : Deg2 s L d1 d2 e1 e2 m n2 nd) {x : Int}
    (hx : x ∈ (L.erase d2).erase (-d2)) :
    (mergedState s d1 d2 e1 e2 m n2 nd).left? x = s.left? x := by
  simp only [Finset.mem_erase] at hx
  have hxn : x.natAbs ≠ d2.natAbs := by omega
  unfold GMap.left? mergedState
  simp only [Function.update_of_ne hxn]
  by_cases hx1 : x.natAbs = d1.natAbs
  · rw [hx1, Function.update_self, h.he1]
    simp only [Option.bind_some]
    unfold GMap.mergedGeometry Edge.leftOf
    split_ifs <;> rfl
  · rw [Function.update_of_ne hx1]

theorem concatPts_ne_nil {p q : List (Pt K)} (h : p ≠ []) (a b : Bool) : concatPts p q a b ≠ [] := by
  cases a <;> cases b <;> simp [concatPts, h]

theorem mergedState_graph (hg : GraphRep s L π) (h : Deg2 s L d1 d2 e1 e2 m n2 nd) :
    GraphRep (mergedState s d1 d2 e1 e2 m n2 nd) ((L.erase d2).erase (-d2))
      (swap d1 (-d2) * skip (skip π d2) d1 * swap d1 (-d2)) := by
  obtain ⟨n12, n1m, n2m, hm2, p1, p2, s1, s2, sm, only, nm, ndm, hndm⟩ := h.facts hg
  have hlt2 : d2.natAbs < s.nEdges := hg.labels.edge_lt _ (by simp [h.he2])
  have hltm : m < s.nNodes := hg.labels.node_lt _ (by simp [hndm])
  have hltn : n2 < s.nNodes := hg.labels.node_lt _ (by simp [h.hnd])
  have R := hg.rep.replace h.h1 h.h2 hm2 h.h12 h.h21 n12 n1m n2m (f' := (mergedState s d1 d2 e1 e2 m n2 nd).sigma)
    (finv' := (mergedState s d1 d2 e1 e2 m n2 nd).sigmaInv) rfl rfl
  have memL : ∀ {x}, x ∈ (L.erase d2).erase (-d2) → x ≠ d2 ∧ x ≠ -d2 ∧ x ∈ L := by
    intro x hx; simp only [Finset.mem_erase] at hx; exact ⟨hx.2.1, hx.1, hx.2.2⟩
  have hd1' : d1 ∈ (L.erase d2).erase (-d2) := by simp [n12, n1m, h.h1]
  have sc : ∀ {u v}, u ∈ (L.erase d2).erase (-d2) → v ∈ (L.erase d2).erase (-d2) →
      (SameCycle (swap d1 (-d2) * skip (skip π d2) d1 * swap d1 (-d2)) u v ↔
      SameCycle π (if u = d1 then -d2 else u) (if v = d1 then -d2 else v)) := by
    intro u v hu hv
    exact replace_sameCycle n12 n1m n2m (memL hu).1 (memL hu).2.1 (memL hv).1 (memL hv).2.1
  have ne_isSome : ∀ k, ((mergedState s d1 d2 e1 e2 m n2 nd).node k).isSome = ((Function.update s.node m none) k).isSome := by
    intro k
    simp only [mergedState]
    by_cases hk : k = m
    · subst hk; simp
    · rw [Function.update_of_ne hk, Function.update_of_ne hk]
      by_cases hk2 : k = n2
      · subst hk2; simp [h.hnd]
      · rw [Function.update_of_ne hk2]
  have ee_isSome : ∀ k, ((mergedState s d1 d2 e1 e2 m n2 nd).edge k).isSome = ((Function.update s.edge d2.natAbs none) k).isSome := by
    intro k
    simp only [mergedState]
    by_cases hk : k = d2.natAbs
    · subst hk; simp
    · rw [Function.update_of_ne hk, Function.update_of_ne hk]
      by_cases hk2 : k = d1.natAbs
      · subst hk2; simp [h.he1]
      · rw [Function.update_of_ne hk2]
  refine ⟨⟨hg.labels.edges_pos, ?_, ?_, ?_, hg.labels.face_lt, ?_, ?_, hg.labels.face_count, ?_⟩, ?_, R, ?_, ?_⟩
  · -- edge 0
    rw [← Option.not_isSome_iff_eq_none, ee_isSome]
    have := hg.ne_zero h.h2
    rw [Function.update_of_ne (by omega), hg.labels.edge_zero]; simp
  · intro k hk
    rw [ne_isSome] at hk
    by_cases hkm : k = m
    · subst hkm; simp at hk
    · rw [Function.update_of_ne hkm] at hk; exact hg.labels.node_lt k hk
  · intro k hk
    rw [ee_isSome] at hk
    by_cases hkm : k = d2.natAbs
    · subst hkm; simp at hk
    · rw [Function.update_of_ne hkm] at hk; exact hg.labels.edge_lt k hk
  · have c := card_liveNodes_update_none (s := s) (t := { s with node := Function.update s.node m none }) rfl rfl hltm (by simp [hndm])
    rw [liveNodes_congr (t := mergedState s d1 d2 e1 e2 m n2 nd) (s := { s with node := Function.update s.node m none }) rfl ne_isSome, c.2.1, ← hg.labels.node_count]
    rfl
  · have c := card_liveEdges_update_none (s := s) (t := { s with edge := Function.update s.edge d2.natAbs none }) rfl rfl hlt2 (by simp [h.he2])
    rw [liveEdges_congr (t := mergedState s d1 d2 e1 e2 m n2 nd) (s := { s with edge := Function.update s.edge d2.natAbs none }) rfl ee_isSome, c.2.1, ← hg.labels.edge_count]
    rfl
  · intro l e he
    simp only [mergedState] at he
    by_cases hk : l = d2.natAbs
    · subst hk; simp at he
    · rw [Function.update_of_ne hk] at he
      by_cases hk2 : l = d1.natAbs
      · subst hk2
        rw [Function.update_self] at he
        cases he
        have := hg.labels.pts_ne _ _ h.he1
        unfold GMap.mergedGeometry
        split_ifs <;> exact concatPts_ne_nil this _ _
      · rw [Function.update_of_ne hk2] at he; exact hg.labels.pts_ne _ _ he
  · intro d
    unfold GMap.liveD
    rw [ee_isSome]
    by_cases hk : d.natAbs = d2.natAbs
    · rw [hk, Function.update_self]
      simp only [Finset.mem_erase, Option.isSome_none, Bool.false_eq_true, iff_false]
      omega
    · rw [Function.update_of_ne hk]
      have := hg.live d
      unfold GMap.liveD at this
      rw [← this]
      simp only [Finset.mem_erase]
      constructor
      · exact fun h => h.2.2
      · exact fun h => ⟨by omega, by omega, h⟩
  · intro x hx
    have hx' := memL hx
    have hpx := R.mem hx
    rw [mergedState_start hg h hx, mergedState_start hg h hpx, replace_apply p1 p2 n12 n1m n2m hx'.1 hx'.2.1]
    by_cases hx1 : x = d1
    · subst hx1
      refine ⟨n2, by simp, by rw [ne_isSome, Function.update_of_ne nm]; simp [h.hnd], ?_⟩
      simp only [if_true]
      by_cases hpe : π (-d2) = -d2
      · simp [hpe]
      · rw [if_neg hpe]
        split_ifs with hh
        · rfl
        · obtain ⟨k, g1, -, g3⟩ := hg.starts _ hm2
          rw [sm] at g1; cases g1; exact g3
    · obtain ⟨k, g1, g2, g3⟩ := hg.starts x hx'.2.2
      have hkm : k ≠ m := by
        rintro rfl
        rcases only x hx'.2.2 g1 with e | e
        · exact hx1 e
        · exact hx'.1 e
      refine ⟨k, by rw [if_neg hx1, g1], by rw [ne_isSome, Function.update_of_ne hkm]; exact g2, ?_⟩
      rw [if_neg hx1]
      by_cases hpe : π x = -d2
      · simp only [hpe, if_true]
        rw [hpe, sm] at g3; exact g3
      · rw [if_neg hpe, if_neg, g3]
        intro hc
        rw [hc, s1] at g3
        exact hkm (Option.some.inj g3).symm
  · intro k ndk hk
    simp only [mergedState] at hk
    have hkm : k ≠ m := by rintro rfl; simp at hk
    rw [Function.update_of_ne hkm] at hk
    by_cases hk2 : k = n2
    · subst hk2
      rw [Function.update_self] at hk
      cases hk
      right
      refine ⟨hd1', by rw [mergedState_start hg h hd1']; simp, fun x hx hxs => ?_⟩
      rw [sc hd1' hx]
      simp only [if_true]
      by_cases hx1 : x = d1
      · simp [hx1, SameCycle.refl]
      · rw [mergedState_start hg h hx, if_neg hx1] at hxs
        rw [if_neg hx1]
        exact (same_start_iff hg.rep hg.starts hg.nodes hm2 (memL hx).2.2).mp (by rw [sm, hxs])
    · rw [Function.update_of_ne hk2] at hk
      rcases hg.nodes k ndk hk with ⟨g1, g2⟩ | ⟨g1, g2, g3⟩
      · refine Or.inl ⟨g1, fun x hx => ?_⟩
        rw [mergedState_start hg h hx]
        split_ifs with hx1
        · simpa using fun e => hk2 e.symm
        · exact g2 x (memL hx).2.2
      · right
        have ha1 : ndk.anchor ≠ d1 := by
          intro e; rw [e, s1] at g2; exact hkm (Option.some.inj g2).symm
        have ha2 : ndk.anchor ≠ d2 := by
          intro e; rw [e, s2] at g2; exact hkm (Option.some.inj g2).symm
        have ha3 : ndk.anchor ≠ -d2 := by
          intro e; rw [e, sm] at g2; exact hk2 (Option.some.inj g2).symm
        have ham : ndk.anchor ∈ (L.erase d2).erase (-d2) := by simp [ha2, ha3, g1]
        refine ⟨ham, by rw [mergedState_start hg h ham, if_neg ha1, g2], fun x hx hxs => ?_⟩
        have hx1 : x ≠ d1 := by
          rintro rfl
          rw [mergedState_start hg h hx, if_pos rfl] at hxs
          exact hk2 (Option.some.inj hxs).symm
        rw [mergedState_start hg h hx, if_neg hx1] at hxs
        rw [sc ham hx, if_neg ha1, if_neg hx1]
        exact g3 x (memL hx).2.2 hxs

theorem mergedState_contours (hg : GraphRep s L π) (hc : ContoursRep s L ψ) (h : Deg2 s L d1 d2 e1 e2 m n2 nd)
    (hoff : ∀ f F, s.face f = some F → ∀ a ∈ F.anchors, a.natAbs ≠ d2.natAbs) :
    ContoursRep (mergedState s d1 d2 e1 e2 m n2 nd) ((L.erase d2).erase (-d2)) (skip (skip ψ d2) (-d2)) := by
  obtain ⟨n12, n1m, n2m, hm2, p1, p2, s1, s2, sm, only, nm, ndm, hndm⟩ := h.facts hg
  have R := hg.rep.replace h.h1 h.h2 hm2 h.h12 h.h21 n12 n1m n2m (f' := (mergedState s d1 d2 e1 e2 m n2 nd).sigma)
    (finv' := (mergedState s d1 d2 e1 e2 m n2 nd).sigmaInv) rfl rfl
  have P := hg.rep.phi_replace hg.symm hc.rep h.h1 h.h2 rfl (hg.ne_zero h.h2) h.h12 h.h21 n12 n1m R
  have hl := fun {x} (hx : x ∈ (L.erase d2).erase (-d2)) => mergedState_left hg h hx
  refine ⟨P, ?_, ?_, hc.face_zero⟩
  · intro d hd
    obtain ⟨f, g1, g2, g3⟩ := hc.lefts.skip2 hc.rep P d hd
    exact ⟨f, by rw [hl hd, g1], g2, by rw [hl (P.mem hd), g3]⟩
  · intro f F hF
    refine ((hc.faces f F hF).skip2 (x := d2) (y := -d2) fun a ha => ?_).congr fun x hx => hl hx
    have := hoff f F hF a ha
    exact ⟨by rintro rfl; exact this rfl, by rintro rfl; simp at this⟩

end Verif.GeoMap
