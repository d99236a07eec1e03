import Verif.GeoMap.MergeEdges3

/-! # `splitEdge` keeps the map consistent -/

namespace Verif.GeoMap
open Equiv Equiv.Perm Verif.PermLemmas

variable {K : Type}

theorem split_apply {π : Perm Int} {e r q x : Int} (pr : π r = r) (pq : π q = q) (ner : e ≠ r) (neq : e ≠ q)
    (hrq : r ≠ q) :
    (swap e r * (swap e q * π * swap e q)) x =
      if x = e then r else if x = r then e else if x = q then (if π e = e then q else π e)
        else if π x = e then q else π x := by
  have inj : ∀ a b, π a = π b ↔ a = b := fun a b => π.injective.eq_iff
  have i1 := inj x e
  have i2 := inj x r
  have i3 := inj x q
  have i4 := inj e r
  have i5 := inj e q
  simp only [Perm.mul_apply, swap_apply_def]
  grind

theorem split_sameCycle {π : Perm Int} {e r q u v : Int} (pq : π q = q)
    (hu : u ≠ e) (hv : v ≠ e) :
    SameCycle (swap e r * (swap e q * π * swap e q)) u v ↔
      SameCycle π (if u = q then e else u) (if v = q then e else v) := by
  have hfix : (swap e q * π * swap e q) e = e := by
    simp [Perm.mul_apply, pq]
  rw [show swap e r * (swap e q * π * swap e q) = ins (swap e q * π * swap e q) e r from rfl,
    sameCycle_ins _ hfix hu hv]
  have hc : (swap e q * π * swap e q) = swap e q * π * (swap e q)⁻¹ := by simp
  rw [hc, sameCycle_conj]
  have key : ∀ w, w ≠ e → (swap e q)⁻¹ w = if w = q then e else w := by
    intro w hw
    simp only [swap_inv, swap_apply_def]
    split_ifs <;> simp_all
  rw [key u hu, key v hv]

/-- the state after `splitEdge`: `l` keeps the points `ptsL`, the new edge gets `ptsR` -/
def splitState (s : GMap K) (l : Nat) (e : Edge K) (ptsL ptsR : List (Pt K)) (p : Pt K) (cnd : Node K) : GMap K :=
  let el : Int := -(l : Int)
  let r : Int := s.nEdges
  let q : Int := -(s.nEdges : Int)
  { s with
    nNodes := s.nNodes + 1
    nEdges := s.nEdges + 1
    nodeCount := s.nodeCount + 1
    edgeCount := s.edgeCount + 1
    edge := Function.update (Function.update s.edge s.nEdges (some ⟨s.nNodes, e.endN, e.leftF, e.rightF, ptsR, e.flags⟩))
      l (some { e with pts := ptsL, endN := s.nNodes })
    node := Function.update (Function.update s.node s.nNodes (some ⟨p, r⟩)) e.endN
      (some { cnd with anchor := if s.sigma el = el ∨ cnd.anchor = el then q else cnd.anchor })
    sigma := if s.sigma el = el then
        Function.update (Function.update (Function.update s.sigma el r) r el) q q else
      Function.update (Function.update (Function.update (Function.update s.sigma el r) r el) (s.sigmaInv el) q) q (s.sigma el)
    sigmaInv := if s.sigma el = el then
        Function.update (Function.update (Function.update s.sigmaInv r el) el r) q q else
      Function.update (Function.update (Function.update (Function.update s.sigmaInv r el) el r) (s.sigma el) q) q (s.sigmaInv el) }

structure SplitCtx (s : GMap K) (L : Finset Int) (l : Nat) (e : Edge K) (cnd : Node K) : Prop where
  he : s.edge l = some e
  hcn : s.node e.endN = some cnd
  hl : (l : Int) ∈ L

variable {s : GMap K} {L : Finset Int} {π ψ : Perm Int} {l : Nat} {e : Edge K} {cnd : Node K} {ptsL ptsR : List (Pt K)} {p : Pt K}

theorem SplitCtx.exists (hg : GraphRep s L π) (he : s.edge l = some e) : ∃ cnd, SplitCtx s L l e cnd := by
  have hl : (l : Int) ∈ L := by rw [hg.live]; simp [GMap.liveD, he]
  obtain ⟨n, g1, g2, -⟩ := hg.starts _ (hg.symm _ hl)
  obtain ⟨nd, hnd⟩ := Option.isSome_iff_exists.mp g2
  rw [startN?_of (s := s) (d := -l) (e := e) (by simpa using he), e.startOf_neg (hg.ne_zero hl)] at g1
  have : e.endN = n := by
    have h0 := hg.ne_zero hl
    have g1 := Option.some.inj g1
    unfold Edge.endOf at g1
    rwa [if_pos (by omega)] at g1
  exact ⟨nd, he, by rw [this]; exact hnd, hl⟩

theorem SplitCtx.facts (hg : GraphRep s L π) (h : SplitCtx s L l e cnd) :
    0 < l ∧ l < s.nEdges ∧ e.endN < s.nNodes ∧ -(l : Int) ∈ L ∧ (s.nEdges : Int) ∉ L ∧ -(s.nEdges : Int) ∉ L ∧
      s.startN? (-(l : Int)) = some e.endN ∧ s.startN? (l : Int) = some e.startN := by
  have h0 := hg.ne_zero h.hl
  have hlt := hg.labels.edge_lt l (by simp [h.he])
  have hnot : ∀ d : Int, d.natAbs = s.nEdges → d ∉ L := by
    intro d hd hc
    rw [hg.live] at hc
    have := hg.labels.edge_lt _ hc
    omega
  refine ⟨by omega, hlt, hg.labels.node_lt _ (by simp [h.hcn]), hg.symm _ h.hl, hnot _ (by omega), hnot _ (by omega), ?_, ?_⟩
  · rw [startN?_of (s := s) (d := -l) (e := e) (by simpa using h.he)]
    unfold Edge.startOf; rw [if_neg (by omega)]
  · rw [startN?_of (s := s) (d := l) (e := e) (by simpa using h.he)]
    unfold Edge.startOf; rw [if_pos (by omega)]

theorem splitState_start (hg : GraphRep s L π) (h : SplitCtx s L l e cnd) (x : Int) :
    (splitState s l e ptsL ptsR p cnd).startN? x =
      if x = s.nEdges ∨ x = -(l : Int) then some s.nNodes else if x = -(s.nEdges : Int) then some e.endN else s.startN? x := by
  obtain ⟨h0, hlt, hn, hm, hr, hq, s1, s2⟩ := h.facts hg
  unfold GMap.startN? splitState
  simp only
  by_cases hx : x.natAbs = l
  · rw [hx, Function.update_self]
    have : x = l ∨ x = -(l : Int) := by omega
    rcases this with rfl | rfl
    · have h1 : ¬ ((l : Int) = s.nEdges ∨ (l : Int) = -(l : Int)) := by omega
      rw [if_neg h1, if_neg (by omega)]
      simp [Edge.startOf, h0, h.he]
    · rw [if_pos (Or.inr rfl)]
      simp [Edge.startOf]
  · rw [Function.update_of_ne hx]
    by_cases hx2 : x.natAbs = s.nEdges
    · rw [hx2, Function.update_self]
      have : x = s.nEdges ∨ x = -(s.nEdges : Int) := by omega
      rcases this with rfl | rfl
      · rw [if_pos (Or.inl rfl)]
        have := hg.labels.edges_pos
        simp [Edge.startOf, this]
      · rw [if_neg (by omega), if_pos rfl]
        simp [Edge.startOf]
    · rw [Function.update_of_ne hx2, if_neg (by omega), if_neg (by omega)]

theorem splitState_left (hg : GraphRep s L π) (h : SplitCtx s L l e cnd) (x : Int) :
    (splitState s l e ptsL ptsR p cnd).left? x =
      if x = s.nEdges then s.left? l else if x = -(s.nEdges : Int) then s.left? (-(l : Int)) else s.left? x := by
  obtain ⟨h0, hlt, hn, hm, hr, hq, s1, s2⟩ := h.facts hg
  unfold GMap.left? splitState
  simp only
  by_cases hx : x.natAbs = l
  · rw [hx, Function.update_self, if_neg (by omega), if_neg (by omega), h.he]
    rfl
  · rw [Function.update_of_ne hx]
    by_cases hx2 : x.natAbs = s.nEdges
    · rw [hx2, Function.update_self]
      have : x = s.nEdges ∨ x = -(s.nEdges : Int) := by omega
      have hp := hg.labels.edges_pos
      rcases this with rfl | rfl
      · rw [if_pos rfl]
        simp [Edge.leftOf, hp, h.he, h0]
      · rw [if_neg (by omega), if_pos rfl]
        have a1 : ¬ (s.nEdges : Int) < 0 := by omega
        have a2 : ¬ (l : Int) < 0 := by omega
        simp [Edge.leftOf, h.he, a1, a2]
    · rw [Function.update_of_ne hx2, if_neg (by omega), if_neg (by omega)]

theorem splitState_graph (hg : GraphRep s L π) (h : SplitCtx s L l e cnd) (hL : ptsL ≠ []) (hR : ptsR ≠ []) :
    GraphRep (splitState s l e ptsL ptsR p cnd) (insert (-(s.nEdges : Int)) (insert (s.nEdges : Int) L))
      (swap (-(l : Int)) (s.nEdges : Int) * (swap (-(l : Int)) (-(s.nEdges : Int)) * π * swap (-(l : Int)) (-(s.nEdges : Int)))) := by
  obtain ⟨h0, hlt, hn, hm, hr, hq, s1, s2⟩ := h.facts hg
  have hpos := hg.labels.edges_pos
  have ner : -(l : Int) ≠ s.nEdges := by omega
  have neq : -(l : Int) ≠ -(s.nEdges : Int) := by omega
  have hrq : (s.nEdges : Int) ≠ -(s.nEdges : Int) := by omega
  have pr := hg.rep.fix _ hr
  have pq := hg.rep.fix _ hq
  have R := hg.rep.split hm hr hq hrq (f' := (splitState s l e ptsL ptsR p cnd).sigma)
    (finv' := (splitState s l e ptsL ptsR p cnd).sigmaInv) rfl rfl
  have st := fun x => splitState_start (ptsL := ptsL) (ptsR := ptsR) (p := p) hg h x
  have nodeE : ∀ k, ((splitState s l e ptsL ptsR p cnd).node k).isSome = true ↔ k = s.nNodes ∨ (s.node k).isSome = true := by
    intro k
    simp only [splitState]
    by_cases hk : k = e.endN
    · subst hk; simp [h.hcn]
    · rw [Function.update_of_ne hk]
      by_cases hk2 : k = s.nNodes
      · subst hk2; simp
      · rw [Function.update_of_ne hk2]; simp [hk2]
  have edgeE : ∀ k, ((splitState s l e ptsL ptsR p cnd).edge k).isSome = true ↔ k = s.nEdges ∨ (s.edge k).isSome = true := by
    intro k
    simp only [splitState]
    by_cases hk : k = l
    · subst hk; simp [h.he]
    · rw [Function.update_of_ne hk]
      by_cases hk2 : k = s.nEdges
      · subst hk2; simp
      · rw [Function.update_of_ne hk2]; simp [hk2]
  have startLt : ∀ {x n}, s.startN? x = some n → n < s.nNodes := by
    intro x n hx
    obtain ⟨n', g1, g2, -⟩ := hg.starts x ((hg.live x).mpr (liveD_of_start hx))
    rw [hx] at g1; cases g1; exact hg.labels.node_lt _ g2
  have memL : ∀ {x}, x ∈ insert (-(s.nEdges : Int)) (insert (s.nEdges : Int) L) ↔ x = -(s.nEdges : Int) ∨ x = s.nEdges ∨ x ∈ L := by
    intro x; simp
  have neL : ∀ {x}, x ∈ L → x ≠ s.nEdges ∧ x ≠ -(s.nEdges : Int) := by
    intro x hx; exact ⟨fun e => hr (e ▸ hx), fun e => hq (e ▸ hx)⟩
  refine ⟨⟨by simp [splitState], ?_, ?_, ?_, hg.labels.face_lt, ?_, ?_, hg.labels.face_count, ?_⟩, ?_, R, ?_, ?_⟩
  · rw [← Option.not_isSome_iff_eq_none, edgeE, hg.labels.edge_zero]; simp; omega
  · intro k hk
    rw [nodeE] at hk
    show k < s.nNodes + 1
    rcases hk with rfl | hk
    · omega
    · have := hg.labels.node_lt k hk; omega
  · intro k hk
    rw [edgeE] at hk
    show k < s.nEdges + 1
    rcases hk with rfl | hk
    · omega
    · have := hg.labels.edge_lt k hk; omega
  · have e1 : (splitState s l e ptsL ptsR p cnd).liveNodes = insert s.nNodes s.liveNodes := by
      ext k
      have := hg.labels.node_lt k
      simp only [GMap.liveNodes, Finset.mem_filter, Finset.mem_range, Finset.mem_insert, nodeE]
      show k < s.nNodes + 1 ∧ _ ↔ _
      constructor
      · rintro ⟨a, rfl | b⟩
        · exact Or.inl rfl
        · exact Or.inr ⟨this b, b⟩
      · rintro (rfl | ⟨a, b⟩)
        · exact ⟨by omega, Or.inl rfl⟩
        · exact ⟨by omega, Or.inr b⟩
    rw [e1, Finset.card_insert_of_notMem (by simp [GMap.liveNodes]), ← hg.labels.node_count]; rfl
  · have e1 : (splitState s l e ptsL ptsR p cnd).liveEdges = insert s.nEdges s.liveEdges := by
      ext k
      have := hg.labels.edge_lt k
      simp only [GMap.liveEdges, Finset.mem_filter, Finset.mem_range, Finset.mem_insert, edgeE]
      show k < s.nEdges + 1 ∧ _ ↔ _
      constructor
      · rintro ⟨a, rfl | b⟩
        · exact Or.inl rfl
        · exact Or.inr ⟨this b, b⟩
      · rintro (rfl | ⟨a, b⟩)
        · exact ⟨by omega, Or.inl rfl⟩
        · exact ⟨by omega, Or.inr b⟩
    rw [e1, Finset.card_insert_of_notMem (by simp [GMap.liveEdges]), ← hg.labels.edge_count]; rfl
  · intro k ek hk
    simp only [splitState] at hk
    by_cases hk1 : k = l
    · subst hk1; simp at hk; subst hk; exact hL
    · rw [Function.update_of_ne hk1] at hk
      by_cases hk2 : k = s.nEdges
      · subst hk2; simp at hk; subst hk; exact hR
      · rw [Function.update_of_ne hk2] at hk; exact hg.labels.pts_ne _ _ hk
  · intro d
    unfold GMap.liveD
    rw [edgeE, memL]
    have := hg.live d
    unfold GMap.liveD at this
    rw [← this]
    constructor
    · rintro (rfl | rfl | hd)
      · left; omega
      · left; omega
      · exact Or.inr hd
    · rintro (hd | hd)
      · have : d = s.nEdges ∨ d = -(s.nEdges : Int) := by omega
        tauto
      · exact Or.inr (Or.inr hd)
  · intro x hx
    rw [st, st, split_apply pr pq ner neq hrq]
    rw [memL] at hx
    by_cases x1 : x = -(l : Int)
    · subst x1
      exact ⟨s.nNodes, by simp, (nodeE _).mpr (Or.inl rfl), by simp⟩
    · by_cases x2 : x = s.nEdges
      · subst x2
        exact ⟨s.nNodes, by simp, (nodeE _).mpr (Or.inl rfl), by simp [x1]⟩
      · by_cases x3 : x = -(s.nEdges : Int)
        · subst x3
          refine ⟨e.endN, by simp [x1, x2], (nodeE _).mpr (Or.inr (by simp [h.hcn])), ?_⟩
          simp only [x1, x2, if_false, if_true]
          by_cases hpe : π (-(l : Int)) = -(l : Int)
          · simp only [hpe, if_true]
            rw [if_neg (by omega)]
          · rw [if_neg hpe]
            have hpm := hg.rep.mem hm
            have := neL hpm
            rw [if_neg (by tauto), if_neg this.2]
            obtain ⟨k, g1, -, g3⟩ := hg.starts _ hm
            rw [s1] at g1; cases g1; exact g3
        · have hxL : x ∈ L := by tauto
          obtain ⟨k, g1, g2, g3⟩ := hg.starts x hxL
          refine ⟨k, by simp [x1, x2, x3, g1], (nodeE _).mpr (Or.inr g2), ?_⟩
          simp only [x1, x2, x3, if_false]
          by_cases hpe : π x = -(l : Int)
          · simp only [hpe, if_true]
            rw [hpe, s1] at g3
            rw [if_neg (by omega), g3]
          · simp only [hpe, if_false]
            have := neL (hg.rep.mem hxL)
            rw [if_neg (by tauto), if_neg this.2, g3]
  · intro k ndk hk
    have scy : ∀ {u v}, u ≠ -(l : Int) → v ≠ -(l : Int) → _ := fun {u v} hu hv =>
      split_sameCycle (π := π) (r := (s.nEdges : Int)) (q := -(s.nEdges : Int)) (e := -(l : Int)) (u := u) (v := v) pq hu hv
    simp only [splitState] at hk
    by_cases hk1 : k = e.endN
    · subst hk1
      rw [Function.update_self] at hk
      cases hk
      right
      have hsnn : ∀ x, x ∈ insert (-(s.nEdges : Int)) (insert (s.nEdges : Int) L) →
          (splitState s l e ptsL ptsR p cnd).startN? x = some e.endN →
          x ≠ -(l : Int) ∧ (x = -(s.nEdges : Int) ∨ (x ∈ L ∧ s.startN? x = some e.endN)) := by
        intro x hx hxs
        rw [st] at hxs
        split_ifs at hxs with c1 c2
        · have := Option.some.inj hxs; omega
        · exact ⟨by tauto, Or.inl c2⟩
        · rw [memL] at hx
          exact ⟨by tauto, Or.inr ⟨by tauto, hxs⟩⟩
      by_cases ha : s.sigma (-(l : Int)) = -(l : Int) ∨ cnd.anchor = -(l : Int)
      · simp only [ha, if_true]
        refine ⟨by simp, by rw [st]; rw [if_neg (by omega)]; simp, fun x hx hxs => ?_⟩
        obtain ⟨hx1, hx2⟩ := hsnn x hx hxs
        rw [scy (by omega) hx1]
        simp only [if_true]
        rcases hx2 with rfl | ⟨hx2, hx3⟩
        · simp [SameCycle.refl]
        · rw [if_neg (neL hx2).2]
          exact (same_start_iff hg.rep hg.starts hg.nodes hm hx2).mp (by rw [s1, hx3])
      · simp only [ha, if_false]
        rcases hg.nodes e.endN cnd h.hcn with ⟨g1, g2⟩ | ⟨g1, g2, g3⟩
        · exact absurd s1 (g2 _ hm)
        · have ne1 : cnd.anchor ≠ -(l : Int) := fun e => ha (Or.inr e)
          refine ⟨by simp [g1], ?_, fun x hx hxs => ?_⟩
          · rw [st, if_neg, if_neg (neL g1).2, g2]
            have := (neL g1).1
            tauto
          · obtain ⟨hx1, hx2⟩ := hsnn x hx hxs
            rw [scy ne1 hx1, if_neg (neL g1).2]
            rcases hx2 with rfl | ⟨hx2, hx3⟩
            · simp only [if_true]
              exact g3 _ hm s1
            · rw [if_neg (neL hx2).2]
              exact g3 x hx2 hx3
    · rw [Function.update_of_ne hk1] at hk
      by_cases hk2 : k = s.nNodes
      · subst hk2
        rw [Function.update_self] at hk
        cases hk
        right
        refine ⟨by simp, by rw [st]; simp, fun x hx hxs => ?_⟩
        rw [st] at hxs
        have hx2 : x = s.nEdges ∨ x = -(l : Int) := by
          by_contra hc
          rw [if_neg hc] at hxs
          split_ifs at hxs
          · have := Option.some.inj hxs; omega
          · have := startLt hxs; omega
        show SameCycle _ (s.nEdges : Int) x
        rcases hx2 with rfl | rfl
        · exact SameCycle.refl _ _
        · have := sameCycle_apply_right.mpr (SameCycle.refl ((swap (-(l : Int)) (s.nEdges : Int) * (swap (-(l : Int)) (-(s.nEdges : Int)) * π * swap (-(l : Int)) (-(s.nEdges : Int))))) (s.nEdges : Int))
          rw [split_apply pr pq ner neq hrq] at this
          simpa [Ne.symm ner] using this
      · rw [Function.update_of_ne hk2] at hk
        have hst : ∀ x, x ∈ insert (-(s.nEdges : Int)) (insert (s.nEdges : Int) L) →
            (splitState s l e ptsL ptsR p cnd).startN? x = some k →
            x ≠ -(l : Int) ∧ x ∈ L ∧ s.startN? x = some k := by
          intro x hx hxs
          rw [st] at hxs
          split_ifs at hxs with c1 c2
          · exact absurd (Option.some.inj hxs).symm hk2
          · exact absurd (Option.some.inj hxs).symm hk1
          · rw [memL] at hx
            exact ⟨by tauto, by tauto, hxs⟩
        rcases hg.nodes k ndk hk with ⟨g1, g2⟩ | ⟨g1, g2, g3⟩
        · refine Or.inl ⟨g1, fun x hx hxs => ?_⟩
          obtain ⟨-, c2, c3⟩ := hst x hx hxs
          exact g2 x c2 c3
        · right
          have ne1 : ndk.anchor ≠ -(l : Int) := by
            intro e'; rw [e', s1] at g2; exact hk1 (Option.some.inj g2).symm
          refine ⟨by simp [g1], ?_, fun x hx hxs => ?_⟩
          · have := (neL g1).1
            rw [st, if_neg (by tauto), if_neg (neL g1).2, g2]
          · obtain ⟨c1, c2, c3⟩ := hst x hx hxs
            rw [scy ne1 c1, if_neg (neL g1).2, if_neg (neL c2).2]
            exact g3 x c2 c3

theorem splitState_contours (hg : GraphRep s L π) (hc : ContoursRep s L ψ) (h : SplitCtx s L l e cnd)
    (hL : ptsL ≠ []) (hR : ptsR ≠ []) :
    ∃ ψ', ContoursRep (splitState s l e ptsL ptsR p cnd) (insert (-(s.nEdges : Int)) (insert (s.nEdges : Int) L)) ψ' ∧
      ψ = skip (skip ψ' s.nEdges) (-(s.nEdges : Int)) ∧ ψ' l = s.nEdges ∧ ψ' (-(s.nEdges : Int)) = -(l : Int) := by
  obtain ⟨h0, hlt, hn, hm, hr, hq, s1, s2⟩ := h.facts hg
  have hpos := hg.labels.edges_pos
  have hg' := splitState_graph (p := p) hg h hL hR
  obtain ⟨ψ', hψ'⟩ := hg'.rep.exists_phi hg'.symm
  obtain ⟨eψ, v1, v2⟩ := hg.rep.phi_split hg.symm hc.rep hm hr hq rfl (by omega) hg'.rep hψ'
  rw [neg_neg] at v1
  have lf := fun x => splitState_left (ptsL := ptsL) (ptsR := ptsR) (p := p) hg h x
  have memL : ∀ {x}, x ∈ insert (-(s.nEdges : Int)) (insert (s.nEdges : Int) L) ↔ x = -(s.nEdges : Int) ∨ x = s.nEdges ∨ x ∈ L := by
    intro x; simp
  have neL : ∀ {x}, x ∈ L → x ≠ s.nEdges ∧ x ≠ -(s.nEdges : Int) := by
    intro x hx; exact ⟨fun e => hr (e ▸ hx), fun e => hq (e ▸ hx)⟩
  have hrq : (s.nEdges : Int) ≠ -(s.nEdges : Int) := by omega
  have cyc : ∀ {u v}, u ∈ L → v ∈ L → (SameCycle ψ' u v ↔ SameCycle ψ u v) := by
    intro u v hu hv
    rw [eψ, sameCycle_skip _ (neL hu).2 (neL hv).2, sameCycle_skip _ (neL hu).1 (neL hv).1]
  have cr : SameCycle ψ' (l : Int) s.nEdges := by
    have := sameCycle_apply_right.mpr (SameCycle.refl ψ' (l : Int)); rwa [v1] at this
  have cq : SameCycle ψ' (-(s.nEdges : Int)) (-(l : Int)) := by
    have := sameCycle_apply_right.mpr (SameCycle.refl ψ' (-(s.nEdges : Int))); rwa [v2] at this
  have lfL : ∀ {x}, x ∈ L → (splitState s l e ptsL ptsR p cnd).left? x = s.left? x := by
    intro x hx; rw [lf, if_neg (neL hx).1, if_neg (neL hx).2]
  -- every dart of the new map is on the contour of an old dart with the same left face
  have rep : ∀ x ∈ insert (-(s.nEdges : Int)) (insert (s.nEdges : Int) L), ∃ y ∈ L, SameCycle ψ' y x ∧
      (splitState s l e ptsL ptsR p cnd).left? x = s.left? y := by
    intro x hx
    rw [memL] at hx
    rcases hx with rfl | rfl | hx
    · exact ⟨_, hm, cq.symm, by rw [lf, if_neg hrq.symm, if_pos rfl]⟩
    · exact ⟨_, h.hl, cr, by rw [lf, if_pos rfl]⟩
    · exact ⟨x, hx, SameCycle.refl _ _, lfL hx⟩
  refine ⟨ψ', ⟨hψ', ?_, ?_, hc.face_zero⟩, eψ, v1, v2⟩
  · intro x hx
    obtain ⟨y, hy, hyx, hyl⟩ := rep x hx
    obtain ⟨z, hz, hzx, hzl⟩ := rep (ψ' x) (hψ'.mem hx)
    obtain ⟨f, g1, g2, -⟩ := hc.lefts y hy
    refine ⟨f, by rw [hyl, g1], g2, ?_⟩
    have hyz : SameCycle ψ' y z := (hyx.trans (sameCycle_apply_right.mpr (SameCycle.refl _ _))).trans hzx.symm
    rw [cyc hy hz] at hyz
    rw [hzl, left_of_sameCycle hc.rep hc.lefts hy hyz, g1]
  · intro f F hF
    have c := hc.faces f F hF
    refine ⟨fun a ha => ?_, fun d hd hdl => ?_, ?_⟩
    · obtain ⟨a1, a2⟩ := c.left a ha
      exact ⟨by simp [a1], by rw [lfL a1, a2]⟩
    · obtain ⟨y, hy, hyx, hyl⟩ := rep d hd
      obtain ⟨a, ha, hac⟩ := c.cover y hy (by rw [← hyl, hdl])
      exact ⟨a, ha, ((cyc (c.left a ha).1 hy).mpr hac).trans hyx⟩
    · refine List.Pairwise.imp_of_mem ?_ c.unique
      intro a b ha hb hab hcc
      exact hab ((cyc (c.left a ha).1 (c.left b hb).1).mp hcc)

theorem splitPts_get {pts : List (Pt K)} {i : Nat} (hi : i < pts.length - 1) (np : Option (Pt K)) :
    splitIdx i np < (splitPts pts i np).length := by
  cases np with
  | none => simp [splitPts, splitIdx]; omega
  | some p =>
    simp only [splitPts, splitIdx]
    rw [List.length_insertIdx_of_le_length (by omega)]; omega

/-- Complete behaviour of `splitEdge` on a consistent map. -/
theorem splitEdge_spec {s : GMap K} (hM : MapOK s) {l i : Nat} {e : Edge K} (he : s.edge l = some e)
    (np : Option (Pt K)) (hi : i < e.pts.length - 1) :
    ∃ cnd p, (splitPts e.pts i np)[splitIdx i np]? = some p ∧ SplitCtx s s.darts l e cnd ∧
      s.splitEdge l i np = .ok (s.nEdges,
        splitState s l e ((splitPts e.pts i np).take (splitIdx i np + 1)) ((splitPts e.pts i np).drop (splitIdx i np)) p cnd) ∧
      MapOK (splitState s l e ((splitPts e.pts i np).take (splitIdx i np + 1)) ((splitPts e.pts i np).drop (splitIdx i np)) p cnd) := by
  obtain ⟨π, hg⟩ := hM.graph.exists_rep
  obtain ⟨cnd, C⟩ := SplitCtx.exists hg he
  obtain ⟨h0, hlt, hn, hm, hr, hq, s1, s2⟩ := C.facts hg
  have hpos := hg.labels.edges_pos
  have hpts := hg.labels.pts_ne _ _ he
  have hidx := splitPts_get hi np
  have hL : (splitPts e.pts i np).take (splitIdx i np + 1) ≠ [] := by
    intro h
    rw [List.take_eq_nil_iff] at h
    rcases h with h | h
    · omega
    · rw [h] at hidx; simp at hidx
  have hR : (splitPts e.pts i np).drop (splitIdx i np) ≠ [] := by
    intro h; rw [List.drop_eq_nil_iff] at h; omega
  obtain ⟨p, hp⟩ : ∃ p, (splitPts e.pts i np)[splitIdx i np]? = some p := ⟨_, List.getElem?_eq_getElem hidx⟩
  refine ⟨cnd, p, hp, C, ?_, ?_⟩
  · have hp' : splitPoint e.pts i np = some p := by
      cases np with
      | none => exact hp
      | some x =>
        simp only [splitPts, splitIdx] at hp
        rw [List.getElem?_insertIdx_self, if_pos (by omega)] at hp
        exact hp
    unfold GMap.splitEdge
    rw [guaranteedEdge_of (s := s) (d := l) (e := e) (by simpa using he)]
    simp only [bind, Outcome.bind_ok]
    rw [if_neg hpts, if_neg (not_not.mpr hi)]
    rw [hp']
    simp only
    rw [derefNode_of hg.labels C.hcn]
    simp only [Outcome.bind_ok]
    unfold GMap.splitOrbits
    have hne : e.endN ≠ s.nNodes := by omega
    have hnl : l ≠ s.nEdges := by omega
    simp only [bind, GMap.addNode, GMap.newEdge, GMap.setEdge, GMap.setSigma, GMap.setSigmaInv, GMap.setNode, GMap.derefNode,
      Function.update_self, Nat.lt_succ_self, if_true, Outcome.bind_ok, Function.update_idem]
    rw [if_pos (by omega), Function.update_of_ne hne, C.hcn]
    simp only [Outcome.bind_ok]
    unfold splitState
    by_cases c1 : s.sigma (-(l : Int)) = -(l : Int)
    · simp only [c1, if_true, true_or, Outcome.bind_ok]
    · simp only [c1, if_false, false_or]
      by_cases c2 : cnd.anchor = -(l : Int)
      · simp only [c2, if_true, Outcome.bind_ok]
      · simp only [c2, if_false, Outcome.bind_ok]
        have : some cnd = Function.update s.node s.nNodes (some ⟨p, (s.nEdges : Int)⟩) e.endN := by
          rw [Function.update_of_ne hne, C.hcn]
        rw [this, Function.update_eq_self]
  · refine MapOK.of_reps (splitState_graph hg C hL hR) fun hi' => ?_
    obtain ⟨ψ, hc⟩ := (hM.contours hi').exists_rep hg
    obtain ⟨ψ', h', -⟩ := splitState_contours (p := p) hg hc C hL hR
    exact ⟨ψ', h'⟩

/-- Precondition violations of `splitEdge`. -/
theorem splitEdge_precond {s : GMap K} (hM : MapOK s) {l i : Nat} (np : Option (Pt K))
    (h : ∀ e, s.edge l = some e → ¬ i < e.pts.length - 1) : s.splitEdge l i np = .precond := by
  unfold GMap.splitEdge
  cases he : s.edge l with
  | none =>
    have : ¬ s.liveD (l : Int) := by simp [GMap.liveD, he]
    rw [guaranteedEdge_dead this]; rfl
  | some e =>
    rw [guaranteedEdge_of (s := s) (d := l) (e := e) (by simpa using he)]
    simp only [bind, Outcome.bind_ok]
    rw [if_neg (hM.graph.pts_ne _ _ he), if_pos (h e he)]

end Verif.GeoMap
