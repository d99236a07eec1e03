import Verif.Parallel.Plan

/-! # The splits planned at one node and at all nodes (helper lemmas) -/

namespace Verif.Parallel
open Verif Verif.GeoMap Verif.Eventually Verif.DartPos Verif.PointIter Equiv

theorem sortNode_plan {srt : List DPA → List DPA} (hs : Sorter srt) {r2 m : ℝ} {fuel : Nat} {s : GMap ℝ} {L : Finset Int} {π : Perm Int}
    (hg : GraphRep s L π) (hlong : EdgesLong s) {st : St} {n : Nat} {t : GMap ℝ} {st' : St} (h : sortNode srt fuel r2 m s st n = .ok (t, st'))
    {sp : Splits} (hsp : st.splits = some sp) : ∃ gs : List (List SplitPos), st'.splits = some ⟨sp.list ++ gs.flatten, sp.count + gs.length⟩ ∧
      ∀ (i : Nat) (g : List SplitPos), gs[i]? = some g → PlannedGroup t n (sp.count + i) g := by
  unfold sortNode at h
  have triv : st' = st → ∃ gs : List (List SplitPos), st'.splits = some ⟨sp.list ++ gs.flatten, sp.count + gs.length⟩ ∧
      ∀ (i : Nat) (g : List SplitPos), gs[i]? = some g → PlannedGroup t n (sp.count + i) g := by
    rintro rfl
    exact ⟨[], by rw [hsp]; simp, by simp⟩
  cases hnd : s.node n with
  | none => rw [hnd] at h; cases h; exact triv rfl
  | some nd =>
    rw [hnd] at h
    simp only at h
    by_cases h0 : nd.anchor = 0
    · rw [if_pos h0] at h; cases h; exact triv rfl
    · rw [if_neg h0] at h
      obtain ⟨xs, e1, hfr, hnodup, hmem⟩ := node_darts hg hlong hnd h0
      rw [e1, Outcome.bind_ok] at h
      obtain ⟨⟨r, st2⟩, e2, h⟩ := Outcome.bind_eq_ok.1 h
      have hv : ∀ x ∈ xs, Valid x := fun x hx => ⟨_, Or.inl ⟨_, (hfr x hx).track⟩⟩
      have hperm : (r.map (·.label)).Perm (xs.map (·.label)) := by
        rcases sortInternal_ok hs (r2 := r2) (m := m) fuel nd.pos 0 false xs st hv (by simp) with e | ⟨r', st'', e, hres⟩
        · rw [e2] at e; cases e
        · rw [e2] at e; cases e; exact hres.perm
      have hpl := sortInternal_plan (P := fun d => pointsOf s d) hs fuel nd.pos 0 false xs st r st2 e2 (fun x hx => Or.inl ⟨_, (hfr x hx).track⟩) (by simp) hnodup
      simp only at h
      obtain ⟨c, hc⟩ : ∃ c, c = r.map (·.label) := ⟨_, rfl⟩
      rw [← hc] at h hperm hpl
      cases c with
      | nil => cases h
      | cons d ds =>
        simp only at h
        cases h
        have hcn : (d :: ds).Nodup := hperm.nodup_iff.2 hnodup
        have hcm : ∀ x, x ∈ d :: ds ↔ s.startN? x = some n := fun x => by rw [hperm.mem_iff, hmem]
        have hsl := sigmaList_link hcn hcm
        obtain ⟨sg, sgi, hfr'⟩ := linkCycle_frame d ds d s
        have hedge : (GMap.linkCycle d d ds s).edge = s.edge := by rw [hfr']
        obtain ⟨gs, g1, g2⟩ := hpl sp hsp
        refine ⟨gs, g1, fun i g hgi => ?_⟩
        have hG := g2 i g hgi
        obtain ⟨ord, o1, o2, o3⟩ := hG.order
        have hon : ord.Nodup := o1.sublist.nodup hcn
        have hmemo : ∀ x ∈ ord, x ∈ d :: ds := fun x hx => o1.subset hx
        refine ⟨hG.two, hG.group, ?_, ord, hon, fun x hx => (hsl.2.1 x).1 (hmemo x hx), ?_, o2, ?_⟩
        · intro v hv
          have hin : v.label ∈ d :: ds := hmemo _ (o2.mem_iff.2 (List.mem_map_of_mem hv))
          obtain ⟨e, he⟩ := liveD_exists (liveD_of_start ((hcm _).1 hin))
          refine ⟨e, by rw [hedge]; exact he, ?_⟩
          have := hG.seg v hv
          rw [pointsOf_length he] at this
          omega
        · obtain ⟨a, b, e⟩ := o1
          have := sigmaList_chain hsl
          rw [← e, List.append_assoc] at this
          exact (this.right_of_append).left_of_append
        · intro v hv
          refine ⟨_, o3 v hv, ?_⟩
          have hin : v.label ∈ ord := o2.mem_iff.2 (List.mem_map_of_mem hv)
          rw [List.getElem?_eq_getElem (List.idxOf_lt_length_of_mem hin), List.getElem_idxOf]

theorem PlannedGroup.frame {t t' : GMap ℝ} {n k : Nat} {g : List SplitPos} (h : PlannedGroup t n k g) (he : t'.edge = t.edge)
    (hst : t'.startN? = t.startN?) (hsg : ∀ d, t.startN? d = some n → t'.sigma d = t.sigma d) : PlannedGroup t' n k g := by
  obtain ⟨ord, h1, h2, h3, h4, h5⟩ := h.order
  refine ⟨h.two, h.group, fun v hv => by rw [he]; exact h.inside v hv, ord, h1, fun d hd => by rw [hst]; exact h2 d hd, ?_, h4, h5⟩
  rw [List.isChain_iff_getElem] at h3 ⊢
  intro i hi
  rw [hsg _ (h2 _ (List.getElem_mem _))]
  exact h3 i hi

theorem sortNodes_plan {srt : List DPA → List DPA} (hs : Sorter srt) {r2 m : ℝ} (hr : 0 < r2) (hm : 0 < m) (fuel : Nat) :
    ∀ (ns : List Nat), ns.Nodup → ∀ {s : GMap ℝ} {L : Finset Int} {π : Perm Int}, GraphRep s L π → GeomOK s → EdgesLong s →
    ∀ {st : St} {t : GMap ℝ} {st' : St}, sortNodes srt fuel r2 m ns s st = .ok (t, st') → ∀ {sp : Splits}, st.splits = some sp →
      ∃ gs : List (List SplitPos), st'.splits = some ⟨sp.list ++ gs.flatten, sp.count + gs.length⟩ ∧
        ∀ (i : Nat) (g : List SplitPos), gs[i]? = some g → ∃ n ∈ ns, PlannedGroup t n (sp.count + i) g := by
  intro ns
  induction ns with
  | nil =>
    intro _ s L π hg _ _ st t st' h sp hsp
    cases h
    exact ⟨[], by rw [hsp]; simp, by simp⟩
  | cons n ns ih =>
    intro hn s L π hg hgeo hlong st t st' h sp hsp
    rw [List.nodup_cons] at hn
    unfold sortNodes at h
    obtain ⟨⟨u, st1⟩, h1, h⟩ := Outcome.bind_eq_ok.1 h
    rcases sortNode_spec hs hr hm fuel hg hgeo hlong st n with e | ⟨u', st1', π1, e, k2, ⟨sg, sgi, k3⟩, -⟩
    · rw [h1] at e; cases e
    · rw [h1] at e; cases e
      have hu : u.edge = s.edge ∧ u.node = s.node ∧ u.startN? = s.startN? := by rw [k3]; exact ⟨rfl, rfl, rfl⟩
      have hgeo' : GeomOK u := by
        intro l e he
        rw [hu.1] at he
        rw [hu.2.1]; exact hgeo l e he
      have hlong' : EdgesLong u := by
        intro l e he
        rw [hu.1] at he; exact hlong l e he
      obtain ⟨g1, a1, b1⟩ := sortNode_plan hs hg hlong h1 hsp
      obtain ⟨g2, a2, b2⟩ := ih hn.2 k2 hgeo' hlong' h a1
      simp only at h
      rcases sortNodes_spec hs hr hm fuel ns hn.2 k2 hgeo' hlong' st1 with e | ⟨t', st2', π2, e, -, ⟨sg', sgi', q3⟩, q4, -⟩
      · rw [h] at e; cases e
      · rw [h] at e; cases e
        refine ⟨g1 ++ g2, by rw [a2]; simp [Nat.add_assoc], fun i g hgi => ?_⟩
        by_cases hi : i < g1.length
        · rw [List.getElem?_append_left hi] at hgi
          refine ⟨n, by simp, (b1 i g hgi).frame (by rw [q3]) (by rw [q3]; rfl) (fun d hd => q4 d fun k hk e => ?_)⟩
          rw [hd] at e
          exact hn.1 (Option.some.inj e ▸ hk)
        · rw [List.getElem?_append_right (by omega)] at hgi
          obtain ⟨k, hk, hp⟩ := b2 _ g hgi
          simp only at hp
          rw [show sp.count + g1.length + (i - g1.length) = sp.count + i by omega] at hp
          exact ⟨k, by simp [hk], hp⟩

end Verif.Parallel
