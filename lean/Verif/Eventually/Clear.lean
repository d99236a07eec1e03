import Verif.Eventually.Total

/-! # Darts that are far apart on the first circle, and the recursion for a node (helper lemmas) -/

namespace Verif.Eventually
open Verif Verif.GeoMap Verif.PointIter Verif.DartPos Equiv

/-- groups of one dart each are not sorted further -/
theorem sortGroups_single {rec : Pt ℝ → ℝ → List DPA → St → Outcome (List DPA × St)} : ∀ (gs : List (List DPA)) (st : St),
    (∀ g ∈ gs, g.length ≤ 1) → sortGroups rec gs st = .ok (gs.flatten, st)
  | [], st, _ => rfl
  | g :: gs, st, h => by
    rw [sortGroups, if_neg (by have := h g (by simp); omega), Outcome.bind_ok]
    rw [sortGroups_single gs st (fun g hg => h g (by simp [hg]))]
    rfl

/-- If the measured angles are far enough apart, one circle decides. -/
theorem sortInternal_clear {srt : List DPA → List DPA} (hs : Sorter srt) {r2 m : ℝ} (fuel : Nat) {c : Pt ℝ} {ref : ℝ}
    {l : List DPA} (st : St) {l1 : List DPA} (hl1 : mapAll (measure c ref r2) l = .ok l1) (hlen : l1.length = l.length)
    (hsep : l1.Pairwise fun x y => m ≤ |x.angle - y.angle| ∧ |x.angle - y.angle| ≤ 2 * Real.pi - m)
    (he : ∃ x ∈ l, x.dp.atEnd = false) :
    ∃ r, sortInternal srt r2 m (fuel + 1) c ref false l st = .ok (r, st) := by
  rw [sortInternal]
  by_cases h2 : l.length < 2
  · rw [if_pos h2]; exact ⟨_, rfl⟩
  rw [if_neg h2, hl1, Outcome.bind_ok, if_neg (by
    rw [List.all_eq_true]
    intro hc
    obtain ⟨x, hx, e⟩ := he
    have := hc x hx
    rw [e] at this; cases this)]
  simp only
  have hsep' : (srt l1).Pairwise fun x y => m ≤ |x.angle - y.angle| ∧ |x.angle - y.angle| ≤ 2 * Real.pi - m := by
    refine (hs l1).1.pairwise_iff (fun {x y} h => ?_) |>.2 hsep
    rw [abs_sub_comm y.angle]; exact h
  have hboth : (srt l1).Pairwise fun x y => x.angle + m ≤ y.angle ∧ y.angle ≤ x.angle + (2 * Real.pi - m) := by
    refine (hsep'.and (hs l1).2).imp ?_
    rintro x y ⟨⟨h1, h2⟩, h3⟩
    rw [abs_sub_comm, abs_of_nonneg (by linarith)] at h1 h2
    exact ⟨by linarith, by linarith⟩
  have hlens : (srt l1).length = l.length := by rw [(hs l1).1.length_eq, hlen]
  have hrot : rotateGroups m (srt l1) = srt l1 := by
    rw [rotateGroups, if_neg]
    have h0 : 0 < (srt l1).length := by omega
    have h1 : (srt l1).length - 1 < (srt l1).length := by omega
    rw [ang_get h1, ang_get h0]
    have := (List.pairwise_iff_getElem.1 hboth 0 ((srt l1).length - 1) h0 h1 (by omega)).2
    linarith
  rw [hrot]
  have hsingle : ∀ g ∈ groups m (srt l1), g.length ≤ 1 := by
    intro g hg
    by_contra hc
    have hfl : (groups m (srt l1)).flatten = srt l1 := List.flatten_splitBy _ _
    have hch : g.IsChain (fun x y => decide (y.angle < x.angle + m)) := List.isChain_of_mem_splitBy hg
    match g, hc, hg, hch with
    | x :: y :: g, _, hg, hch =>
      rw [List.isChain_cons_cons] at hch
      have h1 : y.angle < x.angle + m := by simpa using hch.1
      obtain ⟨u, v, e⟩ := List.append_of_mem hg
      have : srt l1 = u.flatten ++ (x :: y :: (g ++ v.flatten)) := by
        rw [← hfl, e]; simp
      rw [this, List.pairwise_append] at hboth
      have := ((List.pairwise_cons.1 hboth.2.1).1 y (by simp)).1
      linarith
    | [], hc, _, _ => simp at hc
    | [x], hc, _, _ => simp at hc
  have hplan : planSplits (decide (1 < (groups m (srt l1)).length)) false (srt l1) st = .ok st := by
    rw [planSplits]
    rcases e : st.splits with _ | sp
    · rfl
    · simp
  rw [hplan, Outcome.bind_ok, sortGroups_single _ _ hsingle, Outcome.bind_ok]
  refine ⟨_, by rw [if_neg (by simp [St.plans])]⟩

/-- what is known of the entries of a node and of their first crossings -/
theorem node_entries {s : GMap ℝ} {L : Finset Int} {π : Perm Int} (hg : GraphRep s L π) (hgeo : GeomOK s) (hlong : EdgesLong s) {n : Nat} {nd : Node ℝ}
    (hnd : s.node n = some nd) (h0 : nd.anchor ≠ 0) {r2 : ℝ} (hr : 0 < r2) :
    ∃ xs l1, dartPositions s nd.anchor s.fuel nd.anchor [] = .ok xs ∧ xs ≠ [] ∧
      (∀ x ∈ xs, Fresh s x ∧ x.dp.p1 = nd.pos ∧ s.startN? x.label = some n) ∧ (xs.map (·.label)).Nodup ∧
      mapAll (measure nd.pos 0 r2) xs = .ok l1 ∧ l1.map (·.label) = xs.map (·.label) ∧
      ∀ y ∈ l1, Crossing (pointsOf s y.label) nd.pos r2 y.dp.pos ∧ y.angle = angleOf nd.pos y.dp.pos := by
  obtain ⟨xs, e1, hfr, hnodup, hmem⟩ := node_darts hg hlong hnd h0
  have hv : ∀ x ∈ xs, Valid x := fun x hx => ⟨_, Or.inl ⟨_, (hfr x hx).track⟩⟩
  have hp1 : ∀ x ∈ xs, x.dp.p1 = nd.pos := by
    intro x hx
    have hst := (hmem x.label).1 (List.mem_map_of_mem hx)
    obtain ⟨e, he⟩ := liveD_exists (liveD_of_start hst)
    rw [startN?_of he] at hst
    have h1 := (hgeo.dart he).1
    rw [Option.some.inj hst, hnd, ← pointsOf_of he, List.head?_eq_getElem?, (hfr x hx).track.p1] at h1
    exact Option.some.inj h1
  obtain ⟨l1, hl1, k1⟩ := mapAll_ok (R := fun x y => measure nd.pos 0 r2 x = .ok y) (fun x hx => by
    obtain ⟨y, h, -⟩ := measure_ok (hv x hx) nd.pos 0 r2
    exact ⟨y, h, h⟩)
  refine ⟨xs, l1, e1, ?_, fun x hx => ⟨hfr x hx, hp1 x hx, (hmem _).1 (List.mem_map_of_mem hx)⟩, hnodup, hl1, ?_, ?_⟩
  · rintro rfl
    obtain ⟨haL, hast, hcov⟩ := (hg.nodes n nd hnd).resolve_left (fun h => h0 h.1)
    have := (hmem nd.anchor).2 hast
    simp at this
  · have : List.Forall₂ (fun x y : DPA => y.label = x.label) xs l1 := by
      refine k1.imp ?_
      intro x y h
      rw [measure] at h
      obtain ⟨dp, -, h⟩ := Outcome.bind_eq_ok.1 h
      cases h; rfl
    clear k1 hl1 e1 hfr hnodup hmem hv hp1
    induction this with
    | nil => rfl
    | cons h _ ih => simp [h, ih]
  · intro y hy
    obtain ⟨x, hx, hxy⟩ := forall2_mem k1 hy
    obtain ⟨a, b, c⟩ := measure_fresh (hfr x hx) (hp1 x hx) hr hxy
    rw [a]; exact ⟨b, c⟩

theorem sortNode_of {srt : List DPA → List DPA} {r2 m : ℝ} {fuel : Nat} {s : GMap ℝ} {n : Nat} {nd : Node ℝ} {st : St}
    (hnd : s.node n = some nd) (h0 : nd.anchor ≠ 0) {xs : List DPA} (e1 : dartPositions s nd.anchor s.fuel nd.anchor [] = .ok xs)
    {r : List DPA} {st' : St} (e2 : sortInternal srt r2 m fuel nd.pos 0 false xs st = .ok (r, st')) (hr : r ≠ []) :
    ∃ t, sortNode srt fuel r2 m s st n = .ok (t, st') := by
  rw [sortNode, hnd]
  simp only
  rw [if_neg h0, e1, Outcome.bind_ok, e2, Outcome.bind_ok]
  simp only
  cases r with
  | nil => exact absurd rfl hr
  | cons x r => exact ⟨_, rfl⟩

/-- isolated nodes and removed nodes -/
theorem sortNode_skip {srt : List DPA → List DPA} {r2 m : ℝ} {fuel : Nat} {s : GMap ℝ} {n : Nat} (st : St)
    (h : ∀ nd, s.node n = some nd → nd.anchor = 0) : sortNode srt fuel r2 m s st n = .ok (s, st) := by
  rw [sortNode]
  rcases e : s.node n with _ | nd
  · rfl
  · simp only; rw [if_pos (h nd e)]

theorem ne_nil_of_result {l r : List DPA} {st st' : St} (h : Result l st r st') (hl : l ≠ []) : r ≠ [] := by
  rintro rfl
  have := h.perm
  simp at this
  exact hl this

theorem sortNode_clear {srt : List DPA → List DPA} (hs : Sorter srt) {r2 m : ℝ} (hr : 0 < r2) (fuel : Nat) {s : GMap ℝ} {L : Finset Int} {π : Perm Int}
    (hg : GraphRep s L π) (hgeo : GeomOK s) (hlong : EdgesLong s) (st : St) (n : Nat) (hsep : Separated s r2 m n) :
    ∃ t, sortNode srt (fuel + 1) r2 m s st n = .ok (t, st) := by
  by_cases h : ∀ nd, s.node n = some nd → nd.anchor = 0
  · exact ⟨s, sortNode_skip st h⟩
  push Not at h
  obtain ⟨nd, hnd, h0⟩ := h
  obtain ⟨xs, l1, e1, hne, hx, hnodup, hl1, lab, hy⟩ := node_entries hg hgeo hlong hnd h0 hr
  have hlen : l1.length = xs.length := by
    have := congrArg List.length lab
    simpa using this
  have hnd1 : (l1.map (·.label)).Nodup := by rw [lab]; exact hnodup
  have hst : ∀ y ∈ l1, s.startN? y.label = some n := by
    intro y hy
    have : y.label ∈ xs.map (·.label) := by rw [← lab]; exact List.mem_map_of_mem hy
    obtain ⟨x, hx', e⟩ := List.mem_map.1 this
    rw [← e]; exact (hx x hx').2.2
  obtain ⟨x0, hx0⟩ := List.exists_mem_of_ne_nil _ hne
  obtain ⟨r, e2⟩ := sortInternal_clear hs (r2 := r2) (m := m) fuel (c := nd.pos) (ref := 0) st hl1 hlen (by
    rw [List.Nodup, List.pairwise_map] at hnd1
    refine hnd1.imp_of_mem ?_
    intro x y hx hyy hne
    rw [(hy x hx).2, (hy y hyy).2]
    exact hsep nd hnd x.label y.label _ _ hne (hst x hx) (hst y hyy) (hy x hx).1 (hy y hyy).1) ⟨x0, hx0, (hx x0 hx0).1.track.atEnd⟩
  refine sortNode_of hnd h0 e1 e2 ?_
  rcases sortInternal_ok hs (r2 := r2) (m := m) (fuel + 1) nd.pos 0 false xs st (fun x h => ⟨_, Or.inl ⟨_, (hx x h).1.track⟩⟩) (by simp) with h | ⟨r', st', e, hres⟩
  · rw [h] at e2; cases e2
  · rw [e] at e2; cases e2
    exact ne_nil_of_result hres hne

theorem sortNode_total {srt : List DPA → List DPA} (hs : Sorter srt) {r m : ℝ} (hr : 0 < r) (hm : 0 < m) {N : Nat} (hN1 : 0 < N)
    (hN : ((N : ℝ) - 1) * m ≤ Real.pi / 3) {j fuel : Nat} (hf : j + 1 ≤ fuel) {s : GMap ℝ} {L : Finset Int} {π : Perm Int}
    (hg : GraphRep s L π) (hgeo : GeomOK s) (hlong : EdgesLong s) (hdeg : DegreeLE s N) (hj : ∀ d, s.liveD d → pathLen (pointsOf s d) < j * (r / N))
    (st : St) (n : Nat) : ∃ t st', sortNode srt fuel (r * r) m s st n = .ok (t, st') := by
  by_cases h : ∀ nd, s.node n = some nd → nd.anchor = 0
  · exact ⟨s, st, sortNode_skip st h⟩
  push Not at h
  obtain ⟨nd, hnd, h0⟩ := h
  obtain ⟨xs, l1, e1, hne, hx, hnodup, -⟩ := node_entries hg hgeo hlong hnd h0 (mul_pos hr hr)
  have N0 : (0 : ℝ) < N := by exact_mod_cast hN1
  have N1 : (1 : ℝ) ≤ N := by exact_mod_cast hN1
  have pp := Real.pi_pos
  obtain ⟨⟨q, st'⟩, e2⟩ := sortInternal_total hs hr hm hN1 hN (pointsOf s) j fuel hf nd.pos 0 false xs st (by linarith) pp.le (by
    have := hdeg n (xs.map (·.label)) hnodup (by
      intro d hd
      obtain ⟨x, hx', rfl⟩ := List.mem_map.1 hd
      exact (hx x hx').2.2)
    simpa using this) (by
    intro x hx'
    obtain ⟨hfr, hp, hst⟩ := hx x hx'
    refine ⟨Or.inl ⟨0, hfr.track, 0, le_rfl, zero_le_one, by simp [hfr.pos], by simp [hfr.part]⟩, ?_⟩
    rw [hfr.pos, hp, sub_self, mag_eq_zero.2 rfl]
    have : r / N ≤ r := div_le_self hr.le N1
    linarith) (by
    intro x hx' _
    obtain ⟨hfr, hp, hst⟩ := hx x hx'
    have h1 := hj x.label (liveD_of_start hst)
    rw [DP.arcLength, hfr.track.arc, hfr.part, reach_zero]
    linarith) (by simp)
  obtain ⟨t, ht⟩ := sortNode_of hnd h0 e1 e2 (by
    rcases sortInternal_ok hs (r2 := r * r) (m := m) fuel nd.pos 0 false xs st (fun x h => ⟨_, Or.inl ⟨_, (hx x h).1.track⟩⟩) (by simp) with h | ⟨r', st', e, hres⟩
    · rw [h] at e2; cases e2
    · rw [e] at e2; cases e2
      exact ne_nil_of_result hres hne)
  exact ⟨t, st', ht⟩

/-! ## all nodes -/

/-- Everything but sigma is kept by sorting a node. -/
structure Same (s t : GMap ℝ) : Prop where
  node : t.node = s.node
  edge : t.edge = s.edge

theorem Same.start {s t : GMap ℝ} (h : Same s t) : t.startN? = s.startN? := by
  funext d; rw [GMap.startN?, GMap.startN?, h.edge]

theorem Same.points {s t : GMap ℝ} (h : Same s t) (d : Int) : pointsOf t d = pointsOf s d := by rw [pointsOf, pointsOf, h.edge]

theorem Same.geom {s t : GMap ℝ} (h : Same s t) (hg : GeomOK s) : GeomOK t := by
  intro l e he
  rw [h.edge] at he
  rw [h.node]; exact hg l e he

theorem Same.long {s t : GMap ℝ} (h : Same s t) (hg : EdgesLong s) : EdgesLong t := by
  intro l e he
  rw [h.edge] at he; exact hg l e he

theorem Same.separated {s t : GMap ℝ} (h : Same s t) {r2 m : ℝ} {n : Nat} (hg : Separated s r2 m n) : Separated t r2 m n := by
  intro nd hnd x y p q hne hx hy hp hq
  rw [h.start] at hx hy
  rw [h.points] at hp hq
  rw [h.node] at hnd
  exact hg nd hnd x y p q hne hx hy hp hq

theorem sortNodes_clear {srt : List DPA → List DPA} (hs : Sorter srt) {r2 m : ℝ} (hr : 0 < r2) (hm : 0 < m) (fuel : Nat) :
    ∀ (ns : List Nat) {s : GMap ℝ} {L : Finset Int} {π : Perm Int}, GraphRep s L π → GeomOK s → EdgesLong s → (∀ n, Separated s r2 m n) → ∀ st : St,
    ∃ t, sortNodes srt (fuel + 1) r2 m ns s st = .ok (t, st) := by
  intro ns
  induction ns with
  | nil => intro s L π _ _ _ _ st; exact ⟨s, rfl⟩
  | cons n ns ih =>
    intro s L π hg hgeo hlong hsep st
    obtain ⟨t, e⟩ := sortNode_clear hs hr fuel hg hgeo hlong st n (hsep n)
    rcases sortNode_spec hs hr hm (fuel + 1) hg hgeo hlong st n with h | ⟨t', st', π', h1, h2, ⟨sg, sgi, h3⟩, -⟩
    · rw [h] at e; cases e
    · rw [e] at h1; cases h1
      have hsame : Same s t := by rw [h3]; exact ⟨rfl, rfl⟩
      obtain ⟨u, hu⟩ := ih h2 (hsame.geom hgeo) (hsame.long hlong) (fun n => hsame.separated (hsep n)) st
      exact ⟨u, by rw [sortNodes, e, Outcome.bind_ok]; exact hu⟩

theorem sortNodes_total {srt : List DPA → List DPA} (hs : Sorter srt) {r m : ℝ} (hr : 0 < r) (hm : 0 < m) {N : Nat} (hN1 : 0 < N)
    (hN : ((N : ℝ) - 1) * m ≤ Real.pi / 3) {j fuel : Nat} (hf : j + 1 ≤ fuel) :
    ∀ (ns : List Nat) {s : GMap ℝ} {L : Finset Int} {π : Perm Int}, GraphRep s L π → GeomOK s → EdgesLong s → DegreeLE s N →
    (∀ d, s.liveD d → pathLen (pointsOf s d) < j * (r / N)) → ∀ st : St,
    ∃ t st', sortNodes srt fuel (r * r) m ns s st = .ok (t, st') := by
  intro ns
  induction ns with
  | nil => intro s L π _ _ _ _ _ st; exact ⟨s, st, rfl⟩
  | cons n ns ih =>
    intro s L π hg hgeo hlong hdeg hj st
    obtain ⟨t, st1, e⟩ := sortNode_total hs hr hm hN1 hN hf hg hgeo hlong hdeg hj st n
    rcases sortNode_spec hs (mul_pos hr hr) hm fuel hg hgeo hlong st n with h | ⟨t', st', π', h1, h2, ⟨sg, sgi, h3⟩, -⟩
    · rw [h] at e; cases e
    · rw [e] at h1; cases h1
      have hsame : Same s t := by rw [h3]; exact ⟨rfl, rfl⟩
      obtain ⟨u, st2, hu⟩ := ih h2 (hsame.geom hgeo) (hsame.long hlong) (fun n l h1 h2 => hdeg n l h1 (fun d hd => by rw [← hsame.start]; exact h2 d hd))
        (fun d hd => by rw [hsame.points]; exact hj d (by rw [GMap.liveD] at hd ⊢; rw [← hsame.edge]; exact hd)) st1
      exact ⟨u, st2, by rw [sortNodes, e, Outcome.bind_ok]; exact hu⟩

end Verif.Eventually
