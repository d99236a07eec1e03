import Verif.Eventually.Order
import Verif.GeoMap.Sort
import Verif.GeoMap.Geometry
import Verif.DartPos.Props

/-! # Sorting the darts of one node and of all nodes (helper lemmas) -/

namespace Verif.Eventually
open Verif Verif.GeoMap Verif.PointIter Verif.DartPos Equiv

/-- The entry of a dart before the first circle. -/
structure Fresh (s : GMap ℝ) (x : DPA) : Prop where
  track : Track (pointsOf s x.label) x.dp 0
  pos : x.dp.pos = x.dp.p1
  part : x.dp.part = 0
  common : x.common = none

theorem pointsOf_length {s : GMap ℝ} {d : Int} {e : Edge ℝ} (he : s.edge d.natAbs = some e) : (pointsOf s d).length = e.pts.length := by
  rw [pointsOf, he]
  simp only
  split_ifs <;> simp

theorem start_ok {s : GMap ℝ} (hl : EdgesLong s) {d : Int} (hd : s.liveD d) :
    ∃ i dp, DPI.start s d = .ok i ∧ DP.start i = .ok dp ∧ Fresh s ⟨d, dp, 0, 0, none⟩ := by
  obtain ⟨e, he⟩ := liveD_exists hd
  have h2 := hl _ _ he
  obtain ⟨L, hL⟩ : ∃ L, L = pointsOf s d := ⟨_, rfl⟩
  have hlen : 2 ≤ L.length := by rw [hL, pointsOf_length he]; exact h2
  obtain ⟨i, hi, hat⟩ : ∃ i, DPI.start s d = .ok i ∧ At L i 0 := by
    rw [DPI.start, guaranteedEdge_of he, Outcome.bind_ok]
    refine ⟨_, rfl, ?_⟩
    rw [hL, pointsOf, he]
    simp only
    split_ifs
    · left; simp
    · right; simp
  have e0 : L[0]? = some (L[0]'(by omega)) := List.getElem?_eq_getElem _
  have e1 : L[1]? = some (L[1]'(by omega)) := List.getElem?_eq_getElem _
  refine ⟨i, _, hi, by rw [DP.start, hat.deref e0, Outcome.bind_ok, hat.next.deref e1]; rfl, ?_, rfl, rfl, rfl⟩
  rw [← hL]
  exact ⟨hat.next, by omega, rfl, e0, e1, by simp [reach_zero]⟩

theorem dartPositions_eq {s : GMap ℝ} {L : Finset Int} {π : Perm Int} (hr : Rep L s.sigma s.sigmaInv π) (hlong : EdgesLong s)
    (hl : ∀ d ∈ L, s.liveD d) {a : Int} (ha : a ∈ L) (fuel k : Nat) (hk : k < Function.minimalPeriod s.sigma a)
    (hn : Function.minimalPeriod s.sigma a - k ≤ fuel) (acc : List DPA) (hacc : ∀ x ∈ acc, Fresh s x) :
    ∃ xs, dartPositions s a fuel (s.sigma^[k] a) acc = .ok xs ∧ (∀ x ∈ xs, Fresh s x) ∧
      xs.map (·.label) = acc.map (·.label) ++ (List.range' k (Function.minimalPeriod s.sigma a - k)).map (fun i => s.sigma^[i] a) := by
  induction fuel generalizing k acc with
  | zero => omega
  | succ n ih =>
    unfold dartPositions
    obtain ⟨i, dp, e1, e2, hf⟩ := start_ok hlong (hl _ (hr.iterate_mem ha k).2)
    rw [e1, Outcome.bind_ok, e2, Outcome.bind_ok]
    simp only [← Function.iterate_succ_apply' s.sigma k a]
    have hacc' : ∀ x ∈ acc ++ [⟨s.sigma^[k] a, dp, 0, 0, none⟩], Fresh s x := by
      intro x hx
      rw [List.mem_append, List.mem_singleton] at hx
      rcases hx with hx | rfl
      · exact hacc x hx
      · exact hf
    by_cases hk1 : k + 1 = Function.minimalPeriod s.sigma a
    · have : s.sigma^[k + 1] a = a := by rw [hk1]; exact Function.iterate_minimalPeriod
      rw [if_pos this]
      refine ⟨_, rfl, hacc', ?_⟩
      rw [← hk1, show k + 1 - k = 1 by omega]
      simp
    · rw [if_neg (hr.iterate_ne (by omega) (by omega))]
      obtain ⟨xs, g1, g2, g3⟩ := ih (k + 1) (by omega) (by omega) _ hacc'
      refine ⟨xs, g1, g2, ?_⟩
      rw [g3, show Function.minimalPeriod s.sigma a - k = (Function.minimalPeriod s.sigma a - (k + 1)) + 1 by omega, List.range'_succ]
      simp

/-- the darts of a node in the order found by following sigma -/
theorem node_darts {s : GMap ℝ} {L : Finset Int} {π : Perm Int} (hg : GraphRep s L π) (hlong : EdgesLong s) {n : Nat} {nd : Node ℝ}
    (hnd : s.node n = some nd) (h0 : nd.anchor ≠ 0) :
    ∃ xs, dartPositions s nd.anchor s.fuel nd.anchor [] = .ok xs ∧ (∀ x ∈ xs, Fresh s x) ∧ (xs.map (·.label)).Nodup ∧
      ∀ d, d ∈ xs.map (·.label) ↔ s.startN? d = some n := by
  obtain ⟨haL, hast, hcov⟩ := (hg.nodes n nd hnd).resolve_left (fun h => h0 h.1)
  have hp := hg.rep.isPeriodicPt haL
  obtain ⟨xs, g1, g2, g3⟩ := dartPositions_eq hg.rep hlong (fun d hd => (hg.live d).mp hd) haL s.fuel 0 hp.1
    (by unfold GMap.fuel; have := hg.card_le; omega) [] (by simp)
  refine ⟨xs, g1, g2, ?_, ?_⟩
  · rw [g3]
    simp only [List.map_nil, List.nil_append]
    rw [List.nodup_map_iff_inj_on (List.nodup_range' ..)]
    intro i hi j hj e
    rw [List.mem_range'_1] at hi hj
    exact Function.iterate_injOn_Iio_minimalPeriod (by simp; omega) (by simp; omega) e
  · intro x
    rw [g3]
    simp only [List.map_nil, List.nil_append, List.mem_map, List.mem_range'_1]
    constructor
    · rintro ⟨i, -, rfl⟩
      have hm := hg.rep.iterate_mem haL i
      have hc := (hg.rep.sameCycle_iff haL).mpr ⟨i, rfl⟩
      rw [(same_start_iff hg.rep hg.starts hg.nodes haL hm.2).mpr hc] at hast
      exact hast
    · intro hxn
      obtain ⟨i, hi, e⟩ := hg.rep.iterate_lt haL (hcov x ((hg.live x).mpr (liveD_of_start hxn)) hxn)
      exact ⟨i, ⟨by omega, by omega⟩, e⟩

/-- the first circle -/
theorem measure_fresh {s : GMap ℝ} {x : DPA} (h : Fresh s x) {c : Pt ℝ} (hc : x.dp.p1 = c) {r2 : ℝ} (hr : 0 < r2) {y : DPA}
    (hy : measure c 0 r2 x = .ok y) : y.label = x.label ∧ Crossing (pointsOf s x.label) c r2 y.dp.pos ∧ y.angle = angleOf c y.dp.pos := by
  have t := h.track
  have hlt : sqMag (x.dp.p1 - c) < r2 := by rw [hc, sub_self]; simpa [sqMag] using hr
  have zero : ∀ v, (pointsOf s x.label)[0]? = some v → sqMag (v - c) < r2 := by
    intro v hv
    rw [t.p1] at hv
    rw [← Option.some.inj hv]; exact hlt
  have hne : ¬ x.dp.atEnd = true := by rw [DP.atEnd, t.atEnd]; simp
  obtain ⟨b, s', e, h1⟩ := t.intersect (c := c) (r2 := r2)
  rw [measure, if_neg hne, e] at hy
  simp only [Outcome.map, Outcome.bind_ok] at hy
  cases hy
  refine ⟨rfl, ?_, ?_⟩
  · simp only
    cases b with
    | true =>
      simp only [if_true] at h1
      obtain ⟨k', -, t', ⟨hin, ho⟩, hon, -⟩ := h1
      obtain ⟨⟨u, u0, u1, hp, -⟩, hcirc⟩ := hon (Or.inl hlt.le)
      refine Or.inl ⟨k', _, _, u, t'.p1, t'.p2, ?_, ho, u0, u1, hp, hcirc⟩
      intro j v hj hv
      rcases Nat.eq_zero_or_pos j with rfl | hj'
      · exact zero v hv
      · exact hin j v hj' hj hv
    | false =>
      simp only [Bool.false_eq_true, if_false] at h1
      obtain ⟨d, hp, -, hin⟩ := h1
      refine Or.inr ⟨?_, by rw [hp]; exact d.p1⟩
      intro v hv
      obtain ⟨j, hj, rfl⟩ := List.mem_iff_getElem.1 hv
      rcases Nat.eq_zero_or_pos j with rfl | hj'
      · exact zero _ (List.getElem?_eq_getElem hj)
      · exact hin j _ hj' (List.getElem?_eq_getElem hj)
  · simp only [angleOf, sub_zero]
    rw [show -s'.pos.2 + c.2 = c.2 - s'.pos.2 by ring]

theorem Blocks.mem : ∀ {U : List (List Int)} {l : List Int}, Blocks U l → ∀ u ∈ U, ∃ p q, l = p ++ u ++ q
  | [], _, _, u, hu => by simp at hu
  | v :: U, l, ⟨p, q, e, h⟩, u, hu => by
    rcases List.mem_cons.1 hu with rfl | hu
    · exact ⟨p, q, e⟩
    · obtain ⟨p', q', e'⟩ := h.mem u hu
      exact ⟨p ++ v ++ p', q', by rw [e, e']; simp⟩

theorem sigmaList_chain {t : GMap ℝ} {n : Nat} {r : List Int} (h : SigmaList t n r) : r.IsChain fun d d' => t.sigma d = d' := by
  rw [List.isChain_iff_getElem]
  intro i hi
  rw [h.2.2 i (by omega)]
  simp only [Nat.mod_eq_of_lt hi]

theorem sigmaList_link {s : GMap ℝ} {n : Nat} {d : Int} {ds : List Int} (hn : (d :: ds).Nodup) (hm : ∀ x, x ∈ d :: ds ↔ s.startN? x = some n) :
    SigmaList (GMap.linkCycle d d ds s) n (d :: ds) := by
  obtain ⟨sg, sgi, hfr⟩ := linkCycle_frame d ds d s
  have hst : (GMap.linkCycle d d ds s).startN? = s.startN? := by rw [hfr]; rfl
  refine ⟨hn, fun x => by rw [hst]; exact hm x, fun i hi => ?_⟩
  rw [linkCycle_sigma d ds d s hn i hi]
  by_cases hlast : i + 1 < (d :: ds).length
  · simp only [Nat.mod_eq_of_lt hlast]
    rw [List.getElem_append_left (by simpa using hlast)]; rfl
  · have hi' : i = ds.length := by simp at hi hlast; omega
    subst hi'
    simp

theorem sortNode_spec {srt : List DPA → List DPA} (hs : Sorter srt) {r2 m : ℝ} (hr : 0 < r2) (hm : 0 < m) (fuel : Nat) {s : GMap ℝ} {L : Finset Int} {π : Perm Int}
    (hg : GraphRep s L π) (hgeo : GeomOK s) (hlong : EdgesLong s) (st : St) (n : Nat) :
    sortNode srt fuel r2 m s st n = .hang ∨
    ∃ t st' π', sortNode srt fuel r2 m s st n = .ok (t, st') ∧ GraphRep t L π' ∧ (∃ sg sgi, t = { s with sigma := sg, sigmaInv := sgi }) ∧
      (∀ d, s.startN? d ≠ some n → t.sigma d = s.sigma d) ∧ OrderOK s t r2 m n ∧
      (∃ U, st'.unsortable = st.unsortable ++ U ∧ ∀ u ∈ U, GroupsOK t n u) ∧ st'.splits.isSome = st.splits.isSome := by
  unfold sortNode
  have triv : (∀ d, s.startN? d ≠ some n) → OrderOK s s r2 m n := by
    intro h nd _
    refine ⟨[], fun _ => 0, fun _ => 0, ⟨List.nodup_nil, fun d => ⟨(fun h => by cases h), fun hd => absurd hd (h d)⟩, fun i hi => by simp at hi⟩, by simp, ⟨0, by simp⟩, ?_⟩
    intro a _; simp
  cases hnd : s.node n with
  | none =>
    right
    have hno : ∀ d, s.startN? d ≠ some n := by
      intro d hd
      obtain ⟨m, g1, g2, -⟩ := hg.starts d ((hg.live d).mpr (liveD_of_start hd))
      rw [hd] at g1; cases g1
      rw [hnd] at g2; cases g2
    exact ⟨s, st, π, rfl, hg, ⟨_, _, rfl⟩, fun _ _ => rfl, triv hno, ⟨[], by simp, by simp⟩, rfl⟩
  | some nd =>
    simp only
    by_cases h0 : nd.anchor = 0
    · rw [if_pos h0]
      right
      have hno : ∀ d, s.startN? d ≠ some n := by
        intro d hd
        rcases hg.nodes n nd hnd with ⟨-, g⟩ | ⟨g, -⟩
        · exact g d ((hg.live d).mpr (liveD_of_start hd)) hd
        · rw [h0] at g; exact hg.ne_zero g rfl
      exact ⟨s, st, π, rfl, hg, ⟨_, _, rfl⟩, fun _ _ => rfl, triv hno, ⟨[], by simp, by simp⟩, rfl⟩
    · rw [if_neg h0]
      obtain ⟨xs, e1, hfr, hnodup, hmem⟩ := node_darts hg hlong hnd h0
      rw [e1, Outcome.bind_ok]
      have hv : ∀ x ∈ xs, Valid x := fun x hx => ⟨_, Or.inl ⟨_, (hfr x hx).track⟩⟩
      rcases sortInternal_ok hs (r2 := r2) (m := m) fuel nd.pos 0 false xs st hv (by simp) with h | ⟨r, st', e2, hres⟩
      · left; rw [h]; rfl
      · right
        rw [e2, Outcome.bind_ok]
        simp only
        obtain ⟨c, hc⟩ : ∃ c, c = r.map (·.label) := ⟨_, rfl⟩
        rw [← hc]
        have hperm : c.Perm (xs.map (·.label)) := hc ▸ hres.perm
        have hcn : c.Nodup := hperm.nodup_iff.2 hnodup
        have hcm : ∀ d, d ∈ c ↔ s.startN? d = some n := fun d => by rw [hperm.mem_iff, hmem]
        -- the first points of the darts are the node
        have hp1 : ∀ x ∈ xs, x.dp.p1 = nd.pos := by
          intro x hx
          have hst := (hmem x.label).1 (List.mem_map_of_mem hx)
          obtain ⟨e, he⟩ := liveD_exists (liveD_of_start hst)
          rw [startN?_of he] at hst
          have h1 := (hgeo.dart he).1
          rw [Option.some.inj hst, hnd, ← pointsOf_of he, List.head?_eq_getElem?, (hfr x hx).track.p1] at h1
          exact Option.some.inj h1
        obtain ⟨l1, hl1, k1⟩ := mapAll_ok (R := fun x y => measure nd.pos 0 r2 x = .ok y) (fun x hx => by
          obtain ⟨y, h, -⟩ := measure_ok (hv x hx) nd.pos 0 r2
          exact ⟨y, h, h⟩)
        have hl1m : ∀ y ∈ l1, Crossing (pointsOf s y.label) nd.pos r2 y.dp.pos ∧ y.angle = angleOf nd.pos y.dp.pos := by
          intro y hy
          -- the element of `xs` it comes from
          obtain ⟨x, hx, hxy⟩ := forall2_mem k1 hy
          obtain ⟨a, b, c⟩ := measure_fresh (hfr x hx) (hp1 x hx) hr hxy
          rw [a]; exact ⟨b, c⟩
        have lab : l1.map (·.label) = xs.map (·.label) := by
          have : List.Forall₂ (fun x y : DPA => y.label = x.label) xs l1 := by
            refine k1.imp ?_
            intro x y h
            rw [measure] at h
            obtain ⟨dp, -, h⟩ := Outcome.bind_eq_ok.1 h
            cases h; rfl
          clear k1 hl1 hl1m e1 hfr hnodup hmem hv e2 hres hperm hp1
          induction this with
          | nil => rfl
          | cons h _ ih => simp [h, ih]
        -- the position of a dart
        obtain ⟨p, hp⟩ : ∃ p : Int → Pt ℝ, ∀ y ∈ l1, p y.label = y.dp.pos := by
          have hnd1 : (l1.map (·.label)).Nodup := by rw [lab]; exact hnodup
          refine ⟨fun d => ((l1.find? (fun y => y.label == d)).map (·.dp.pos)).getD 0, fun y hy => ?_⟩
          have : l1.find? (fun z => z.label == y.label) = some y := by
            rcases hf : l1.find? (fun z => z.label == y.label) with _ | z
            · rw [List.find?_eq_none] at hf
              exact absurd (by simp) (hf y hy)
            · have hz := List.mem_of_find?_eq_some hf
              have he := List.find?_some hf
              simp only [beq_iff_eq] at he
              rw [hf, List.inj_on_of_nodup_map hnd1 hz hy he]
          simp [this]
        have hord : ∃ w, Unwrapped (fun d => angleOf nd.pos (p d)) w c ∧ AgreesAcrossGaps m w c := by
          rcases Nat.lt_or_ge xs.length 2 with h2 | h2
          · refine ⟨fun d => angleOf nd.pos (p d), ⟨-Real.pi, fun d _ => ⟨Or.inl rfl, (angleOf_range _ _).1, by have := (angleOf_range nd.pos (p d)).2; linarith⟩⟩, ?_⟩
            intro a _
            have : c.length < 2 := by rw [hperm.length_eq, List.length_map]; exact h2
            match c, this with
            | [], _ => simp
            | [x], _ => simp
          · obtain ⟨w, h1, h2⟩ := sortInternal_order hs hm hv hl1 (fun y hy => by rw [(hl1m y hy).2]; exact angleOf_range _ _) h2
              (by
                obtain ⟨x, hx⟩ : ∃ x, x ∈ xs := List.exists_mem_of_length_pos (by omega)
                exact ⟨x, hx, by rw [DP.atEnd]; exact (hfr x hx).track.atEnd⟩) e2
              (θ := fun d => angleOf nd.pos (p d)) (fun y hy => by rw [hp y hy, (hl1m y hy).2])
            rw [hc]; exact ⟨w, h1, h2⟩
        have hcross : ∀ d ∈ c, Crossing (pointsOf s d) nd.pos r2 (p d) := by
          intro d hd
          have : d ∈ l1.map (·.label) := by rw [lab]; exact hperm.mem_iff.1 hd
          obtain ⟨y, hy, rfl⟩ := List.mem_map.1 this
          rw [hp y hy]; exact (hl1m y hy).1
        obtain ⟨U, u1, u2, u3⟩ := hres.uns
        rw [← hc] at u2
        cases hcc : c with
        | nil =>
          have := (hcm nd.anchor).2 (by
            obtain ⟨haL, hast, hcov⟩ := (hg.nodes n nd hnd).resolve_left (fun h => h0 h.1)
            exact hast)
          rw [hcc] at this; cases this
        | cons d ds =>
          rw [hcc] at hcn hcm hord hcross u2
          simp only
          have hmemL : ∀ x, x ∈ d :: ds ↔ (x ∈ L ∧ s.startN? x = some n) := by
            intro x
            rw [hcm]
            exact ⟨fun h => ⟨(hg.live x).mpr (liveD_of_start h), h⟩, fun h => h.2⟩
          obtain ⟨π', hπ'⟩ := linkCycle_graph hg hcn hmemL
          obtain ⟨sg, sgi, hfr'⟩ := linkCycle_frame d ds d s
          have hsl := sigmaList_link hcn hcm
          refine ⟨_, _, π', rfl, hπ', ⟨sg, sgi, hfr'⟩, fun x hx => ?_, ?_, ⟨U, u1, ?_⟩, hres.splits⟩
          · refine linkCycle_sigma_other d ds d s x ?_
            rw [hcm]; exact hx
          · intro nd' hnd'
            rw [hnd] at hnd'
            cases hnd'
            obtain ⟨w, h1, h2⟩ := hord
            exact ⟨d :: ds, p, w, hsl, hcross, h1, h2⟩
          · intro u hu
            obtain ⟨P, Q, e⟩ := u2.mem u hu
            refine ⟨(u3 u hu).1, fun x hx => ?_, ?_⟩
            · rw [← hsl.2.1, e]; simp [hx]
            · have := sigmaList_chain hsl
              rw [e, List.append_assoc] at this
              exact (this.right_of_append).left_of_append

theorem orderOK_frame {s s' t t' : GMap ℝ} {r2 m : ℝ} {n : Nat} (hn : s'.node = s.node) (he : s'.edge = s.edge) (hst : t'.startN? = t.startN?)
    (hsg : ∀ d, t.startN? d = some n → t'.sigma d = t.sigma d) (h : OrderOK s t r2 m n) : OrderOK s' t' r2 m n := by
  intro nd hnd
  rw [hn] at hnd
  obtain ⟨r, p, w, h1, h2, h3, h4⟩ := h nd hnd
  refine ⟨r, p, w, ⟨h1.1, fun d => by rw [hst]; exact h1.2.1 d, fun i hi => ?_⟩, ?_, h3, h4⟩
  · rw [hsg _ ((h1.2.1 _).1 (List.getElem_mem hi))]; exact h1.2.2 i hi
  · intro d hd
    have : pointsOf s' d = pointsOf s d := by rw [pointsOf, pointsOf, he]
    rw [this]; exact h2 d hd

theorem groupsOK_frame {t t' : GMap ℝ} {n : Nat} (hst : t'.startN? = t.startN?) (hsg : ∀ d, t.startN? d = some n → t'.sigma d = t.sigma d)
    {u : List Int} (h : GroupsOK t n u) : GroupsOK t' n u := by
  refine ⟨h.two, fun d hd => by rw [hst]; exact h.start d hd, ?_⟩
  have := h.next
  rw [List.isChain_iff_getElem] at this ⊢
  intro i hi
  rw [hsg _ (h.start _ (List.getElem_mem _))]
  exact this i hi

theorem sortNodes_spec {srt : List DPA → List DPA} (hs : Sorter srt) {r2 m : ℝ} (hr : 0 < r2) (hm : 0 < m) (fuel : Nat) :
    ∀ (ns : List Nat), ns.Nodup → ∀ {s : GMap ℝ} {L : Finset Int} {π : Perm Int},
    GraphRep s L π → GeomOK s → EdgesLong s → ∀ st : St,
    sortNodes srt fuel r2 m ns s st = .hang ∨
    ∃ t st' π', sortNodes srt fuel r2 m ns s st = .ok (t, st') ∧ GraphRep t L π' ∧ (∃ sg sgi, t = { s with sigma := sg, sigmaInv := sgi }) ∧
      (∀ d, (∀ n ∈ ns, s.startN? d ≠ some n) → t.sigma d = s.sigma d) ∧ (∀ n ∈ ns, OrderOK s t r2 m n) ∧
      (∃ U, st'.unsortable = st.unsortable ++ U ∧ ∀ u ∈ U, ∃ n ∈ ns, GroupsOK t n u) ∧ st'.splits.isSome = st.splits.isSome := by
  intro ns
  induction ns with
  | nil =>
    intro _ s L π hg hgeo hlong st
    exact Or.inr ⟨s, st, π, rfl, hg, ⟨_, _, rfl⟩, fun _ _ => rfl, by simp, ⟨[], by simp, by simp⟩, rfl⟩
  | cons n ns ih =>
    intro hn s L π hg hgeo hlong st
    rw [List.nodup_cons] at hn
    unfold sortNodes
    rcases sortNode_spec hs hr hm fuel hg hgeo hlong st n with h | ⟨t, st1, π1, h1, h2, ⟨sg, sgi, h3⟩, h4, h5, ⟨U1, h6, h6'⟩, h7⟩
    · left; rw [h]; rfl
    · rw [h1, Outcome.bind_ok]
      have ht : t.edge = s.edge ∧ t.node = s.node ∧ t.startN? = s.startN? := by rw [h3]; exact ⟨rfl, rfl, rfl⟩
      have hgeo' : GeomOK t := by
        intro l e he
        rw [ht.1] at he
        rw [ht.2.1]; exact hgeo l e he
      have hlong' : EdgesLong t := by
        intro l e he
        rw [ht.1] at he; exact hlong l e he
      rcases ih hn.2 h2 hgeo' hlong' st1 with h | ⟨u, st2, π2, g1, g2, ⟨sg', sgi', g3⟩, g4, g5, ⟨U2, g6, g6'⟩, g7⟩
      · exact Or.inl h
      · have hu : u.startN? = s.startN? := by rw [g3, h3]; rfl
        have keep : ∀ d, t.startN? d = some n → u.sigma d = t.sigma d := by
          intro d hd
          refine g4 d (fun k hk e => ?_)
          rw [hd] at e
          exact hn.1 (Option.some.inj e ▸ hk)
        refine Or.inr ⟨u, st2, π2, g1, g2, ⟨sg', sgi', by rw [g3, h3]⟩, fun d hd => ?_, ?_, ⟨U1 ++ U2, by rw [g6, h6, List.append_assoc], ?_⟩, by rw [g7, h7]⟩
        · rw [g4 d (fun k hk => by rw [ht.2.2]; exact hd k (by simp [hk])), h4 d (hd n (by simp))]
        · intro k hk
          rcases List.mem_cons.1 hk with rfl | hk
          · exact orderOK_frame rfl rfl (by rw [hu, ht.2.2]) keep h5
          · exact orderOK_frame ht.2.1.symm ht.1.symm rfl (fun _ _ => rfl) (g5 k hk)
        · intro v hv
          rcases List.mem_append.1 hv with hv | hv
          · exact ⟨n, by simp, groupsOK_frame (by rw [hu, ht.2.2]) keep (h6' v hv)⟩
          · obtain ⟨k, hk, h⟩ := g6' v hv
            exact ⟨k, by simp [hk], h⟩

end Verif.Eventually
