import Verif.SetPosition.Model
import Verif.GeoMap.Example
import Verif.GeoMap.Props2

/-! # Moving a node: properties (C47) -/

namespace Verif.SetPosition
open Verif Verif.GeoMap Equiv Equiv.Perm Verif.PermLemmas

variable {K : Type}

/-! ## Specification -/

/-- The points `pts'` are `pts` with the points at the moved ends replaced by `p`. -/
def MovedPts (first last : Prop) (p : Pt K) (pts pts' : List (Pt K)) : Prop :=
  pts'.length = pts.length ∧ ∀ i, i < pts.length →
    (((i = 0 ∧ first) ∨ (i + 1 = pts.length ∧ last)) → pts'[i]? = some p) ∧
    (¬ ((i = 0 ∧ first) ∨ (i + 1 = pts.length ∧ last)) → pts'[i]? = pts[i]?)

/-- Every end of an edge at the node `n` moved to `p`, nothing else changed. -/
structure Moved (s t : GMap K) (n : Nat) (p : Pt K) : Prop where
  /-- the node has the new position -/
  node : ∀ nd, s.node n = some nd → t.node n = some { nd with pos := p }
  other_node : ∀ m, m ≠ n → t.node m = s.node m
  /-- an edge keeps everything but its points; the first (last) point moved iff it starts (ends) at the node -/
  edge : ∀ l e, s.edge l = some e → ∃ pts', t.edge l = some { e with pts := pts' } ∧
    MovedPts (e.startN = n) (e.endN = n) p e.pts pts'
  no_edge : ∀ l, s.edge l = none → t.edge l = none
  rest : t = { s with
    node := t.node
    edge := t.edge }

/-! ## The loop -/

/-- the ends of the darts in `V` are moved -/
structure Partly (s t : GMap K) (V : Int → Prop) (p : Pt K) : Prop where
  edge : ∀ l e, s.edge l = some e → ∃ pts', t.edge l = some { e with pts := pts' } ∧
    MovedPts (V l) (V (-l)) p e.pts pts'
  no_edge : ∀ l, s.edge l = none → t.edge l = none
  rest : t = { s with edge := t.edge }

theorem MovedPts.congr {a b a' b' : Prop} {p : Pt K} {l m : List (Pt K)} (h : MovedPts a b p l m) (ha : a ↔ a') (hb : b ↔ b') :
    MovedPts a' b' p l m := by
  rw [show a' = a from (propext ha).symm, show b' = b from (propext hb).symm]
  exact h

theorem MovedPts.set_first {a b : Prop} {p : Pt K} {l m : List (Pt K)} (h : MovedPts a b p l m) : MovedPts True b p l (m.set 0 p) := by
  obtain ⟨h1, h2⟩ := h
  refine ⟨by rw [List.length_set, h1], fun i hi => ?_⟩
  by_cases h0 : i = 0
  · subst h0
    refine ⟨fun _ => ?_, fun hc => absurd (.inl ⟨rfl, trivial⟩) hc⟩
    rw [List.getElem?_set_self (by omega)]
  · rw [List.getElem?_set_ne (by omega)]
    refine ⟨fun hc => (h2 i hi).1 ?_, fun hc => (h2 i hi).2 ?_⟩
    · rcases hc with hc | hc
      · exact absurd hc.1 h0
      · exact .inr hc
    · rintro (hc' | hc')
      · exact h0 hc'.1
      · exact hc (.inr hc')

theorem MovedPts.set_last {a b : Prop} {p : Pt K} {l m : List (Pt K)} (h : MovedPts a b p l m) :
    MovedPts a True p l (m.set (m.length - 1) p) := by
  obtain ⟨h1, h2⟩ := h
  refine ⟨by rw [List.length_set, h1], fun i hi => ?_⟩
  by_cases h0 : i + 1 = l.length
  · refine ⟨fun _ => ?_, fun hc => absurd (.inr ⟨h0, trivial⟩) hc⟩
    rw [show m.length - 1 = i by omega, List.getElem?_set_self (by omega)]
  · rw [List.getElem?_set_ne (by omega)]
    refine ⟨fun hc => (h2 i hi).1 ?_, fun hc => (h2 i hi).2 ?_⟩
    · rcases hc with hc | hc
      · exact .inl hc
      · exact absurd hc.1 h0
    · rintro (hc' | hc')
      · exact hc (.inl hc')
      · exact h0 hc'.1

theorem MovedPts.refl (p : Pt K) (l : List (Pt K)) : MovedPts False False p l l :=
  ⟨rfl, fun i _ => ⟨fun h => by simp at h, fun _ => rfl⟩⟩

theorem Partly.step {s t : GMap K} {V : Int → Prop} {p : Pt K} (h : Partly s t V p) (hs : LabelsOK s) {d : Int} (hd : s.liveD d) :
    ∃ e e', t.guaranteedEdge d = .ok e ∧ setFirst e d p = .ok e' ∧
      Partly s (t.setEdge d.natAbs (some e')) (fun x => V x ∨ x = d) p := by
  obtain ⟨e0, he0⟩ := liveD_exists hd
  obtain ⟨pts, hp, hm⟩ := h.edge _ _ he0
  have hne : pts ≠ [] := by
    intro hc
    have h1 := hm.1
    rw [hc] at h1
    exact hs.pts_ne _ _ he0 (List.eq_nil_of_length_eq_zero h1.symm)
  have h0 : d ≠ 0 := hs.liveD_ne_zero hd
  have other : ∀ (x : Edge K) l, l ≠ d.natAbs → (t.setEdge d.natAbs (some x)).edge l = t.edge l := by
    intro x l hl
    exact Function.update_of_ne hl _ _
  have self : ∀ (x : Edge K), (t.setEdge d.natAbs (some x)).edge d.natAbs = some x := by
    intro x
    exact Function.update_self _ _ _
  have fin : ∀ pts', MovedPts (V (d.natAbs : Int) ∨ (d.natAbs : Int) = d) (V (-(d.natAbs : Int)) ∨ -(d.natAbs : Int) = d) p e0.pts pts' →
      Partly s (t.setEdge d.natAbs (some { e0 with pts := pts' })) (fun x => V x ∨ x = d) p := by
    intro pts' hpts
    refine ⟨fun l e he => ?_, fun l hl => ?_, ?_⟩
    · by_cases hl : l = d.natAbs
      · subst hl
        rw [he0] at he
        cases he
        exact ⟨pts', self _, hpts⟩
      · obtain ⟨q, hq, hq'⟩ := h.edge l e he
        refine ⟨q, by rw [other _ _ hl]; exact hq, hq'.congr ?_ ?_⟩
        · exact ⟨.inl, fun hc => hc.resolve_right fun hx => hl (by omega)⟩
        · exact ⟨.inl, fun hc => hc.resolve_right fun hx => hl (by omega)⟩
    · have : l ≠ d.natAbs := by
        rintro rfl
        rw [he0] at hl
        cases hl
      rw [other _ _ this]
      exact h.no_edge l hl
    · unfold GMap.setEdge
      rw [h.rest]
  have hne' : ¬ ({ e0 with pts := pts } : Edge K).pts = [] := hne
  rcases lt_or_gt_of_ne h0 with hneg | hpos
  · refine ⟨{ e0 with pts := pts }, { e0 with pts := pts.set (pts.length - 1) p }, guaranteedEdge_of hp, ?_, fin _ ?_⟩
    · rw [setFirst, if_neg hne', if_neg (by omega)]
    · refine hm.set_last.congr ⟨.inl, fun hc => hc.resolve_right (by omega)⟩ ⟨fun _ => .inr (by omega), fun _ => trivial⟩
  · refine ⟨{ e0 with pts := pts }, { e0 with pts := pts.set 0 p }, guaranteedEdge_of hp, ?_, fin _ ?_⟩
    · rw [setFirst, if_neg hne', if_pos hpos]
    · refine hm.set_first.congr ⟨fun _ => .inr (by omega), fun _ => trivial⟩ ⟨.inl, fun hc => hc.resolve_right (by omega)⟩

theorem loop_spec {s : GMap K} {L : Finset Int} {π : Perm Int} (hg : GraphRep s L π) {p : Pt K} {d : Int} (hd : d ∈ L) (n k : Nat)
    (hk : k < Function.minimalPeriod s.sigma d) (hn : Function.minimalPeriod s.sigma d - k ≤ n) {t : GMap K}
    (ht : Partly s t (fun x => ∃ j < k, s.sigma^[j] d = x) p) :
    ∃ u, loop p d n t (s.sigma^[k] d) = .ok u ∧
      Partly s u (fun x => ∃ j < Function.minimalPeriod s.sigma d, s.sigma^[j] d = x) p := by
  induction n generalizing k t with
  | zero => omega
  | succ n ih =>
    obtain ⟨e, e', h1, h2, h3⟩ := ht.step hg.labels ((hg.live _).mp (hg.rep.iterate_mem hd k).2)
    have hsig : (t.setEdge (s.sigma^[k] d).natAbs (some e')).nextSigma (s.sigma^[k] d) = s.sigma^[k + 1] d := by
      rw [Function.iterate_succ_apply']
      have := h3.rest
      unfold GMap.nextSigma
      rw [this]
    have hV : (fun x => (∃ j < k, s.sigma^[j] d = x) ∨ x = s.sigma^[k] d) = fun x => ∃ j < k + 1, s.sigma^[j] d = x := by
      funext x
      apply propext
      constructor
      · rintro (⟨j, hj, e⟩ | e)
        · exact ⟨j, by omega, e⟩
        · exact ⟨k, by omega, e.symm⟩
      · rintro ⟨j, hj, e⟩
        rcases Nat.lt_succ_iff_lt_or_eq.mp hj with hj | rfl
        · exact .inl ⟨j, hj, e⟩
        · exact .inr e.symm
    rw [hV] at h3
    rw [loop, h1]
    simp only [Outcome.bind_ok]
    rw [h2]
    simp only [Outcome.bind_ok]
    rw [hsig]
    by_cases hk1 : k + 1 = Function.minimalPeriod s.sigma d
    · have e : s.sigma^[k + 1] d = d := by rw [hk1]; exact Function.iterate_minimalPeriod
      rw [if_pos e]
      exact ⟨_, rfl, hk1 ▸ h3⟩
    · rw [if_neg (hg.rep.iterate_ne (by omega) (by omega))]
      exact ih (k + 1) (by omega) (by omega) h3

/-! ## Properties -/

/-- C47: `setPosition` of a node of a consistent map moves the node and those ends of edges that are at the
node (both ends of a loop), and changes nothing else. -/
theorem setPosition_moved {s : GMap K} (hs : GraphOK s) {n : Nat} {nd : Node K} (hn : s.node n = some nd) (p : Pt K) :
    ∃ t, setPosition s n p = .ok t ∧ Moved s t n p := by
  obtain ⟨π, hg⟩ := hs.exists_rep
  unfold setPosition
  rw [hn]
  simp only
  have hnode : ∀ m, m ≠ n → (s.setNode n (some { nd with pos := p })).node m = s.node m :=
    fun m hm => Function.update_of_ne hm _ _
  have hself : (s.setNode n (some { nd with pos := p })).node n = some { nd with pos := p } := Function.update_self _ _ _
  by_cases h0 : nd.anchor = 0
  · rw [if_pos h0]
    refine ⟨_, rfl, fun nd' h' => ?_, hnode, fun l e he => ⟨e.pts, he, ?_⟩, fun l hl => hl, rfl⟩
    · rw [hn] at h'
      cases h'
      exact hself
    · have h1 : e.startN ≠ n := by
        intro hc
        refine hs.anchor_zero n nd hn h0 l ?_
        have hl0 : l ≠ 0 := by
          rintro rfl
          rw [hs.edge_zero] at he
          cases he
        simp [GMap.startN?, he, Edge.startOf, hc]
        omega
      have h2 : e.endN ≠ n := by
        intro hc
        refine hs.anchor_zero n nd hn h0 (-l) ?_
        simp [GMap.startN?, he, Edge.startOf, hc]
      exact (MovedPts.refl p e.pts).congr (by simp [h1]) (by simp [h2])
  · rw [if_neg h0]
    set s1 := s.setNode n (some { nd with pos := p }) with hs1
    have hstart := hs.anchor_start n nd hn h0
    have hd : nd.anchor ∈ s.darts := (hg.live _).mpr (liveD_of_start hstart)
    have hper := hg.rep.isPeriodicPt hd
    have hcard := hg.card_le
    -- the same graph, with the node moved
    have hg1 : GraphRep s1 s.darts π := by
      have hsome : ∀ m, (s1.node m).isSome = (s.node m).isSome := by
        intro m
        by_cases hm : m = n
        · subst hm
          rw [hself, hn]
          rfl
        · rw [hnode m hm]
      refine ⟨⟨hs.edges_pos, hs.edge_zero, fun m hm => hs.node_lt m (by rw [← hsome]; exact hm), hs.edge_lt, hs.face_lt, ?_,
        hs.edge_count, hs.face_count, hs.pts_ne⟩, hg.live, hg.rep, ?_, ?_⟩
      · have : s1.liveNodes = s.liveNodes := by
          unfold GMap.liveNodes
          apply Finset.filter_congr
          intro m _
          rw [hsome]
        rw [this]
        exact hs.node_count
      · intro d hd
        obtain ⟨m, a, b, c⟩ := hg.starts d hd
        exact ⟨m, a, by rw [hsome]; exact b, c⟩
      · intro m nd' hm
        by_cases hmn : m = n
        · subst hmn
          rw [hself] at hm
          cases hm
          exact hg.nodes m nd hn
        · rw [hnode m hmn] at hm
          exact hg.nodes m nd' hm
    obtain ⟨t, h1, h2⟩ := loop_spec hg1 (p := p) hd s1.fuel 0 hper.1 (by
      show _ ≤ 2 * s.nEdges + 1
      have : Function.minimalPeriod s1.sigma nd.anchor ≤ s.darts.card := hper.2
      omega) (t := s1) ⟨fun l e he => ⟨e.pts, he, (MovedPts.refl p e.pts).congr (by simp) (by simp)⟩, fun l hl => hl, rfl⟩
    refine ⟨t, h1, ?_⟩
    have hV : ∀ d, s.liveD d → ((∃ j < Function.minimalPeriod s1.sigma nd.anchor, s1.sigma^[j] nd.anchor = d) ↔ s.startN? d = some n) := by
      intro d hdl
      constructor
      · rintro ⟨j, -, e⟩
        have hc : SameCycle π nd.anchor d := (hg.rep.sameCycle_iff hd).mpr ⟨j, e⟩
        obtain ⟨k, hk⟩ := (hg.rep.sameCycle_iff hd).mp hc
        have : ∀ i, s.startN? (s.sigma^[i] nd.anchor) = some n := by
          intro i
          induction i with
          | zero => exact hstart
          | succ i ih =>
            rw [Function.iterate_succ_apply']
            have := hs.start_sigma (s.sigma^[i] nd.anchor) ((hg.live _).mp (hg.rep.iterate_mem hd i).2)
            rw [ih] at this
            exact this
        rw [← hk]
        exact this k
      · intro hst
        obtain ⟨k, hk⟩ := hs.anchor_cover n nd hn h0 d hst
        exact hg.rep.iterate_lt hd ((hg.rep.sameCycle_iff hd).mpr ⟨k, hk⟩)
    refine ⟨fun nd' h' => ?_, fun m hm => ?_, fun l e he => ?_, h2.no_edge, ?_⟩
    · rw [hn] at h'
      cases h'
      rw [h2.rest]
      exact hself
    · rw [h2.rest]
      exact hnode m hm
    · obtain ⟨pts', a, b⟩ := h2.edge l e he
      have hl0 : l ≠ 0 := by
        rintro rfl
        rw [hs.edge_zero] at he
        cases he
      have live1 : s.liveD l := by simp [GMap.liveD, he]
      have live2 : s.liveD (-l) := liveD_neg.mpr live1
      refine ⟨pts', a, b.congr ?_ ?_⟩
      · rw [hV _ live1]
        simp only [GMap.startN?, Int.natAbs_natCast, he, Edge.startOf, Option.map_some, Option.some.injEq]
        rw [if_pos (by omega)]
      · rw [hV _ live2]
        simp only [GMap.startN?, Int.natAbs_neg, Int.natAbs_natCast, he, Edge.startOf, Option.map_some, Option.some.injEq]
        rw [if_neg (by omega)]
    · rw [h2.rest]
      rfl

/-- the dart's points, in its direction: the first point of each dart that starts at the moved node is the new
position. -/
theorem Moved.dart_start {s t : GMap K} {n : Nat} {p : Pt K} (hs : GraphOK s) (h : Moved s t n p) {d : Int} (hd : s.startN? d = some n) :
    ∃ e', t.edge d.natAbs = some e' ∧ (e'.dartPts d).head? = some p := by
  obtain ⟨e, he⟩ := liveD_exists (liveD_of_start hd)
  obtain ⟨pts', h1, h2, h3⟩ := h.edge _ _ he
  have hlen : 0 < e.pts.length := List.length_pos_iff.mpr (hs.pts_ne _ _ he)
  refine ⟨_, h1, ?_⟩
  simp only [GMap.startN?, he, Edge.startOf, Option.map_some, Option.some.injEq] at hd
  unfold Edge.dartPts
  simp only
  split_ifs with hpos
  · rw [if_pos hpos] at hd
    rw [List.head?_eq_getElem?]
    exact (h3 0 hlen).1 (.inl ⟨rfl, hd⟩)
  · rw [if_neg hpos] at hd
    rw [List.head?_reverse, List.getLast?_eq_getElem?, h2]
    exact (h3 (e.pts.length - 1) (by omega)).1 (.inr ⟨by omega, hd⟩)

/-- C47: if no edge consists of a single point, the ends of all edges stay attached to their nodes. -/
theorem setPosition_attached {s t : GMap K} (hs : GraphOK s) (hG : GeomOK s)
    (h2pts : ∀ l e, s.edge l = some e → 2 ≤ e.pts.length) {n : Nat} {p : Pt K} (h : setPosition s n p = .ok t) : GeomOK t := by
  obtain ⟨nd, hn⟩ : ∃ nd, s.node n = some nd := by
    cases hn : s.node n with
    | none => rw [setPosition, hn] at h; cases h
    | some nd => exact ⟨nd, rfl⟩
  obtain ⟨t', h1, hm⟩ := setPosition_moved hs hn p
  rw [h] at h1
  cases h1
  intro l e' he'
  cases he : s.edge l with
  | none => rw [hm.no_edge l he] at he'; cases he'
  | some e =>
    obtain ⟨pts', h1, h2, h3⟩ := hm.edge l e he
    rw [h1] at he'
    cases he'
    have hlen : 0 < e.pts.length := List.length_pos_iff.mpr (hs.pts_ne _ _ he)
    obtain ⟨g1, g2⟩ := hG l e he
    rw [List.head?_eq_getElem?] at g1 ⊢
    rw [List.getLast?_eq_getElem?] at g2 ⊢
    simp only
    have hl2 := h2pts l e he
    constructor
    · by_cases hsn : e.startN = n
      · rw [(h3 0 hlen).1 (.inl ⟨rfl, hsn⟩), hsn, hm.node nd hn]
        rfl
      · rw [(h3 0 hlen).2 (by omega), g1, hm.other_node _ hsn]
    · rw [h2]
      by_cases hsn : e.endN = n
      · rw [(h3 (e.pts.length - 1) (by omega)).1 (.inr ⟨by omega, hsn⟩), hsn, hm.node nd hn]
        rfl
      · rw [(h3 (e.pts.length - 1) (by omega)).2 (by omega), g2, hm.other_node _ hsn]

/-- A removed or never added node cannot be moved. -/
theorem setPosition_dead {s : GMap K} {n : Nat} (hn : s.node n = none) (p : Pt K) : setPosition s n p = .precond := by
  unfold setPosition
  rw [hn]

/-- The cached areas of the faces around a node survive a move: `Face::area()` then returns the old area (`a`), not the
area of the face's contours (`b`). -/
theorem setPosition_area_violated : ∃ (s t : GMap ℚ) (F : Face ℚ) (n f : Nat) (p : Pt ℚ) (a b : ℚ), ReachG s ∧ setPosition s n p = .ok t ∧
    t.face f = some F ∧ (t.faceArea (some f)).map (·.1) = .ok a ∧ t.sumContourAreas F.anchors 0 = .ok b ∧ a ≠ b := by
  refine ⟨Example.map, Example.val .empty (setPosition Example.map 0 (-1, 0)), ?F, 0, 1, (-1, 0), ?a, ?b, Example.reach_map,
    Example.ok_val (by decide +kernel), ?_, ?_, ?_, ?_⟩
  case F => exact ((Example.val .empty (setPosition Example.map 0 (-1, 0))).face 1).getD ⟨[], none, 0⟩
  case a => exact Example.val 0 (((Example.val .empty (setPosition Example.map 0 (-1, 0))).faceArea (some 1)).map (·.1))
  case b => exact Example.val 0 ((Example.val .empty (setPosition Example.map 0 (-1, 0))).sumContourAreas
    (((Example.val .empty (setPosition Example.map 0 (-1, 0))).face 1).getD ⟨[], none, 0⟩).anchors 0)
  · decide +kernel
  · exact Example.ok_val (by decide +kernel)
  · exact Example.ok_val (by decide +kernel)
  · decide +kernel

/-! ## Examples -/

/-- the example map meets the hypotheses, and its node 1 has degree 4 -/
example : GraphOK Example.map ∧ GeomOK Example.map ∧ (∀ l e, Example.map.edge l = some e → 2 ≤ e.pts.length) ∧
    Example.map.startN? (-1) = some 1 ∧ Example.map.startN? (-2) = some 1 ∧ Example.map.startN? 4 = some 1 := by
  refine ⟨Example.reach_map.reach.good.map.graph, Example.reach_map.geom.geom, fun l e he => ?_, by decide +kernel, by decide +kernel, by decide +kernel⟩
  have hl := Example.reach_map.reach.good.map.graph.edge_lt l (by rw [he]; rfl)
  have hn : Example.map.nEdges = 5 := by decide +kernel
  rw [hn] at hl
  have key : ∀ l < 5, 2 ≤ ((Example.map.edge l).map fun e => e.pts.length).getD 2 := by decide +kernel
  have := key l hl
  rw [he] at this
  exact this

end Verif.SetPosition
