import Verif.GeoMap.Sort

/-! # `initContours` -/

namespace Verif.GeoMap
open Equiv Equiv.Perm Verif.PermLemmas

variable {K : Type}

open Classical in
theorem orbit_image {s : GMap K} {L : Finset Int} {ψ : Perm Int} (hr : Rep L s.phi s.phiInv ψ) {a : Int} (ha : a ∈ L) :
    (Finset.range (Function.minimalPeriod s.phi a)).image (fun i => s.phi^[i] a) = L.filter (SameCycle ψ a) := by
  ext x
  rw [Finset.mem_image, Finset.mem_filter]
  constructor
  · rintro ⟨i, -, rfl⟩
    exact ⟨(hr.iterate_mem ha _).2, (hr.sameCycle_iff ha).mpr ⟨_, rfl⟩⟩
  · rintro ⟨-, hc⟩
    obtain ⟨k, hk, e⟩ := hr.iterate_lt ha hc
    exact ⟨k, by simpa using hk, e⟩

theorem leftLabel_eq {s : GMap K} {d : Int} (hd : s.liveD d) : s.leftLabel d = .ok (s.left? d) := by
  obtain ⟨e, he⟩ := liveD_exists hd
  rw [left?_of he, GMap.leftLabel, guaranteedEdge_of he]; rfl

theorem relabel_liveD {s : GMap K} {P : Finset Int} {S : Nat} {d : Int} : (s.relabel P S).liveD d ↔ s.liveD d := by
  simp [GMap.liveD, GMap.relabel]

theorem markLoop_eq' {s : GMap K} {L : Finset Int} {ψ : Perm Int} (hr : Rep L s.phi s.phiInv ψ)
    (hl : ∀ d ∈ L, s.liveD d ∧ d ≠ 0) (S : Nat) (stop : Option Nat → Bool) (hstop : stop (some S) = true) {a : Int} (ha : a ∈ L)
    (hgo : ∀ x, SameCycle ψ a x → stop (s.left? x) = false) (n k : Nat)
    (hk : k ≤ Function.minimalPeriod s.phi a) (hn : Function.minimalPeriod s.phi a - k < n) :
    GMap.markLoop S stop n (s.relabel ((Finset.range k).image (fun i => s.phi^[i] a)) S) (s.phi^[k] a) =
      .ok (s.relabel ((Finset.range (Function.minimalPeriod s.phi a)).image (fun i => s.phi^[i] a)) S) := by
  induction n generalizing k with
  | zero => omega
  | succ n ih =>
    unfold GMap.markLoop
    have hlv := hl _ (hr.iterate_mem ha k).2
    have hcy : SameCycle ψ a (s.phi^[k] a) := (hr.sameCycle_iff ha).mpr ⟨_, rfl⟩
    simp only [bind, leftLabel_eq (relabel_liveD.mpr hlv.1), Outcome.bind_ok]
    rw [relabel_left s _ S hlv.1 hlv.2]
    by_cases hkp : k = Function.minimalPeriod s.phi a
    · have hp := (hr.isPeriodicPt ha).1
      have hmem : s.phi^[k] a ∈ (Finset.range k).image (fun i => s.phi^[i] a) := by
        rw [Finset.mem_image]
        refine ⟨0, by simpa using (by omega : 0 < k), ?_⟩
        rw [hkp, Function.iterate_minimalPeriod]; rfl
      rw [if_pos hmem, if_pos hstop, hkp]
    · have hmem : s.phi^[k] a ∉ (Finset.range k).image (fun i => s.phi^[i] a) := by
        rw [Finset.mem_image]
        rintro ⟨i, hi, e⟩
        simp only [Finset.mem_range] at hi
        have := Function.iterate_injOn_Iio_minimalPeriod (f := s.phi) (x := a)
          (show i ∈ Set.Iio _ by simp; omega) (show k ∈ Set.Iio _ by simp; omega) e
        omega
      rw [if_neg hmem, hgo _ hcy]
      simp only [Bool.false_eq_true, if_false]
      rw [relabel_setLeft s _ S hlv.1 hlv.2]
      simp only [Outcome.bind_ok]
      have := ih (k + 1) (by omega) (by omega)
      rw [Finset.range_add_one, Finset.image_insert, Function.iterate_succ_apply'] at this
      exact this

open Classical in
theorem markLoop_eq {s : GMap K} {L : Finset Int} {ψ : Perm Int} (hr : Rep L s.phi s.phiInv ψ)
    (hl : ∀ d ∈ L, s.liveD d ∧ d ≠ 0) (hcard : L.card ≤ 2 * s.nEdges) (S : Nat) (stop : Option Nat → Bool)
    (hstop : stop (some S) = true) {a : Int} (ha : a ∈ L) (hgo : ∀ x, SameCycle ψ a x → stop (s.left? x) = false) :
    GMap.markLoop S stop s.fuel s a = .ok (s.relabel (L.filter (SameCycle ψ a)) S) := by
  have hp := hr.isPeriodicPt ha
  have := markLoop_eq' hr hl S stop hstop ha hgo s.fuel 0 (by omega) (by unfold GMap.fuel; omega)
  rw [orbit_image hr ha] at this
  simpa [relabel_empty] using this

/-- while contours are being collected -/
structure Collect (s : GMap K) (L : Finset Int) (π ψ : Perm Int) : Prop where
  graph : GraphRep s L π
  rep : Rep L s.phi s.phiInv ψ
  left : ∀ d ∈ L, ∀ f, s.left? d = some f → f ≠ 0 ∧ (s.face f).isSome = true
  const : ∀ d ∈ L, s.left? (ψ d) = s.left? d
  faces : FacesOK L ψ s.left? s.face
  pos : 0 < s.nFaces
  face : ∀ f, f < s.nFaces → ∃ as, s.face f = some ⟨as, none, 0⟩ ∧ ((f = 0 ∧ as = []) ∨ (f ≠ 0 ∧ ∃ a, as = [a]))

theorem Collect.const' {s : GMap K} {L : Finset Int} {π ψ : Perm Int} (h : Collect s L π ψ) {a x : Int} (ha : a ∈ L)
    (hc : SameCycle ψ a x) : s.left? x = s.left? a := by
  obtain ⟨k, rfl⟩ := (h.rep.sameCycle_iff ha).mp hc
  clear hc
  induction k with
  | zero => rfl
  | succ k ih =>
    rw [Function.iterate_succ_apply', h.rep.eq _ (h.rep.iterate_mem ha k).2, h.const _ (h.rep.iterate_mem ha k).2, ih]

/-- what stays the same while faces are created -/
structure SameGraph (s t : GMap K) : Prop where
  node : t.node = s.node
  sigma : t.sigma = s.sigma
  sigmaInv : t.sigmaInv = s.sigmaInv
  nNodes : t.nNodes = s.nNodes
  nEdges : t.nEdges = s.nEdges
  nodeCount : t.nodeCount = s.nodeCount
  edgeCount : t.edgeCount = s.edgeCount
  sorted : t.edgesSorted = s.edgesSorted
  edge : ∀ l, (t.edge l).map (fun e => (e.startN, e.endN, e.pts, e.flags)) = (s.edge l).map (fun e => (e.startN, e.endN, e.pts, e.flags))

theorem SameGraph.refl (s : GMap K) : SameGraph s s := ⟨rfl, rfl, rfl, rfl, rfl, rfl, rfl, rfl, fun _ => rfl⟩

theorem SameGraph.trans {s t u : GMap K} (h : SameGraph s t) (g : SameGraph t u) : SameGraph s u :=
  ⟨g.node.trans h.node, g.sigma.trans h.sigma, g.sigmaInv.trans h.sigmaInv, g.nNodes.trans h.nNodes, g.nEdges.trans h.nEdges,
    g.nodeCount.trans h.nodeCount, g.edgeCount.trans h.edgeCount, g.sorted.trans h.sorted, fun l => (g.edge l).trans (h.edge l)⟩

theorem SameGraph.relabel (s : GMap K) (P : Finset Int) (S : Nat) : SameGraph s (s.relabel P S) :=
  ⟨rfl, rfl, rfl, rfl, rfl, rfl, rfl, rfl, fun l => by
    simp only [GMap.relabel, Option.map_map]; congr 1⟩

theorem GMap.phi_congr {s t : GMap K} (h : t.sigmaInv = s.sigmaInv) : t.phi = s.phi := by
  funext d; simp only [GMap.phi, GMap.prevSigma, h]

open Classical in
/-- a new face for an unlabelled contour -/
theorem newFace_spec {s : GMap K} {L : Finset Int} {π ψ : Perm Int} (h : Collect s L π ψ) {d : Int} (hd : d ∈ L) (hn : s.left? d = none) :
    ∃ t, s.newFace d = .ok t ∧ Collect t L π ψ ∧ SameGraph s t ∧ t.nFaces = s.nFaces + 1 ∧
      (∀ x ∈ L, t.left? x = if SameCycle ψ d x then some s.nFaces else s.left? x) := by
  obtain ⟨s1, hs1⟩ : ∃ s1, s1 = { s with nFaces := s.nFaces + 1
                                         face := Function.update s.face s.nFaces (some ⟨[d], none, 0⟩)
                                         faceCount := s.faceCount + 1 } := ⟨_, rfl⟩
  have hp := h.pos
  have hnone : s.face s.nFaces = none := by
    cases hh : s.face s.nFaces with
    | none => rfl
    | some x => have := h.graph.labels.face_lt s.nFaces (by simp [hh]); omega
  have hG1 : GraphRep s1 L π := by
    have hl := h.graph.labels
    have hF : s1.liveFaces = insert s.nFaces s.liveFaces := by
      ext m
      rw [hs1]
      simp only [GMap.liveFaces, Finset.mem_filter, Finset.mem_range, Finset.mem_insert, Function.update_apply]
      by_cases hm : m = s.nFaces
      · subst hm; simp
      · simp only [hm, if_false, false_or]
        constructor
        · rintro ⟨-, h⟩; exact ⟨hl.face_lt m h, h⟩
        · rintro ⟨h1, h⟩; exact ⟨by omega, h⟩
    have hFc : s1.faceCount = s1.liveFaces.card := by
      rw [hF, Finset.card_insert_of_notMem (by simp [GMap.liveFaces]), ← hl.face_count, hs1]
    have hFl : ∀ n, (s1.face n).isSome = true → n < s1.nFaces := by
      intro n hn
      rw [hs1] at hn ⊢
      simp only [Function.update_apply] at hn
      show n < s.nFaces + 1
      split_ifs at hn with h1
      · omega
      · have := hl.face_lt n hn; omega
    subst hs1
    exact ⟨⟨hl.edges_pos, hl.edge_zero, hl.node_lt, hl.edge_lt, hFl, hl.node_count, hl.edge_count, hFc, hl.pts_ne⟩,
      h.graph.live, h.graph.rep, h.graph.starts, h.graph.nodes⟩
  have hL : ∀ x ∈ L, s1.liveD x ∧ x ≠ 0 := fun x hx => ⟨(hG1.live x).mp hx, hG1.ne_zero hx⟩
  have hR1 : Rep L s1.phi s1.phiInv ψ := by rw [hs1]; exact h.rep
  have hleft1 : s1.left? = s.left? := by rw [hs1]; rfl
  have hml := markLoop_eq hR1 hL hG1.card_le s.nFaces (fun l => l.isSome) rfl hd (by
    intro x hx; rw [hleft1, h.const' hd hx, hn]; rfl)
  obtain ⟨t, ht⟩ : ∃ t, t = s1.relabel (L.filter (SameCycle ψ d)) s.nFaces := ⟨_, rfl⟩
  rw [← ht] at hml
  have hlt : ∀ x ∈ L, t.left? x = if SameCycle ψ d x then some s.nFaces else s.left? x := by
    intro x hx
    rw [ht, relabel_left s1 _ _ (hL x hx).1 (hL x hx).2, hleft1]
    simp [hx]
  have htface : t.face = Function.update s.face s.nFaces (some ⟨[d], none, 0⟩) := by rw [ht, hs1]; rfl
  refine ⟨t, ?_, ?_, ?_, by rw [ht, hs1]; rfl, hlt⟩
  · unfold GMap.newFace
    simp only [show s.nFaces ≠ 0 by omega, if_false]
    rw [← hs1]; exact hml
  · refine ⟨by rw [ht]; exact hG1.relabel _ _, by rw [ht]; exact hR1, ?_, ?_, ?_, by rw [ht, hs1]; exact Nat.succ_pos _, ?_⟩
    · intro x hx f hf
      rw [hlt x hx] at hf
      rw [htface]
      split_ifs at hf with h1
      · cases hf; exact ⟨by omega, by simp⟩
      · obtain ⟨g1, g2⟩ := h.left x hx f hf
        refine ⟨g1, ?_⟩
        rw [Function.update_of_ne]
        · exact g2
        · rintro rfl; rw [hnone] at g2; cases g2
    · intro x hx
      rw [hlt _ (h.rep.mem hx), hlt x hx, h.const x hx, sameCycle_apply_right]
    · intro f F hF
      rw [htface] at hF
      by_cases e : f = s.nFaces
      · subst e
        rw [Function.update_self] at hF
        cases hF
        refine ⟨?_, ?_, List.pairwise_singleton _ _⟩
        · intro a ha
          rw [List.mem_singleton] at ha; subst ha
          exact ⟨hd, by rw [hlt a hd, if_pos (SameCycle.refl _ _)]⟩
        · intro x hx hxl
          rw [hlt x hx] at hxl
          split_ifs at hxl with h1
          · exact ⟨d, by simp, h1⟩
          · have := h.left x hx _ hxl
            rw [hnone] at this; cases this.2
      · rw [Function.update_of_ne e] at hF
        have cl := h.faces f F hF
        refine ⟨?_, ?_, cl.unique⟩
        · intro a ha
          obtain ⟨g1, g2⟩ := cl.left a ha
          refine ⟨g1, ?_⟩
          rw [hlt a g1, if_neg]
          · exact g2
          · intro hc; rw [h.const' hd hc, hn] at g2; cases g2
        · intro x hx hxl
          rw [hlt x hx] at hxl
          split_ifs at hxl with h1
          · exact absurd (Option.some.inj hxl).symm e
          · exact cl.cover x hx hxl
    · intro f hf
      have hf' : f < s.nFaces + 1 := by rw [ht, hs1] at hf; exact hf
      rw [htface]
      by_cases e : f = s.nFaces
      · subst e
        rw [Function.update_self]
        exact ⟨[d], rfl, Or.inr ⟨by omega, d, rfl⟩⟩
      · rw [Function.update_of_ne e]; exact h.face f (by omega)
  · have : SameGraph s s1 := by rw [hs1]; exact ⟨rfl, rfl, rfl, rfl, rfl, rfl, rfl, rfl, fun _ => rfl⟩
    rw [ht]; exact this.trans (SameGraph.relabel _ _ _)

theorem initDart_spec {s : GMap K} {L : Finset Int} {π ψ : Perm Int} (h : Collect s L π ψ) (d : Int) :
    ∃ t, s.initDart d = .ok t ∧ Collect t L π ψ ∧ SameGraph s t ∧ (d ∈ L → ∃ f, t.left? d = some f) ∧
      (∀ x ∈ L, ∀ f, s.left? x = some f → t.left? x = some f) := by
  classical
  unfold GMap.initDart
  cases he : s.edge d.natAbs with
  | none =>
    refine ⟨s, rfl, h, SameGraph.refl s, fun hd => ?_, fun _ _ _ h => h⟩
    rw [h.graph.live] at hd
    simp [GMap.liveD, he] at hd
  | some e =>
    have hd : d ∈ L := (h.graph.live d).mpr (by simp [GMap.liveD, he])
    simp only
    rw [← left?_of he]
    by_cases hn : s.left? d = none
    · rw [if_pos hn]
      obtain ⟨t, h1, h2, h3, -, h4⟩ := newFace_spec h hd hn
      refine ⟨t, h1, h2, h3, fun _ => ⟨_, by rw [h4 d hd, if_pos (SameCycle.refl _ _)]⟩, fun x hx f hf => ?_⟩
      rw [h4 x hx, if_neg]
      · exact hf
      · intro hc; rw [h.const' hd hc, hn] at hf; cases hf
    · rw [if_neg hn]
      exact ⟨s, rfl, h, SameGraph.refl s, fun _ => Option.ne_none_iff_exists'.mp hn, fun _ _ _ h => h⟩

theorem initContoursLoop_spec : ∀ (ls : List Nat) {s : GMap K} {L : Finset Int} {π ψ : Perm Int}, Collect s L π ψ →
    ∃ t, GMap.initContoursLoop ls s = .ok t ∧ Collect t L π ψ ∧ SameGraph s t ∧
      (∀ l ∈ ls, ∀ d ∈ L, d.natAbs = l → ∃ f, t.left? d = some f) ∧
      (∀ x ∈ L, ∀ f, s.left? x = some f → t.left? x = some f) := by
  intro ls
  induction ls with
  | nil =>
    intro s L π ψ h
    exact ⟨s, rfl, h, SameGraph.refl s, by simp, fun _ _ _ h => h⟩
  | cons l ls ih =>
    intro s L π ψ h
    obtain ⟨t1, a1, a2, a3, a4, a5⟩ := initDart_spec h (l : Int)
    obtain ⟨t2, b1, b2, b3, b4, b5⟩ := initDart_spec a2 (-(l : Int))
    obtain ⟨t, c1, c2, c3, c4, c5⟩ := ih b2
    refine ⟨t, ?_, c2, (a3.trans b3).trans c3, ?_, fun x hx f hf => c5 x hx f (b5 x hx f (a5 x hx f hf))⟩
    · unfold GMap.initContoursLoop
      simp only [bind, a1, Outcome.bind_ok, b1, c1]
    · intro l' hl' d hd hdl
      rw [List.mem_cons] at hl'
      rcases hl' with rfl | hl'
      · rcases (by omega : d = (l' : Int) ∨ d = -(l' : Int)) with rfl | rfl
        · obtain ⟨f, hf⟩ := a4 hd
          exact ⟨f, c5 _ hd f (b5 _ hd f hf)⟩
        · obtain ⟨f, hf⟩ := b4 hd
          exact ⟨f, c5 _ hd f hf⟩
      · exact c4 l' hl' d hd hdl

/-- `initContours` on an uninitialised graph without face labels: every contour becomes a face -/
theorem initContours_spec {s : GMap K} {L : Finset Int} {π ψ : Perm Int} (hg : GraphRep s L π) (hr : Rep L s.phi s.phiInv ψ)
    (hi : s.nFaces = 0) (hl : ∀ d ∈ L, s.left? d = none) :
    ∃ t, s.initContours = .ok t ∧ Collect t L π ψ ∧ ContoursRep t L ψ ∧ SameGraph s t := by
  have hnone : ∀ f, s.face f = none := by
    intro f
    cases hh : s.face f with
    | none => rfl
    | some x => have := hg.labels.face_lt f (by simp [hh]); omega
  obtain ⟨s1, hs1⟩ : ∃ s1, s1 = { s with nFaces := 1
                                         face := Function.update s.face 0 (some ⟨[], none, 0⟩)
                                         faceCount := s.faceCount + 1 } := ⟨_, rfl⟩
  have hnf : s.newFace 0 = .ok s1 := by
    unfold GMap.newFace
    simp only [hi, if_true]
    rw [hs1]
  have hleft1 : s1.left? = s.left? := by rw [hs1]; rfl
  have hface1 : s1.face = Function.update s.face 0 (some ⟨[], none, 0⟩) := by rw [hs1]
  have hC : Collect s1 L π ψ := by
    have hlb := hg.labels
    refine ⟨?_, by rw [hs1]; exact hr, ?_, ?_, ?_, by rw [hs1]; exact Nat.one_pos, ?_⟩
    · have hFc : s1.faceCount = s1.liveFaces.card := by
        have h0 : s.liveFaces = ∅ := by simp [GMap.liveFaces, hi]
        have h1 : s1.liveFaces = {0} := by
          ext m
          rw [hs1]
          simp only [GMap.liveFaces, Finset.mem_filter, Finset.mem_range, Finset.mem_singleton, Function.update_apply]
          constructor
          · rintro ⟨h, -⟩; omega
          · rintro rfl; simp
        rw [h1, hs1, Finset.card_singleton]
        have := hlb.face_count
        rw [h0, Finset.card_empty] at this
        show s.faceCount + 1 = 1
        omega
      have hFl : ∀ n, (s1.face n).isSome = true → n < s1.nFaces := by
        intro n hn
        rw [hface1, Function.update_apply] at hn
        rw [hs1]
        show n < 1
        split_ifs at hn with h1
        · omega
        · rw [hnone] at hn; cases hn
      subst hs1
      exact ⟨⟨hlb.edges_pos, hlb.edge_zero, hlb.node_lt, hlb.edge_lt, hFl, hlb.node_count, hlb.edge_count, hFc, hlb.pts_ne⟩,
        hg.live, hg.rep, hg.starts, hg.nodes⟩
    · intro d hd f hf
      rw [hleft1, hl d hd] at hf; cases hf
    · intro d hd
      rw [hleft1, hl d hd, hl _ (hr.mem hd)]
    · intro f F hF
      rw [hface1, Function.update_apply] at hF
      split_ifs at hF with h1
      · cases hF
        refine ⟨by simp, fun d hd hdl => ?_, List.Pairwise.nil⟩
        rw [hleft1, hl d hd] at hdl; cases hdl
      · rw [hnone] at hF; cases hF
    · intro f hf
      have : f = 0 := by rw [hs1] at hf; exact Nat.lt_one_iff.mp hf
      subst this
      exact ⟨[], by rw [hface1, Function.update_self], Or.inl ⟨rfl, rfl⟩⟩
  obtain ⟨t, h1, h2, h3, h4, -⟩ := initContoursLoop_spec (List.range s1.nEdges) hC
  have hall : ∀ d ∈ L, ∃ f, t.left? d = some f := by
    intro d hd
    refine h4 d.natAbs ?_ d hd rfl
    rw [List.mem_range]
    exact hC.graph.labels.edge_lt _ ((hC.graph.live d).mp hd)
  refine ⟨t, ?_, h2, ⟨h2.rep, ?_, h2.faces, ?_⟩, ?_⟩
  · unfold GMap.initContours
    simp only [bind, hnf, Outcome.bind_ok, h1]
  · intro d hd
    obtain ⟨f, hf⟩ := hall d hd
    exact ⟨f, hf, (h2.left d hd f hf).2, by rw [h2.const d hd, hf]⟩
  · obtain ⟨as, ha, -⟩ := h2.face 0 h2.pos
    simp [ha]
  · have : SameGraph s s1 := by rw [hs1]; exact ⟨rfl, rfl, rfl, rfl, rfl, rfl, rfl, rfl, fun _ => rfl⟩
    exact this.trans h3

end Verif.GeoMap
