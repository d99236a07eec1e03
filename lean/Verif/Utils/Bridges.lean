import Verif.Utils.Lemmas

/-! # Lemmas about `removeBridges` -/

namespace Verif.GeoMap
open Verif Equiv Equiv.Perm Verif.PermLemmas

variable {K : Type} [Field K] [LinearOrder K]

/-- a callback refused to remove the bridge `l` at some moment after state `s` -/
def RefusedBridge (h : Hooks K) (s : GMap K) (l : Nat) : Prop :=
  ∃ u d, Later s u ∧ u.liveD d ∧ d.natAbs = l ∧ h.preRemoveBridge u d = false

theorem RefusedBridge.mono {h : Hooks K} {s t : GMap K} {l : Nat} (hl : Later s t) (g : RefusedBridge h t l) : RefusedBridge h s l := by
  obtain ⟨u, d, h1, h2⟩ := g
  exact ⟨u, d, hl.trans h1, h2⟩

/-- From `s` to `t` exactly `k` edges were removed (all of them satisfying `P`); apart from bit `i` of the
flags the other edges are as before. -/
structure Removed (i : Nat) (P : Nat → Prop) (s t : GMap K) (k : Nat) : Prop where
  later : Later s t
  init : s.initialized → t.initialized
  sizes : t.nNodes = s.nNodes ∧ t.nEdges = s.nEdges ∧ t.nFaces = s.nFaces
  edges : ∀ l e', t.edge l = some e' → ∃ e, s.edge l = some e ∧ SameButBit i e e'
  gone : ∀ l, (s.edge l).isSome = true → t.edge l = none → P l
  count : t.edgeCount + k = s.edgeCount
  faces : ∀ g, (t.face g).map (fun F => (F.area, F.pixelArea)) = (s.face g).map (fun F => (F.area, F.pixelArea))
  faceCount : t.faceCount = s.faceCount
  nodes : ∀ n nd, t.node n = some nd → ∃ nd', s.node n = some nd' ∧ nd.pos = nd'.pos

theorem Removed.refl (i : Nat) (P : Nat → Prop) (s : GMap K) : Removed i P s s 0 :=
  ⟨.refl s, id, ⟨rfl, rfl, rfl⟩, fun _ e h => ⟨e, h, SameButBit.refl i e⟩, fun l h1 h2 => (by rw [h2] at h1; cases h1), rfl, fun _ => rfl, rfl,
    fun _ nd h => ⟨nd, h, rfl⟩⟩

theorem Removed.trans {i : Nat} {P Q : Nat → Prop} {s t u : GMap K} {k j : Nat} (h : Removed i P s t k) (g : Removed i Q t u j)
    (hPQ : ∀ l e, t.edge l = some e → Q l → P l) : Removed i P s u (k + j) where
  later := h.later.trans g.later
  init := fun hi => g.init (h.init hi)
  sizes := ⟨g.sizes.1.trans h.sizes.1, g.sizes.2.1.trans h.sizes.2.1, g.sizes.2.2.trans h.sizes.2.2⟩
  edges := fun l e' he' => by
    obtain ⟨e1, h1, h2⟩ := g.edges l e' he'
    obtain ⟨e, h3, h4⟩ := h.edges l e1 h1
    exact ⟨e, h3, h4.trans h2⟩
  gone := fun l h1 h2 => by
    cases he : t.edge l with
    | none => exact h.gone l h1 he
    | some e => exact hPQ l e he (g.gone l (by simp [he]) h2)
  count := by rw [← h.count, ← g.count]; omega
  faces := fun f => (g.faces f).trans (h.faces f)
  faceCount := g.faceCount.trans h.faceCount
  nodes := fun n nd hn => by
    obtain ⟨n1, h1, h2⟩ := g.nodes n nd hn
    obtain ⟨n2, h3, h4⟩ := h.nodes n n1 h1
    exact ⟨n2, h3, h2.trans h4⟩

theorem Removed.weaken {i : Nat} {P Q : Nat → Prop} {s t : GMap K} {k : Nat} (h : Removed i P s t k) (hPQ : ∀ l, (s.edge l).isSome = true → P l → Q l) :
    Removed i Q s t k :=
  { h with gone := fun l h1 h2 => hPQ l h1 (h.gone l h1 h2) }

theorem Removed.ofEffect {i : Nat} {P : Nat → Prop} {s t : GMap K} {d : Int} {f : Nat} (hl : Later s t) (h : RemoveBridgeEffect s t d f) (hP : P d.natAbs) :
    Removed i P s t 1 where
  later := hl
  init := fun hi => by unfold GMap.initialized at hi ⊢; rw [h.sizes.2.2]; exact hi
  sizes := h.sizes
  edges := fun l e' he' => by
    have hne : l ≠ d.natAbs := by
      rintro rfl
      exact h.edge_gone.2 (by unfold GMap.liveD; simp [he'])
    rw [h.edges l hne] at he'
    exact ⟨e', he', SameButBit.refl i e'⟩
  gone := fun l h1 h2 => by
    by_cases hne : l = d.natAbs
    · rw [hne]; exact hP
    · rw [h.edges l hne] at h2
      rw [h2] at h1; cases h1
  count := h.counts.2.2.1
  faces := h.faces
  faceCount := h.counts.2.2.2
  nodes := fun n nd hn => by
    rcases h.nodes n with g | ⟨g, -⟩
    · rw [hn] at g
      cases hs : s.node n with
      | none => rw [hs] at g; cases g
      | some nd' => rw [hs] at g; exact ⟨nd', rfl, by simpa using g⟩
    · rw [hn] at g; cases g

theorem Removed.ofFlag {i : Nat} {P : Nat → Prop} {s : GMap K} {l : Nat} {e : Edge K} (he : s.edge l = some e) (b : Bool) :
    Removed i P s (s.setEdge l (some (e.setFlag (2 ^ i) b))) 0 where
  later := setFlag_later he _ b
  init := id
  sizes := ⟨rfl, rfl, rfl⟩
  edges := fun m e' he' => by
    simp only [GMap.setEdge, Function.update_apply] at he'
    split_ifs at he' with hm
    · cases he'; subst hm; exact ⟨e, he, setFlag_same e i b⟩
    · exact ⟨e', he', SameButBit.refl i e'⟩
  gone := fun m h1 h2 => by
    simp only [GMap.setEdge, Function.update_apply] at h2
    split_ifs at h2
    rw [h2] at h1; cases h1
  count := rfl
  faces := fun _ => rfl
  faceCount := rfl
  nodes := fun _ nd h => ⟨nd, h, rfl⟩

/-- bits other than `i` are kept -/
theorem Removed.bit {i : Nat} {P : Nat → Prop} {s t : GMap K} {k : Nat} (h : Removed i P s t k) {l : Nat} {e' : Edge K} (he' : t.edge l = some e') :
    ∃ e, s.edge l = some e ∧ ∀ j, j ≠ i → e'.flags.testBit j = e.flags.testBit j := by
  obtain ⟨e, h1, h2⟩ := h.edges l e' he'
  exact ⟨e, h1, h2.2.2.2.2.2⟩

theorem Removed.left {i : Nat} {P : Nat → Prop} {s t : GMap K} {k : Nat} (h : Removed i P s t k) {d : Int} (hd : t.liveD d) :
    t.left? d = s.left? d ∧ t.startN? d = s.startN? d ∧ s.liveD d := by
  obtain ⟨e', he'⟩ := liveD_exists hd
  obtain ⟨e, he, hS⟩ := h.edges _ _ he'
  refine ⟨?_, ?_, liveD_edge he⟩
  · rw [left?_of he', left?_of he]
    unfold Edge.leftOf
    rw [hS.2.2.1, hS.2.2.2.1]
  · rw [startN?_of he', startN?_of he]
    unfold Edge.startOf
    rw [hS.1, hS.2.1]

/-- During one search through the list: marks are only set, and only on refused bridges. -/
structure Marks (h : Hooks K) (s t : GMap K) : Prop where
  up : ∀ l e e', s.edge l = some e → t.edge l = some e' → e.flags.testBit 19 = true → e'.flags.testBit 19 = true
  refused : ∀ l e', t.edge l = some e' → e'.flags.testBit 19 = true →
    (∃ e, s.edge l = some e ∧ e.flags.testBit 19 = true) ∨ RefusedBridge h s l

theorem Marks.refl (h : Hooks K) (s : GMap K) : Marks h s s :=
  ⟨fun l e e' h1 h2 h3 => by rw [h1] at h2; cases h2; exact h3, fun l e' h1 h2 => Or.inl ⟨e', h1, h2⟩⟩

theorem Marks.trans {h : Hooks K} {s t u : GMap K} {P : Nat → Prop} {k : Nat} (hr : Removed 19 P t u k) (hst : Later s t) (g1 : Marks h s t) (g2 : Marks h t u) : Marks h s u where
  up := fun l e e' h1 h2 h3 => by
    obtain ⟨e1, h4, -⟩ := hr.edges l e' h2
    exact g2.up l e1 e' h4 h2 (g1.up l e e1 h1 h4 h3)
  refused := fun l e' h1 h2 => by
    rcases g2.refused l e' h1 h2 with ⟨e, h3, h4⟩ | h3
    · exact g1.refused l e h3 h4
    · exact Or.inr (h3.mono hst)

theorem Marks.ofEffect {h : Hooks K} {s t : GMap K} {d : Int} {f : Nat} (hE : RemoveBridgeEffect s t d f) : Marks h s t := by
  have key : ∀ l e', t.edge l = some e' → s.edge l = some e' := by
    intro l e' he'
    have hne : l ≠ d.natAbs := by
      rintro rfl
      exact hE.edge_gone.2 (by unfold GMap.liveD; simp [he'])
    rwa [hE.edges l hne] at he'
  exact ⟨fun l e e' h1 h2 h3 => by rw [key l e' h2] at h1; cases h1; exact h3, fun l e' h1 h2 => Or.inl ⟨e', key l e' h1, h2⟩⟩

theorem Marks.ofRefused {h : Hooks K} {s : GMap K} {d : Int} {e : Edge K} (he : s.edge d.natAbs = some e) (hv : h.preRemoveBridge s d = false) :
    Marks h s (s.setEdge d.natAbs (some (e.setFlag (2 ^ 19) true))) := by
  refine ⟨fun l e1 e' h1 h2 h3 => ?_, fun l e' h1 h2 => ?_⟩
  · simp only [GMap.setEdge, Function.update_apply] at h2
    split_ifs at h2 with hm
    · cases h2; rw [setFlag_testBit, if_pos rfl]
    · rw [h1] at h2; cases h2; exact h3
  · simp only [GMap.setEdge, Function.update_apply] at h1
    split_ifs at h1 with hm
    · exact Or.inr ⟨s, d, .refl s, liveD_edge he, hm.symm, hv⟩
    · exact Or.inl ⟨e', h1, h2⟩

/-- removed or marked -/
def Done (t : GMap K) (l : Nat) : Prop := ∀ e, t.edge l = some e → e.flags.testBit 19 = true

theorem Done.mono {h : Hooks K} {t u : GMap K} {P : Nat → Prop} {k l : Nat} (hr : Removed 19 P t u k) (hm : Marks h t u) (hd : Done t l) : Done u l := by
  intro e he
  obtain ⟨e1, h1, -⟩ := hr.edges l e he
  exact hm.up l e1 e h1 he (hd e1 h1)

/-- a dart that is alone at its start node belongs to a bridge -/
theorem alone_bridge {s : GMap K} (hs : Reach s) (hi : s.initialized) {d : Int} (hd : s.liveD d) (h1 : s.sigma d = d) : s.left? d = s.left? (-d) := by
  have hM := hs.good.map
  have hm : s.liveD (-d) := by unfold GMap.liveD at hd ⊢; simpa using hd
  have := (hM.contours hi).left_phi (-d) hm
  have e : s.phi (-d) = d := by
    unfold GMap.phi
    rw [neg_neg]
    have := (hM.graph.sigma_live d hd).2
    unfold GMap.prevSigma GMap.nextSigma at this
    rw [h1] at this
    exact this
  rw [e] at this
  exact this

/-- labels with the `REMOVE_BRIDGE` mark -/
def Marked (s : GMap K) (l : Nat) : Prop := ∃ e, s.edge l = some e ∧ e.flags.testBit 31 = true

theorem Removed.marked {P : Nat → Prop} {s t : GMap K} {k : Nat} (h : Removed 19 P s t k) {l : Nat} (hm : Marked t l) : Marked s l := by
  obtain ⟨e', h1, h2⟩ := hm
  obtain ⟨e, h3, h4⟩ := h.bit h1
  exact ⟨e, h3, by rw [← h4 31 (by decide)]; exact h2⟩

theorem edgeCount_lt_fuel {s : GMap K} (hs : Reach s) : s.edgeCount < s.fuel := by
  rw [hs.good.map.graph.edge_count]
  have : s.liveEdges.card ≤ s.nEdges := by
    unfold GMap.liveEdges
    refine le_trans (Finset.card_filter_le _ _) ?_
    simp
  unfold GMap.fuel
  omega

theorem chainLoop_spec (h : Hooks K) : ∀ (fuel : Nat) {s : GMap K} (_ : Reach s) (_ : s.initialized) {d : Int} (_ : s.liveD d) (_ : s.sigma d = d) (c : Nat)
    (_ : s.edgeCount < fuel),
    ∃ k t, GMap.chainLoop h fuel s d c = .ok (c + k, t) ∧ Removed 19 (fun l => l = d.natAbs ∨ Marked s l) s t k ∧ Marks h s t ∧ Done t d.natAbs := by
  intro fuel
  induction fuel with
  | zero => intro s _ _ d _ _ c hf; omega
  | succ fuel ih =>
    intro s hs hi d hd h1 c hf
    have hM := hs.good.map
    have hb := alone_bridge hs hi hd h1
    obtain ⟨e, he⟩ := liveD_exists hd
    have hm : s.liveD (-d) := by unfold GMap.liveD at hd ⊢; simpa using hd
    have hnl : s.liveD (s.phi d) ∧ s.sigma (s.phi d) = -d := hM.graph.sigmaInv_live (-d) hm
    rcases removeBridge_cases hs hi h hd hb with ⟨f, t, e1, hl, hit, hE⟩ | ⟨e1, hv⟩
    · have hR : Removed 19 (fun l => l = d.natAbs ∨ Marked s l) s t 1 := Removed.ofEffect hl hE (Or.inl rfl)
      have hMk : Marks h s t := Marks.ofEffect hE
      have hD : Done t d.natAbs := by
        intro e' he'
        exact absurd (by unfold GMap.liveD; simp [he']) hE.edge_gone.2
      have stop : GMap.chainLoop h (fuel + 1) s d c = .ok (c + 1, t) →
          ∃ k t, GMap.chainLoop h (fuel + 1) s d c = .ok (c + k, t) ∧ Removed 19 (fun l => l = d.natAbs ∨ Marked s l) s t k ∧ Marks h s t ∧ Done t d.natAbs :=
        fun g => ⟨1, t, g, hR, hMk, hD⟩
      have hrt := hl.reach hs
      by_cases c1 : (s.phi d).natAbs = d.natAbs
      · refine stop ?_
        unfold GMap.chainLoop
        simp only [bind, e1, Outcome.bind_ok, GMap.noteRemoved, if_pos c1]
      by_cases c2 : t.sigma (s.phi d) ≠ s.phi d
      · refine stop ?_
        unfold GMap.chainLoop
        simp only [bind, e1, Outcome.bind_ok, GMap.noteRemoved, if_neg c1, if_pos c2]
      have hnt : t.liveD (s.phi d) := by
        unfold GMap.liveD
        rw [hE.edges _ c1]
        exact hnl.1
      obtain ⟨en, hen⟩ := liveD_exists hnt
      by_cases c3 : en.flag removeBridgeFlag = true
      swap
      · refine stop ?_
        unfold GMap.chainLoop
        simp only [bind, e1, Outcome.bind_ok, GMap.noteRemoved, if_neg c1, if_neg c2, derefEdge_of hrt hen, if_neg c3]
      push Not at c2
      obtain ⟨k, u, g1, g2, g3, -⟩ := ih hrt hit hnt c2 (c + 1) (by have := hE.counts.2.2.1; omega)
      refine ⟨1 + k, u, ?_, ?_, hMk.trans g2 hl g3, hD.mono g2 g3⟩
      · unfold GMap.chainLoop
        simp only [bind, e1, Outcome.bind_ok, GMap.noteRemoved, if_neg c1, derefEdge_of hrt hen, if_pos c3]
        rw [if_neg (by rw [c2]; simp), g1, add_assoc]
      · refine hR.trans g2 ?_
        rintro l e' he' (rfl | hmk)
        · right
          refine hR.marked ⟨en, hen, ?_⟩
          rw [removeBridgeFlag_eq, flag_bit] at c3
          exact c3
        · exact Or.inr (hR.marked hmk)
    · refine ⟨0, s.setEdge d.natAbs (some (e.setFlag (2 ^ 19) true)), ?_, Removed.ofFlag he true, Marks.ofRefused he hv, ?_⟩
      · unfold GMap.chainLoop
        simp only [bind, e1, Outcome.bind_ok, GMap.noteRemoved, GMap.setEdgeFlag, derefEdge_of hs he]
        by_cases c1 : (s.phi d).natAbs = d.natAbs
        · rw [if_pos c1, unremovable_eq]; rfl
        · rw [if_neg c1, if_pos, unremovable_eq]
          · rfl
          · show s.sigma (s.phi d) ≠ s.phi d
            rw [hnl.2]
            intro h
            rw [← h] at c1
            simp at c1
      · intro e' he'
        simp only [GMap.setEdge, Function.update_self] at he'
        cases he'
        rw [setFlag_testBit, if_pos rfl]

/-- the bridges of the list that still exist -/
theorem roundLoop_spec (h : Hooks K) : ∀ (bs : List Nat) {s : GMap K} (_ : Reach s) (_ : s.initialized) (c : Nat) (found : Bool)
    (_ : ∀ l ∈ bs, l < s.nEdges),
    ∃ k t b, GMap.roundLoop h bs c s found = .ok (c + k, t, found || b) ∧ Removed 19 (fun l => l ∈ bs ∨ Marked s l) s t k ∧ Marks h s t ∧
      (b = false → t = s ∧ k = 0) ∧ (b = true → ∃ l ∈ bs, Done t l) := by
  intro bs
  induction bs with
  | nil =>
    intro s hs hi c found hb
    exact ⟨0, s, false, by simp [GMap.roundLoop], Removed.refl _ _ s, Marks.refl h s, fun _ => ⟨rfl, rfl⟩, fun h => by cases h⟩
  | cons l ls ih =>
    intro s hs hi c found hb
    have hl := hb l (by simp)
    have skip : (∃ k t b, GMap.roundLoop h ls c s found = .ok (c + k, t, found || b) ∧ Removed 19 (fun l => l ∈ ls ∨ Marked s l) s t k ∧ Marks h s t ∧
        (b = false → t = s ∧ k = 0) ∧ (b = true → ∃ l ∈ ls, Done t l)) →
        GMap.roundLoop h (l :: ls) c s found = GMap.roundLoop h ls c s found → ∃ k t b, GMap.roundLoop h (l :: ls) c s found = .ok (c + k, t, found || b) ∧
        Removed 19 (fun m => m ∈ l :: ls ∨ Marked s m) s t k ∧ Marks h s t ∧ (b = false → t = s ∧ k = 0) ∧ (b = true → ∃ m ∈ l :: ls, Done t m) := by
      rintro ⟨k, t, b, g1, g2, g3, g4, g5⟩ e
      refine ⟨k, t, b, by rw [e, g1], g2.weaken ?_, g3, g4, fun hbt => ?_⟩
      · rintro m - (hm | hm)
        · exact Or.inl (List.mem_cons_of_mem _ hm)
        · exact Or.inr hm
      · obtain ⟨m, hm, hd⟩ := g5 hbt
        exact ⟨m, List.mem_cons_of_mem _ hm, hd⟩
    have hls : ∀ m ∈ ls, m < s.nEdges := fun m hm => hb m (List.mem_cons_of_mem _ hm)
    by_cases hv : (s.edge l).isSome = true
    swap
    · refine skip (ih hs hi c found hls) ?_
      conv_lhs => unfold GMap.roundLoop
      rw [if_pos hl, if_neg hv]
    cases hd : s.degreeOneDart l with
    | none =>
      refine skip (ih hs hi c found hls) ?_
      conv_lhs => unfold GMap.roundLoop
      rw [if_pos hl, if_pos hv]
      simp only [GMap.roundStep, hd, bind, Outcome.bind_ok]
    | some d =>
      have hd' : d.natAbs = l ∧ s.sigma d = d := by
        unfold GMap.degreeOneDart at hd
        split_ifs at hd with c1 c2
        · cases hd; exact ⟨by simp, c1⟩
        · cases hd; exact ⟨by simp, c2⟩
      have hlv : s.liveD d := by unfold GMap.liveD; rw [hd'.1]; exact hv
      obtain ⟨k, t, g1, g2, g3, g4⟩ := chainLoop_spec h s.fuel hs hi hlv hd'.2 c (edgeCount_lt_fuel hs)
      have hrt := g2.later.reach hs
      obtain ⟨k', u, b, i1, i2, i3, -, -⟩ := ih hrt (g2.init hi) (c + k) true (by rw [g2.sizes.2.1]; exact hls)
      rw [hd'.1] at g2 g4
      refine ⟨k + k', u, true, ?_, ?_, g3.trans i2 g2.later i3, fun h => (by cases h), fun _ => ⟨l, by simp, g4.mono i2 i3⟩⟩
      · conv_lhs => unfold GMap.roundLoop
        rw [if_pos hl, if_pos hv]
        simp only [GMap.roundStep, hd, bind, g1, Outcome.bind_ok]
        rw [i1, add_assoc]
        simp
      · refine (g2.weaken ?_).trans i2 ?_
        · rintro m - (rfl | hm)
          · exact Or.inl (by simp)
          · exact Or.inr hm
        · rintro m e he (hm | hm)
          · exact Or.inl (List.mem_cons_of_mem _ hm)
          · exact Or.inr (g2.marked hm)

/-- taking entries off the list -/
theorem cleanBridges_spec : ∀ (bs : List Nat) {s : GMap K} (_ : Reach s) (_ : s.initialized) (_ : bs.Nodup) (_ : ∀ l ∈ bs, l < s.nEdges),
    ∃ bs' t, GMap.cleanBridges bs s = .ok (bs', t) ∧ Removed 19 (fun _ => False) s t 0 ∧ bs'.Nodup ∧ (∀ l ∈ bs', l ∈ bs) ∧
      (∀ l ∈ bs', ∃ e, t.edge l = some e ∧ e.flags.testBit 19 = false) ∧
      (∀ l ∈ bs, l ∉ bs' → Done s l) ∧ (∀ l ∈ bs', ¬ Done s l) ∧ (∀ l, l ∉ bs → t.edge l = s.edge l) ∧ t.sigma = s.sigma ∧ ((∀ l ∈ bs, ¬ Done s l) → t = s) := by
  intro bs
  induction bs with
  | nil =>
    intro s hs hi _ _
    exact ⟨[], s, rfl, Removed.refl _ _ s, by simp, by simp, by simp, by simp, by simp, fun _ _ => rfl, rfl, fun _ => rfl⟩
  | cons l ls ih =>
    intro s hs hi hnd hb
    have hl := hb l (by simp)
    have hls : ∀ m ∈ ls, m < s.nEdges := fun m hm => hb m (List.mem_cons_of_mem _ hm)
    obtain ⟨hnl, hnd'⟩ := List.nodup_cons.mp hnd
    cases he : s.edge l with
    | none =>
      obtain ⟨bs', t, g1, g2, g3, g4, g5, g6, g7, g8, g9, g10⟩ := ih hs hi hnd' hls
      refine ⟨bs', t, ?_, g2, g3, fun m hm => List.mem_cons_of_mem _ (g4 m hm), g5, ?_, g7, ?_, g9, ?_⟩
      · unfold GMap.cleanBridges; rw [if_pos hl, he]; exact g1
      · intro m hm hm'
        rcases List.mem_cons.mp hm with rfl | hm
        · intro e h; rw [he] at h; cases h
        · exact g6 m hm hm'
      · intro m hm
        exact g8 m (fun h => hm (List.mem_cons_of_mem _ h))
      · intro hh
        exact absurd (fun e h => by rw [he] at h; cases h) (hh l (by simp))
    | some e =>
      by_cases hf : e.flag unremovable = true
      · have hst := Removed.ofFlag (i := 19) (P := fun _ => False) he false
        have hrt := hst.later.reach hs
        obtain ⟨bs', t, g1, g2, g3, g4, g5, g6, g7, g8, g9, g10⟩ := ih hrt (hst.init hi) hnd' hls
        have hdl : Done s l := by
          intro e' h
          rw [he] at h; cases h
          rwa [unremovable_eq, flag_bit] at hf
        have hoth : ∀ m, m ≠ l → (s.setEdge l (some (e.setFlag (2 ^ 19) false))).edge m = s.edge m := by
          intro m hm; simp [GMap.setEdge, hm]
        have hdone : ∀ m ∈ ls, (Done (s.setEdge l (some (e.setFlag (2 ^ 19) false))) m ↔ Done s m) := by
          intro m hm
          have : m ≠ l := by rintro rfl; exact hnl hm
          unfold Done
          rw [hoth m this]
        refine ⟨bs', t, ?_, (hst.trans g2 (fun _ _ _ => id)), g3, fun m hm => List.mem_cons_of_mem _ (g4 m hm), g5, ?_, ?_, ?_, g9, ?_⟩
        · unfold GMap.cleanBridges; rw [if_pos hl, he]; simp only [hf, if_true]; exact g1
        · intro m hm hm'
          rcases List.mem_cons.mp hm with rfl | hm
          · exact hdl
          · exact (hdone m hm).mp (g6 m hm hm')
        · intro m hm
          rw [← hdone m (g4 m hm)]; exact g7 m hm
        · intro m hm
          rw [g8 m (fun h => hm (List.mem_cons_of_mem _ h))]
          exact hoth m (fun h => hm (by simp [h]))
        · intro hh
          exact absurd hdl (hh l (by simp))
      · obtain ⟨bs', t, g1, g2, g3, g4, g5, g6, g7, g8, g9, g10⟩ := ih hs hi hnd' hls
        have hndl : e.flags.testBit 19 = false := by
          rw [unremovable_eq, flag_bit] at hf
          simpa using hf
        refine ⟨l :: bs', t, ?_, g2, List.nodup_cons.mpr ⟨fun h => hnl (g4 l h), g3⟩, ?_, ?_, ?_, ?_, ?_, g9, ?_⟩
        · unfold GMap.cleanBridges; rw [if_pos hl, he]; simp only [hf]
          simp only [bind, g1, Outcome.bind_ok]; rfl
        · intro m hm
          rcases List.mem_cons.mp hm with rfl | hm
          · simp
          · exact List.mem_cons_of_mem _ (g4 m hm)
        · intro m hm
          rcases List.mem_cons.mp hm with rfl | hm
          · exact ⟨e, by rw [g8 m hnl, he], hndl⟩
          · exact g5 m hm
        · intro m hm hm'
          rcases List.mem_cons.mp hm with rfl | hm
          · simp at hm'
          · exact g6 m hm (fun h => hm' (List.mem_cons_of_mem _ h))
        · intro m hm
          rcases List.mem_cons.mp hm with rfl | hm
          · intro h; rw [h e he] at hndl; cases hndl
          · exact g7 m hm
        · intro m hm
          exact g8 m (fun h => hm (List.mem_cons_of_mem _ h))
        · intro hh
          exact g10 (fun m hm => hh m (List.mem_cons_of_mem _ hm))

/-- Main lemma: `removeBridges` for a list of different bridges. -/
theorem removeBridgesLoop_spec (h : Hooks K) : ∀ (fuel : Nat) (bs : List Nat) {s : GMap K} (_ : Reach s) (_ : s.initialized) (c : Nat) (_ : bs.Nodup)
    (_ : ∀ l ∈ bs, ∃ e, s.edge l = some e ∧ e.leftF = e.rightF ∧ e.flags.testBit 19 = false) (_ : bs.length ≤ fuel),
    ∃ k t, GMap.removeBridgesLoop h fuel bs c s = .ok (c + k, t) ∧ Removed 19 (fun l => l ∈ bs ∨ Marked s l) s t k ∧
      ∀ l ∈ bs, (t.edge l).isSome = true → RefusedBridge h s l := by
  intro fuel
  induction fuel with
  | zero =>
    intro bs s hs hi c hnd hb hf
    have : bs = [] := List.eq_nil_of_length_eq_zero (by omega)
    subst this
    exact ⟨0, s, rfl, Removed.refl _ _ s, by simp⟩
  | succ fuel ih =>
    intro bs s hs hi c hnd hb hf
    cases bs with
    | nil => exact ⟨0, s, rfl, Removed.refl _ _ s, by simp⟩
    | cons l ls =>
      have hlt : ∀ m ∈ l :: ls, m < s.nEdges := fun m hm => by
        obtain ⟨e, he, -⟩ := hb m hm
        exact hs.good.map.graph.edge_lt m (by simp [he])
      obtain ⟨k, t, b, g1, g2, g3, g4, g5⟩ := roundLoop_spec h (l :: ls) hs hi c false hlt
      have hrt := g2.later.reach hs
      have hit := g2.init hi
      obtain ⟨bs', u, c1, c2, c3, c4, c5, c6, c7, c8, c9, c10⟩ := cleanBridges_spec (l :: ls) hrt hit hnd (by rw [g2.sizes.2.1]; exact hlt)
      have hru := c2.later.reach hrt
      have hiu := c2.init hit
      have htu : Removed 19 (fun m => m ∈ l :: ls ∨ Marked s m) s u k := g2.trans c2 (fun _ _ _ h => h.elim)
      -- entries that were dropped
      have hdrop : ∀ m ∈ l :: ls, m ∉ bs' → (t.edge m).isSome = true → RefusedBridge h s m := by
        intro m hm hm' hmt
        obtain ⟨e, he⟩ := Option.isSome_iff_exists.mp hmt
        rcases g3.refused m e he (c6 m hm hm' e he) with ⟨e', h1, h2⟩ | h1
        · obtain ⟨e'', h3, -, h4⟩ := hb m hm
          rw [h1] at h3; cases h3
          rw [h2] at h4; cases h4
        · exact h1
      have hbr : ∀ m ∈ bs', ∃ e, u.edge m = some e ∧ e.leftF = e.rightF ∧ e.flags.testBit 19 = false := by
        intro m hm
        obtain ⟨e, h1, h2⟩ := c5 m hm
        obtain ⟨e1, h3, h4⟩ := htu.edges m e h1
        obtain ⟨e2, h5, h6, -⟩ := hb m (c4 m hm)
        rw [h3] at h5; cases h5
        exact ⟨e, h1, by rw [h4.2.2.1, h4.2.2.2.1]; exact h6, h2⟩
      by_cases hfd : b = true
      · subst hfd
        -- the list got shorter
        obtain ⟨m, hm, hmd⟩ := g5 rfl
        have hmn : m ∉ bs' := fun h => c7 m h hmd
        have hlen : bs'.length ≤ fuel := by
          have : bs'.length < (l :: ls).length := by
            have h1 : bs'.toFinset ⊂ (l :: ls).toFinset := by
              rw [Finset.ssubset_iff_of_subset (fun x hx => by
                rw [List.mem_toFinset] at hx ⊢; exact c4 x hx)]
              exact ⟨m, by rw [List.mem_toFinset]; exact hm, by rw [List.mem_toFinset]; exact hmn⟩
            have := Finset.card_lt_card h1
            rwa [List.toFinset_card_of_nodup c3, List.toFinset_card_of_nodup hnd] at this
          omega
        obtain ⟨k', v, i1, i2, i3⟩ := ih bs' hru hiu (c + k) c3 hbr hlen
        refine ⟨k + k', v, ?_, htu.trans i2 ?_, ?_⟩
        · unfold GMap.removeBridgesLoop
          simp only [bind, g1, Outcome.bind_ok, c1, Bool.false_or, if_true]
          rw [i1, add_assoc]
        · rintro x e he (hx | hx)
          · exact Or.inl (c4 x hx)
          · exact Or.inr (htu.marked hx)
        · intro x hx hxv
          by_cases hxb : x ∈ bs'
          · exact (i3 x hxb hxv).mono htu.later
          · refine hdrop x hx hxb ?_
            obtain ⟨e, he⟩ := Option.isSome_iff_exists.mp hxv
            obtain ⟨e1, h1, -⟩ := i2.edges x e he
            obtain ⟨e2, h2, -⟩ := c2.edges x e1 h1
            simp [h2]
      · have hfd : b = false := by simpa using hfd
        subst hfd
        obtain ⟨rfl, rfl⟩ := g4 rfl
        have hnd' : ∀ m ∈ l :: ls, ¬ Done t m := by
          intro m hm hd
          obtain ⟨e, h1, -, h2⟩ := hb m hm
          rw [hd e h1] at h2; cases h2
        have hut := c10 hnd'
        subst hut
        have hbs : ∀ m ∈ l :: ls, m ∈ bs' := by
          intro m hm
          by_contra hm'
          exact hnd' m hm (c6 m hm hm')
        cases bs' with
        | nil => exact absurd (hbs l (by simp)) (by simp)
        | cons b bs' =>
          obtain ⟨eb, hb1, hb2, hb3⟩ := hb b (c4 b (by simp))
          have hlv : u.liveD (b : Int) := by unfold GMap.liveD; simp [hb1]
          have hbl : u.left? (b : Int) = u.left? (-(b : Int)) := by
            rw [left?_of (d := (b : Int)) (e := eb) (by simpa using hb1), left?_of (d := -(b : Int)) (e := eb) (by simpa using hb1)]
            unfold Edge.leftOf
            rw [hb2]
            simp
          have hlen : bs'.length ≤ fuel := by
            have h1 : (b :: bs').toFinset ⊆ (l :: ls).toFinset := fun x hx => by
              rw [List.mem_toFinset] at hx ⊢; exact c4 x hx
            have := Finset.card_le_card h1
            rw [List.toFinset_card_of_nodup c3, List.toFinset_card_of_nodup hnd] at this
            simp only [List.length_cons] at this hf
            omega
          obtain ⟨hbn, hnd2⟩ := List.nodup_cons.mp c3
          have fin : ∀ (v : GMap K) (j : Nat) (r : Option Nat), u.removeBridge h b = .ok (r, v) → (if r.isSome then 1 else 0) = j →
              Removed 19 (fun x => x = b) u v j → (∀ x, x ≠ b → v.edge x = u.edge x) → ((v.edge b).isSome = true → RefusedBridge h u b) →
              ∃ k t, GMap.removeBridgesLoop h (fuel + 1) (l :: ls) c u = .ok (c + k, t) ∧ Removed 19 (fun m => m ∈ l :: ls ∨ Marked u m) u t k ∧
                ∀ m ∈ l :: ls, (t.edge m).isSome = true → RefusedBridge h u m := by
            intro v j r hr hj hRv hothers hrf
            obtain ⟨k', w, i1, i2, i3⟩ := ih bs' (hRv.later.reach hru) (hRv.init hiu) (c + j) hnd2 (fun m hm => by
              obtain ⟨e, he⟩ := hb m (c4 m (by simp [hm]))
              exact ⟨e, by rw [hothers m (by rintro rfl; exact hbn hm)]; exact he.1, he.2⟩) hlen
            refine ⟨j + k', w, ?_, (hRv.weaken ?_).trans i2 ?_, ?_⟩
            · unfold GMap.removeBridgesLoop
              simp only [bind, g1, Outcome.bind_ok, c1, Bool.false_or, hr]
              have : (if r.isSome = true then c + 0 + 1 else c + 0) = c + j := by
                rw [← hj]; split_ifs <;> omega
              simp only [Bool.false_eq_true, if_false, this]
              rw [i1, add_assoc]
            · rintro x - rfl
              exact Or.inl (c4 x (by simp))
            · rintro x e he (hx | hx)
              · exact Or.inl (c4 x (by simp [hx]))
              · exact Or.inr (hRv.marked hx)
            · intro x hx hxw
              by_cases hxb : x ∈ bs'
              · exact (i3 x hxb hxw).mono hRv.later
              · have hxe : x = b := by
                  rcases List.mem_cons.mp (hbs x hx) with h | h
                  · exact h
                  · exact absurd h hxb
                subst hxe
                refine hrf ?_
                obtain ⟨e, he⟩ := Option.isSome_iff_exists.mp hxw
                obtain ⟨e1, h1, -⟩ := i2.edges x e he
                simp [h1]
          rcases removeBridge_cases hru hiu h hlv hbl with ⟨f, v, e1, hlat, hiv, hE⟩ | ⟨e1, hv⟩
          · refine fin v 1 (some f) e1 rfl (Removed.ofEffect hlat hE (by simp)) (fun x hx => hE.edges x (by simpa using hx)) (fun hh => ?_)
            exact absurd (by unfold GMap.liveD; simpa using hh) hE.edge_gone.2
          · exact fin u 0 none e1 rfl (Removed.refl _ _ u) (fun _ _ => rfl) (fun _ => ⟨u, b, .refl u, hlv, by simp, hv⟩)

end Verif.GeoMap
