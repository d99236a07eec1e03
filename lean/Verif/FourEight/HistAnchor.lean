import Verif.FourEight.HistStart

/-!
# Anchors of nodes
-/

namespace Verif.FourEight
open Verif Verif.CellImage Verif.Outcome Verif.FourEight.Props

/-- The anchor of a node with darts is one of them, and degrees fit into `unsigned short`. -/
structure Anchors (m : Map) : Prop where
  few : ∀ l, (dartsAt m l).ncard < 2 ^ 16
  anchor : ∀ (l : Nat) (A : Node), m.nodes[l]? = some A → A.live = true → (dartsAt m l).Nonempty → A.anchor ∈ dartsAt m l

section
variable {m m' : Map} {P Q : Nat → Prop} {φ ψ : Nat → Nat}

/-- all darts of a node are on one walk -/
theorem Whole.walk (hm : Whole m) {l : Nat} {a b : Dart} (ha : a ∈ dartsAt m l) (hb : b ∈ dartsAt m l) : ∃ i, (walk m 1)^[i] a = b := by
  obtain ⟨x, y, hf, h1⟩ := firstOf_exists hm.clean ha.1.inside ha.1.node
  obtain ⟨hr, -⟩ := mkDart_walk hm.clean hm.noCorner hm.nodes hf
  have hw := (oneRim_walk hm.clean hm.noCorner hm.nodes).1 (oneRim_of_noHoles hm.clean hm.noCorner hm.nodes hm.noHoles)
  obtain ⟨i, hi⟩ := hw x y a hf ha.1 h1
  obtain ⟨j, hj⟩ := hw x y b hf hb.1 (by rw [hb.2, ← h1, ha.2])
  obtain ⟨k, hk⟩ := walk_back hm.clean hr hi
  exact ⟨j + k, by rw [Function.iterate_add_apply, hk, hj]⟩

theorem Change.walk (h : Change m m' P Q φ ψ) (hm : Whole m) {a : Dart} (ha : Rim m a) (hv : (m'.px a.x a.y).1 = .vertex) (n : Nat) :
    (walk m' 1)^[n] a = (walk m 1)^[n] a ∧ Rim m ((walk m 1)^[n] a) ∧ (m'.px ((walk m 1)^[n] a).x ((walk m 1)^[n] a).y).1 = .vertex := by
  induction n with
  | zero => exact ⟨rfl, ha, hv⟩
  | succ n ih =>
    obtain ⟨i1, i2, i3⟩ := ih
    rw [Function.iterate_succ_apply', Function.iterate_succ_apply', i1]
    generalize (FourEight.walk m 1)^[n] a = s at *
    have t := h.together hm.clean hm.nodes i2.inside i3
    refine ⟨by unfold FourEight.walk; simp only [t], walk_rim hm.clean (Or.inl rfl) i2, ?_⟩
    unfold FourEight.walk
    by_cases h0 : s.dir.val % 2 = 1
    · rw [if_pos h0]; exact i3
    rw [if_neg h0]
    by_cases h1 : (m.look s.x s.y (s.dir + 1)).1 = .vertex
    · rw [if_pos h1]; exact (t _).2 h1
    rw [if_neg h1]
    by_cases h2 : (m.look s.x s.y (s.dir + 2 * 1)).1 = .vertex
    · rw [if_pos h2]; exact (t _).2 h2
    · rw [if_neg h2]; exact i3

theorem walk_px (hc : Clean m) (hnl : NodesLabelled m) {a : Dart} (ha : Rim m a) (n : Nat) :
    m.px ((walk m 1)^[n] a).x ((walk m 1)^[n] a).y = m.px a.x a.y := by
  have : Rim m ((walk m 1)^[n] a) ∧ m.px ((walk m 1)^[n] a).x ((walk m 1)^[n] a).y = m.px a.x a.y := by
    induction n with
    | zero => exact ⟨ha, rfl⟩
    | succ n ih =>
      rw [Function.iterate_succ_apply']
      obtain ⟨i1, i2⟩ := ih
      refine ⟨walk_rim hc (Or.inl rfl) i1, ?_⟩
      rw [← i2]
      exact chain_label hc hnl i1.inside i1.node _ (walk_chain i1)
  exact this.2

/-- `carefulNextSigma`, called after the edge of `a` was removed -/
theorem careful_moved (hm : Whole m) (hm' : Whole m') (hch : Change m m' (fun _ => True) Q φ ψ) {l : Nat} {a b : Dart} (ha : a ∈ dartsAt m l)
    (hs : (m'.look a.x a.y a.dir).1 ≠ .line) (h : careful m' a = .ok b) : b ∈ dartsAt m l ∧ ((dartsAt m' l).Nonempty → b ∈ dartsAt m' l) := by
  have hi := ha.1.inside
  have hv' : (m'.px a.x a.y).1 = .vertex := (hch.isVertex hi).2 ⟨ha.1.node, trivial⟩
  have t := hch.together hm.clean hm.nodes hi hv'
  have hi' := (hch.inside _ _).2 hi
  have hr : Rim m' a := ⟨hi', hv', fun e => ha.1.rim.out ((t _).1 e), fun ho k hk e => ha.1.rim.sides ho k hk ((t _).1 e)⟩
  have hreg : (m'.look a.x a.y a.dir).1 = .region := by
    rcases hm'.clean.look_types hi' hr.nonregion a.dir with e | e | e
    · exact absurd e hr.out
    · exact absurd e hs
    · exact e
  have hnw : (m'.look a.x a.y (a.dir + 7)).1 ≠ .vertex := by
    intro e
    have e := (t _).1 e
    by_cases ho : a.dir.val % 2 = 1
    · rw [(ha.1.between ho).2] at e; cases e
    · have key : ∀ δ : Fin 8, ¬δ.val % 2 = 1 → (δ + 4).val % 2 = 0 ∧ (dx δ + dx (δ + 4) = 0 ∧ dy δ + dy (δ + 4) = 0) ∧
          (dx δ + dx (δ + 4 + 2) = dx (δ + 7) ∧ dy δ + dy (δ + 4 + 2) = dy (δ + 7)) := by decide
      obtain ⟨k1, k2, k3⟩ := key a.dir ho
      refine hm.noCorner (a.x + dx a.dir) (a.y + dy a.dir) (hm.clean.near hi ha.1.rim.nonregion _) ha.1.edge (a.dir + 4) k1 ⟨?_, ?_⟩
      · rw [look_back k2]; exact ha.1.node
      · rw [look_shift k3]; exact e
  obtain ⟨n, e1, e2, e3⟩ := careful_total hm'.clean hm'.noCorner hr hreg hnw
  rw [h] at e1
  have e1 := Outcome.ok.inj e1
  have hsub : ∀ d, d ∈ dartsAt m' l → d ∈ dartsAt m l := fun d hd => by
    rw [hch.dartsAt hm trivial] at hd
    exact hd.1
  have hpx : m'.px a.x a.y = (.vertex, l) := (hch.vertex _ _ _ hi).2 ⟨ha.2, trivial⟩
  rw [← e1] at e2
  rcases e2 with e2 | e2
  · refine ⟨by rw [e2]; exact ha, fun ⟨c, hc⟩ => ?_⟩
    exfalso
    obtain ⟨i, hi⟩ := hm.walk ha (hsub c hc)
    rw [← (hch.walk hm ha.1.rim hv' i).1] at hi
    have hper : Function.IsPeriodicPt (FourEight.walk m' 1) (n + 1) a := by
      show (FourEight.walk m' 1)^[n + 1] a = a
      rw [← e1, e2]
    rw [← hper.iterate_mod_apply] at hi
    by_cases h0 : i % (n + 1) = 0
    · rw [h0] at hi
      change a = c at hi
      rw [← hi] at hc
      exact hs hc.1.edge
    · exact e3 _ (Nat.pos_of_ne_zero h0) (Nat.mod_lt _ (by omega)) (Or.inr (by rw [hi]; exact hc.1))
  · have hb : b ∈ dartsAt m' l := ⟨e2, by rw [e1, walk_px hm'.clean hm'.nodes hr, hpx]⟩
    exact ⟨hsub b hb, fun _ => hb⟩

theorem decDegree_anchor {n : Nat} (h : decDegree m n = .ok m') : ∀ (i : Nat) (B : Node), m'.nodes[i]? = some B → ∃ A, m.nodes[i]? = some A ∧
    A.live = B.live ∧ (i ≠ n → B.anchor = A.anchor ∧ B.degree = A.degree) ∧ (i = n → B.degree = 0 ∧ B.anchor = A.anchor ∨
      isSingular m A.anchor = .ok false ∧ B.anchor = A.anchor ∨ isSingular m A.anchor = .ok true ∧ careful m A.anchor = .ok B.anchor) := by
  intro i B hB
  unfold decDegree at h
  cases hx : m.nodes[n]? with
  | none => rw [hx] at h; simp at h
  | some N =>
    rw [hx] at h; dsimp only at h
    by_cases hd : (N.degree + 65535) % 65536 = 0
    · rw [if_pos hd] at h; cases h
      dsimp only at hB
      by_cases hi : i = n
      · subst hi
        rw [List.getElem?_modify_eq, hx] at hB
        cases hB
        exact ⟨N, hx, rfl, fun q => absurd rfl q, fun _ => Or.inl ⟨hd, rfl⟩⟩
      · rw [modify_ne (fun e => hi e.symm)] at hB
        exact ⟨B, hB, rfl, fun _ => ⟨rfl, rfl⟩, fun q => absurd q hi⟩
    · rw [if_neg hd] at h
      obtain ⟨s, hs, h⟩ := bind_eq_ok.1 h
      obtain ⟨a, ha, h⟩ := bind_eq_ok.1 h
      cases h
      dsimp only at hB
      by_cases hi : i = n
      · subst hi
        rw [List.getElem?_modify_eq, hx] at hB
        cases hB
        refine ⟨N, hx, rfl, fun q => absurd rfl q, fun _ => Or.inr ?_⟩
        cases s with
        | true => exact Or.inr ⟨hs, ha⟩
        | false => cases ha; exact Or.inl ⟨hs, rfl⟩
      · rw [modify_ne (fun e => hi e.symm)] at hB
        exact ⟨B, hB, rfl, fun _ => ⟨rfl, rfl⟩, fun q => absurd q hi⟩

/-- one of the two calls -/
theorem dec_keeps (hm : Whole m) (hm' : Whole m') (hch : Change m m' (fun _ => True) Q φ ψ) {q q' : Map} (hw : q.w = m'.w) (hh : q.h = m'.h)
    (hp : q.px = m'.px) {n : Nat} (h : decDegree q n = .ok q') {i : Nat} {A B : Node} (hA : q.nodes[i]? = some A) (hB : q'.nodes[i]? = some B)
    (ha : A.anchor ∈ dartsAt m i) : B.anchor ∈ dartsAt m i ∧ (A.anchor ∈ dartsAt m' i → B.anchor ∈ dartsAt m' i) ∧
      (i = n → B.degree ≠ 0 → (dartsAt m' i).Nonempty → B.anchor ∈ dartsAt m' i) := by
  obtain ⟨A', hA', -, h1, h2⟩ := decDegree_anchor h i B hB
  obtain rfl : A = A' := by rw [hA] at hA'; exact Option.some.inj hA'
  have hsame : SameKinds m' q := sameKinds_px hw hh hp
  have hi := ha.1.inside
  have hv' : (m'.px A.anchor.x A.anchor.y).1 = .vertex := (hch.isVertex hi).2 ⟨ha.1.node, trivial⟩
  have hin := (hch.inside _ _).2 hi
  have hsing : isSingular q A.anchor = .ok (decide ((m'.look A.anchor.x A.anchor.y A.anchor.dir).1 ≠ .line)) := by
    unfold isSingular
    rw [(hsame.clean hm'.clean).nb ((hsame.inside _ _).2 hin) (by rw [hp, hv']; decide), Outcome.bind_ok, add_zero]
    unfold Map.look
    rw [hp]
  have hcare : careful q A.anchor = careful m' A.anchor := by
    unfold careful; rw [hsame.carefulLoop, hsame.fuel]
  have hcases : ∀ d, d ∈ dartsAt m i → (m'.look d.x d.y d.dir).1 = .line → d ∈ dartsAt m' i := by
    intro d hd hl
    rw [hch.dartsAt hm trivial]
    obtain ⟨l, c1, c2, -⟩ := hch.oldLine hm.clean hm.nodes hd.1.inside ((hch.isVertex hd.1.inside).2 ⟨hd.1.node, trivial⟩) hl
    exact ⟨hd, by rw [c1]; exact c2⟩
  by_cases hin' : i = n
  · rcases h2 hin' with ⟨c1, c2⟩ | ⟨c1, c2⟩ | ⟨c1, c2⟩
    · rw [c2]; exact ⟨ha, id, fun _ e => absurd c1 e⟩
    · rw [c2]
      rw [hsing] at c1
      have : (m'.look A.anchor.x A.anchor.y A.anchor.dir).1 = .line := by
        have := Outcome.ok.inj c1
        simpa using this
      exact ⟨ha, id, fun _ _ _ => hcases _ ha this⟩
    · rw [hsing] at c1
      have hs : (m'.look A.anchor.x A.anchor.y A.anchor.dir).1 ≠ .line := of_decide_eq_true (Outcome.ok.inj c1)
      rw [hcare] at c2
      obtain ⟨r1, r2⟩ := careful_moved hm hm' hch ha hs c2
      exact ⟨r1, fun e => absurd e.1.edge hs, fun _ _ => r2⟩
  · obtain ⟨c1, -⟩ := h1 hin'
    rw [c1]
    exact ⟨ha, id, fun e => absurd e hin'⟩

/-- removal of an edge -/
theorem Anchors.removeEdge (ha : Anchors m) (hm : Whole m) (hm' : Whole m') {e s g : Nat} {E : Edge} (h : EdgeRemoved m m' e s g E) :
    Anchors m' ∧ (∀ (l : Nat) (A : Node), m'.nodes[l]? = some A → A.live = true → (dartsAt m l).Nonempty → A.anchor ∈ dartsAt m l) := by
  have hch := hm.removeEdge_change h.w h.h h.px
  have hsub : ∀ l d, d ∈ dartsAt m' l → d ∈ dartsAt m l := fun l d hd => by
    rw [hch.dartsAt hm trivial] at hd
    exact hd.1
  have hfew : ∀ l, (dartsAt m' l).ncard < 2 ^ 16 := fun l => lt_of_le_of_lt (Set.ncard_le_ncard (hsub l) (dartsAt_finite m l)) (ha.few l)
  obtain ⟨n1, n2, q1, q2, q3, g1, g2, ⟨w1, w2, w3⟩, hq1, d1, d2, hq3⟩ := h.calls
  have s1 := decDegree_spec d1
  obtain ⟨b1, b2, b3, b4, b5⟩ := hm.ends e E h.edge h.live
  rw [hm.nodeLabel b1] at g1
  rw [hm.nodeLabel b2] at g2
  have main : ∀ (l : Nat) (B2 : Node), m'.nodes[l]? = some B2 → B2.live = true → (dartsAt m l).Nonempty →
      B2.anchor ∈ dartsAt m l ∧ ((dartsAt m' l).Nonempty → B2.anchor ∈ dartsAt m' l) := by
    intro l B2 hB2 hl2 hne
    have hdeg := hm'.degree l B2 hB2 hl2
    rw [← hq3] at hB2
    obtain ⟨B1, hB1, l1, k1, k2⟩ := decDegree_anchor d2 l B2 hB2
    obtain ⟨A, hA, l0, k3, k4⟩ := decDegree_anchor d1 l B1 hB1
    have hA0 := hA
    rw [hq1] at hA0
    have hanch := ha.anchor l A hA0 (by rw [l0, l1]; exact hl2) hne
    obtain ⟨t1, t2, t3⟩ := dec_keeps hm hm' hch w1 w2 w3 d1 hA hB1 hanch
    obtain ⟨u1, u2, u3⟩ := dec_keeps hm hm' hch (s1.w.trans w1) (s1.h.trans w2) (s1.px.trans w3) d2 hB1 hB2 t1
    refine ⟨u1, fun hne' => ?_⟩
    have hpos : B2.degree ≠ 0 := by
      have := hfew l
      have h0 : 0 < (dartsAt m' l).ncard := (Set.ncard_pos (dartsAt_finite m' l)).2 hne'
      rw [hdeg, Nat.mod_eq_of_lt this]
      omega
    by_cases c2 : l = n2
    · exact u3 c2 hpos hne'
    · obtain ⟨v1, v2⟩ := k1 c2
      by_cases c1 : l = n1
      · exact u2 (t3 c1 (by rw [← v2]; exact hpos) hne')
      · refine u2 (t2 ?_)
        rw [hch.dartsAt hm trivial]
        refine ⟨hanch, fun he => ?_⟩
        rcases hm.owner e E h.edge h.live _ hanch.1 (Prod.ext hanch.1.edge he) with r | r
        · have := hanch.2
          rw [r] at this
          rw [this] at g1
          exact c1 (Outcome.ok.inj g1)
        · have := hanch.2
          rw [r] at this
          rw [this] at g2
          exact c2 (Outcome.ok.inj g2)
  exact ⟨⟨hfew, fun l B hB hl hne => (main l B hB hl (hne.mono (hsub l))).2 hne⟩, fun l B hB hl hne => (main l B hB hl hne).1⟩

/-- a dart whose edge was removed is left at an isolated node -/
theorem atIsolated_of (hm : Whole m) (hm' : Whole m') (hch : Change m m' (fun _ => True) Q φ ψ) {l : Nat} {a : Dart} (ha : a ∈ dartsAt m l)
    (hno : ¬(dartsAt m' l).Nonempty) : AtIsolated m' a := by
  have hi := ha.1.inside
  have hv' : (m'.px a.x a.y).1 = .vertex := (hch.isVertex hi).2 ⟨ha.1.node, trivial⟩
  have hpx : m'.px a.x a.y = (.vertex, l) := (hch.vertex _ _ _ hi).2 ⟨ha.2, trivial⟩
  have t := hch.together hm.clean hm.nodes hi hv'
  have hi' := (hch.inside _ _).2 hi
  refine ⟨hi', hv', ?_, ?_, ?_⟩
  · rcases hm'.clean.look_types hi' (by rw [hv']; decide) a.dir with e | e | e
    · have := (t _).1 e
      rw [ha.1.edge] at this; cases this
    · exfalso
      refine hno ⟨a, ?_⟩
      rw [hch.dartsAt hm trivial]
      obtain ⟨l', c1, c2, -⟩ := hch.oldLine hm.clean hm.nodes hi hv' e
      exact ⟨ha, by rw [c1]; exact c2⟩
    · exact e
  · by_cases h1 : (m.look a.x a.y (a.dir + 1)).1 = .region
    · left; rw [hch.regionAt hm ha.1 h1]
    · right; rw [hch.regionAt hm ha.1 (hm.left a ha.1 (fun ho => h1 (ha.1.between ho).1) h1)]
  · intro d hd he
    refine hno ⟨d, hd, Prod.ext hd.node ?_⟩
    rw [he, hpx]

/-- operations that leave the darts of the other nodes alone -/
theorem Anchors.node (ha : Anchors m) (hm : Whole m) {n : Nat} (hch : Change m m' (fun l => l ≠ n) (fun _ => True) φ ψ)
    (hnodes : m'.nodes = m.nodes.modify n fun N => { N with live := false }) : Anchors m' := by
  have hd : ∀ l, l ≠ n → dartsAt m' l = dartsAt m l := by
    intro l hl
    rw [hch.dartsAt hm hl]
    ext d
    exact ⟨fun q => q.1, fun q => ⟨q, trivial⟩⟩
  constructor
  · intro l
    by_cases hl : l = n
    · have : dartsAt m' l = ∅ := by
        ext d
        refine ⟨fun q => ?_, fun q => q.elim⟩
        exact ((hch.vertex _ _ _ ((hch.inside _ _).1 q.1.inside)).1 q.2).2 hl
      rw [this, Set.ncard_empty]; norm_num
    · rw [hd l hl]; exact ha.few l
  · intro l A hA hAl hne
    rw [hnodes] at hA
    by_cases hl : l = n
    · subst hl
      rw [List.getElem?_modify_eq] at hA
      obtain ⟨B, -, rfl⟩ := Option.map_eq_some_iff.1 hA
      cases hAl
    · rw [modify_ne (fun e => hl e.symm)] at hA
      rw [hd l hl] at hne ⊢
      exact ha.anchor l A hA hAl hne

/-- One operation. -/
theorem Anchors.step (ha : Anchors m) (hm : Whole m) (h : DartStep m m') : Anchors m' := by
  have hm' := hm.step h
  obtain ⟨op, l, hcall, h⟩ := h
  cases op with
  | removeIsolatedNode d =>
    obtain ⟨_, n, N, hn, hf, res⟩ := removeIsolatedNode_result hm.cons h
    exact ha.node hm (hm.removeNode_change res.image.w res.image.h res.image.px) res.nodes
  | mergeFaces d =>
    obtain ⟨e, g, E, q, -⟩ := hm.mergeFaces_removed hcall h
    exact (ha.removeEdge hm hm' q).1
  | removeBridge d =>
    obtain ⟨e, g, E, q, -⟩ := hm.removeBridge_removed hcall h
    exact (ha.removeEdge hm hm' q).1
  | mergeEdges d =>
    obtain ⟨d1, b, a, g, n, N, G, -, -, -, -, -, -, -, res, -⟩ := mergeEdges_full hm.cons h
    obtain ⟨px, i1, i2⟩ := res.image
    refine ha.node hm (hm.join_change (n := n) (s := l) (g := g) res.w res.h ?_) res.nodes
    intro x y hxy
    have h1 := i1.px x y hxy
    dsimp only at h1
    have h2 := i2.px x y hxy
    simp only [h1] at h2
    rw [h2]
    by_cases c1 : m.px x y = (.vertex, n)
    · simp [c1, res.ne]
    · simp [c1]

theorem Anchors.reach (ha : Anchors m) (hm : Whole m) (h : DartReach m m') : Anchors m' := by
  induction h with
  | refl => exact ha
  | tail h1 h2 ih => exact ih.step (hm.reach h1) h2

/-- the image keeps its size -/
theorem Whole.stepSize (hm : Whole m) (h : DartStep m m') : m'.w = m.w ∧ m'.h = m.h := by
  obtain ⟨op, l, hcall, h⟩ := h
  cases op with
  | removeIsolatedNode d =>
    obtain ⟨_, n, N, hn, hf, res⟩ := removeIsolatedNode_result hm.cons h
    exact ⟨res.image.w, res.image.h⟩
  | mergeFaces d =>
    obtain ⟨e, g, E, q, -⟩ := hm.mergeFaces_removed hcall h
    exact ⟨q.w, q.h⟩
  | removeBridge d =>
    obtain ⟨e, g, E, q, -⟩ := hm.removeBridge_removed hcall h
    exact ⟨q.w, q.h⟩
  | mergeEdges d =>
    obtain ⟨d1, b, a, g, n, N, G, -, -, -, -, -, -, -, res, -⟩ := mergeEdges_full hm.cons h
    exact ⟨res.w, res.h⟩

theorem Whole.reachSize (hm : Whole m) (h : DartReach m m') : m'.w = m.w ∧ m'.h = m.h := by
  induction h with
  | refl => exact ⟨rfl, rfl⟩
  | tail h1 h2 ih =>
    obtain ⟨e1, e2⟩ := (hm.reach h1).stepSize h2
    exact ⟨e1.trans ih.1, e2.trans ih.2⟩

end

end Verif.FourEight
