import Verif.Parallel.Main
import Verif.Eventually.Props

/-!
# Splitting parallel edges and merging their common parts: the properties
-/

namespace Verif.Parallel
open Verif Verif.GeoMap Verif.Eventually

/-- A node is merged into another one only if exactly two darts start there; otherwise the call ends with a violated precondition. -/
theorem mergeStep_refused {K : Type} [Field K] [LinearOrder K] {s : GMap K} (hs : MapOK s) (h : Hooks K) (x : Int) (n : Nat) (p : Pt K) (c : Int) {m : MergeDart} {k : Nat}
    (hk : s.startN? (m.dart s) = some k) (hdeg : (s.star k).card ≠ 2) : mergeStep h x n p c m s = .precond := by
  obtain ⟨π, hg⟩ := hs.graph.exists_rep
  obtain ⟨nd, hnd⟩ := node_of_start hg hk
  unfold mergeStep
  dsimp only
  have h1 : s.startLabel (m.dart s) = .ok k := by
    obtain ⟨e, he, rfl⟩ := Option.map_eq_some_iff.1 hk
    unfold GMap.startLabel
    rw [guaranteedEdge_of he]
    rfl
  have h2 : (s.darts.filter (fun d => s.startN? d = some k)).card ≠ 2 := hdeg
  rw [h1, Outcome.bind_ok, ((degree_eq hg hnd).2 2).2, Outcome.bind_ok, decide_eq_false h2, if_pos rfl]

example (h : Hooks ℚ) (x : Int) (n : Nat) (p : Pt ℚ) (c : Int) : mergeStep h x n p c ⟨4, false, none⟩ Example.map = .precond :=
  mergeStep_refused (k := 1) Props.ex_reach.good.map h x n p c (by decide +kernel) (by decide +kernel)

section
variable {srtS : List SplitPos → List SplitPos} {srtM : List MergeDart → List MergeDart}

/-- Without planned splits the call is refused, and so are preferences that do not belong to the edges. -/
theorem splitParallelEdges_refused (cont : GMap ℝ → Nat → ℝ) (h : Hooks ℝ) (s : GMap ℝ) :
    (∀ given, splitParallelEdges srtS srtM cont h none given s = .precond) ∧
    ∀ pl p, p.length ≠ s.nEdges → splitParallelEdges srtS srtM cont h (some pl) (some p) s = .precond := by
  refine ⟨fun given => rfl, fun pl p hp => ?_⟩
  unfold splitParallelEdges
  simp only
  rw [if_pos (show badPreferences (some p) s.nEdges from hp)]

/-- For every plan that fits the map and whose splits are nested on each edge, `splitParallelEdges` ends normally and leaves a
consistent map without faces; every group of parallel darts is replaced by a single edge, so that there are one more node and one more
edge per group. -/
theorem splitParallelEdges_ok (hS : SplitSorter srtS) (hM : MergeSorter srtM) (cont : GMap ℝ → Nat → ℝ) {h : Hooks ℝ}
    (hh : ∀ s n, h.removeNode s n = true) {s : GMap ℝ} (hs : Sound s) {pl : Splits} {gs : List (List SplitPos)} (hp : PlanOK s pl.list gs)
    {given : Option (List ℝ)} (hgiv : ∀ p, given = some p → p.length = s.nEdges) :
    ∃ t, splitParallelEdges srtS srtM cont h (some pl) given s = .ok t ∧ Parallelized s t gs given := by
  obtain ⟨s1, T, pref, t, Gs, h1, h2, h3, h4, h5, h6⟩ := splitParallelEdges_spec hS hM cont hh hs hp hgiv
  have hgs : ∀ (i : Nat) (g : List SplitPos), gs[i]? = some g → ∀ v ∈ g, v.group = i := fun i g hg => (hp.groups i g hg).2
  have hperm : (srtS pl.list).Perm gs.flatten := by rw [← hp.eq]; exact (hS pl.list).1
  have hTl : T.length = gs.flatten.length := by rw [← hperm.length_eq, ← h3, List.length_map]
  have hall : (T.filter fun w => decide (0 ≤ w.e.group)) = T := by simp
  have hmemg : ∀ {i : Nat} {g : List SplitPos}, gs[i]? = some g → ∀ {w : Row}, w ∈ grp T i → w.e ∈ g := by
    intro i g hg w hw
    have hw' := mem_grp.1 hw
    have : w.e ∈ gs.flatten := hperm.mem_iff.1 (by rw [← h3]; exact List.mem_map_of_mem hw'.1)
    obtain ⟨g', hg', hin⟩ := group_lt hgs this
    rw [hw'.2, hg] at hg'
    cases hg'; exact hin
  have hexg : ∀ {i : Nat} {g : List SplitPos}, gs[i]? = some g → ∀ {u : SplitPos}, u ∈ g → ∃ w ∈ grp T i, w.e = u := by
    intro i g hg u hu
    have : u ∈ T.map Row.e := by
      rw [h3]; exact hperm.mem_iff.2 (List.mem_flatten.2 ⟨g, List.mem_of_getElem? hg, hu⟩)
    obtain ⟨w, hw, rfl⟩ := List.mem_map.1 this
    exact ⟨w, mem_grp.2 ⟨hw, hgs i g hg _ hu⟩, rfl⟩
  have hsurv : ∀ i, ∃ w : Row, i < gs.length → w ∈ grp T i ∧ (t.node w.n).map (·.pos) = (s1.node w.n).map (·.pos) ∧
      (∀ w' ∈ grp T i, w'.n ≠ w.n → t.node w'.n = none) ∧ ∃ G b, Gs[i]? = some (G, b) ∧ G[b]? = some w.entry := by
    intro i
    by_cases hi : i < gs.length
    · obtain ⟨w, q1, q2, q3, G, b, q4, q5⟩ := h6.survivor i (by omega) (by omega)
      exact ⟨w, fun _ => ⟨q1, q2, q3, G, b, q4, q5⟩⟩
    · exact ⟨⟨⟨⟨0, 0, 0⟩, 0, none, 0⟩, 0, 0, 0⟩, fun hc => absurd hc hi⟩
  choose rep hrep using hsurv
  refine ⟨t, h1, h6.sound, ?_, ⟨fun i => (rep i).n, ?_, ?_, ?_⟩, ?_, ?_⟩
  · intro n hn
    rw [h6.pos n, h2.old n hn]
    intro w hw _
    have := (h2.n w hw).1
    omega
  · intro i j hi hj hij
    by_contra hne
    have a := mem_grp.1 (hrep i hi).1
    have b := mem_grp.1 (hrep j hj).1
    obtain ⟨p, hp'⟩ := List.getElem?_of_mem a.1
    obtain ⟨q, hq'⟩ := List.getElem?_of_mem b.1
    obtain ⟨p1, p2⟩ := List.getElem?_eq_some_iff.1 hp'
    obtain ⟨q1, q2⟩ := List.getElem?_eq_some_iff.1 hq'
    have h4' := h4
    rw [List.pairwise_iff_getElem] at h4'
    simp only at hij
    rcases lt_trichotomy p q with hlt | heq | hlt
    · have := (h4' p q p1 q1 hlt).n; rw [p2, q2] at this; exact this hij
    · subst heq
      have e : rep i = rep j := p2.symm.trans q2
      have h1 := a.2; have h2 := b.2
      rw [e] at h1
      exact hne (h1.symm.trans h2)
    · have := (h4' q p q1 p1 hlt).n; rw [p2, q2] at this; exact this hij.symm
  · intro i g hg
    have hi : i < gs.length := (List.getElem?_eq_some_iff.1 hg).1
    obtain ⟨q1, q2, q3, G, b, q4, q5⟩ := hrep i hi
    have hT := (mem_grp.1 q1).1
    refine ⟨(h2.n _ hT).1, (rep i).e, hmemg hg q1, by rw [q2, h2.posn _ hT], ?_⟩
    rintro p hgp ⟨u, hu, hpos⟩ u' hu'
    obtain ⟨g1, g2, -⟩ := h6.group i G b q4
    rw [Nat.zero_add] at g1
    have hmem : ∀ w ∈ grp T i, w.entry ∈ G := fun w hw => g1.mem_iff.2 (List.mem_map_of_mem hw)
    have hne : G.map Entry.m ≠ [] := by
      have := hmem _ q1
      intro hc
      rw [List.map_eq_nil_iff] at hc
      rw [hc] at this; simp at this
    obtain ⟨m, m1, m2, -, -⟩ := bestContinuation_spec pref hne
    rw [← g2, List.getElem?_map, q5] at m1
    have hm : (rep i).entry.m = m := Option.some.inj m1
    obtain ⟨wu, hwu, rfl⟩ := hexg hg hu
    obtain ⟨wu', hwu', rfl⟩ := hexg hg hu'
    have hlab : ∀ w : Row, w.entry.m.label = w.r := fun _ => rfl
    have key := m2 ⟨wu.entry.m, List.mem_map_of_mem (hmem wu hwu), by rw [hlab, h5 p hgp wu (mem_grp.1 hwu).1]; exact hpos⟩
      wu'.entry.m (List.mem_map_of_mem (hmem wu' hwu'))
    rw [← hm, hlab, hlab, h5 p hgp wu' (mem_grp.1 hwu').1, h5 p hgp _ hT] at key
    exact key
  · intro n hn
    by_cases hlt : n < s.nNodes
    · exact Or.inl hlt
    · right
      by_contra hc
      -- a node of the map after the splits
      have h1n : (s1.node n).isSome = true ∨ ∃ w ∈ T, n = w.n := by
        by_cases hw : ∃ w ∈ T, n = w.n
        · exact Or.inr hw
        · left
          have := h6.pos n (fun w hw' _ e => hw ⟨w, hw', e⟩)
          cases hs1 : s1.node n with
          | none => rw [hs1] at this; cases ht : t.node n with
            | none => rw [ht] at hn; cases hn
            | some _ => rw [ht] at this; simp at this
          | some _ => rfl
      have hw : ∃ w ∈ T, n = w.n := by
        rcases h1n with h1n | h1n
        · by_contra hno
          have hlt1 := h2.sound.ok.1.labels.node_lt n h1n
          rw [h2.nNodes] at hlt1
          -- the new labels are exactly the labels of the rows
          have hcard : (T.map Row.n).toFinset.card = T.length := by
            rw [List.toFinset_card_of_nodup, List.length_map]
            unfold List.Nodup
            rw [List.pairwise_map]
            exact h4.imp fun hq => hq.n
          have hsub : (T.map Row.n).toFinset ⊆ (Finset.Ico s.nNodes (s.nNodes + T.length)).erase n := by
            intro k hk
            rw [List.mem_toFinset, List.mem_map] at hk
            obtain ⟨w, hw, rfl⟩ := hk
            have := h2.n w hw
            rw [h2.nNodes] at this
            rw [Finset.mem_erase, Finset.mem_Ico]
            exact ⟨fun e => hno ⟨w, hw, e.symm⟩, this⟩
          have hle := Finset.card_le_card hsub
          rw [hcard, Finset.card_erase_of_mem (Finset.mem_Ico.2 ⟨by omega, hlt1⟩), Nat.card_Ico] at hle
          omega
        · exact h1n
      obtain ⟨w, hw, rfl⟩ := hw
      have hgrp : w.e.group < gs.length := by
        have : w.e ∈ gs.flatten := hperm.mem_iff.1 (by rw [← h3]; exact List.mem_map_of_mem hw)
        obtain ⟨g, hg, -⟩ := group_lt hgs this
        exact (List.getElem?_eq_some_iff.1 hg).1
      obtain ⟨q1, q2, q3, -⟩ := hrep _ hgrp
      have : t.node w.n = none := q3 w (mem_grp.2 ⟨hw, rfl⟩) fun e => hc ⟨_, hgrp, e⟩
      rw [this] at hn; cases hn
  · have := h6.nodeCount
    rw [hall, h2.nodeCount] at this
    omega
  · have := h6.edgeCount
    rw [hall, h2.edgeCount] at this
    omega

/-- In detail: after all splits, the groups are merged one after the other.  Around the node that remains of a group, the dart of the
surviving parallel part is followed by the darts that leave the group, in the order found when the edges were sorted. -/
theorem splitParallelEdges_order (hS : SplitSorter srtS) (hM : MergeSorter srtM) (cont : GMap ℝ → Nat → ℝ) {h : Hooks ℝ}
    (hh : ∀ s n, h.removeNode s n = true) {s : GMap ℝ} (hs : Sound s) {pl : Splits} {gs : List (List SplitPos)} (hp : PlanOK s pl.list gs)
    {given : Option (List ℝ)} (hgiv : ∀ p, given = some p → p.length = s.nEdges) :
    ∃ s1 T Gs t, splitParallelEdges srtS srtM cont h (some pl) given s = .ok t ∧ AllSplit s s1 pl.list T ∧ Chain s1 Gs t ∧
      Gs.length = gs.length ∧ ∀ (i : Nat) (G : List Entry) (b : Nat), Gs[i]? = some (G, b) → G.Perm ((grp T i).map Row.entry) ∧
        ((∀ e ∈ G, e.m.sigmaPos.isSome = true) → G.Pairwise fun e e' => e.m.sigmaPos.getD 0 ≤ e'.m.sigmaPos.getD 0) := by
  obtain ⟨s1, T, pref, t, Gs, h1, h2, h3, h4, h5, h6⟩ := splitParallelEdges_spec hS hM cont hh hs hp hgiv
  have hT : T.length = pl.list.length := by
    have := congrArg List.length h3
    rw [List.length_map, (hS pl.list).1.length_eq] at this
    exact this
  refine ⟨s1, T, Gs, t, h1, ⟨h2.sound, by rw [h3]; exact (hS pl.list).1, h2.two, h2.posn, fun w hw => ⟨(h2.n w hw).1, (h2.r w hw).1⟩, h2.old,
    h4.imp fun hq => ⟨hq.n, hq.r⟩, by rw [h2.nodeCount, hT], by rw [h2.edgeCount, hT]⟩, h6.chain, h6.len, fun i G b hG => ?_⟩
  have := h6.group i G b hG
  rw [Nat.zero_add] at this
  exact ⟨this.1, this.2.2⟩

end

open Classical in
/-- the two sorting functions exist -/
example : (∃ srt, SplitSorter srt) ∧ ∃ srt, MergeSorter srt := by
  refine ⟨⟨fun l => l.mergeSort fun x y => decide (y.at_.arc ≤ x.at_.arc), fun l => ⟨List.mergeSort_perm _ _, ?_⟩⟩,
    ⟨fun l => l.mergeSort fun x y => decide (x.sigmaPos.getD 0 ≤ y.sigmaPos.getD 0), fun l => ⟨List.mergeSort_perm _ _, fun _ => ?_⟩⟩⟩
  · refine (List.pairwise_mergeSort (fun a b c h1 h2 => ?_) (fun a b => ?_) l).imp fun h => of_decide_eq_true h
    · simp only [decide_eq_true_eq] at *; linarith
    · simp only [Bool.or_eq_true, decide_eq_true_eq]; exact le_total _ _
  · refine (List.pairwise_mergeSort (fun a b c h1 h2 => ?_) (fun a b => ?_) l).imp fun h => of_decide_eq_true h
    · simp only [decide_eq_true_eq] at *; omega
    · simp only [Bool.or_eq_true, decide_eq_true_eq]; exact le_total _ _

/-! ## An example: the edges of a corner, with a common part at the corner, one of them also planned from its other end -/

section Corner
open Verif.GeoMap.Props (r2 r2_edge)

theorem corner_sound : Sound r2 :=
  ⟨corner_reach.reach.good.map, Nat.lt_irrefl 0, corner_reach.geom.geom, corner_long⟩

noncomputable def cornerPlan : List (List SplitPos) :=
  [[⟨⟨0, 1 / 4, (1 / 4, 0)⟩, 1, some 1, 0⟩, ⟨⟨0, 1 / 4, (0, 1 / 4)⟩, 2, some 0, 0⟩], [⟨⟨0, 3 / 4, (3 / 4, 0)⟩, -1, some 0, 1⟩]]

theorem cornerPlan_ok : PlanOK r2 cornerPlan.flatten cornerPlan where
  eq := rfl
  groups := by
    intro i g hg
    match i with
    | 0 => cases hg; exact ⟨by simp, by simp⟩
    | 1 => cases hg; exact ⟨by simp, by simp⟩
    | i + 2 => simp [cornerPlan] at hg
  inside := by
    intro v hv
    simp only [cornerPlan, List.flatten_cons, List.flatten_nil, List.append_nil, List.cons_append, List.nil_append, List.mem_cons,
      List.not_mem_nil, or_false] at hv
    rcases hv with rfl | rfl | rfl
    · exact ⟨⟨0, 1, none, none, [(0, 0), (1, 0)], 0⟩, rfl, by simp⟩
    · exact ⟨⟨0, 2, none, none, [(0, 0), (0, 1)], 0⟩, rfl, by simp⟩
    · exact ⟨⟨0, 1, none, none, [(0, 0), (1, 0)], 0⟩, rfl, by simp⟩
  nested := by
    simp only [cornerPlan, List.flatten_cons, List.flatten_nil, List.append_nil, List.cons_append, List.nil_append]
    refine List.Pairwise.cons ?_ (List.Pairwise.cons ?_ (List.pairwise_singleton _ _))
    · intro v hv
      simp only [List.mem_cons, List.not_mem_nil, or_false] at hv
      rcases hv with rfl | rfl
      · intro h; simp at h
      · intro _; left
        exact ⟨by norm_num, le_rfl, by simp, by simp⟩
    · intro v hv
      simp only [List.mem_cons, List.not_mem_nil, or_false] at hv
      subst hv
      intro h; simp at h

/-- the theorems above apply to it -/
example {srtS : List SplitPos → List SplitPos} {srtM : List MergeDart → List MergeDart} (hS : SplitSorter srtS) (hM : MergeSorter srtM)
    (cont : GMap ℝ → Nat → ℝ) : ∃ t, splitParallelEdges srtS srtM cont Hooks.none (some ⟨cornerPlan.flatten, 2⟩) (some [0, 2, 1]) r2 = .ok t ∧
      MapOK t ∧ t.nodeCount = 5 ∧ t.edgeCount = 4 ∧ ∃ n, (t.node n).map (·.pos) = some (1 / 4, 0) := by
  obtain ⟨t, h1, h2⟩ := splitParallelEdges_ok hS hM cont (h := Hooks.none) (fun _ _ => rfl) corner_sound (pl := ⟨cornerPlan.flatten, 2⟩) cornerPlan_ok
    (given := some [0, 2, 1]) (by intro p hp; cases hp; rfl)
  obtain ⟨node, -, g2, -⟩ := h2.groups
  refine ⟨t, h1, h2.sound.ok, h2.nodeCount, h2.edgeCount, node 0, ?_⟩
  obtain ⟨-, v, hv, hpos, hbest⟩ := g2 0 _ rfl
  have := hbest _ rfl ⟨⟨⟨0, 1 / 4, (1 / 4, 0)⟩, 1, some 1, 0⟩, by simp, by norm_num⟩ ⟨⟨0, 1 / 4, (1 / 4, 0)⟩, 1, some 1, 0⟩ (by simp)
  simp only [List.mem_cons, List.not_mem_nil, or_false] at hv
  rcases hv with rfl | rfl
  · exact hpos
  · norm_num at this

end Corner

end Verif.Parallel
