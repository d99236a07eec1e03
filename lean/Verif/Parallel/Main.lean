import Verif.Parallel.Loop

/-! # The merging loop -/

namespace Verif.Parallel
open Verif Verif.GeoMap Verif.Eventually

/-- what is needed of two rows -/
structure RowsOK (u v : Row) : Prop where
  n : u.n ≠ v.n
  r : u.r ≠ v.r
  same : u.e.group = v.e.group → Apart u.entry v.entry
  lt : u.e.group < v.e.group → Unaffected u.entry v.entry
  gt : v.e.group < u.e.group → Unaffected v.entry u.entry

theorem natAbs_a (w : Row) : w.entry.a.natAbs = if 0 < w.e.label then w.q else w.r := by
  unfold Row.entry
  simp only
  by_cases h : 0 < w.e.label
  · rw [if_pos h, if_pos h]; simp
  · rw [if_neg h, if_neg h]; simp

theorem natAbs_b (w : Row) : w.entry.b.natAbs = if 0 < w.e.label then w.r else w.q := by
  unfold Row.entry
  simp only
  by_cases h : 0 < w.e.label
  · rw [if_pos h, if_pos h]; simp
  · rw [if_neg h, if_neg h]; simp

theorem RowLt.ok {u v : Row} (h : RowLt u v) (hb : u.e.label.natAbs = v.e.label.natAbs → Below v.e u.e) (hv0 : v.e.label ≠ 0) : RowsOK u v := by
  have key1 : u.e.group ≤ v.e.group → u.entry.a.natAbs ≠ v.entry.a.natAbs ∧ u.entry.a.natAbs ≠ v.entry.b.natAbs := by
    intro hg
    have hq : 0 < u.e.label → u.q ≠ v.r := by
      intro hp hc
      have := (hb (h.qr hc)).fromStart hp
      omega
    have h1 := h.r
    have h2 := h.q
    have h3 := h.rq
    rw [natAbs_a, natAbs_a, natAbs_b]
    by_cases hu : 0 < u.e.label <;> by_cases hv : 0 < v.e.label
    · rw [if_pos hu, if_pos hv, if_pos hv]; exact ⟨h2, hq hu⟩
    · rw [if_pos hu, if_neg hv, if_neg hv]; exact ⟨hq hu, h2⟩
    · rw [if_neg hu, if_pos hv, if_pos hv]; exact ⟨h3, h1⟩
    · rw [if_neg hu, if_neg hv, if_neg hv]; exact ⟨h1, h3⟩
  have key2 : v.e.group ≤ u.e.group → v.entry.a.natAbs ≠ u.entry.a.natAbs ∧ v.entry.a.natAbs ≠ u.entry.b.natAbs := by
    intro hg
    have hq : ¬ 0 < v.e.label → v.r ≠ u.q := by
      intro hp hc
      have := (hb (h.qr hc.symm)).fromEnd (by omega)
      omega
    have h1 := h.r
    have h2 := h.q
    have h3 := h.rq
    rw [natAbs_a, natAbs_a, natAbs_b]
    by_cases hu : 0 < u.e.label <;> by_cases hv : 0 < v.e.label
    · rw [if_pos hu, if_pos hv, if_pos hu]; exact ⟨Ne.symm h2, Ne.symm h3⟩
    · rw [if_pos hu, if_neg hv, if_pos hu]; exact ⟨hq hv, Ne.symm h1⟩
    · rw [if_neg hu, if_pos hv, if_neg hu]; exact ⟨Ne.symm h3, Ne.symm h2⟩
    · rw [if_neg hu, if_neg hv, if_neg hu]; exact ⟨Ne.symm h1, hq hv⟩
  refine ⟨h.n, h.r, fun he => ?_, fun hl => ?_, fun hg => ?_⟩
  · exact ⟨h.n, (key1 he.le).1, (key1 he.le).2, Ne.symm (key2 he.ge).2⟩
  · exact ⟨Ne.symm h.n, (key1 hl.le).1, (key1 hl.le).2⟩
  · exact ⟨h.n, (key2 hg.le).1, (key2 hg.le).2⟩

theorem perm_map_exists {α β : Type} (f : α → β) {l : List α} {m : List β} (h : m.Perm (l.map f)) : ∃ l' : List α, l'.Perm l ∧ l'.map f = m := by
  generalize hk : l.map f = k at h
  induction h generalizing l with
  | nil => 
    cases l with
    | nil => exact ⟨[], List.Perm.refl _, rfl⟩
    | cons _ _ => simp at hk
  | cons x _ ih =>
    cases l with
    | nil => simp at hk
    | cons a l =>
      simp only [List.map_cons, List.cons.injEq] at hk
      obtain ⟨l', h1, h2⟩ := ih hk.2
      exact ⟨a :: l', h1.cons a, by simp [h2, hk.1]⟩
  | swap x y _ =>
    rcases l with _ | ⟨a, _ | ⟨b, l⟩⟩
    · simp at hk
    · simp at hk
    · simp only [List.map_cons, List.cons.injEq] at hk
      exact ⟨b :: a :: l, List.Perm.swap a b l, by simp [hk]⟩
  | trans _ _ ih1 ih2 =>
    obtain ⟨l1, h1, h2⟩ := ih2 hk
    obtain ⟨l2, h3, h4⟩ := ih1 h2
    exact ⟨l2, h3.trans h1, h4⟩

theorem assigned_some : ∀ l : List MergeDart, assigned (l.map some) = some l
  | [] => rfl
  | m :: l => by rw [List.map_cons, assigned, assigned_some l]; rfl

theorem assigned_group {gs : List (List SplitPos)} {T : List Row} {md : List (Option MergeDart)} {i : Nat} {n : Nat} (hn : (grp T i).length = n)
    (h : ∀ k row, (grp T i)[k]? = some row → md[st gs i + k]? = some (some row.entry.m)) :
    assigned ((md.drop (st gs i)).take n) = some ((grp T i).map fun w => w.entry.m) := by
  have : (md.drop (st gs i)).take n = ((grp T i).map fun w => w.entry.m).map some := by
    apply List.ext_getElem?
    intro k
    rw [List.getElem?_take]
    by_cases hk : k < n
    · rw [if_pos hk, List.getElem?_drop]
      have hr : (grp T i)[k]? = some ((grp T i)[k]'(by omega)) := List.getElem?_eq_getElem _
      rw [h k _ hr, List.getElem?_map, List.getElem?_map, hr]
      rfl
    · rw [if_neg hk, List.getElem?_eq_none]
      simp; omega
  rw [this, assigned_some]

theorem mem_grp {T : List Row} {i : Nat} {w : Row} : w ∈ grp T i ↔ w ∈ T ∧ w.e.group = i := by
  unfold grp; simp

/-- the rows of the groups from `i` on -/
structure Merging (T : List Row) (i j : Nat) (pref : Nat → ℝ) (s t : GMap ℝ) (Gs : List (List Entry × Nat)) : Prop where
  sound : Sound t
  chain : Chain s Gs t
  len : Gs.length = j
  group : ∀ (k : Nat) (G : List Entry) (b : Nat), Gs[k]? = some (G, b) → G.Perm ((grp T (i + k)).map Row.entry) ∧ b = bestContinuation pref (G.map Entry.m) ∧
    ((∀ e ∈ G, e.m.sigmaPos.isSome = true) → G.Pairwise fun e e' => e.m.sigmaPos.getD 0 ≤ e'.m.sigmaPos.getD 0)
  pos : ∀ n, (∀ w ∈ T, i ≤ w.e.group → n ≠ w.n) → (t.node n).map (·.pos) = (s.node n).map (·.pos)
  survivor : ∀ k, i ≤ k → k < i + j → ∃ w ∈ grp T k, (t.node w.n).map (·.pos) = (s.node w.n).map (·.pos) ∧
    (∀ w' ∈ grp T k, w'.n ≠ w.n → t.node w'.n = none) ∧ ∃ G b, Gs[k - i]? = some (G, b) ∧ G[b]? = some w.entry
  nodeCount : t.nodeCount + (T.filter fun w => decide (i ≤ w.e.group)).length = s.nodeCount + j
  edgeCount : t.edgeCount + (T.filter fun w => decide (i ≤ w.e.group)).length = s.edgeCount + j
  nNodes : t.nNodes = s.nNodes
  nEdges : t.nEdges = s.nEdges

theorem filter_ge (T : List Row) (i : Nat) : (T.filter fun w => decide (i ≤ w.e.group)).length =
    (grp T i).length + (T.filter fun w => decide (i + 1 ≤ w.e.group)).length := by
  unfold grp
  induction T with
  | nil => rfl
  | cons w T ih =>
    simp only [List.filter_cons]
    by_cases h1 : w.e.group = i
    · rw [if_pos (by simp; omega), if_pos (by simp; omega), if_neg (by simp; omega)]
      simp only [List.length_cons]; omega
    · by_cases h2 : i + 1 ≤ w.e.group
      · rw [if_pos (by simp; omega), if_neg (by simp; omega), if_pos (by simp; omega)]
        simp only [List.length_cons]; omega
      · rw [if_neg (by simp; omega), if_neg (by simp; omega), if_neg (by simp; omega)]
        omega

theorem mergeLoop_spec {srt : List MergeDart → List MergeDart} (hsrt : MergeSorter srt) {h : Hooks ℝ} (hh : ∀ s n, h.removeNode s n = true)
    {pref : Nat → ℝ} {gs : List (List SplitPos)} {T : List Row} {md : List (Option MergeDart)}
    (hmd : ∀ i k row, (grp T i)[k]? = some row → md[st gs i + k]? = some (some row.entry.m))
    (hlen : ∀ (i : Nat) (g : List SplitPos), gs[i]? = some g → (grp T i).length = g.length ∧ g ≠ []) (hpw : T.Pairwise RowsOK) (hgl : ∀ w ∈ T, w.e.group < gs.length) :
    ∀ (j i : Nat) (s : GMap ℝ), i + j = gs.length → Sound s → (∀ w ∈ T, i ≤ w.e.group → Ready s w.entry) →
      ∃ t Gs, mergeLoop srt h pref md ((List.range' i j).map fun k : Nat => st gs (k + 1)) (st gs i) s = .ok t ∧ Merging T i j pref s t Gs
  | 0, i, s, hij, hs, _ => by
    have hnone : (T.filter fun w => decide (i ≤ w.e.group)) = [] := by
      rw [List.filter_eq_nil_iff]
      intro w hw
      have := hgl w hw
      simp; omega
    refine ⟨s, [], rfl, hs, rfl, rfl, by simp, fun _ _ => rfl, fun k h1 h2 => by omega, by rw [hnone]; rfl, by rw [hnone]; rfl, rfl, rfl⟩
  | j + 1, i, s, hij, hs, hready => by
    have hi : i < gs.length := by omega
    obtain ⟨hlg, hne⟩ := hlen i gs[i] (List.getElem?_eq_getElem hi)
    have hass : assigned ((md.drop (st gs i)).take (st gs (i + 1) - st gs i)) = some ((grp T i).map fun w => w.entry.m) := by
      refine assigned_group ?_ (hmd i)
      rw [st_succ (List.getElem?_eq_getElem hi)]; omega
    obtain ⟨Rw, hRp, hRm⟩ := perm_map_exists (fun w : Row => w.entry.m) (hsrt ((grp T i).map fun w => w.entry.m)).1
    have hGm : (Rw.map Row.entry).map Entry.m = srt ((grp T i).map fun w => w.entry.m) := by
      rw [← hRm, List.map_map]; rfl
    have hmem : ∀ w, w ∈ Rw ↔ w ∈ T ∧ w.e.group = i := fun w => by rw [hRp.mem_iff, mem_grp]
    have hGne : (Rw.map Row.entry).map Entry.m ≠ [] := by
      intro hc
      have h1 : Rw.length = 0 := by
        have := congrArg List.length hc
        simpa using this
      rw [hRp.length_eq, hlg] at h1
      exact hne (List.length_eq_zero_iff.1 h1)
    have hpwT : (grp T i).Pairwise RowsOK := hpw.sublist List.filter_sublist
    have hpwE : Rw.Pairwise fun u v => Apart u.entry v.entry := by
      refine (List.Perm.pairwise_iff (fun {a b} hab => hab.symm) hRp).2 ?_
      refine List.Pairwise.imp_of_mem ?_ hpwT
      intro u v hu hv huv
      exact huv.same (by rw [(mem_grp.1 hu).2, (mem_grp.1 hv).2])
    have hpwG : (Rw.map Row.entry).Pairwise Apart := by rw [List.pairwise_map]; exact hpwE
    have hnpw : Rw.Pairwise fun u v => u.n ≠ v.n := hpwE.imp fun hq => hq.k
    obtain ⟨m, hm, -⟩ := bestContinuation_spec pref hGne
    have hb : (Rw.map Row.entry)[bestContinuation pref ((Rw.map Row.entry).map Entry.m)]? ≠ none := by
      intro hc
      rw [List.getElem?_map, hc] at hm
      cases hm
    obtain ⟨e0, he0⟩ := Option.ne_none_iff_exists'.1 hb
    obtain ⟨b, hbdef⟩ : ∃ b, b = bestContinuation pref ((Rw.map Row.entry).map Entry.m) := ⟨_, rfl⟩
    obtain ⟨t1, g1, g2, g3, g4, g5⟩ := mergeGroup_spec hh pref hs (G := Rw.map Row.entry) (fun e he => by
      rw [List.mem_map] at he
      obtain ⟨w, hw, rfl⟩ := he
      have := (hmem w).1 hw
      exact hready w this.1 (by omega)) hpwG he0
    rw [← hbdef] at he0 g4 g5
    rw [hGm] at g1
    obtain ⟨w0, hw0, hw0e⟩ : ∃ w0, Rw[b]? = some w0 ∧ w0.entry = e0 := by
      rw [List.getElem?_map] at he0
      cases hq : Rw[b]? with
      | none => rw [hq] at he0; cases he0
      | some w0 => rw [hq] at he0; exact ⟨w0, rfl, Option.some.inj he0⟩
    have hw0m : w0 ∈ Rw := List.mem_of_getElem? hw0
    have her : (Rw.map Row.entry).eraseIdx b = (Rw.eraseIdx b).map Row.entry := by rw [List.eraseIdx_map]
    have hother : ∀ w ∈ Rw.eraseIdx b, w.n ≠ w0.n := by
      intro w hw
      rw [List.mem_eraseIdx_iff_getElem?] at hw
      obtain ⟨k, hk1, hk2⟩ := hw
      obtain ⟨a1, a2⟩ := List.getElem?_eq_some_iff.1 hk2
      obtain ⟨b1, b2⟩ := List.getElem?_eq_some_iff.1 hw0
      rw [List.pairwise_iff_getElem] at hnpw
      rcases Nat.lt_or_gt_of_ne hk1 with hlt | hlt
      · have := hnpw k b a1 b1 hlt; rwa [a2, b2] at this
      · have := hnpw b k b1 a1 hlt; rw [a2, b2] at this; exact Ne.symm this
    have herm : ∀ w ∈ Rw.eraseIdx b, w ∈ T ∧ w.e.group = i := fun w hw => (hmem w).1 (List.mem_of_mem_eraseIdx hw)
    have hlater : ∀ u ∈ T, ∀ v ∈ T, u.e.group = i → i < v.e.group → Unaffected u.entry v.entry := by
      intro u hu v hv hui hvi
      obtain ⟨p, hp⟩ := List.getElem?_of_mem hu
      obtain ⟨q, hq⟩ := List.getElem?_of_mem hv
      obtain ⟨p1, p2⟩ := List.getElem?_eq_some_iff.1 hp
      obtain ⟨q1, q2⟩ := List.getElem?_eq_some_iff.1 hq
      rw [List.pairwise_iff_getElem] at hpw
      rcases lt_trichotomy p q with hlt | heq | hlt
      · have := hpw p q p1 q1 hlt; rw [p2, q2] at this; exact this.lt (by omega)
      · subst heq; rw [p2] at q2; rw [q2] at hui; omega
      · have := hpw q p q1 p1 hlt; rw [p2, q2] at this; exact this.gt (by omega)
    have hready1 : ∀ w ∈ T, i + 1 ≤ w.e.group → Ready t1 w.entry := by
      intro w hw hwg
      refine g5 w.entry (hready w hw (by omega)) ?_ ?_
      · rw [← hw0e]
        exact (hlater w0 ((hmem w0).1 hw0m).1 w hw ((hmem w0).1 hw0m).2 (by omega)).1
      · intro e he
        rw [her, List.mem_map] at he
        obtain ⟨u, hu, rfl⟩ := he
        exact hlater u (herm u hu).1 w hw (herm u hu).2 (by omega)
    obtain ⟨t, Gs, l1, l2⟩ := mergeLoop_spec hsrt hh (pref := pref) hmd hlen hpw hgl j (i + 1) t1 (by omega) g2 hready1
    have hnT : ∀ u ∈ T, ∀ v ∈ T, u.e.group = i → i + 1 ≤ v.e.group → u.n ≠ v.n := by
      intro u hu v hv h1 h2
      exact Ne.symm (hlater u hu v hv h1 (by omega)).1
    have hlenG : ((Rw.map Row.entry).eraseIdx b).length + 1 = (grp T i).length := by
      have hbl : b < (Rw.map Row.entry).length := (List.getElem?_eq_some_iff.1 he0).1
      rw [List.length_eraseIdx, if_pos hbl, List.length_map, hRp.length_eq]
      rw [List.length_map, hRp.length_eq] at hbl
      omega
    refine ⟨t, (Rw.map Row.entry, b) :: Gs, ?_, l2.sound, ⟨t1, e0, he0, g2, g3, g4, l2.chain⟩, by rw [List.length_cons, l2.len], ?_, ?_, ?_, ?_, ?_, ?_, ?_⟩
    · rw [List.range'_succ, List.map_cons, mergeLoop, hass]
      simp only
      rw [g1, Outcome.bind_ok]
      exact l1
    · intro k G bb hk
      cases k with
      | zero =>
        simp only [List.getElem?_cons_zero, Option.some.injEq, Prod.mk.injEq] at hk
        obtain ⟨rfl, rfl⟩ := hk
        refine ⟨hRp.map _, hbdef, fun hsome => ?_⟩
        have := (hsrt ((grp T i).map fun w => w.entry.m)).2 (by
          intro m hm
          rw [List.mem_map] at hm
          obtain ⟨w, hw, rfl⟩ := hm
          exact hsome w.entry (List.mem_map_of_mem (hRp.mem_iff.2 hw)))
        rw [← hGm, List.pairwise_map] at this
        exact this
      | succ k =>
        have := l2.group k G bb (by simpa using hk)
        rwa [show i + (k + 1) = i + 1 + k by omega]
    · intro n hn
      rw [l2.pos n fun w hw hwg => hn w hw (by omega), g4.pos]
      intro e he
      rw [her, List.mem_map] at he
      obtain ⟨u, hu, rfl⟩ := he
      exact hn u (herm u hu).1 (by have := (herm u hu).2; omega)
    · intro k h1 h2
      rcases Nat.lt_or_ge i k with hlt | hge
      · obtain ⟨w, hw, q1, q2, G, bb, q3, q4⟩ := l2.survivor k (by omega) (by omega)
        refine ⟨w, hw, ?_, q2, G, bb, ?_, q4⟩
        rotate_left
        · rw [show k - i = k - (i + 1) + 1 by omega, List.getElem?_cons_succ, q3]
        rw [q1, g4.pos]
        intro e he
        rw [her, List.mem_map] at he
        obtain ⟨u, hu, rfl⟩ := he
        exact Ne.symm (hnT u (herm u hu).1 w (mem_grp.1 hw).1 (herm u hu).2 (by rw [(mem_grp.1 hw).2]; omega))
      · have : k = i := by omega
        subst this
        have hw0g := (hmem w0).1 hw0m
        refine ⟨w0, mem_grp.2 hw0g, ?_, ?_, Rw.map Row.entry, b, by rw [Nat.sub_self]; rfl, by rw [he0, hw0e]⟩
        · rw [l2.pos _ fun w hw hwg => hnT w0 hw0g.1 w hw hw0g.2 hwg, g4.pos]
          intro e he
          rw [her, List.mem_map] at he
          obtain ⟨u, hu, rfl⟩ := he
          exact Ne.symm (hother u hu)
        · intro w' hw' hne'
          have hw'R := hRp.mem_iff.2 hw'
          have hw'e : w' ∈ Rw.eraseIdx b := by
            obtain ⟨p, hp⟩ := List.getElem?_of_mem hw'R
            rw [List.mem_eraseIdx_iff_getElem?]
            refine ⟨p, ?_, hp⟩
            rintro rfl
            rw [hw0] at hp
            exact hne' (by rw [Option.some.inj hp])
          have hgone := g4.gone w'.entry (by rw [her]; exact List.mem_map_of_mem hw'e)
          have := l2.pos w'.n fun w hw hwg => hnT w' (mem_grp.1 hw').1 w hw (mem_grp.1 hw').2 hwg
          change t1.node w'.n = none at hgone
          rw [hgone] at this
          cases ht : t.node w'.n with
          | none => rfl
          | some _ => rw [ht] at this; simp at this
    · have q1 := g4.nodeCount
      have q2 := l2.nodeCount
      rw [filter_ge]
      omega
    · have q1 := g4.edgeCount
      have q2 := l2.edgeCount
      rw [filter_ge]
      omega
    · rw [l2.nNodes, g4.nNodes]
    · rw [l2.nEdges, g4.nEdges]

/-! ## the whole function -/

theorem sorted_below {srt : List SplitPos → List SplitPos} (hS : SplitSorter srt) {l : List SplitPos}
    (hn : l.Pairwise fun u v => u.label.natAbs = v.label.natAbs → Below u v ∨ Below v u) :
    (srt l).Pairwise fun u v => u.label.natAbs = v.label.natAbs → Below v u := by
  have h1 : (srt l).Pairwise fun u v => u.label.natAbs = v.label.natAbs → Below u v ∨ Below v u :=
    (List.Perm.pairwise_iff (fun {a b} hab he => (hab he.symm).symm) (hS l).1).2 hn
  refine (h1.and (hS l).2).imp ?_
  rintro u v ⟨g1, g2⟩ he
  rcases g1 he with h | h
  · exact absurd h.arc (not_lt.2 g2)
  · exact h

/-- the state after the splitting phase, and the merging phase -/
theorem splitParallelEdges_spec {srtS : List SplitPos → List SplitPos} {srtM : List MergeDart → List MergeDart} (hS : SplitSorter srtS)
    (hM : MergeSorter srtM) (cont : GMap ℝ → Nat → ℝ) {h : Hooks ℝ} (hh : ∀ s n, h.removeNode s n = true) {s : GMap ℝ} (hs : Sound s)
    {pl : Splits} {gs : List (List SplitPos)} (hp : PlanOK s pl.list gs) {given : Option (List ℝ)} (hgiv : ∀ p, given = some p → p.length = s.nEdges) :
    ∃ s1 T pref t Gs, splitParallelEdges srtS srtM cont h (some pl) given s = .ok t ∧ Tab s s1 T ∧ T.map Row.e = srtS pl.list ∧ T.Pairwise RowsOK ∧
      (∀ p, given = some p → ∀ w ∈ T, pref w.r = p.getD w.e.label.natAbs 0) ∧ Merging T 0 gs.length pref s1 t Gs := by
  have hgs : ∀ (i : Nat) (g : List SplitPos), gs[i]? = some g → ∀ v ∈ g, v.group = i := fun i g hg => (hp.groups i g hg).2
  have hlab : ∀ l, (s.edge l).isSome = true → l < s.nEdges := fun l hl => hs.ok.1.labels.edge_lt l hl
  have hin : ∀ v ∈ gs.flatten, ∃ e, s.edge v.label.natAbs = some e ∧ v.at_.seg + 1 < e.pts.length := fun v hv => hp.inside v (by rw [hp.eq]; exact hv)
  have hperm : (srtS pl.list).Perm gs.flatten := by rw [← hp.eq]; exact (hS pl.list).1
  have hsb := sorted_below hS hp.nested
  have hgp : groupStarts pl.list 0 [] = (List.range gs.length).map fun i : Nat => 0 + st gs i := by
    rw [hp.eq, groupStarts_eq gs 0 [] (by simpa using hp.groups)]; rfl
  have hI : Inv s gs given.isSome (fun i => (given.getD []).getD i 0)
      ⟨groupStarts pl.list 0 [], List.replicate pl.list.length none, fun i => (given.getD []).getD i 0, s⟩ [] := by
    refine ⟨Tab.init hs, ?_, ?_, ?_, ?_, ?_, ?_⟩
    · simp only; rw [hgp]; simp
    · intro i hi
      simp only
      rw [hgp, List.getElem?_map, List.getElem?_range hi]
      simp [grp]
    · simp only; rw [List.length_replicate, hp.eq]
    · intro i k row hrow; simp [grp] at hrow
    · intro l _; rfl
    · intro _ row hrow; simp at hrow
  obtain ⟨w, T, w1, w2, w3⟩ := splitLoop_spec (cont := cont) hgs hlab hin (srtS pl.list) [] _ hI (by simpa using hperm)
    (by simpa using hsb.imp fun hq he => (hq he).seg)
  rw [List.map_nil, List.nil_append] at w3
  have hTl : T.length = pl.list.length := by
    have := congrArg List.length w3
    rw [List.length_map, (hS pl.list).1.length_eq] at this
    exact this
  have hgl : ∀ v ∈ T, v.e.group < gs.length := by
    intro v hv
    have : v.e ∈ gs.flatten := hperm.mem_iff.1 (by rw [← w3]; exact List.mem_map_of_mem hv)
    obtain ⟨g, hg, -⟩ := group_lt hgs this
    exact (List.getElem?_eq_some_iff.1 hg).1
  have hlen : ∀ (i : Nat) (g : List SplitPos), gs[i]? = some g → (grp T i).length = g.length ∧ g ≠ [] := by
    intro i g hg
    refine ⟨?_, (hp.groups i g hg).1⟩
    rw [grp_length, w3, (hperm.filter _).length_eq, filter_group hgs hg]
  have hrows : T.Pairwise RowsOK := by
    have h1 : T.Pairwise fun u v => u.e.label.natAbs = v.e.label.natAbs → Below v.e u.e := by
      rw [← w3, List.pairwise_map] at hsb; exact hsb
    refine List.Pairwise.imp_of_mem ?_ (w2.tab.pw.and h1)
    rintro u v hu hv ⟨g1, g2⟩
    refine g1.ok g2 ?_
    intro h0
    have hmem : v.e ∈ gs.flatten := hperm.mem_iff.1 (by rw [← w3]; exact List.mem_map_of_mem hv)
    obtain ⟨e, he, -⟩ := hin v.e hmem
    rw [h0] at he
    have := hs.ok.1.labels.edge_zero
    rw [show Int.natAbs 0 = 0 from rfl, this] at he
    cases he
  obtain ⟨t, Gs, m1, m2⟩ := mergeLoop_spec hM hh (pref := w.pref) w2.md hlen hrows hgl gs.length 0 w.map (by omega) w2.tab.sound
    (fun v hv _ => by
      have := w2.tab.two v hv
      refine ⟨?_, ?_⟩
      · unfold Row.entry
        simp only
        by_cases hl : 0 < v.e.label
        · rw [if_pos hl, if_pos hl]
          exact ⟨Ne.symm this.ne, by have := this.ne'; omega, this.sb, this.sa, this.ba, this.ab⟩
        · rw [if_neg hl, if_neg hl]; exact this
      · unfold Row.entry
        simp only
        by_cases hl : 0 < v.e.label
        · simp [hl]
        · simp [hl])
  refine ⟨w.map, T, w.pref, t, Gs, ?_, w2.tab, w3, hrows, ?_, m2⟩
  · unfold splitParallelEdges
    simp only
    have hg0 : ¬ badPreferences given s.nEdges := by
      cases given with
      | none => exact fun hc => hc
      | some p => exact fun hc => hc (hgiv p rfl)
    rw [if_neg hg0]
    rw [w1, Outcome.bind_ok, if_neg (by rw [w2.tab.nEdges, hTl]; simp)]
    have hgpw : w.gp = (List.range' 0 gs.length).map fun k : Nat => st gs (k + 1) := by
      apply List.ext_getElem?
      intro i
      by_cases hi : i < gs.length
      · rw [w2.gp i hi, List.getElem?_map, List.getElem?_range' hi]
        have := hlen i gs[i] (List.getElem?_eq_getElem hi)
        simp [st_succ (List.getElem?_eq_getElem hi), this.1]
      · rw [List.getElem?_eq_none (by rw [w2.gpl]; omega), List.getElem?_eq_none (by simp; omega)]
    rw [hgpw]
    have : st gs 0 = 0 := by simp [st]
    rw [this] at m1
    exact m1
  · intro p hpg v hv
    have := w2.prefNew (by rw [hpg]; rfl) v hv
    rw [this, hpg]
    rfl

end Verif.Parallel
