import Verif.Parallel.Split

/-! # The splitting loop and the bookkeeping of the groups -/

namespace Verif.Parallel
open Verif Verif.GeoMap Verif.Eventually

/-! ## positions of the groups -/

/-- position of the group `i` -/
def st (gs : List (List SplitPos)) (i : Nat) : Nat := (gs.take i).flatten.length

theorem st_succ {gs : List (List SplitPos)} {i : Nat} {g : List SplitPos} (h : gs[i]? = some g) : st gs (i + 1) = st gs i + g.length := by
  unfold st
  rw [List.take_add_one, h]
  simp

theorem st_mono (gs : List (List SplitPos)) {i j : Nat} (h : i ≤ j) : st gs i ≤ st gs j := by
  unfold st
  have : gs.take i = (gs.take j).take i := by rw [List.take_take, Nat.min_eq_left h]
  rw [this]
  conv_rhs => rw [← List.take_append_drop i (gs.take j), List.flatten_append, List.length_append]
  omega

theorem st_le (gs : List (List SplitPos)) (i : Nat) : st gs i ≤ gs.flatten.length := by
  by_cases h : i ≤ gs.length
  · have := st_mono gs h
    unfold st at this ⊢
    rwa [List.take_length] at this
  · unfold st; rw [List.take_of_length_le (by omega)]

theorem st_length (gs : List (List SplitPos)) : st gs gs.length = gs.flatten.length := by
  unfold st; rw [List.take_length]

theorem groupStarts_skip (rest : List SplitPos) : ∀ (g : List SplitPos) (idx : Nat) (gp : List Nat), (∀ v ∈ g, v.group ≠ gp.length) →
    groupStarts (g ++ rest) idx gp = groupStarts rest (idx + g.length) gp
  | [], idx, gp, _ => by simp
  | v :: g, idx, gp, h => by
    rw [List.cons_append, groupStarts, if_neg (h v List.mem_cons_self),
      groupStarts_skip rest g (idx + 1) gp fun w hw => h w (List.mem_cons_of_mem _ hw)]
    congr 1
    simp only [List.length_cons]; omega

theorem groupStarts_eq : ∀ (gs : List (List SplitPos)) (idx : Nat) (gp : List Nat),
    (∀ (i : Nat) (g : List SplitPos), gs[i]? = some g → g ≠ [] ∧ ∀ v ∈ g, v.group = gp.length + i) →
    groupStarts gs.flatten idx gp = gp ++ (List.range gs.length).map fun i : Nat => idx + st gs i
  | [], idx, gp, _ => by simp [groupStarts]
  | g :: gs, idx, gp, h => by
    obtain ⟨h1, h2⟩ := h 0 g rfl
    cases g with
    | nil => exact absurd rfl h1
    | cons v g =>
      rw [List.flatten_cons, List.cons_append, groupStarts, if_pos (by have := h2 v List.mem_cons_self; omega), groupStarts_skip]
      · rw [groupStarts_eq gs _ _ (fun i g' hg' => ?_)]
        · rw [List.length_cons, List.range_succ_eq_map, List.map_cons, List.map_map, List.append_assoc]
          congr 1
          rw [List.singleton_append]
          congr 1
          refine List.map_congr_left fun i _ => ?_
          simp [st]
          omega
        · have := h (i + 1) g' (by simpa using hg')
          refine ⟨this.1, fun w hw => ?_⟩
          rw [this.2 w hw]; simp; omega
      · intro w hw
        have := h2 w (List.mem_cons_of_mem _ hw)
        simp; omega

theorem filter_offset : ∀ (gs : List (List SplitPos)) (o : Nat), (∀ (i : Nat) (g : List SplitPos), gs[i]? = some g → ∀ v ∈ g, v.group = o + i) → ∀ i : Nat,
    gs.flatten.filter (fun v => decide (v.group = o + i)) = (gs[i]?).getD []
  | [], _, _, i => by simp
  | g :: gs, o, h, i => by
    have h0 := h 0 g rfl
    have ih := filter_offset gs (o + 1) (fun i g' hg' v hv => by
      have := h (i + 1) g' (by simpa using hg') v hv; omega)
    rw [List.flatten_cons, List.filter_append]
    cases i with
    | zero =>
      have e1 : g.filter (fun v => decide (v.group = o + 0)) = g := by
        rw [List.filter_eq_self]; intro v hv; simp [h0 v hv]
      have e2 : gs.flatten.filter (fun v => decide (v.group = o + 0)) = [] := by
        rw [List.filter_eq_nil_iff]
        intro v hv
        rw [List.mem_flatten] at hv
        obtain ⟨g', hg', hv⟩ := hv
        obtain ⟨i, hi⟩ := List.getElem?_of_mem hg'
        have := h (i + 1) g' (by simpa using hi) v hv
        simp; omega
      rw [e1, e2]; simp
    | succ i =>
      have e1 : g.filter (fun v => decide (v.group = o + (i + 1))) = [] := by
        rw [List.filter_eq_nil_iff]; intro v hv
        have := h0 v hv
        simp; omega
      rw [e1, List.nil_append]
      have := ih i
      rw [show o + (i + 1) = o + 1 + i by omega, this]
      simp

theorem filter_group {gs : List (List SplitPos)} (h : ∀ (i : Nat) (g : List SplitPos), gs[i]? = some g → ∀ v ∈ g, v.group = i) {i : Nat} {g : List SplitPos} (hg : gs[i]? = some g) :
    gs.flatten.filter (fun v => decide (v.group = i)) = g := by
  have := filter_offset gs 0 (by simpa using h) i
  rw [hg] at this
  simpa using this

theorem group_lt {gs : List (List SplitPos)} (h : ∀ (i : Nat) (g : List SplitPos), gs[i]? = some g → ∀ v ∈ g, v.group = i) {v : SplitPos} (hv : v ∈ gs.flatten) :
    ∃ g, gs[v.group]? = some g ∧ v ∈ g := by
  rw [List.mem_flatten] at hv
  obtain ⟨g, hg, hv⟩ := hv
  obtain ⟨i, hi⟩ := List.getElem?_of_mem hg
  have := h i g hi v hv
  exact ⟨g, by rw [this]; exact hi, hv⟩

/-! ## the loop -/

structure Inv (s0 : GMap ℝ) (gs : List (List SplitPos)) (given : Bool) (pref0 : Nat → ℝ) (w : Work) (T : List Row) : Prop where
  tab : Tab s0 w.map T
  gpl : w.gp.length = gs.length
  gp : ∀ i, i < gs.length → w.gp[i]? = some (st gs i + (grp T i).length)
  mdl : w.md.length = gs.flatten.length
  md : ∀ i k row, (grp T i)[k]? = some row → w.md[st gs i + k]? = some (some row.entry.m)
  prefOld : ∀ l, l < s0.nEdges → w.pref l = pref0 l
  prefNew : given = true → ∀ row ∈ T, w.pref row.r = pref0 row.e.label.natAbs

theorem grp_bump (T : List Row) (l r i : Nat) : grp (bump T l r) i = bump (grp T i) l r := by
  unfold grp bump
  rw [List.filter_map]
  congr 1
  refine List.filter_congr fun w _ => ?_
  have : (if w.q = l then { w with q := r } else w).e = w.e := by
    by_cases h : w.q = l
    · rw [if_pos h]
    · rw [if_neg h]
  simp only [Function.comp, this]

theorem bump_m {w : Row} {T : List Row} {l r k : Nat} (h : (bump T l r)[k]? = some w) : ∃ w0, T[k]? = some w0 ∧ w.entry.m = w0.entry.m := by
  unfold bump at h
  rw [List.getElem?_map] at h
  cases h0 : T[k]? with
  | none => rw [h0] at h; cases h
  | some w0 =>
    rw [h0] at h
    refine ⟨w0, rfl, ?_⟩
    simp only [Option.map_some, Option.some.injEq] at h
    rw [← h]
    by_cases hq : w0.q = l
    · rw [if_pos hq]; rfl
    · rw [if_neg hq]

theorem bump_e (T : List Row) (l r : Nat) : (bump T l r).map Row.e = T.map Row.e := by
  unfold bump
  rw [List.map_map]
  refine List.map_congr_left fun w _ => ?_
  simp only [Function.comp]
  by_cases h : w.q = l
  · rw [if_pos h]
  · rw [if_neg h]

theorem grp_append (T T' : List Row) (i : Nat) : grp (T ++ T') i = grp T i ++ grp T' i := List.filter_append _ _

theorem grp_length (T : List Row) (i : Nat) : (grp T i).length = ((T.map Row.e).filter fun v => decide (v.group = i)).length := by
  unfold grp
  rw [List.filter_map, List.length_map]; rfl

theorem Inv.step {s0 : GMap ℝ} {gs : List (List SplitPos)} {given : Bool} {pref0 : Nat → ℝ} {cont : GMap ℝ → Nat → ℝ} {w : Work} {T : List Row}
    (hI : Inv s0 gs given pref0 w T) (hgs : ∀ (i : Nat) (g : List SplitPos), gs[i]? = some g → ∀ v ∈ g, v.group = i) {v : SplitPos} {R : List SplitPos}
    (hperm : (T.map Row.e ++ v :: R).Perm gs.flatten) {e0 : Edge ℝ} (he0 : s0.edge v.label.natAbs = some e0)
    (hlt : v.label.natAbs < s0.nEdges) (hlen : v.at_.seg + 1 < e0.pts.length)
    (hseg : ∀ w ∈ T, w.e.label.natAbs = v.label.natAbs → v.at_.seg ≤ w.e.at_.seg) :
    ∃ w' T', splitStep given cont v w = .ok w' ∧ Inv s0 gs given pref0 w' T' ∧ T'.map Row.e = T.map Row.e ++ [v] := by
  obtain ⟨t, ht, htab⟩ := hI.tab.step he0 hlt hlen hseg
  obtain ⟨e, he, -⟩ := hI.tab.room _ e0 he0
  obtain ⟨g, hg, hvg⟩ := group_lt hgs (hperm.mem_iff.1 (by simp) : v ∈ gs.flatten)
  have hil : v.group < gs.length := (List.getElem?_eq_some_iff.1 hg).1
  have hcnt : (grp T v.group).length + 1 ≤ g.length := by
    have h1 := (hperm.filter fun u => decide (u.group = v.group)).length_eq
    rw [filter_group hgs hg, List.filter_append, List.length_append, ← grp_length, List.filter_cons] at h1
    simp at h1
    omega
  have hbnd : ∀ i, i < gs.length → ∃ g', gs[i]? = some g' ∧ (grp T i).length ≤ g'.length := by
    intro i hi
    refine ⟨gs[i], List.getElem?_eq_getElem hi, ?_⟩
    have h1 := (hperm.filter fun u => decide (u.group = i)).length_eq
    rw [filter_group hgs (List.getElem?_eq_getElem hi), List.filter_append, List.length_append, ← grp_length] at h1
    omega
  have hpos : st gs v.group + (grp T v.group).length < w.md.length := by
    have h1 := st_succ hg
    have h2 := st_le gs (v.group + 1)
    rw [hI.mdl]; omega
  have hgrpn : ∀ i, grp (bump T v.label.natAbs w.map.nEdges ++ [⟨v, v.label.natAbs, w.map.nEdges, w.map.nNodes⟩]) i =
      bump (grp T i) v.label.natAbs w.map.nEdges ++ (if v.group = i then [⟨v, v.label.natAbs, w.map.nEdges, w.map.nNodes⟩] else []) := by
    intro i
    rw [grp_append, grp_bump]
    congr 1
    unfold grp
    by_cases hi : v.group = i
    · rw [if_pos hi]; simp [hi]
    · rw [if_neg hi]; simp [hi]
  have hbl : ∀ i, (bump (grp T i) v.label.natAbs w.map.nEdges).length = (grp T i).length := fun i => by unfold bump; rw [List.length_map]
  refine ⟨⟨w.gp.set v.group (st gs v.group + (grp T v.group).length + 1),
      w.md.set (st gs v.group + (grp T v.group).length) (some ⟨w.map.nEdges, decide (0 < v.label), v.sigmaPos⟩),
      Function.update w.pref w.map.nEdges (if given = true then w.pref v.label.natAbs else cont t w.map.nEdges), t⟩,
    bump T v.label.natAbs w.map.nEdges ++ [⟨v, v.label.natAbs, w.map.nEdges, w.map.nNodes⟩], ?_, ⟨htab, ?_, ?_, ?_, ?_, ?_, ?_⟩, ?_⟩
  · unfold splitStep
    rw [he]
    simp only
    rw [ht, Outcome.bind_ok, hI.gp _ hil]
    simp only
    rw [if_pos hpos]
  · simp [hI.gpl]
  · intro i hi
    rw [hgrpn, List.length_append, hbl]
    by_cases hiv : v.group = i
    · rw [if_pos hiv, hiv]
      rw [List.getElem?_set_self (by rw [hI.gpl]; exact hi)]
      simp only [List.length_singleton]
      rfl
    · rw [if_neg hiv, List.getElem?_set_ne hiv, hI.gp i hi]
      rfl
  · simp [hI.mdl]
  · intro i k row hrow
    rw [hgrpn] at hrow
    simp only
    by_cases hk : k < (grp T i).length
    · rw [List.getElem?_append_left (by rw [hbl]; exact hk)] at hrow
      obtain ⟨w0, hw0, hm⟩ := bump_m hrow
      rw [hm, List.getElem?_set_ne, hI.md i k w0 hw0]
      -- positions of different groups are different
      by_cases hiv : v.group = i
      · rw [hiv]; omega
      · have hil' : i < gs.length := by
          by_contra hc
          have hmem : w0.e ∈ gs.flatten := by
            refine hperm.mem_iff.1 (List.mem_append_left _ ?_)
            have := List.mem_of_getElem? hw0
            unfold grp at this
            exact List.mem_map_of_mem (List.mem_filter.1 this).1
          obtain ⟨g', hg', -⟩ := group_lt hgs hmem
          have hgi : w0.e.group = i := by
            have := List.mem_of_getElem? hw0
            unfold grp at this
            simpa using (List.mem_filter.1 this).2
          rw [hgi] at hg'
          exact hc (List.getElem?_eq_some_iff.1 hg').1
        obtain ⟨g', hg', hle⟩ := hbnd i hil'
        have s1 := st_succ hg
        have s2 := st_succ hg'
        rcases Nat.lt_or_gt_of_ne hiv with hlt' | hlt'
        · have := st_mono gs (show v.group + 1 ≤ i by omega); omega
        · have := st_mono gs (show i + 1 ≤ v.group by omega); omega
    · rw [List.getElem?_append_right (by rw [hbl]; omega), hbl] at hrow
      by_cases hiv : v.group = i
      · rw [if_pos hiv] at hrow
        have hk0 : k = (grp T i).length := by
          by_contra hc
          rw [List.getElem?_eq_none (by simp; omega)] at hrow
          cases hrow
        subst hk0
        simp only [Nat.sub_self, List.getElem?_cons_zero, Option.some.injEq] at hrow
        subst hrow
        rw [← hiv, List.getElem?_set_self hpos]
        rfl
      · rw [if_neg hiv] at hrow; simp at hrow
  · intro l hl
    simp only
    rw [Function.update_of_ne (by have := hI.tab.nEdges; omega), hI.prefOld l hl]
  · intro hgiv row hrow
    simp only
    rcases List.mem_append.1 hrow with hrow | hrow
    · obtain ⟨w0, hw0, e1, e2, e3, e4⟩ := mem_bump hrow
      rw [e1, e2, Function.update_of_ne (by have := hI.tab.r w0 hw0; omega), hI.prefNew hgiv w0 hw0]
    · rw [List.mem_singleton] at hrow; subst hrow
      simp only
      rw [Function.update_self, if_pos hgiv, hI.prefOld _ hlt]
  · rw [List.map_append, bump_e]; rfl

theorem splitLoop_spec {s0 : GMap ℝ} {gs : List (List SplitPos)} {given : Bool} {pref0 : Nat → ℝ} {cont : GMap ℝ → Nat → ℝ}
    (hgs : ∀ (i : Nat) (g : List SplitPos), gs[i]? = some g → ∀ v ∈ g, v.group = i) (hlab : ∀ l, (s0.edge l).isSome = true → l < s0.nEdges)
    (hin : ∀ v ∈ gs.flatten, ∃ e, s0.edge v.label.natAbs = some e ∧ v.at_.seg + 1 < e.pts.length) :
    ∀ (R : List SplitPos) (T : List Row) (w : Work), Inv s0 gs given pref0 w T → (T.map Row.e ++ R).Perm gs.flatten →
      (T.map Row.e ++ R).Pairwise (fun u v => u.label.natAbs = v.label.natAbs → v.at_.seg ≤ u.at_.seg) →
      ∃ w' T', splitLoop given cont R w = .ok w' ∧ Inv s0 gs given pref0 w' T' ∧ T'.map Row.e = T.map Row.e ++ R
  | [], T, w, hI, _, _ => ⟨w, T, rfl, hI, by simp⟩
  | v :: R, T, w, hI, hp, hs => by
    obtain ⟨e0, he0, hlen⟩ := hin v (hp.mem_iff.1 (by simp))
    have hs' := hs
    rw [List.pairwise_append] at hs'
    obtain ⟨w1, T1, h1, h2, h3⟩ := hI.step (cont := cont) hgs hp he0 (hlab _ (by simp [he0])) hlen
      (fun u hu hl => hs'.2.2 u.e (List.mem_map_of_mem hu) v List.mem_cons_self hl)
    obtain ⟨w2, T2, g1, g2, g3⟩ := splitLoop_spec (cont := cont) hgs hlab hin R T1 w1 h2 (by rw [h3]; simpa using hp) (by rw [h3]; simpa using hs)
    refine ⟨w2, T2, ?_, g2, ?_⟩
    · rw [splitLoop, h1]; exact g1
    · rw [g3, h3]; simp

end Verif.Parallel
