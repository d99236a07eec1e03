import Verif.Pyramid.Lemmas

/-! # Every legal call keeps the pyramid and the log in agreement -/

namespace Verif.Pyramid

variable {O σ : Type} {S : Sys O σ}

/-- Pyramid, log and kept levels agree. -/
structure Good (S : Sys O σ) (base : σ) (w : World O σ) : Prop where
  pyr : Agrees S base w.pyr w.log
  held : ∀ L ∈ w.held, Valid S base w.log L

theorem hist_len {base : σ} {P : Pyr O σ} {g : Log O} (h : Agrees S base P g) :
    P.hist.length = g.levels.length + if g.depth = 0 then 0 else 1 := by
  rw [h.hist]
  split <;> simp

theorem getLast_open {base : σ} {P : Pyr O σ} {g : Log O} (h : Agrees S base P g)
    (hd : g.depth ≠ 0) : P.hist.getLast? = some (.composite (g.cur.map .basic)) ∧
      P.hist.dropLast = g.levels.map entry := by
  rw [h.hist, if_neg hd]
  exact ⟨List.getLast?_concat, List.dropLast_concat⟩

theorem add_outside {base : σ} {P P' : Pyr O σ} {g : Log O} {o : O} (h : Agrees S base P g)
    (hd : g.depth = 0) (hr : addOutside S P o = (P', .ok ())) :
    Agrees S base P' { g with levels := g.levels ++ [[o]] } := by
  cases hx : S.exec o P.top.st with
  | mk t b =>
  cases b with
  | false =>
    exfalso
    simp only [addOutside, perform, hx, Bool.false_eq_true, if_false] at hr
    cases hc : (cutAbove S (onTop { P with hist := P.hist ++ [Op.basic o] } t) P.top.index).2 <;>
      rw [hc] at hr <;> simp_all
  | true =>
    simp only [addOutside, perform, hx, if_true, Prod.mk.injEq, and_true] at hr
    rw [← hr]
    refine Agrees.autoStore (g := { g with levels := g.levels ++ [[o]] }) ?_ hd
    have hc := h.cur hd
    refine ⟨h.depth, h.cur, ?_, ?_, ?_, ?_, h.zero, ?_⟩
    · intro l hl
      rcases List.mem_append.mp hl with h1 | h1
      · exact h.ne l h1
      · simp at h1
        simp [h1]
    · simp [h.hist, hd, entry, unwrap]
    · simp [h.index]
    · have := h.top.append (Replay.one hx)
      simpa [hc] using this
    · intro k C hC
      obtain ⟨h1, h2⟩ := h.cks k C hC
      exact ⟨h1, h2.grow rfl⟩

theorem addOutside_fail {P : Pyr O σ} {o : O} {t : σ} (hx : S.exec o P.top.st = (t, false))
    (hi : P.top.index = P.hist.length) :
    addOutside S P o =
      (onTop { P with hist := P.hist ++ [Op.basic o] } t, .precond) := by
  simp [addOutside, perform, hx, cutAbove, onTop, levelCount, hi]

theorem add_inside {base : σ} {P P' : Pyr O σ} {g : Log O} {o : O} (h : Agrees S base P g)
    (hd : g.depth ≠ 0) (hr : addInside S P o = (P', .ok ())) :
    Agrees S base P' { g with cur := g.cur ++ [o] } := by
  obtain ⟨h1, h2⟩ := getLast_open h hd
  cases hx : S.exec o P.top.st with
  | mk t b =>
  cases b with
  | false => simp [addInside, h1, perform, hx] at hr
  | true =>
    simp only [addInside, h1, h2, perform, hx, if_true, Prod.mk.injEq, and_true] at hr
    rw [← hr]
    refine ⟨h.depth, fun h0 => absurd h0 hd, h.ne, ?_, h.index, ?_, h.zero, ?_⟩
    · simp [onTop, hd]
    · have := h.top.append (Replay.one hx)
      simpa [onTop] using this
    · intro k C hC
      obtain ⟨h3, h4⟩ := h.cks k C hC
      exact ⟨h3, h4.le, h4.at_⟩

theorem add_agrees {base : σ} {P P' : Pyr O σ} {g : Log O} {o : O} (h : Agrees S base P g)
    (hr : add S P o = (P', .ok ())) (idx : List Nat) :
    Agrees S base P' ((Cmd.op o).logged g idx) := by
  unfold add at hr
  simp only [Cmd.logged]
  by_cases hd : g.depth = 0
  · rw [if_pos (by rw [h.depth, hd])] at hr
    rw [if_pos hd]
    exact add_outside h hd hr
  · rw [if_neg (by rw [h.depth]; exact hd)] at hr
    rw [if_neg hd]
    exact add_inside h hd hr

theorem begin_agrees {base : σ} {P : Pyr O σ} {g : Log O} (h : Agrees S base P g) :
    Agrees S base (beginComposite P) { g with depth := g.depth + 1 } := by
  refine ⟨by simp [beginComposite, h.depth], fun h0 => absurd h0 (by simp), h.ne, ?_, h.index,
    h.top, h.zero, ?_⟩
  · by_cases hd : g.depth = 0
    · simp [beginComposite, h.hist, h.depth, hd, h.cur hd]
    · simp [beginComposite, h.hist, h.depth, hd]
  · intro k C hC
    obtain ⟨h3, h4⟩ := h.cks k C hC
    exact ⟨h3, h4.le, h4.at_⟩

theorem end_agrees {base : σ} {P P' : Pyr O σ} {g : Log O} (h : Agrees S base P g)
    (hd : 0 < g.depth) (hc : g.cur ≠ []) (hr : endComposite S P = (P', .ok ())) (idx : List Nat) :
    Agrees S base P' (Cmd.endComposite.logged g idx) := by
  simp only [Cmd.logged]
  obtain ⟨h1, h2⟩ := getLast_open h (Nat.pos_iff_ne_zero.mp hd)
  by_cases h11 : g.depth = 1
  · rw [if_pos h11]
    simp only [endComposite, h.depth, h11, if_true, h1, h2, Prod.mk.injEq, and_true] at hr
    rw [← hr]
    refine Agrees.autoStore (g := ⟨g.levels ++ [g.cur], 0, []⟩) ?_ rfl
    refine ⟨rfl, fun _ => rfl, ?_, ?_, ?_, ?_, h.zero, ?_⟩
    · intro l hl
      rcases List.mem_append.mp hl with h3 | h3
      · exact h.ne l h3
      · simp at h3
        simpa [h3] using hc
    · simp [entry]
    · simp [h.index]
    · simpa using h.top
    · intro k C hC
      obtain ⟨h3, h4⟩ := h.cks k C hC
      exact ⟨h3, h4.grow rfl⟩
  · rw [if_neg h11]
    have h0 : g.depth ≠ 0 := by omega
    simp only [endComposite, h.depth, h11, h0, if_false, Prod.mk.injEq, and_true] at hr
    rw [← hr]
    have h01 : g.depth - 1 ≠ 0 := by omega
    refine ⟨rfl, fun h => absurd h h01, h.ne, ?_, h.index, h.top, h.zero, ?_⟩
    · simpa [h0, h01] using h.hist
    · intro k C hC
      obtain ⟨h3, h4⟩ := h.cks k C hC
      exact ⟨h3, h4.le, h4.at_⟩

theorem cut_depth {base : σ} {P : Pyr O σ} {g : Log O} (h : Agrees S base P g)
    (hn : ¬ P.top.index ≠ levelCount P - 1) : g.depth = 0 := by
  by_contra hd
  have := hist_len h
  rw [if_neg hd] at this
  have := h.index
  simp only [levelCount] at hn
  omega

theorem cut_agrees {base : σ} {P P' : Pyr O σ} {g : Log O} {i : Nat} (h : Agrees S base P g)
    (hr : cutAbove S P i = (P', .ok ())) :
    Agrees S base P' { g with levels := g.levels.take i } := by
  unfold cutAbove at hr
  by_cases hn : P.top.index ≠ levelCount P - 1
  · rw [if_pos hn] at hr
    cases hr
  rw [if_neg hn] at hr
  have hd := cut_depth h hn
  by_cases hi : i < P.top.index
  · rw [if_pos hi] at hr
    obtain ⟨L, e, e1, e2⟩ := gotoLevel_valid h (by rw [← h.index]; exact Nat.le_of_lt hi) (h.topValid hd)
    obtain ⟨P2, e3, e4⟩ := cutApex_agrees h hd e2
    simp only [e, e3, Prod.mk.injEq, and_true] at hr
    rw [← hr, ← e1]
    exact e4
  · rw [if_neg hi] at hr
    cases hr
    rw [List.take_of_length_le (by rw [← h.index]; omega)]
    exact h

theorem cutLevel_agrees {base : σ} {P P' : Pyr O σ} {g : Log O} {L : Level σ}
    (h : Agrees S base P g) (hL : Valid S base g L)
    (hr : cutAboveLevel S P L = (P', .ok ())) :
    Agrees S base P' { g with levels := g.levels.take L.index } := by
  unfold cutAboveLevel at hr
  by_cases hn : P.top.index ≠ levelCount P - 1
  · rw [if_pos hn] at hr
    cases hr
  rw [if_neg hn] at hr
  have hd := cut_depth h hn
  by_cases hi : P.top.index ≠ L.index
  · rw [if_pos hi] at hr
    obtain ⟨P2, e3, e4⟩ := cutApex_agrees h hd hL
    rw [e3] at hr
    cases hr
    exact e4
  · rw [if_neg hi] at hr
    cases hr
    rw [List.take_of_length_le (by rw [← h.index]; omega)]
    exact h

theorem Valid.same {base : σ} {g g' : Log O} {L : Level σ} (h : Valid S base g L)
    (e : g'.levels = g.levels) : Valid S base g' L :=
  h.grow (x := []) (by simp [e])

theorem held_cut {base : σ} {g g' : Log O} {m : Nat} {l : List (Level σ)}
    (h : ∀ L ∈ l, Valid S base g L) (e : g'.levels = g.levels.take m) :
    ∀ L ∈ l.filter (fun L => L.index ≤ g'.levels.length), Valid S base g' L := by
  intro L hL
  obtain ⟨h1, h2⟩ := List.mem_filter.mp hL
  refine (h L h1).cut e ?_
  have h2 := of_decide_eq_true h2
  rw [e, List.length_take] at h2
  omega

theorem held_set {base : σ} {g : Log O} {j : Nat} {l : List (Level σ)} {M : Level σ}
    (h : ∀ L ∈ l, Valid S base g L) (hM : Valid S base g M) :
    ∀ L ∈ l.set j M, Valid S base g L := by
  intro L hL
  rcases List.mem_or_eq_of_mem_set hL with h1 | h1
  · exact h L h1
  · rw [h1]
    exact hM

theorem good_step {base : σ} {w w' : World O σ} {c : Cmd O} (h : Good S base w)
    (hl : c.legal w.log w.idx) (hr : c.run S w = (w', .ok ())) : Good S base w' := by
  cases c with
  | op o =>
    cases hx : add S w.pyr o with
    | mk P r =>
    simp only [Cmd.run, hx, Prod.mk.injEq] at hr
    obtain ⟨rfl, rfl⟩ := hr
    refine ⟨add_agrees h.pyr hx w.idx, fun L hL => ?_⟩
    simp only [Cmd.logged]
    split
    · exact (h.held L hL).grow rfl
    · exact (h.held L hL).same rfl
  | beginComposite =>
    simp only [Cmd.run, Prod.mk.injEq, and_true] at hr
    rw [← hr]
    exact ⟨begin_agrees h.pyr, fun L hL => (h.held L hL).same rfl⟩
  | endComposite =>
    cases hx : Pyramid.endComposite S w.pyr with
    | mk P r =>
    simp only [Cmd.run, hx, Prod.mk.injEq] at hr
    obtain ⟨rfl, rfl⟩ := hr
    refine ⟨end_agrees h.pyr hl.1 hl.2 hx w.idx, fun L hL => ?_⟩
    simp only [Cmd.logged]
    split
    · exact (h.held L hL).grow rfl
    · exact (h.held L hL).same rfl
  | storeCheckpoint =>
    simp only [Cmd.run, Prod.mk.injEq, and_true] at hr
    rw [← hr]
    exact ⟨h.pyr.store (h.pyr.topValid hl), h.held⟩
  | cutAbove i =>
    cases hx : Pyramid.cutAbove S w.pyr i with
    | mk P r =>
    simp only [Cmd.run, hx, Prod.mk.injEq] at hr
    obtain ⟨rfl, rfl⟩ := hr
    exact ⟨cut_agrees h.pyr hx, held_cut h.held rfl⟩
  | cutAboveHeld j =>
    have hj : j < w.held.length := by simpa [Cmd.legal, World.idx] using hl
    have hg : w.held[j]? = some w.held[j] := List.getElem?_eq_getElem hj
    cases hx : Pyramid.cutAboveLevel S w.pyr w.held[j] with
    | mk P r =>
    simp only [Cmd.run, hg, hx, Prod.mk.injEq] at hr
    obtain ⟨rfl, rfl⟩ := hr
    have e : w.idx.getD j 0 = w.held[j].index := by
      simp [World.idx, List.getD, hg]
    refine ⟨?_, held_cut h.held rfl⟩
    simp only [Cmd.logged, e]
    exact cutLevel_agrees h.pyr (h.held _ (List.getElem_mem hj)) hx
  | getLevel i =>
    obtain ⟨L, e, e1, e2⟩ := getLevel_valid h.pyr hl
    simp only [Cmd.run, e, Prod.mk.injEq, and_true] at hr
    rw [← hr]
    refine ⟨h.pyr, fun M hM => ?_⟩
    rcases List.mem_append.mp hM with h1 | h1
    · exact h.held M h1
    · rw [List.mem_singleton.mp h1]
      exact e2
  | copyTop =>
    simp only [Cmd.run, Prod.mk.injEq, and_true] at hr
    rw [← hr]
    refine ⟨h.pyr, fun M hM => ?_⟩
    rcases List.mem_append.mp hM with h1 | h1
    · exact h.held M h1
    · rw [List.mem_singleton.mp h1]
      exact h.pyr.topValid hl
  | gotoLevel j i =>
    have hj : j < w.held.length := by simpa [World.idx] using hl.1
    have hg : w.held[j]? = some w.held[j] := List.getElem?_eq_getElem hj
    obtain ⟨L, e, e1, e2⟩ := gotoLevel_valid h.pyr hl.2 (h.held _ (List.getElem_mem hj))
    simp only [Cmd.run, hg, e, Prod.mk.injEq, and_true] at hr
    rw [← hr]
    exact ⟨h.pyr, held_set h.held e2⟩
  | approachLevel j i n =>
    have hj : j < w.held.length := by simpa [World.idx] using hl.1
    have hg : w.held[j]? = some w.held[j] := List.getElem?_eq_getElem hj
    obtain ⟨L, e, e1, -, -, e2⟩ := approachLevel_valid h.pyr hl.2 n (h.held _ (List.getElem_mem hj))
    simp only [Cmd.run, hg, e, Outcome.map, Outcome.bind_ok, Prod.mk.injEq, and_true] at hr
    rw [← hr]
    exact ⟨h.pyr, held_set h.held e2⟩

theorem reach_good {base : σ} {w : World O σ} (h : Reach S base w) : Good S base w := by
  induction h with
  | init =>
    refine ⟨?_, fun L hL => (by cases hL)⟩
    refine ⟨rfl, fun _ => rfl, fun l hl => (by cases hl), rfl, rfl, .nil base, ?_, ?_⟩
    · simp [init, storeCheckpoint]
    · intro k C hC
      simp only [init, storeCheckpoint] at hC
      by_cases hk : k = 0
      · simp [hk] at hC
        rw [← hC, hk]
        exact ⟨rfl, Nat.le_refl 0, .nil base⟩
      · simp [hk] at hC
  | step c _ hl hr ih => exact good_step ih hl hr

end Verif.Pyramid
