import Verif.Pyramid.Step

/-!
# Properties of the cell pyramid (C38, C39)

`Spec.lean` says what a client expects.  Worlds in `Reach` are the ones a client can
get to by legal calls that return normally.
-/

namespace Verif.Pyramid

variable {O σ : Type} {S : Sys O σ} {base : σ} {w : World O σ}

/-! ## C38: levels replay the history -/

/-- `getLevel(i)` is the base after the operations of the first `i` levels of the
client's log, wherever the checkpoints are. -/
theorem getLevel_replays (h : Reach S base w) {i : Nat} (hi : i ≤ w.log.levels.length) :
    ∃ s, getLevel S w.pyr i = .ok ⟨i, s⟩ ∧ Replay S base (w.log.upTo i) s := by
  obtain ⟨⟨j, s⟩, e, e1, e2⟩ := getLevel_valid (reach_good h).pyr hi
  cases e1
  exact ⟨s, e, e2.at_⟩

/-- The number of levels is the number of groups in the log plus one for the base and
one for an open composite; above it `getLevel` throws. -/
theorem levelCount_log (h : Reach S base w) :
    levelCount w.pyr = w.log.levels.length + (if w.log.depth = 0 then 0 else 1) + 1 ∧
      ∀ i, levelCount w.pyr ≤ i → getLevel S w.pyr i = .precond := by
  refine ⟨by rw [levelCount, hist_len (reach_good h).pyr], fun i hi => ?_⟩
  simp only [getLevel, getCk, if_neg (Nat.not_lt.mpr hi), Outcome.bind_precond]

/-- Outside composites `topLevel()` is the last level: its index is `levelCount() - 1`
and it equals what `getLevel` returns for that index. -/
theorem topLevel_is_last (h : Reach S base w) (hd : w.log.depth = 0) :
    w.pyr.top.index = levelCount w.pyr - 1 ∧
      getLevel S w.pyr (levelCount w.pyr - 1) = .ok w.pyr.top := by
  have hg := (reach_good h).pyr
  have hc : levelCount w.pyr - 1 = w.log.levels.length := by
    rw [(levelCount_log h).1, if_pos hd]
    rfl
  rw [hc]
  refine ⟨hg.index, ?_⟩
  obtain ⟨L, e, e1, e2⟩ := getLevel_valid hg (Nat.le_refl w.log.levels.length)
  rw [e, e2.unique (hg.topValid hd) (by rw [e1, hg.index])]

/-- While a composite with at least one operation is open, the last level `getLevel`
offers has the segmentation of the top level. -/
theorem getLevel_open (h : Reach S base w) (hd : w.log.depth ≠ 0) (hc : w.log.cur ≠ []) :
    getLevel S w.pyr (w.log.levels.length + 1) =
      .ok ⟨w.log.levels.length + 1, w.pyr.top.st⟩ := by
  have hg := (reach_good h).pyr
  obtain ⟨t, h1, h2⟩ := hg.top.split
  obtain ⟨k, C, hk⟩ := lastCk_some hg.zero (w.log.levels.length + 1)
  obtain ⟨h3, h4, -⟩ := lastCk_spec hk
  obtain ⟨h5, h6⟩ := hg.cks k C h4
  have hlt : w.log.levels.length + 1 < levelCount w.pyr := by
    rw [(levelCount_log h).1, if_neg hd]
    omega
  have hget : w.pyr.hist[w.log.levels.length]? = some (.composite (w.log.cur.map .basic)) := by
    rw [hg.hist, if_neg hd]
    have : w.log.levels.length = (w.log.levels.map (entry (O := O))).length := by simp
    rw [this, List.getElem?_concat_length]
  have key : ∀ n (L : Level σ), Valid S base w.log L → L.index + n = w.log.levels.length + 1 →
      forward S w.pyr (w.log.levels.length + 1) n L =
        (⟨w.log.levels.length + 1, w.pyr.top.st⟩, .ok ()) := by
    intro n
    induction n with
    | zero =>
      intro L hL e
      have := hL.le
      omega
    | succ n ih =>
      intro L hL e
      have hlt : L.index < w.log.levels.length + 1 := by omega
      by_cases he : L.index = w.log.levels.length
      · have hn : n = 0 := by omega
        have hst : L.st = t := by
          have := hL.at_
          rw [he, upTo_len] at this
          exact this.det h1
        simp only [forward, he, hget, hst, perform_open hc h2, hn, Nat.lt_succ_self, if_true]
      · have hlt2 : L.index < w.log.levels.length := by omega
        obtain ⟨L', e1, e2, e3⟩ := forward_valid hg (i := L.index + 1) hlt2 1 hL (by omega)
        have e2 : L'.index = L.index + 1 := by omega
        have := ih L' e3 (by omega)
        rw [← this]
        simp only [forward] at e1 ⊢
        rw [if_pos (by omega)] at e1
        rw [if_pos hlt]
        cases hh : w.pyr.hist[L.index]? with
        | none =>
          rw [hh] at e1
          cases e1
        | some o =>
          rw [hh] at e1
          simp only at e1 ⊢
          cases hp : perform S o L.st with
          | mk s r =>
          cases r with
          | ok u =>
            rw [hp] at e1
            simp only [Prod.mk.injEq, and_true] at e1
            rw [← e1]
          | precond => rw [hp] at e1; simp at e1
          | ub => rw [hp] at e1; simp at e1
          | hang => rw [hp] at e1; simp at e1
  have hgo : gotoCk w.pyr C (w.log.levels.length + 1) = .ok (C, false) := by
    simp only [gotoCk, hk, if_pos (show C.index ≤ w.log.levels.length + 1 ∧ k ≤ C.index by omega)]
  have := key (w.log.levels.length + 1 - C.index) C h6 (by have := h6.le; omega)
  simp [getLevel, getCk, hlt, hk, gotoLevel, hgo, this, Outcome.map]

/-- A level object the client keeps still is the level with its index, and going to any
level from it gives exactly what `getLevel` returns. -/
theorem gotoLevel_like_getLevel (h : Reach S base w) {L : Level σ} (hL : L ∈ w.held) :
    getLevel S w.pyr L.index = .ok L ∧
      ∀ i, i ≤ w.log.levels.length → ∃ M, gotoLevel S w.pyr L i = (M, .ok ()) ∧
        M.index = i ∧ getLevel S w.pyr i = .ok M := by
  have hg := reach_good h
  have hv := hg.held L hL
  have same : ∀ {i M}, i ≤ w.log.levels.length → Valid S base w.log M → M.index = i →
      getLevel S w.pyr i = .ok M := by
    intro i M hi hM e
    obtain ⟨N, e1, e2, e3⟩ := getLevel_valid hg.pyr hi
    rw [e1, e3.unique hM (by rw [e2, e])]
  refine ⟨same hv.le hv rfl, fun i hi => ?_⟩
  obtain ⟨M, e1, e2, e3⟩ := gotoLevel_valid hg.pyr hi hv
  exact ⟨M, e1, e2, same hi e3 e2⟩

/-- `approachLevel(i, n)` ends at a level on the way to `i`, equal to what `getLevel`
returns for it; it returns true exactly if that is level `i`; from below it never goes
back, and it either arrives or advances by at least `n - 1` levels. -/
theorem approachLevel_on_the_way (h : Reach S base w) {L : Level σ} (hL : L ∈ w.held) {i : Nat}
    (hi : i ≤ w.log.levels.length) (n : Nat) :
    ∃ M b, approachLevel S w.pyr L i n = (M, .ok b) ∧ (b = true ↔ M.index = i) ∧ M.index ≤ i ∧
      getLevel S w.pyr M.index = .ok M ∧
      (L.index ≤ i → L.index ≤ M.index ∧ (M.index = i ∨ L.index + n ≤ M.index + 1)) := by
  have hg := reach_good h
  obtain ⟨M, e1, e2, e3, e4, e5⟩ := approachLevel_valid hg.pyr hi n (hg.held L hL)
  refine ⟨M, _, e1, by simp, e2, ?_, fun hle => ⟨e3 hle, e4 hle⟩⟩
  obtain ⟨N, f1, f2, f3⟩ := getLevel_valid hg.pyr e5.le
  rw [f1, f3.unique e5 f2]

/-- Cutting forgets the levels above and nothing else: the lower levels are the same
before and after. -/
theorem cut_keeps_lower_levels {w' : World O σ} (h : Reach S base w) {i : Nat}
    (hr : (Cmd.cutAbove i).run S w = (w', .ok ())) :
    levelCount w'.pyr = min i w.log.levels.length + 1 ∧
      ∀ k, k ≤ i → k ≤ w.log.levels.length → getLevel S w'.pyr k = getLevel S w.pyr k := by
  have h' : Reach S base w' := .step (.cutAbove i) h trivial hr
  have hlog : w'.log = { w.log with levels := w.log.levels.take i } := by
    simp only [Cmd.run, Cmd.logged, Prod.mk.injEq] at hr
    rw [← hr.1]
  have hd : w'.log.depth = 0 := by
    rw [hlog]
    simp only [Cmd.run, Prod.mk.injEq] at hr
    have h2 := hr.2
    unfold cutAbove at h2
    by_cases hn : w.pyr.top.index ≠ levelCount w.pyr - 1
    · rw [if_pos hn] at h2
      cases h2
    · exact cut_depth (g := w.log) (reach_good h).pyr hn
  refine ⟨by rw [(levelCount_log h').1, if_pos hd, hlog]; simp, fun k hk hkl => ?_⟩
  obtain ⟨s, e, r⟩ := getLevel_replays h hkl
  obtain ⟨s', e', r'⟩ := getLevel_replays h' (i := k) (by rw [hlog]; simp; omega)
  rw [upTo_cut (g := w.log) (m := i) (by rw [hlog]) hk] at r'
  rw [e, e', r.det r']

/-- A legal call has no undefined behaviour and terminates: it returns, or it throws, and
the latter only if the operation itself throws, or for a cut while a composite is open. -/
theorem legal_calls_safe (h : Reach S base w) (c : Cmd O) (hl : c.legal w.log w.idx) :
    (c.run S w).2 = .ok () ∨ (c.run S w).2 = .precond ∧
      ((∃ o, c = .op o ∧ (S.exec o w.pyr.top.st).2 = false) ∨
        ((∃ i, c = .cutAbove i) ∨ ∃ j, c = .cutAboveHeld j) ∧ w.log.depth ≠ 0) := by
  have hg := reach_good h
  have hcut : w.log.depth ≠ 0 → w.pyr.top.index ≠ levelCount w.pyr - 1 := by
    intro hd e
    exact hd (cut_depth hg.pyr (by simpa using e))
  have hcut' : w.log.depth = 0 → ¬ w.pyr.top.index ≠ levelCount w.pyr - 1 := by
    intro hd
    simpa using (topLevel_is_last h hd).1
  cases c with
  | op o =>
    cases hx : S.exec o w.pyr.top.st with
    | mk t b =>
    by_cases hd : w.log.depth = 0
    · have hc : w.pyr.composing = 0 := by rw [hg.pyr.depth, hd]
      cases b with
      | true =>
        left
        simp [Cmd.run, add, hc, addOutside, perform, hx]
      | false =>
        right
        refine ⟨?_, .inl ⟨o, rfl, by rw [hx]⟩⟩
        have h1 : w.pyr.top.index = w.pyr.hist.length := by
          rw [hg.pyr.index, hist_len hg.pyr, if_pos hd]
          rfl
        simp only [Cmd.run, add, if_pos hc, addOutside_fail hx h1]
    · have hc : w.pyr.composing ≠ 0 := by rw [hg.pyr.depth]; exact hd
      obtain ⟨h1, h2⟩ := getLast_open hg.pyr hd
      cases b with
      | true =>
        left
        simp [Cmd.run, add, hc, addInside, perform, hx, h1]
      | false =>
        right
        refine ⟨?_, .inl ⟨o, rfl, by rw [hx]⟩⟩
        simp [Cmd.run, add, hc, addInside, perform, hx, h1]
  | beginComposite => exact .inl rfl
  | endComposite =>
    left
    obtain ⟨h1, h2⟩ := getLast_open hg.pyr (Nat.pos_iff_ne_zero.mp hl.1)
    by_cases h11 : w.pyr.composing = 1
    · simp [Cmd.run, endComposite, h11, h1]
    · simp [Cmd.run, endComposite, h11]
  | storeCheckpoint => exact .inl rfl
  | cutAbove i =>
    by_cases hd : w.log.depth = 0
    · left
      simp only [Cmd.run, cutAbove, if_neg (hcut' hd)]
      by_cases hi : i < w.pyr.top.index
      · obtain ⟨L, e, e1, e2⟩ := gotoLevel_valid hg.pyr
          (by rw [← hg.pyr.index]; exact Nat.le_of_lt hi) (hg.pyr.topValid hd)
        obtain ⟨P2, e3, e4⟩ := cutApex_agrees hg.pyr hd e2
        simp only [if_pos hi, e, e3]
      · simp only [if_neg hi]
    · right
      refine ⟨?_, .inr ⟨.inl ⟨i, rfl⟩, hd⟩⟩
      simp only [Cmd.run, cutAbove, if_pos (hcut hd)]
  | cutAboveHeld j =>
    have hj : j < w.held.length := by simpa [Cmd.legal, World.idx] using hl
    have hjv : w.held[j]? = some w.held[j] := List.getElem?_eq_getElem hj
    by_cases hd : w.log.depth = 0
    · left
      simp only [Cmd.run, hjv, cutAboveLevel, if_neg (hcut' hd)]
      by_cases hi : w.pyr.top.index ≠ w.held[j].index
      · obtain ⟨P2, e3, e4⟩ := cutApex_agrees hg.pyr hd (hg.held _ (List.getElem_mem hj))
        simp only [if_pos hi, e3]
      · simp only [if_neg hi]
    · right
      refine ⟨?_, .inr ⟨.inr ⟨j, rfl⟩, hd⟩⟩
      simp only [Cmd.run, hjv, cutAboveLevel, if_pos (hcut hd)]
  | getLevel i =>
    left
    obtain ⟨L, e, -⟩ := getLevel_valid hg.pyr hl
    simp only [Cmd.run, e]
  | copyTop => exact .inl rfl
  | gotoLevel j i =>
    left
    have hj : j < w.held.length := by simpa [World.idx] using hl.1
    have hjv : w.held[j]? = some w.held[j] := List.getElem?_eq_getElem hj
    obtain ⟨L, e, -⟩ := gotoLevel_valid hg.pyr hl.2 (hg.held _ (List.getElem_mem hj))
    simp only [Cmd.run, hjv, e]
  | approachLevel j i n =>
    left
    have hj : j < w.held.length := by simpa [World.idx] using hl.1
    have hjv : w.held[j]? = some w.held[j] := List.getElem?_eq_getElem hj
    obtain ⟨L, e, -⟩ := approachLevel_valid hg.pyr hl.2 n (hg.held _ (List.getElem_mem hj))
    simp only [Cmd.run, hjv, e, Outcome.map, Outcome.bind_ok]

/-! ## C39: failures and composites -/

/-- What holds of a failing operation inside a composite: if the segmentation's operation
leaves everything as it was when it throws, so does the pyramid. -/
theorem failing_inside_composite_partial (h : Reach S base w) (hd : w.log.depth ≠ 0) {o : O}
    (hx : S.exec o w.pyr.top.st = (w.pyr.top.st, false)) :
    add S w.pyr o = (w.pyr, .precond) := by
  have hg := reach_good h
  have hc : w.pyr.composing ≠ 0 := by rw [hg.pyr.depth]; exact hd
  obtain ⟨h1, h2⟩ := getLast_open hg.pyr hd
  simp [add, hc, addInside, perform, hx, h1, onTop]

/-- An operation that throws outside a composite never leaves the pyramid as it was: the
failed operation stays in the history, there is one level more than before, and from then
on every cut throws. -/
theorem failing_operation_violated (h : Reach S base w) (hd : w.log.depth = 0) {o : O}
    (hx : (S.exec o w.pyr.top.st).2 = false) :
    (add S w.pyr o).2 = .precond ∧
      levelCount (add S w.pyr o).1 = levelCount w.pyr + 1 ∧
      (add S w.pyr o).1.top.index = levelCount (add S w.pyr o).1 - 2 ∧
      ∀ i, (cutAbove S (add S w.pyr o).1 i).2 = .precond := by
  have hg := reach_good h
  have hc : w.pyr.composing = 0 := by rw [hg.pyr.depth, hd]
  cases hx' : S.exec o w.pyr.top.st with
  | mk t b =>
  rw [hx'] at hx
  cases hx
  have hi : w.pyr.top.index = w.pyr.hist.length := by
    rw [hg.pyr.index, hist_len hg.pyr, if_pos hd]
    rfl
  have hadd : add S w.pyr o = (onTop { w.pyr with hist := w.pyr.hist ++ [Op.basic o] } t, .precond) := by
    simp only [add, if_pos hc, addOutside_fail hx' hi]
  rw [hadd]
  refine ⟨rfl, by simp [levelCount, onTop], by simp [levelCount, onTop, hi], fun i => ?_⟩
  have h1 : w.pyr.top.index ≠ w.pyr.hist.length + 1 := by omega
  simp [cutAbove, onTop, levelCount, h1]

/-- Turning the last operation into a composite and ending the composite never keeps
`topLevel().index() == levelCount() - 1`: the index becomes `levelCount()`, and every
cut throws. -/
theorem changeIntoComposite_violated (h : Reach S base w) (hd : w.log.depth = 0)
    (hn : w.log.levels ≠ []) :
    ∃ P Q, changeIntoComposite w.pyr = (P, .ok ()) ∧ endComposite S P = (Q, .ok ()) ∧
      levelCount Q = levelCount w.pyr ∧ Q.top.index = levelCount Q ∧
      ∀ i, (cutAbove S Q i).2 = .precond := by
  have hg := (reach_good h).pyr
  have hc : w.pyr.composing = 0 := by rw [hg.depth, hd]
  have hi : w.pyr.top.index = w.pyr.hist.length := by
    rw [hg.index, hist_len hg, if_pos hd]
    rfl
  have hne : w.pyr.hist ≠ [] := by
    rw [hg.hist]
    simp [hn]
  have hlast : w.pyr.hist.getLast? = some (w.pyr.hist.getLast hne) :=
    List.getLast?_eq_some_getLast hne
  have hpos : 0 < w.pyr.hist.length := List.length_pos_iff.mpr hne
  have hP : changeIntoComposite w.pyr = ({ w.pyr with
      hist := w.pyr.hist.dropLast ++ [.composite [w.pyr.hist.getLast hne]]
      composing := 1 }, .ok ()) := by
    simp only [changeIntoComposite, if_pos hc, hlast]
  have hQ : endComposite S { w.pyr with
      hist := w.pyr.hist.dropLast ++ [.composite [w.pyr.hist.getLast hne]]
      composing := 1 } = (autoStore S { w.pyr with
      hist := w.pyr.hist.dropLast ++ [w.pyr.hist.getLast hne]
      top := ⟨w.pyr.top.index + 1, w.pyr.top.st⟩
      composing := 0 }, .ok ()) := by
    simp only [endComposite, if_true, List.getLast?_concat, List.dropLast_concat, unwrap]
  have hidx : (autoStore S { w.pyr with
      hist := w.pyr.hist.dropLast ++ [w.pyr.hist.getLast hne]
      top := ⟨w.pyr.top.index + 1, w.pyr.top.st⟩
      composing := 0 }).top.index = w.pyr.hist.length + 1 := by
    unfold autoStore
    split <;> simp [storeCheckpoint, hi]
  have hlen : levelCount (autoStore S { w.pyr with
      hist := w.pyr.hist.dropLast ++ [w.pyr.hist.getLast hne]
      top := ⟨w.pyr.top.index + 1, w.pyr.top.st⟩
      composing := 0 }) = w.pyr.hist.length + 1 := by
    unfold autoStore
    split <;> simp [storeCheckpoint, levelCount] <;> omega
  refine ⟨_, _, hP, hQ, hlen, by rw [hidx, hlen], fun i => ?_⟩
  unfold cutAbove
  rw [if_pos (by rw [hidx, hlen]; omega)]

/-- Beginning and ending a composite without an operation leaves a level that cannot be
reached: replaying it dereferences a null pointer. -/
theorem empty_composite_violated (h : Reach S base w) (hd : w.log.depth = 0) :
    ∃ Q, endComposite S (beginComposite w.pyr) = (Q, .ok ()) ∧
      Q.hist = w.pyr.hist ++ [.composite []] ∧ (∀ s, (perform S (.composite []) s).2 = .ub) := by
  have hg := (reach_good h).pyr
  have hc : w.pyr.composing = 0 := by rw [hg.depth, hd]
  refine ⟨autoStore S { w.pyr with
      hist := w.pyr.hist ++ [.composite []]
      top := ⟨w.pyr.top.index + 1, w.pyr.top.st⟩
      composing := 0 }, ?_, ?_, fun s => rfl⟩
  · simp [endComposite, beginComposite, hc, unwrap]
  · unfold autoStore
    split <;> simp [storeCheckpoint]

/-! ## Concrete pyramids -/

/-- A toy segmentation: the list of operations performed so far; operation 0 throws and
leaves a mark behind. -/
def toy : Sys Nat (List Nat) where
  exec o s := if o = 0 then (s ++ [0], false) else (s ++ [o], true)
  sub s := s.length
  cells _ := 0

/-- Run a list of calls. -/
def runs (S : Sys O σ) : List (Cmd O) → World O σ → World O σ
  | [], w => w
  | c :: l, w => runs S l (c.run S w).1

/-- All calls are legal and return. -/
def fine (S : Sys O σ) : List (Cmd O) → World O σ → Prop
  | [], _ => True
  | c :: l, w => c.legal w.log w.idx ∧ (c.run S w).2 = .ok () ∧ fine S l (c.run S w).1

theorem reach_runs {l : List (Cmd O)} {v : World O σ} (h : Reach S base v) (hf : fine S l v) :
    Reach S base (runs S l v) := by
  induction l generalizing v with
  | nil => exact h
  | cons c l ih =>
    refine ih (.step c h hf.1 ?_) hf.2.2
    rw [← hf.2.1]

/-- A new pyramid. -/
def new (S : Sys O σ) (s : σ) : World O σ := ⟨init S s, [], ⟨[], 0, []⟩⟩

/-- A session: twelve operations (a checkpoint is stored at level 10), a composite with a
nested one, a kept level, navigation and a cut. -/
def session : List (Cmd Nat) :=
  [.op 1, .op 2, .op 3, .op 4, .op 5, .op 6, .op 7, .op 8, .op 9, .op 10, .op 11, .op 12,
    .beginComposite, .op 13, .beginComposite, .op 14, .endComposite, .endComposite,
    .getLevel 11, .gotoLevel 0 3, .approachLevel 0 13 3, .storeCheckpoint, .copyTop,
    .cutAbove 12, .op 15, .cutAboveHeld 0, .op 16]

instance (g : Log O) (idx : List Nat) (c : Cmd O) [DecidableEq O] : Decidable (c.legal g idx) := by
  cases c <;> simp only [Cmd.legal] <;> infer_instance

instance decFine [DecidableEq O] : (l : List (Cmd O)) → (v : World O σ) → Decidable (fine S l v)
  | [], _ => isTrue trivial
  | c :: l, v =>
    have := decFine l (c.run S v).1
    inferInstanceAs (Decidable (_ ∧ _ ∧ _))

theorem session_reach : Reach toy [] (runs toy session (new toy [])) :=
  reach_runs .init (by decide +kernel)

/-- The session ends with levels and checkpoints worth talking about. -/
example :
    let w := runs toy session (new toy [])
    w.log.levels = [[1], [2], [3], [4], [5], [6], [7], [8], [9], [10], [11], [12], [16]] ∧
      (w.pyr.cks 10).isSome ∧ w.held = [⟨12, [1, 2, 3, 4, 5, 6, 7, 8, 9, 10, 11, 12]⟩] := by
  decide +kernel

example : ∃ s, getLevel toy (runs toy session (new toy [])).pyr 11 = .ok ⟨11, s⟩ ∧
    Replay toy [] ((runs toy session (new toy [])).log.upTo 11) s :=
  getLevel_replays session_reach (by decide +kernel)

/-- An open composite is reached. -/
example : ∃ w, Reach toy [] w ∧ w.log.depth ≠ 0 ∧ w.log.cur ≠ [] :=
  ⟨runs toy [.op 1, .beginComposite, .op 2] (new toy []), reach_runs .init (by decide +kernel),
    by decide +kernel, by decide +kernel⟩

/-- A failing operation is met in a reachable world. -/
example : (toy.exec 0 (runs toy session (new toy [])).pyr.top.st).2 = false := rfl

/-- After a failing operation the next level is wrong: level 2 replays the failed
operation, which throws again. -/
theorem level_after_failure_violated :
    let P := (add toy (add toy (add toy (init toy []) 1).1 0).1 2).1
    levelCount P = 4 ∧ P.top = ⟨2, [1, 0, 2]⟩ ∧ getLevel toy P 2 = .precond := by
  decide +kernel

/-- A failing operation inside a composite is removed from the log, but what it did to the
segmentation before throwing stays: the finished level is not the replay of its
operations. -/
theorem composite_failure_violated :
    let P := (endComposite toy (add toy (add toy (beginComposite (init toy [])) 1).1 0).1).1
    P.top = ⟨1, [1, 0]⟩ ∧ getLevel toy P 1 = .ok ⟨1, [1]⟩ := by
  decide +kernel

/-- The level of an empty composite, and every level above, is out of reach. -/
theorem empty_composite_level_violated :
    let P := (endComposite toy (beginComposite (add toy (init toy []) 1).1)).1
    levelCount P = 3 ∧ getLevel toy P 2 = .ub ∧ getLevel toy (add toy P 5).1 3 = .ub := by
  decide +kernel

/-- A checkpoint stored before `changeIntoComposite` is served for the finished composite:
`getLevel(10)` misses operation 11. -/
theorem composite_checkpoint_violated :
    let P := (runs toy (session.take 10) (new toy [])).pyr
    let Q := (endComposite toy (add toy (changeIntoComposite P).1 11).1).1
    levelCount Q = 11 ∧ Q.top = ⟨11, [1, 2, 3, 4, 5, 6, 7, 8, 9, 10, 11]⟩ ∧
      getLevel toy Q 10 = .ok ⟨10, [1, 2, 3, 4, 5, 6, 7, 8, 9, 10]⟩ := by
  decide +kernel

/-- `topLevel()` hands out the top level itself.  After moving it, an operation is recorded
at the end of the history but performed on the lower level. -/
theorem moved_top_violated :
    let P := (runs toy (session.take 3) (new toy [])).pyr
    let Q := (add toy { P with top := (gotoLevel toy P P.top 1).1 } 9).1
    Q.top = ⟨2, [1, 9]⟩ ∧ levelCount Q = 5 ∧ getLevel toy Q 2 = .ok ⟨2, [1, 2]⟩ := by
  decide +kernel

/-- A level kept across a cut below it brings the cut operations back. -/
theorem stale_level_violated :
    let P := (runs toy (session.take 3) (new toy [])).pyr
    let Q := (add toy (add toy (cutAbove toy P 1).1 8).1 9).1
    (gotoLevel toy Q ⟨2, [1, 2]⟩ 3) = (⟨3, [1, 2, 9]⟩, .ok ()) ∧
      getLevel toy Q 3 = .ok ⟨3, [1, 8, 9]⟩ := by
  decide +kernel

end Verif.Pyramid
