import Verif.Pyramid.Spec
import Mathlib.Data.List.Basic

/-! # The invariant of the pyramid -/

namespace Verif.Pyramid

variable {O σ : Type} {S : Sys O σ}

theorem Replay.append {s t u : σ} {l m : List O} (h : Replay S s l t) (h' : Replay S t m u) :
    Replay S s (l ++ m) u := by
  induction h with
  | nil => exact h'
  | cons h r ih => exact .cons h (ih h')

theorem Replay.split {s u : σ} {l m : List O} (h : Replay S s (l ++ m) u) :
    ∃ t, Replay S s l t ∧ Replay S t m u := by
  induction l generalizing s with
  | nil => exact ⟨s, .nil s, h⟩
  | cons o l ih =>
    cases h with
    | cons h r =>
      obtain ⟨t, h1, h2⟩ := ih r
      exact ⟨t, .cons h h1, h2⟩

theorem Replay.det {s t u : σ} {l : List O} (h : Replay S s l t) (h' : Replay S s l u) : t = u := by
  induction h with
  | nil => cases h'; rfl
  | cons h r ih =>
    cases h' with
    | cons h2 r2 =>
      rw [h] at h2
      cases h2
      exact ih r2

theorem Replay.one {s t : σ} {o : O} (h : S.exec o s = (t, true)) : Replay S s [o] t :=
  .cons h (.nil t)

/-- The history entry of a level. -/
def entry (g : List O) : Op O := unwrap (g.map .basic)

theorem performAll_basic {s t : σ} {l : List O} (h : Replay S s l t) :
    performAll S (l.map .basic) s = (t, .ok ()) := by
  induction h with
  | nil => simp [performAll]
  | cons h r ih => simp [performAll, perform, h, ih]

theorem perform_entry {s t : σ} {g : List O} (hg : g ≠ []) (h : Replay S s g t) :
    perform S (entry g) s = (t, .ok ()) := by
  match g, hg, h with
  | [o], _, h =>
    cases h with
    | cons h r =>
      cases r
      simp [entry, unwrap, perform, h]
  | o :: o' :: l, _, h =>
    cases h with
    | cons h r =>
      have := performAll_basic r
      simp only [List.map_cons] at this
      simp [entry, unwrap, perform, h, this]

theorem perform_open {s t : σ} {g : List O} (hg : g ≠ []) (h : Replay S s g t) :
    perform S (.composite (g.map .basic)) s = (t, .ok ()) := by
  match g, hg, h with
  | o :: l, _, h =>
    cases h with
    | cons h r => simp [perform, h, performAll_basic r]

theorem lastCk_spec {c : Nat → Option (Level σ)} {i k : Nat} {C : Level σ}
    (h : lastCk c i = some (k, C)) : k ≤ i ∧ c k = some C ∧ ∀ j, k < j → j ≤ i → c j = none := by
  induction i with
  | zero =>
    simp only [lastCk, Option.map_eq_some_iff, Prod.mk.injEq] at h
    obtain ⟨l, hl, rfl, rfl⟩ := h
    exact ⟨Nat.le_refl 0, hl, fun j h1 h2 => by omega⟩
  | succ n ih =>
    simp only [lastCk] at h
    cases hc : c (n + 1) with
    | some l =>
      rw [hc] at h
      simp only [Option.some.injEq, Prod.mk.injEq] at h
      obtain ⟨rfl, rfl⟩ := h
      exact ⟨Nat.le_refl _, hc, fun j h1 h2 => by omega⟩
    | none =>
      rw [hc] at h
      obtain ⟨h1, h2, h3⟩ := ih h
      refine ⟨by omega, h2, fun j h4 h5 => ?_⟩
      rcases Nat.lt_or_ge n j with h6 | h6
      · have : j = n + 1 := by omega
        rw [this, hc]
      · exact h3 j h4 h6

theorem lastCk_some {c : Nat → Option (Level σ)} {C : Level σ} (h0 : c 0 = some C) (i : Nat) :
    ∃ k D, lastCk c i = some (k, D) := by
  induction i with
  | zero => exact ⟨0, C, by simp [lastCk, h0]⟩
  | succ n ih =>
    cases hc : c (n + 1) with
    | some l => exact ⟨n + 1, l, by simp [lastCk, hc]⟩
    | none =>
      obtain ⟨k, D, h⟩ := ih
      exact ⟨k, D, by simp [lastCk, hc, h]⟩

/-- A level object agrees with the log. -/
structure Valid (S : Sys O σ) (base : σ) (g : Log O) (L : Level σ) : Prop where
  le : L.index ≤ g.levels.length
  at_ : Replay S base (g.upTo L.index) L.st

/-- The pyramid agrees with the log. -/
structure Agrees (S : Sys O σ) (base : σ) (P : Pyr O σ) (g : Log O) : Prop where
  depth : P.composing = g.depth
  cur : g.depth = 0 → g.cur = []
  ne : ∀ l ∈ g.levels, l ≠ []
  hist : P.hist = g.levels.map entry ++ if g.depth = 0 then [] else [.composite (g.cur.map .basic)]
  index : P.top.index = g.levels.length
  top : Replay S base (g.levels.flatten ++ g.cur) P.top.st
  zero : P.cks 0 = some ⟨0, base⟩
  cks : ∀ k C, P.cks k = some C → C.index = k ∧ Valid S base g C

theorem upTo_succ {g : Log O} {i : Nat} (h : i < g.levels.length) :
    g.upTo (i + 1) = g.upTo i ++ g.levels[i] := by
  unfold Log.upTo
  rw [List.take_add_one, List.getElem?_eq_getElem h]
  simp only [List.flatten_append, Option.toList_some, List.flatten_cons, List.flatten_nil,
    List.append_nil]

theorem upTo_len (g : Log O) : g.upTo g.levels.length = g.levels.flatten := by
  simp [Log.upTo]

theorem Agrees.state {base : σ} {P : Pyr O σ} {g : Log O} (h : Agrees S base P g) {i : Nat} :
    ∃ t, Replay S base (g.upTo i) t := by
  have := h.top
  rw [← List.take_append_drop i g.levels, List.flatten_append, List.append_assoc] at this
  obtain ⟨t, h1, _⟩ := this.split
  exact ⟨t, h1⟩

theorem forward_valid {base : σ} {P : Pyr O σ} {g : Log O} (h : Agrees S base P g) {i : Nat}
    (hi : i ≤ g.levels.length) (n : Nat) {L : Level σ} (hL : Valid S base g L) (hLi : L.index ≤ i) :
    ∃ L', forward S P i n L = (L', .ok ()) ∧ L'.index = min i (L.index + n) ∧ Valid S base g L' := by
  induction n generalizing L with
  | zero => exact ⟨L, rfl, by omega, hL⟩
  | succ n ih =>
    by_cases hlt : L.index < i
    · have hlen : L.index < g.levels.length := by omega
      obtain ⟨t, ht⟩ := h.state (i := L.index + 1)
      have ht' := ht
      rw [upTo_succ hlen] at ht'
      obtain ⟨s, h1, h2⟩ := ht'.split
      cases h1.det hL.at_
      have hget : P.hist[L.index]? = some (entry g.levels[L.index]) := by
        rw [h.hist, List.getElem?_append_left (by simpa using hlen)]
        simp [hlen]
      have hp := perform_entry (h.ne _ (List.getElem_mem hlen)) h2
      obtain ⟨L', e1, e2, e3⟩ := ih (L := ⟨L.index + 1, t⟩) ⟨hlen, ht⟩ hlt
      refine ⟨L', ?_, ?_, e3⟩
      · simp only [forward, if_pos hlt, hget, hp, e1]
      · rw [e2]
        show min i (L.index + 1 + n) = min i (L.index + (n + 1))
        omega
    · exact ⟨L, by simp only [forward, if_neg hlt], by omega, hL⟩

theorem gotoCk_valid {base : σ} {P : Pyr O σ} {g : Log O} (h : Agrees S base P g) {i : Nat}
    {L : Level σ} (hL : Valid S base g L) :
    ∃ L' b, gotoCk P L i = .ok (L', b) ∧ L'.index ≤ i ∧ Valid S base g L' ∧
      (b = false → L' = L) ∧ (L.index ≤ i → L.index ≤ L'.index) := by
  obtain ⟨k, C, hk⟩ := lastCk_some h.zero i
  obtain ⟨h1, h2, h3⟩ := lastCk_spec hk
  obtain ⟨h4, h5⟩ := h.cks k C h2
  by_cases hc : L.index ≤ i ∧ k ≤ L.index
  · exact ⟨L, false, by simp only [gotoCk, hk, if_pos hc], hc.1, hL, fun _ => rfl,
      fun _ => Nat.le_refl _⟩
  · exact ⟨C, true, by simp only [gotoCk, hk, if_neg hc], by omega, h5, (by simp), fun hle => by omega⟩

theorem Valid.unique {base : σ} {g : Log O} {L M : Level σ} (h : Valid S base g L)
    (h' : Valid S base g M) (e : L.index = M.index) : L = M := by
  cases L with
  | mk i s =>
    cases M with
    | mk j t =>
      cases e
      cases h.at_.det h'.at_
      rfl

theorem gotoLevel_valid {base : σ} {P : Pyr O σ} {g : Log O} (h : Agrees S base P g) {i : Nat}
    (hi : i ≤ g.levels.length) {L : Level σ} (hL : Valid S base g L) :
    ∃ L', gotoLevel S P L i = (L', .ok ()) ∧ L'.index = i ∧ Valid S base g L' := by
  obtain ⟨L1, b, e1, h1, h2, -⟩ := gotoCk_valid h (i := i) hL
  obtain ⟨L2, e2, h3, h4⟩ := forward_valid h hi (i - L1.index) h2 h1
  exact ⟨L2, by simp only [gotoLevel, e1, e2], by omega, h4⟩

theorem approachLevel_valid {base : σ} {P : Pyr O σ} {g : Log O} (h : Agrees S base P g) {i : Nat}
    (hi : i ≤ g.levels.length) (n : Nat) {L : Level σ} (hL : Valid S base g L) :
    ∃ L', approachLevel S P L i n = (L', .ok (decide (L'.index = i))) ∧ L'.index ≤ i ∧
      (L.index ≤ i → L.index ≤ L'.index) ∧
      (L.index ≤ i → L'.index = i ∨ L.index + n ≤ L'.index + 1) ∧
      Valid S base g L' := by
  obtain ⟨L1, b, e1, h1, h2, hb, hmono⟩ := gotoCk_valid h (i := i) hL
  obtain ⟨L2, e2, h3, h4⟩ := forward_valid h hi (n - if b then 1 else 0) h2 h1
  refine ⟨L2, by simp only [approachLevel, e1, e2, Outcome.map, Outcome.bind_ok], by omega,
    fun hle => ?_, fun hle => ?_, h4⟩
  · have := hmono hle
    omega
  · have := hmono hle
    cases b <;> simp at h3 <;> omega

theorem getLevel_valid {base : σ} {P : Pyr O σ} {g : Log O} (h : Agrees S base P g) {i : Nat}
    (hi : i ≤ g.levels.length) :
    ∃ L', getLevel S P i = .ok L' ∧ L'.index = i ∧ Valid S base g L' := by
  obtain ⟨k, C, hk⟩ := lastCk_some h.zero i
  obtain ⟨h1, h2, h3⟩ := lastCk_spec hk
  obtain ⟨h4, h5⟩ := h.cks k C h2
  obtain ⟨L', e, e1, e2⟩ := gotoLevel_valid h hi h5
  have hc : i < levelCount P := by
    simp only [levelCount, h.hist, List.length_append, List.length_map]
    omega
  exact ⟨L', by simp [getLevel, getCk, hc, hk, e, Outcome.map], e1, e2⟩

theorem Agrees.topValid {base : σ} {P : Pyr O σ} {g : Log O} (h : Agrees S base P g)
    (hd : g.depth = 0) : Valid S base g P.top := by
  refine ⟨Nat.le_of_eq h.index, ?_⟩
  rw [h.index, upTo_len]
  simpa [h.cur hd] using h.top

theorem Agrees.store {base : σ} {P : Pyr O σ} {g : Log O} (h : Agrees S base P g) {L : Level σ}
    (hL : Valid S base g L) : Agrees S base (storeCheckpoint S P L) g := by
  refine ⟨h.depth, h.cur, h.ne, h.hist, h.index, h.top, ?_, ?_⟩
  · simp [storeCheckpoint, h.zero]
  · intro k C hC
    simp only [storeCheckpoint] at hC
    by_cases hk : k = L.index ∧ P.cks k = none
    · rw [if_pos hk] at hC
      cases hC
      exact ⟨hk.1.symm, hL⟩
    · rw [if_neg hk] at hC
      exact h.cks k C hC

theorem Agrees.autoStore {base : σ} {P : Pyr O σ} {g : Log O} (h : Agrees S base P g)
    (hd : g.depth = 0) : Agrees S base (autoStore S P) g := by
  unfold Pyramid.autoStore
  split
  · exact h.store (h.topValid hd)
  · exact h

theorem upTo_append {g g' : Log O} {x : List (List O)} (e : g'.levels = g.levels ++ x) {i : Nat}
    (hi : i ≤ g.levels.length) : g'.upTo i = g.upTo i := by
  unfold Log.upTo
  rw [e, List.take_append_of_le_length hi]

theorem Valid.grow {base : σ} {g g' : Log O} {x : List (List O)} {L : Level σ}
    (h : Valid S base g L) (e : g'.levels = g.levels ++ x) : Valid S base g' L := by
  refine ⟨?_, ?_⟩
  · rw [e, List.length_append]
    exact Nat.le_trans h.le (Nat.le_add_right _ _)
  · rw [upTo_append e h.le]
    exact h.at_

theorem upTo_cut {g g' : Log O} {m : Nat} (e : g'.levels = g.levels.take m) {i : Nat} (hi : i ≤ m) :
    g'.upTo i = g.upTo i := by
  unfold Log.upTo
  rw [e, List.take_take, Nat.min_eq_left hi]

theorem Valid.cut {base : σ} {g g' : Log O} {m : Nat} {L : Level σ}
    (h : Valid S base g L) (e : g'.levels = g.levels.take m) (hm : L.index ≤ m) :
    Valid S base g' L := by
  refine ⟨?_, ?_⟩
  · rw [e, List.length_take]
    exact Nat.le_min.mpr ⟨hm, h.le⟩
  · rw [upTo_cut e hm]
    exact h.at_

theorem exec_true {x : σ × Bool} (h : x.2 = true) : x = (x.1, true) := by
  cases x
  simp_all

/-- Cutting at a valid level below the top. -/
theorem cutApex_agrees {base : σ} {P : Pyr O σ} {g : Log O} (h : Agrees S base P g)
    (hd : g.depth = 0) {L : Level σ} (hL : Valid S base g L) :
    ∃ P', cutApex S { P with top := L } = (P', .ok ()) ∧
      Agrees S base P' { g with levels := g.levels.take L.index } := by
  have hlen : P.hist.length = g.levels.length := by
    rw [h.hist, if_pos hd]
    simp
  have hle : L.index ≤ P.hist.length := by
    rw [hlen]
    exact hL.le
  have hz : (fun k => if k ≤ L.index then P.cks k else none) 0 = some ⟨0, base⟩ := by
    simp [h.zero]
  obtain ⟨k, C, hk⟩ := lastCk_some (c := fun k => if k ≤ L.index then P.cks k else none) hz L.index
  have hmid : Agrees S base { P with
      hist := P.hist.take L.index
      top := L
      cks := fun k => if k ≤ L.index then P.cks k else none }
      { g with levels := g.levels.take L.index } := by
    refine ⟨h.depth, h.cur, fun l hl => h.ne l (List.mem_of_mem_take hl), ?_, ?_, ?_, hz, ?_⟩
    · simp only [if_pos hd, List.append_nil, h.hist]
      rw [List.map_take]
    · simp only [List.length_take]
      exact (Nat.min_eq_left hL.le).symm
    · simpa [h.cur hd, Log.upTo] using hL.at_
    · intro j D hD
      simp only at hD
      by_cases hj : j ≤ L.index
      · rw [if_pos hj] at hD
        obtain ⟨h1, h2⟩ := h.cks j D hD
        exact ⟨h1, h2.cut rfl (by omega)⟩
      · rw [if_neg hj] at hD
        cases hD
  obtain ⟨h1, h2, h3⟩ := lastCk_spec hk
  refine ⟨_, ?_, hmid.store (hmid.cks k C h2).2⟩
  simp only [cutApex, if_pos hle, hk]

end Verif.Pyramid
