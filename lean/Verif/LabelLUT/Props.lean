import Verif.LabelLUT.Lemmas

/-!
# Properties of `LabelLUT` (C01, C02)

Specification used in the statements: the history is a list of client operations;
`from` and `to` of a `relabel` call are required to be distinct labels that
currently stand for themselves (`lookup x = x`), which is how `GeoMap::mergeFaces`
uses the class.  "`x` and `y` were merged" is the equivalence closure of the pairs
passed to `relabel`.
-/

namespace Verif.LabelLUT
open Verif

/-- An operation is legal in state `s`: both arguments of `relabel` are labels that
currently represent themselves, and they are different. -/
def Legal (s : LUT) : Op → Prop
  | .append => True
  | .relabel f t => lookup s f = .ok f ∧ lookup s t = .ok t ∧ f ≠ t

/-- Every operation of the history is legal in the state in which it is applied. -/
def LegalRun : LUT → List Op → Prop
  | _, [] => True
  | s, op :: ops => Legal s op ∧ ∀ s', step s op = .ok s' → LegalRun s' ops

/-- The labels `x`, `y` have been joined by the `relabel` calls in `ops`. -/
def Merged (ops : List Op) : Nat → Nat → Prop :=
  Relation.EqvGen (fun a b => Op.relabel a b ∈ ops)

/-- Number of `appendOne` calls. -/
def appends (ops : List Op) : Nat := ops.count .append

theorem lookup_eq_ok {s : LUT} {x r : Nat} : lookup s x = .ok r ↔ s.lut[x]? = some r := by
  unfold lookup; cases s.lut[x]? <;> simp

/-- Data-structure description used in the induction: lookups agree exactly on merged labels. -/
structure Agrees (s : LUT) (past : List Op) : Prop where
  wf : WF s
  sound : ∀ x y : Nat, Merged past x y → x = y ∨ ∃ r : Nat, s.lut[x]? = some r ∧ s.lut[y]? = some r
  compl : ∀ x r : Nat, s.lut[x]? = some r → Merged past x r

theorem Merged.mono {a b : List Op} (h : ∀ o, o ∈ a → o ∈ b) {x y : Nat} (m : Merged a x y) :
    Merged b x y := Relation.EqvGen.mono (r := fun u v => Op.relabel u v ∈ a) (fun _ _ hab => h _ hab) _ _ m

theorem agrees_step {s : LUT} {past : List Op} (h : Agrees s past) {op : Op} (hl : Legal s op) :
    ∃ s', step s op = .ok s' ∧ Agrees s' (past ++ [op]) ∧
      s'.lut.length = s.lut.length + appends [op] := by
  cases op with
  | append =>
    refine ⟨appendOne s, rfl, ⟨inv_append h.wf, ?_, ?_⟩, by simp [appendOne, appends]⟩
    · intro x y m
      have m' : Merged past x y := by
        refine Relation.EqvGen.mono ?_ _ _ m
        intro a b hab
        simpa using hab
      rcases h.sound x y m' with e | ⟨r, h1, h2⟩
      · exact Or.inl e
      · refine Or.inr ⟨r, ?_, ?_⟩ <;>
        · simp only [appendOne]
          rw [List.getElem?_append_left]
          · assumption
          · exact (List.getElem?_eq_some_iff.mp ‹_›).1
    · intro x r hx
      simp only [appendOne, List.getElem?_append] at hx
      split at hx
      · exact (h.compl x r hx).mono (by simp +contextual)
      · have := (List.getElem?_eq_some_iff.mp hx).1
        simp at this
        have e : x = s.lut.length := by omega
        subst e
        simp at hx; subst hx
        exact Relation.EqvGen.refl _
  | relabel f t =>
    obtain ⟨hf, ht, hne⟩ := hl
    rw [lookup_eq_ok] at hf ht
    obtain ⟨s', e, wf', len', hlook⟩ := relabel_spec h.wf hf ht hne
    refine ⟨s', e, ⟨wf', ?_, ?_⟩, by simp [len', appends]⟩
    · intro x y m
      induction m with
      | rel x y hxy =>
        simp only [List.mem_append, List.mem_singleton, Op.relabel.injEq] at hxy
        rcases hxy with hxy | ⟨rfl, rfl⟩
        · rcases h.sound x y (Relation.EqvGen.rel _ _ hxy) with e | ⟨r, h1, h2⟩
          · exact Or.inl e
          · right
            rw [hlook, hlook, h1, h2]
            by_cases hr : some r = some f
            · exact ⟨t, by rw [if_pos hr]; simp⟩
            · exact ⟨r, by rw [if_neg hr]; simp⟩
        · right
          refine ⟨y, ?_, ?_⟩
          · rw [hlook, if_pos hf]
          · rw [hlook, if_neg, ht]
            rw [ht]; simpa using Ne.symm hne
      | refl x => exact Or.inl rfl
      | symm x y _ ih =>
        rcases ih with e | ⟨r, h1, h2⟩
        · exact Or.inl e.symm
        · exact Or.inr ⟨r, h2, h1⟩
      | trans x y z _ _ ih1 ih2 =>
        rcases ih1 with rfl | ⟨r, h1, h2⟩
        · exact ih2
        · rcases ih2 with rfl | ⟨q, h3, h4⟩
          · exact Or.inr ⟨r, h1, h2⟩
          · rw [h2] at h3; simp at h3; subst h3
            exact Or.inr ⟨r, h1, h4⟩
    · intro x r hx
      rw [hlook] at hx
      split at hx
      · rename_i hxf
        simp at hx; subst hx
        refine Relation.EqvGen.trans _ _ _ ((h.compl x f hxf).mono (by simp +contextual)) ?_
        exact Relation.EqvGen.rel _ _ (by simp)
      · exact (h.compl x r hx).mono (by simp +contextual)

theorem run_spec : ∀ (ops : List Op) (s : LUT) (past : List Op), Agrees s past → LegalRun s ops →
    ∃ s', run s ops = .ok s' ∧ Agrees s' (past ++ ops) ∧
      s'.lut.length = s.lut.length + appends ops
  | [], s, past, h, _ => ⟨s, rfl, by simpa using h, by simp [appends]⟩
  | op :: ops, s, past, h, hl => by
    obtain ⟨s1, e1, a1, l1⟩ := agrees_step h hl.1
    obtain ⟨s2, e2, a2, l2⟩ := run_spec ops s1 (past ++ [op]) a1 (hl.2 s1 e1)
    refine ⟨s2, ?_, by simpa using a2, ?_⟩
    · simp [run, e1, e2]
    · rw [l2, l1]; simp only [appends, List.count_cons, List.count_nil]; omega

theorem agrees_init (n : Nat) : Agrees (init n) [] := by
  refine ⟨inv_init n, ?_, ?_⟩
  · intro x y m
    left
    induction m with
    | rel x y h => simp at h
    | refl => rfl
    | symm _ _ _ ih => exact ih.symm
    | trans _ _ _ _ _ ih1 ih2 => exact ih1.trans ih2
  · intro x r hx
    simp only [init, List.getElem?_eq_some_iff, List.getElem_range] at hx
    obtain ⟨_, rfl⟩ := hx
    exact Relation.EqvGen.refl _

/-- **C01.** For every `n` and every legal history of `appendOne`/`relabel` calls starting
from `LabelLUT(n)`: the run neither hangs nor leaves the arrays; the table has `n` plus the
number of appended entries; every label in range can be looked up; two labels have the same
lookup exactly if they were merged; and a lookup always returns a label that stands for
itself. -/
theorem lut_lookup_is_class_representative (n : Nat) (ops : List Op) (hl : LegalRun (init n) ops) :
    ∃ s, run (init n) ops = .ok s ∧ size s = n + appends ops ∧
      (∀ x, x < size s → ∃ r, lookup s x = .ok r ∧ r < size s ∧ lookup s r = .ok r ∧ Merged ops x r) ∧
      (∀ x y, x < size s → y < size s → (lookup s x = lookup s y ↔ Merged ops x y)) := by
  obtain ⟨s, e, a, l⟩ := run_spec ops (init n) [] (agrees_init n) hl
  simp only [List.nil_append] at a
  have hget : ∀ x, x < size s → ∃ r, lookup s x = .ok r ∧ s.lut[x]? = some r := by
    intro x hx
    refine ⟨s.lut[x]'hx, ?_, by simp [size] at hx; simp [hx]⟩
    rw [lookup_eq_ok]; simp [size] at hx; simp [hx]
  refine ⟨s, e, by simpa [size, init] using l, ?_, ?_⟩
  · intro x hx
    obtain ⟨r, h1, h2⟩ := hget x hx
    have h3 := a.wf.idem _ _ h2
    exact ⟨r, h1, (List.getElem?_eq_some_iff.mp h3).1, lookup_eq_ok.mpr h3, a.compl _ _ h2⟩
  · intro x y hx hy
    obtain ⟨r, h1, h2⟩ := hget x hx
    obtain ⟨q, h3, h4⟩ := hget y hy
    rw [h1, h3]
    constructor
    · intro h
      simp at h; subst h
      exact Relation.EqvGen.trans _ _ _ (a.compl _ _ h2) (Relation.EqvGen.symm _ _ (a.compl _ _ h4))
    · intro m
      rcases a.sound x y m with rfl | ⟨p, h5, h6⟩
      · rw [h2] at h4; simp at h4; rw [h4]
      · rw [h2] at h5; rw [h4] at h6; simp at h5 h6; rw [h5, h6]

/-- **C01 (survivor).** Immediately after a legal `relabel(from, to)`, `to` still stands for
itself, exactly the labels that resolved to `from` now resolve to `to`, and every other lookup
is unchanged. -/
theorem relabel_effect (n : Nat) (ops : List Op) (f t : Nat)
    (hl : LegalRun (init n) (ops ++ [.relabel f t])) :
    ∃ s s', run (init n) ops = .ok s ∧ relabel s f t = .ok s' ∧ size s' = size s ∧
      lookup s' t = .ok t ∧
      (∀ x, lookup s x = .ok f → lookup s' x = .ok t) ∧
      (∀ x, lookup s x ≠ .ok f → lookup s' x = lookup s x) := by
  have split : ∀ (ops : List Op) (s : LUT) (past : List Op), Agrees s past →
      LegalRun s (ops ++ [.relabel f t]) →
      ∃ s', run s ops = .ok s' ∧ WF s' ∧ Legal s' (.relabel f t) := by
    intro ops
    induction ops with
    | nil => intro s past a h; exact ⟨s, rfl, a.wf, h.1⟩
    | cons op ops ih =>
      intro s past a h
      obtain ⟨s1, e1, a1, l1⟩ := agrees_step a h.1
      obtain ⟨s2, e2, w2, l2⟩ := ih s1 _ a1 (h.2 s1 e1)
      exact ⟨s2, by simp [run, e1, e2], w2, l2⟩
  obtain ⟨s, e, w, hf, ht, hne⟩ := split ops (init n) [] (agrees_init n) hl
  obtain ⟨s', e', w', l', hlook⟩ := relabel_spec w (lookup_eq_ok.mp hf) (lookup_eq_ok.mp ht) hne
  have hlk : ∀ x, lookup s x = .ok f ∨ lookup s' x = lookup s x := by
    intro x
    by_cases h : s.lut[x]? = some f
    · exact Or.inl (lookup_eq_ok.mpr h)
    · right; simp only [lookup, hlook, if_neg h]
  refine ⟨s, s', e, e', l', ?_, ?_, ?_⟩
  · rcases hlk t with h | h
    · rw [ht] at h; simp at h; exact absurd h.symm hne
    · rw [h, ht]
  · intro x hx
    rw [lookup_eq_ok] at hx ⊢
    rw [hlook, if_pos hx]
  · intro x hx
    rcases hlk x with h | h
    · exact absurd h hx
    · exact h

/-- **C02.** After any legal history, iterating `mergedBegin(r)` for a label `r` that stands for
itself terminates without leaving the arrays and yields exactly the labels that look up to `r`,
each once, starting with `r` itself. -/
theorem merged_iteration_exact (n : Nat) (ops : List Op) (hl : LegalRun (init n) ops) :
    ∃ s, run (init n) ops = .ok s ∧
      ∀ r, lookup s r = .ok r →
        ∃ l, merged s r = .ok l ∧ l.head? = some r ∧ l.Nodup ∧
          ∀ x, x ∈ l ↔ lookup s x = .ok r := by
  obtain ⟨s, e, a, l⟩ := run_spec ops (init n) [] (agrees_init n) hl
  refine ⟨s, e, fun r hr => ?_⟩
  obtain ⟨l, c1, c2, c3⟩ := a.wf.chain r (lookup_eq_ok.mp hr)
  refine ⟨r :: l, ?_, rfl, c2, fun x => by rw [c3, lookup_eq_ok]⟩
  refine mergedLoop_chain _ _ _ _ c1 ?_
  have := nodup_length_le c2 (fun x hx => Chain.lt c1 x hx)
  rw [a.wf.len] at this
  simp at this; omega

/-! Non-vacuity: a legal history with an append and three merges (one of them joining two
classes of more than one element). -/

def exampleOps : List Op := [.append, .relabel 1 0, .relabel 3 2, .relabel 2 0]

example : LegalRun (init 4) exampleOps := by
  refine ⟨trivial, ?_⟩; intro s h; cases h
  refine ⟨⟨by decide, by decide, by decide⟩, ?_⟩; intro s h; cases h
  refine ⟨⟨by decide, by decide, by decide⟩, ?_⟩; intro s h; cases h
  refine ⟨⟨by decide, by decide, by decide⟩, ?_⟩; intro s h; cases h
  trivial

example : run (init 4) exampleOps = .ok ⟨[0, 0, 0, 0, 4], [2, 1, 3, 1, 4]⟩ := by decide
example : (run (init 4) exampleOps).bind (merged · 0) = .ok [0, 2, 3, 1] := by decide

/-- The legality hypothesis is needed: `relabel(x, x)` on a label that already has merged
labels drops all of them from its merged-label list although they still look up to it (and
leaves the dropped ones in a cycle on which iteration never ends). -/
theorem relabel_self_loses_labels :
    ∃ s s', run (init 3) [.relabel 1 0, .relabel 2 0] = .ok s ∧
      merged s 0 = .ok [0, 2, 1] ∧ relabel s 0 0 = .ok s' ∧
      lookup s' 1 = .ok 0 ∧ merged s' 0 = .ok [0] ∧ ∀ fuel, mergedLoop s'.prev fuel 1 = .hang := by
  refine ⟨⟨[0, 0, 0], [2, 1, 1]⟩, ⟨[0, 0, 0], [0, 2, 1]⟩, by decide, by decide, by decide,
    by decide, by decide, ?_⟩
  have key : ∀ fuel, mergedLoop [0, 2, 1] fuel 1 = .hang ∧ mergedLoop [0, 2, 1] fuel 2 = .hang := by
    intro fuel
    induction fuel with
    | zero => exact ⟨rfl, rfl⟩
    | succ n ih => simp [mergedLoop, ih.1, ih.2, Outcome.map]
  exact fun fuel => (key fuel).1

end Verif.LabelLUT
