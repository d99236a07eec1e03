import Verif.LabelLUT.Model
import Mathlib.Data.List.Basic
import Mathlib.Data.List.Nodup
import Mathlib.Data.List.Perm.Subperm
import Mathlib.Tactic.Tauto
import Mathlib.Tactic.Set
import Mathlib.Data.List.Range
import Mathlib.Logic.Relation

namespace Verif.LabelLUT
open Verif

/-- `l` is the pointer chain starting at its head and ending in a fixpoint. -/
def Chain (prev : List Nat) : List Nat → Prop
  | [] => False
  | [x] => prev[x]? = some x
  | x :: y :: l => prev[x]? = some y ∧ x ≠ y ∧ Chain prev (y :: l)

structure WF (s : LUT) : Prop where
  len : s.prev.length = s.lut.length
  idem : ∀ x r : Nat, s.lut[x]? = some r → s.lut[r]? = some r
  chain : ∀ r : Nat, s.lut[r]? = some r → ∃ l, Chain s.prev (r :: l) ∧ (r :: l).Nodup ∧
    ∀ x : Nat, x ∈ r :: l ↔ s.lut[x]? = some r

theorem Chain.tail {prev : List Nat} {x y l} (h : Chain prev (x :: y :: l)) : Chain prev (y :: l) := h.2.2

theorem Chain.lt {prev : List Nat} : ∀ {l}, Chain prev l → ∀ x ∈ l, x < prev.length
  | [], h, _, _ => h.elim
  | [x], h, y, hy => by
    simp at hy; subst hy
    exact (List.getElem?_eq_some_iff.mp h).1
  | x :: z :: l, h, y, hy => by
    rcases List.mem_cons.mp hy with rfl | hy
    · exact (List.getElem?_eq_some_iff.mp h.1).1
    · exact Chain.lt h.2.2 y hy

/-- the last element of a chain is a fixpoint -/
theorem relabelLoop_chain (prev : List Nat) (dst : Nat) :
    ∀ (l : List Nat) (x : Nat) (lut : List Nat) (fuel : Nat),
      Chain prev (x :: l) → prev.length = lut.length → l.length < fuel →
      ∃ lut', relabelLoop prev dst fuel lut x = .ok (lut', (x :: l).getLast (by simp)) ∧
        lut'.length = lut.length ∧
        ∀ i : Nat, lut'[i]? = if i ∈ x :: l then some dst else lut[i]?
  | [], x, lut, fuel, h, hl, hf => by
    obtain ⟨f, rfl⟩ : ∃ f, fuel = f + 1 := ⟨fuel - 1, by simp at hf; omega⟩
    have hx := Chain.lt h x (by simp)
    simp only [Chain] at h
    refine ⟨lut.set x dst, ?_, by simp, ?_⟩
    · rw [relabelLoop, if_pos (by omega), h]; simp
    · intro i
      rw [List.getElem?_set]
      by_cases hi : x = i
      · subst hi; simp; omega
      · simp [hi, Ne.symm hi]
  | y :: l, x, lut, fuel, h, hl, hf => by
    obtain ⟨f, rfl⟩ : ∃ f, fuel = f + 1 := ⟨fuel - 1, by simp at hf; omega⟩
    have hx := Chain.lt h x (by simp)
    obtain ⟨h1, h2, h3⟩ := h
    obtain ⟨lut', e1, e2, e3⟩ := relabelLoop_chain prev dst l y (lut.set x dst) f h3 (by simp [hl])
      (by simp at hf; omega)
    refine ⟨lut', ?_, by simpa using e2, ?_⟩
    · rw [relabelLoop, if_pos (by omega), h1]; simp [Ne.symm h2, e1]
    · intro i
      rw [e3 i]
      by_cases hi : i ∈ y :: l
      · simp [hi, List.mem_cons_of_mem x hi]
      · rw [if_neg hi, List.getElem?_set]
        by_cases hxi : x = i
        · subst hxi; simp; omega
        · rw [if_neg hxi, if_neg]
          simp only [List.mem_cons] at hi ⊢
          rintro (h | h)
          · exact hxi h.symm
          · exact hi h

theorem Chain.congr {prev prev' : List Nat} : ∀ {l}, (∀ x ∈ l, prev'[x]? = prev[x]?) →
    Chain prev l → Chain prev' l
  | [], _, h => h
  | [x], e, h => by simpa [Chain, e x (by simp)] using h
  | x :: y :: l, e, h => by
    refine ⟨by rw [e x (by simp)]; exact h.1, h.2.1, ?_⟩
    exact Chain.congr (fun z hz => e z (List.mem_cons_of_mem _ hz)) h.2.2

/-- splicing chain `l` (whose last pointer is redirected) in front of chain `y :: m` -/
theorem Chain.append {prev prev' : List Nat} : ∀ {l : List Nat} (hl : l ≠ []) {y m},
    Chain prev l → l.Nodup →
    (∀ x ∈ l, x ≠ l.getLast hl → prev'[x]? = prev[x]?) →
    prev'[l.getLast hl]? = some y → l.getLast hl ≠ y →
    Chain prev' (y :: m) → Chain prev' (l ++ y :: m)
  | [], hl, _, _, _, _, _, _, _, _ => (hl rfl).elim
  | [x], _, y, m, _, _, _, h2, h3, h4 => ⟨by simpa using h2, by simpa using h3, h4⟩
  | x :: z :: l, _, y, m, h, hn, h1, h2, h3, h4 => by
    have hxl : x ≠ (z :: l).getLast (by simp) := by
      intro e
      have := List.getLast_mem (l := z :: l) (by simp)
      rw [← e] at this
      exact (List.nodup_cons.mp hn).1 this
    refine ⟨?_, h.2.1, ?_⟩
    · rw [h1 x (by simp) (by simpa using hxl)]; exact h.1
    · have := Chain.append (prev := prev) (prev' := prev') (l := z :: l) (by simp) (y := y) (m := m)
        h.2.2 (List.nodup_cons.mp hn).2
        (fun w hw hne => h1 w (List.mem_cons_of_mem _ hw) (by simpa using hne))
        (by simpa using h2) (by simpa using h3) h4
      simpa using this

theorem mergedLoop_chain (prev : List Nat) : ∀ (l : List Nat) (x fuel : Nat),
    Chain prev (x :: l) → l.length < fuel → mergedLoop prev fuel x = .ok (x :: l)
  | [], x, fuel, h, hf => by
    obtain ⟨f, rfl⟩ : ∃ f, fuel = f + 1 := ⟨fuel - 1, by simp at hf; omega⟩
    simp only [Chain] at h
    simp [mergedLoop, h]
  | y :: l, x, fuel, h, hf => by
    obtain ⟨f, rfl⟩ : ∃ f, fuel = f + 1 := ⟨fuel - 1, by simp at hf; omega⟩
    obtain ⟨h1, h2, h3⟩ := h
    have := mergedLoop_chain prev l y f h3 (by simp at hf; omega)
    simp [mergedLoop, h1, Ne.symm h2, this, Outcome.map]

theorem nodup_length_le {l : List Nat} {n : Nat} (h : l.Nodup) (hl : ∀ x ∈ l, x < n) : l.length ≤ n := by
  have : l ⊆ List.range n := fun x hx => List.mem_range.mpr (hl x hx)
  simpa using (h.subperm this).length_le

theorem inv_init (n : Nat) : WF (init n) := by
  refine ⟨by simp [init], ?_, ?_⟩
  · intro x r h
    simp only [init]  at h ⊢
    simp only [List.getElem?_eq_some_iff, List.length_range, List.getElem_range] at h ⊢
    obtain ⟨h1, h2⟩ := h; exact ⟨by omega, trivial⟩
  · intro r h
    refine ⟨[], ?_, by simp, ?_⟩
    · simpa [Chain, init] using h
    · intro x
      simp only [List.mem_singleton, init] at h ⊢
      simp only [List.getElem?_eq_some_iff, List.length_range, List.getElem_range] at h ⊢
      constructor
      · rintro rfl; exact ⟨h.1, rfl⟩
      · rintro ⟨_, h⟩; exact h

theorem inv_append {s : LUT} (hs : WF s) : WF (appendOne s) := by
  obtain ⟨hl, hi, hc⟩ := hs
  have key : ∀ x r : Nat, (appendOne s).lut[x]? = some r ↔
      s.lut[x]? = some r ∨ (x = s.lut.length ∧ r = s.lut.length) := by
    intro x r
    simp only [appendOne, List.getElem?_append]
    split
    · constructor
      · exact Or.inl
      · rintro (h | ⟨rfl, rfl⟩)
        · exact h
        · omega
    · rename_i hx
      have h0 : s.lut[x]? = none := List.getElem?_eq_none (by omega)
      rw [h0]
      by_cases e : x = s.lut.length
      · subst e; simp [eq_comm]
      · have : ([s.lut.length] : List Nat)[x - s.lut.length]? = none :=
          List.getElem?_eq_none (by simp; omega)
        simp [this, e]
  refine ⟨by simp [appendOne, hl], ?_, ?_⟩
  · intro x r h
    rw [key] at h ⊢
    rcases h with h | ⟨_, rfl⟩
    · exact Or.inl (hi _ _ h)
    · exact Or.inr ⟨rfl, rfl⟩
  · intro r h
    rw [key] at h
    rcases h with h | ⟨rfl, -⟩
    · obtain ⟨l, c1, c2, c3⟩ := hc r h
      refine ⟨l, ?_, c2, ?_⟩
      · refine Chain.congr (fun x hx => ?_) c1
        have := Chain.lt c1 x hx
        simp [appendOne, List.getElem?_append, this]
      · intro x
        rw [c3, key]
        constructor
        · exact Or.inl
        · rintro (h' | ⟨rfl, rfl⟩)
          · exact h'
          · exact h
    · refine ⟨[], ?_, by simp, ?_⟩
      · simp [Chain, appendOne, ← hl]
      · intro x
        rw [key]
        simp only [List.mem_singleton]
        constructor
        · rintro rfl; simp
        · rintro (h' | ⟨h, -⟩)
          · have := hi _ _ h'
            have := (List.getElem?_eq_some_iff.mp this).1
            omega
          · exact h

/-- `relabel` of two distinct live representatives: it terminates without UB, the
members of `from_`'s class now look up to `to`, everything else is unchanged, and
the representation invariant is kept. -/
theorem relabel_spec {s : LUT} (hs : WF s) {f t : Nat} (hf : s.lut[f]? = some f)
    (ht : s.lut[t]? = some t) (hne : f ≠ t) :
    ∃ s', relabel s f t = .ok s' ∧ WF s' ∧ s'.lut.length = s.lut.length ∧
      ∀ i : Nat, s'.lut[i]? = if s.lut[i]? = some f then some t else s.lut[i]? := by
  obtain ⟨hl, hi, hc⟩ := hs
  obtain ⟨lf, cf1, cf2, cf3⟩ := hc f hf
  obtain ⟨lt, ct1, ct2, ct3⟩ := hc t ht
  have hlen : (f :: lf).length ≤ s.lut.length :=
    nodup_length_le cf2 (fun x hx => by rw [← hl]; exact Chain.lt cf1 x hx)
  obtain ⟨lut', e1, e2, e3⟩ := relabelLoop_chain s.prev t lf f s.lut (s.lut.length + 1) cf1 hl
    (by simp at hlen; omega)
  have hlook : ∀ i : Nat, lut'[i]? = if s.lut[i]? = some f then some t else s.lut[i]? := by
    intro i; rw [e3 i]; simp only [cf3]
  have htl := Chain.lt ct1 t (by simp)
  set last := (f :: lf).getLast (by simp) with hlast
  have hlast_mem : last ∈ f :: lf := List.getLast_mem _
  have hlast_lt := Chain.lt cf1 last hlast_mem
  have hdisj : ∀ x, x ∈ f :: lf → x ∉ t :: lt := by
    intro x h1 h2
    rw [cf3] at h1; rw [ct3] at h2; rw [h1] at h2; exact hne (by simpa using h2)
  have htf : t ∉ f :: lf := fun h => hdisj t h (by simp)
  obtain ⟨pt, hpt⟩ : ∃ pt, s.prev[t]? = some pt := ⟨s.prev[t], by simp [htl]⟩
  set prev1 := if pt ≠ t then s.prev.set last pt else s.prev with hp1
  have hlt : last ≠ t := fun h => htf (h ▸ hlast_mem)
  have hp1len : prev1.length = s.prev.length := by rw [hp1]; split <;> simp
  have hget : ∀ x, (prev1.set t f)[x]? = if x = t then some f else
      if pt ≠ t ∧ x = last then some pt else s.prev[x]? := by
    intro x
    rw [List.getElem?_set]
    by_cases hx : t = x
    · subst hx; simp [hp1len, htl]
    · rw [if_neg hx, if_neg (Ne.symm hx), hp1]
      by_cases hpt' : pt ≠ t
      · simp only [hpt', ne_eq, not_false_eq_true, if_true, true_and]
        rw [List.getElem?_set]
        by_cases hxl : last = x
        · simp [hxl, hxl ▸ hlast_lt]
        · simp [hxl, Ne.symm hxl]
      · simp [hpt']
  -- the new chain of `t`
  have hnew : Chain (prev1.set t f) (t :: (f :: lf) ++ lt) := by
    have hinner : Chain (prev1.set t f) ((f :: lf) ++ lt) := by
      cases lt with
      | nil =>
        simp only [Chain] at ct1
        have : pt = t := by rw [hpt] at ct1; simpa using ct1
        rw [List.append_nil]
        refine Chain.congr (fun x hx => ?_) cf1
        rw [hget, if_neg (fun h : x = t => htf (h ▸ hx)), if_neg (by simp [this])]
      | cons y lt =>
        obtain ⟨c1, c2, c3⟩ := ct1
        have hy : pt = y := by rw [hpt] at c1; simpa using c1
        subst hy
        have hpt' : pt ≠ t := Ne.symm c2
        refine Chain.append (prev := s.prev) (by simp) cf1 cf2 ?_ ?_ ?_ ?_
        · intro x hx hxl
          rw [hget, if_neg (fun h : x = t => htf (h ▸ hx)), if_neg (fun h => hxl h.2)]
        · rw [hget, if_neg hlt, if_pos ⟨hpt', rfl⟩]
        · intro h
          exact hdisj last hlast_mem (by rw [hlast, h]; simp)
        · refine Chain.congr (fun x hx => ?_) c3
          have hxt : x ≠ t := fun h => (List.nodup_cons.mp ct2).1 (h ▸ hx)
          have hxl : x ≠ last := fun h =>
            hdisj last hlast_mem (h ▸ List.mem_cons_of_mem _ hx)
          rw [hget, if_neg hxt, if_neg (fun h => hxl h.2)]
    exact ⟨by rw [hget]; simp, Ne.symm hne, hinner⟩
  refine ⟨⟨lut', prev1.set t f⟩, ?_, ⟨?_, ?_, ?_⟩, e2, hlook⟩
  · simp only [relabel, e1, hpt, hp1]
  · simp [hp1len, hl, e2]
  · intro x r h
    simp only at h ⊢
    rw [hlook] at h ⊢
    split at h
    · injection h with h; subst h
      rw [if_neg]
      · exact ht
      · rw [ht]; simpa using Ne.symm hne
    · rename_i hx
      rw [hi _ _ h, if_neg]
      intro hr; simp at hr; subst hr; exact hx h
  · intro r hr
    simp only at hr ⊢
    rw [hlook] at hr
    by_cases hrt : r = t
    · subst hrt
      refine ⟨(f :: lf) ++ lt, hnew, ?_, ?_⟩
      · rw [List.nodup_cons]
        refine ⟨?_, ?_⟩
        · rw [List.mem_append]
          rintro (h | h)
          · exact htf h
          · exact (List.nodup_cons.mp ct2).1 h
        · rw [List.nodup_append]
          refine ⟨cf2, (List.nodup_cons.mp ct2).2, ?_⟩
          intro a ha b hb hab
          subst hab
          exact hdisj a ha (List.mem_cons_of_mem _ hb)
      · intro x
        rw [hlook]
        have e : x ∈ r :: (f :: lf ++ lt) ↔ x ∈ f :: lf ∨ x ∈ r :: lt := by
          simp only [List.mem_cons, List.mem_append]; tauto
        rw [e, cf3, ct3]
        by_cases h : s.lut[x]? = some f <;> simp [h]
    · have hrf : s.lut[r]? = some r ∧ r ≠ f := by
        split at hr
        · simp at hr; exact absurd hr.symm hrt
        · rename_i h
          exact ⟨hr, fun e => h (e ▸ hr)⟩
      obtain ⟨l, c1, c2, c3⟩ := hc r hrf.1
      refine ⟨l, ?_, c2, ?_⟩
      · refine Chain.congr (fun x hx => ?_) c1
        have hx' := (c3 x).mp hx
        have hxt : x ≠ t := by
          rintro rfl; rw [ht] at hx'; exact hrt (by simpa using hx'.symm)
        have hxl : x ≠ last := by
          rintro h
          have := (cf3 last).mp hlast_mem
          rw [← h, hx'] at this; exact hrf.2 (by simpa using this)
        rw [hget, if_neg hxt, if_neg (fun h => hxl h.2)]
      · intro x
        rw [c3, hlook]
        constructor
        · intro h
          rw [if_neg]
          · exact h
          · rw [h]; simpa using hrf.2
        · intro h
          split at h
          · simp at h; exact absurd h.symm hrt
          · exact h

end Verif.LabelLUT
