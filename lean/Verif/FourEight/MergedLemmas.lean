import Verif.FourEight.MergedModel
import Verif.FourEight.StatLemmas

/-!
# Lemmas about merged edges
-/

namespace Verif.FourEight
open Verif Verif.CellImage Verif.Outcome

/-- the labels one visits, starting with the first -/
def IsChain (mg : List Nat) : List Nat → Prop
  | [] => False
  | [e] => mg[e]? = some e
  | e :: t :: r => mg[e]? = some t ∧ t ≠ e ∧ IsChain mg (t :: r)

theorem IsChain.lt {mg : List Nat} : ∀ {c : List Nat}, IsChain mg c → ∀ l ∈ c, l < mg.length
  | [], h => h.elim
  | [e], h => by
    intro l hl
    rw [List.mem_singleton] at hl
    subst hl
    exact (List.getElem?_eq_some_iff.1 h).1
  | e :: t :: r, h => by
    intro l hl
    rcases List.mem_cons.1 hl with rfl | hl
    · exact (List.getElem?_eq_some_iff.1 h.1).1
    · exact IsChain.lt h.2.2 l hl

theorem length_le_of_nodup {c : List Nat} {n : Nat} (h : c.Nodup) (hl : ∀ l ∈ c, l < n) : c.length ≤ n := by
  rw [← List.toFinset_card_of_nodup h]
  calc c.toFinset.card ≤ (Finset.range n).card := Finset.card_le_card fun x hx => Finset.mem_range.2 (hl x (List.mem_toFinset.1 hx))
    _ = n := Finset.card_range n

theorem lastOf_chain {mg : List Nat} : ∀ (c : List Nat) (n e : Nat), IsChain mg (e :: c) → (e :: c).length ≤ n →
    lastOf mg n e = .ok ((e :: c).getLast (by simp))
  | [], 0, e, _, hn => by simp at hn
  | [], n + 1, e, h, _ => by
    have h : mg[e]? = some e := h
    unfold lastOf
    rw [h]; simp
  | t :: r, 0, e, _, hn => by simp at hn
  | t :: r, n + 1, e, h, hn => by
    unfold lastOf
    rw [h.1]
    dsimp only
    rw [if_neg h.2.1, lastOf_chain r n t h.2.2 (by simpa using hn)]
    simp

theorem edgeProtected_chain {mg prot : List Nat} : ∀ (c : List Nat) (n e : Nat), IsChain mg (e :: c) → (e :: c).length ≤ n →
    (∀ l ∈ e :: c, l < prot.length) →
    ∃ b, edgeProtected mg prot n e = .ok b ∧ (b = true ↔ ∃ l ∈ e :: c, ∃ f, prot[l]? = some f ∧ f ≠ 0)
  | [], 0, e, _, hn, _ => by simp at hn
  | t :: r, 0, e, _, hn, _ => by simp at hn
  | [], n + 1, e, h, _, hl => by
    have h : mg[e]? = some e := h
    have hf := List.getElem?_eq_getElem (hl e (List.mem_cons_self ..))
    unfold edgeProtected
    rw [hf]
    dsimp only
    by_cases h0 : prot[e]'(hl e (List.mem_cons_self ..)) = 0
    · rw [if_neg (not_not.2 h0), h]
      dsimp only
      rw [if_pos rfl]
      refine ⟨false, rfl, by simp, ?_⟩
      rintro ⟨l, hl2, f, h1, h2⟩
      rw [List.mem_singleton] at hl2
      subst hl2
      rw [hf] at h1
      exact absurd ((Option.some.inj h1).symm.trans h0) h2
    · rw [if_pos h0]
      exact ⟨true, rfl, by simp only [true_iff]; exact ⟨e, List.mem_cons_self .., _, hf, h0⟩⟩
  | t :: r, n + 1, e, h, hn, hl => by
    have hf := List.getElem?_eq_getElem (hl e (List.mem_cons_self ..))
    obtain ⟨b, h1, h2⟩ := edgeProtected_chain (prot := prot) r n t h.2.2 (by simpa using hn) (fun l h => hl l (List.mem_cons_of_mem _ h))
    unfold edgeProtected
    rw [hf]
    dsimp only
    by_cases h0 : prot[e]'(hl e (List.mem_cons_self ..)) = 0
    · rw [if_neg (not_not.2 h0), h.1]
      dsimp only
      rw [if_neg h.2.1]
      refine ⟨b, h1, h2.trans ?_⟩
      constructor
      · rintro ⟨l, q1, q2⟩; exact ⟨l, List.mem_cons_of_mem _ q1, q2⟩
      · rintro ⟨l, q1, f, q2, q3⟩
        rcases List.mem_cons.1 q1 with rfl | q1
        · rw [hf] at q2
          exact absurd ((Option.some.inj q2).symm.trans h0) q3
        · exact ⟨l, q1, f, q2, q3⟩
    · rw [if_pos h0]
      exact ⟨true, rfl, by simp only [true_iff]; exact ⟨e, List.mem_cons_self .., _, hf, h0⟩⟩

/-- the flags after `protectOne` -/
def setFlag (f flag : Nat) (b : Bool) : Nat := if decide (f &&& flag ≠ 0) ≠ b then f ^^^ flag else f

theorem and_pow (f k : Nat) : decide (f &&& 2 ^ k ≠ 0) = f.testBit k := by
  have hz : ∀ j, (f &&& 2 ^ k).testBit j = (f.testBit j && decide (k = j)) := fun j => by rw [Nat.testBit_and, Nat.testBit_two_pow]
  cases hb : f.testBit k with
  | true =>
    rw [decide_eq_true_eq]
    intro h0
    have := hz k
    rw [h0, hb] at this
    simp at this
  | false =>
    rw [decide_eq_false_iff_not, not_not]
    apply Nat.eq_of_testBit_eq
    intro j
    rw [hz j, Nat.zero_testBit]
    by_cases hj : k = j
    · rw [← hj, hb]; rfl
    · simp [hj]

theorem setFlag_bit (f k : Nat) (b : Bool) (j : Nat) : (setFlag f (2 ^ k) b).testBit j = if j = k then b else f.testBit j := by
  unfold setFlag
  rw [and_pow]
  by_cases hb : f.testBit k = b
  · rw [if_neg (not_not.2 hb)]
    by_cases hj : j = k
    · rw [if_pos hj, hj, hb]
    · rw [if_neg hj]
  · rw [if_pos hb, Nat.testBit_xor, Nat.testBit_two_pow]
    by_cases hj : j = k
    · subst hj
      rw [if_pos rfl]
      cases h1 : f.testBit j <;> cases b <;> simp_all
    · rw [if_neg hj]
      simp [Ne.symm hj]

theorem setFlag_ne {f k : Nat} {b : Bool} : setFlag f (2 ^ k) b ≠ f ↔ decide (f &&& 2 ^ k ≠ 0) ≠ b := by
  unfold setFlag
  constructor
  · intro h hc
    rw [if_neg (not_not.2 hc)] at h
    exact h rfl
  · intro h hc
    rw [if_pos h] at hc
    have := congrArg (fun n => n.testBit k) hc
    simp only [Nat.testBit_xor, Nat.testBit_two_pow_self] at this
    cases h2 : f.testBit k <;> rw [h2] at this <;> cases this

theorem protectOne_spec {prot : List Nat} {e k : Nat} {b : Bool} (he : e < prot.length) :
    ∃ p' c, protectOne prot e (2 ^ k) b = .ok (p', c) ∧ p'.length = prot.length ∧
      (∀ l f, prot[l]? = some f → p'[l]? = some (if l = e then setFlag f (2 ^ k) b else f)) ∧ (c = true ↔ p' ≠ prot) := by
  have hf := List.getElem?_eq_getElem he
  unfold protectOne
  rw [hf]
  dsimp only
  by_cases hc : decide (prot[e] &&& 2 ^ k ≠ 0) ≠ b
  · rw [if_pos hc]
    refine ⟨_, _, rfl, by simp, ?_, ?_⟩
    · intro l f hl
      by_cases hle : l = e
      · subst hle
        rw [if_pos rfl, List.getElem?_set_self he]
        rw [hf] at hl
        cases hl
        unfold setFlag
        rw [if_pos hc]
      · rw [if_neg hle, List.getElem?_set_ne (Ne.symm hle), hl]
    · simp only [true_iff]
      intro hp
      have h1 := setFlag_ne.2 hc
      unfold setFlag at h1
      rw [if_pos hc] at h1
      apply h1
      have h2 : (prot.set e (prot[e] ^^^ 2 ^ k))[e]? = prot[e]? := by rw [hp]
      rw [List.getElem?_set_self he, hf] at h2
      exact Option.some.inj h2
  · rw [if_neg hc]
    refine ⟨_, _, rfl, rfl, ?_, by simp⟩
    intro l f hl
    rw [hl]
    by_cases hle : l = e
    · subst hle
      rw [hf] at hl
      cases hl
      unfold setFlag
      rw [if_pos rfl, if_neg hc]
    · rw [if_neg hle]

theorem protectEdge_chain {mg : List Nat} {k : Nat} {b : Bool} : ∀ (c : List Nat) (n e : Nat) (prot : List Nat), IsChain mg (e :: c) →
    (e :: c).length ≤ n → (e :: c).Nodup → (∀ l ∈ e :: c, l < prot.length) →
    ∃ p' r, protectEdge mg n prot e (2 ^ k) b = .ok (p', r) ∧ p'.length = prot.length ∧
      (∀ l f, prot[l]? = some f → p'[l]? = some (if l ∈ e :: c then setFlag f (2 ^ k) b else f)) ∧ (r = true ↔ p' ≠ prot)
  | [], 0, e, _, _, hn, _, _ => by simp at hn
  | t :: r, 0, e, _, _, hn, _, _ => by simp at hn
  | [], n + 1, e, prot, h, _, _, hl => by
    have h : mg[e]? = some e := h
    obtain ⟨p', c, q1, q2, q3, q4⟩ := protectOne_spec (k := k) (b := b) (hl e (List.mem_cons_self ..))
    refine ⟨p', c, ?_, q2, ?_, q4⟩
    · unfold protectEdge
      rw [q1, bind_ok, h]
      dsimp only
      rw [if_neg (not_not.2 rfl)]
    · intro l f hf
      rw [q3 l f hf]
      simp
  | t :: r, n + 1, e, prot, h, hn, hnd, hl => by
    obtain ⟨p1, c1, q1, q2, q3, q4⟩ := protectOne_spec (k := k) (b := b) (hl e (List.mem_cons_self ..))
    have hnd' := List.nodup_cons.1 hnd
    obtain ⟨p2, c2, r1, r2, r3, r4⟩ := protectEdge_chain (k := k) (b := b) r n t p1 h.2.2 (by simpa using hn) hnd'.2
      (fun l h => by rw [q2]; exact hl l (List.mem_cons_of_mem _ h))
    refine ⟨p2, c2 || c1, ?_, r2.trans q2, ?_, ?_⟩
    · unfold protectEdge
      rw [q1, bind_ok, h.1]
      dsimp only
      rw [if_pos h.2.1, r1, bind_ok]
    · intro l f hf
      rw [r3 l _ (q3 l f hf)]
      by_cases hle : l = e
      · subst hle
        rw [if_neg hnd'.1, if_pos rfl, if_pos (List.mem_cons_self ..)]
      · rw [if_neg hle]
        by_cases hc : l ∈ t :: r
        · rw [if_pos hc, if_pos (List.mem_cons_of_mem _ hc)]
        · rw [if_neg hc, if_neg]
          rw [List.mem_cons, not_or]
          exact ⟨hle, hc⟩
    · rw [Bool.or_eq_true, q4, r4]
      constructor
      · intro hor he
        -- the entries of `p2` at `e` and elsewhere
        have key : p1 = prot := by
          apply List.ext_getElem?
          intro l
          by_cases hll : l < prot.length
          · have hf := List.getElem?_eq_getElem hll
            have a1 := q3 l _ hf
            by_cases hle : l = e
            · subst hle
              have a2 := r3 l _ a1
              rw [if_neg hnd'.1] at a2
              rw [a1, ← a2, he]
            · rw [a1, if_neg hle, hf]
          · rw [List.getElem?_eq_none (by omega), List.getElem?_eq_none (by omega)]
        rcases hor with h1 | h1
        · exact h1 (he.trans key.symm)
        · exact h1 key
      · intro hne
        by_contra hcon
        rw [not_or, not_not, not_not] at hcon
        exact hne (hcon.1.trans hcon.2)

/-- Linking the last of a chain to the first of another. -/
theorem IsChain.append {mg : List Nat} {g : Nat} {cg : List Nat} (hg : IsChain mg (g :: cg)) : ∀ (c : List Nat) (s : Nat), IsChain mg (s :: c) →
    (s :: c).Nodup → List.Disjoint (s :: c) (g :: cg) → IsChain (mg.set ((s :: c).getLast (by simp)) g) (s :: c ++ g :: cg)
  | [], s, hs, _, hd => by
    have hlt := hs.lt s (List.mem_cons_self ..)
    have hne : g ≠ s := fun e => hd (List.mem_cons_self ..) (e ▸ List.mem_cons_self ..)
    refine ⟨?_, hne, ?_⟩
    · simp [List.getElem?_set_self hlt]
    · exact aux _ _ (fun hm => hd (List.mem_cons_self ..) hm) hg
  | t :: r, s, hs, hnd, hd => by
    have hnd' := List.nodup_cons.1 hnd
    have hlast : (s :: t :: r).getLast (by simp) = (t :: r).getLast (by simp) := by simp
    have ih := IsChain.append hg r t hs.2.2 hnd'.2 (fun x h1 h2 => hd (List.mem_cons_of_mem _ h1) h2)
    rw [hlast]
    refine ⟨?_, hs.2.1, ih⟩
    rw [List.getElem?_set_ne, hs.1]
    intro e
    exact hnd'.1 (e ▸ List.getLast_mem _)
where
  /-- a chain does not notice changes elsewhere -/
  aux {mg : List Nat} {t g : Nat} : ∀ (s : Nat) (c : List Nat), t ∉ s :: c → IsChain mg (s :: c) → IsChain (mg.set t g) (s :: c)
  | s, [], hn, h => by
    have h : mg[s]? = some s := h
    show (mg.set t g)[s]? = some s
    rw [List.getElem?_set_ne, h]
    rintro rfl
    exact hn (List.mem_cons_self ..)
  | s, u :: r, hn, h => by
    refine ⟨?_, h.2.1, aux u r (fun hm => hn (List.mem_cons_of_mem _ hm)) h.2.2⟩
    rw [List.getElem?_set_ne, h.1]
    rintro rfl
    exact hn (List.mem_cons_self ..)

theorem IsChain.set {mg : List Nat} {t g : Nat} {c : List Nat} (h : IsChain mg c) (hn : t ∉ c) : IsChain (mg.set t g) c := by
  cases c with
  | nil => exact h.elim
  | cons s c => exact IsChain.append.aux s c hn h

end Verif.FourEight
