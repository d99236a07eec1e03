import Verif.Sigma.Lemmas

/-!
# `setSigmaMapping` and the Python view of the sigma mapping: lemmas
-/

namespace Verif.Sigma
open Verif

theorem copyEntries_sigma (given : List Int) : ∀ (k : Nat) (i : Int) (f : Fn) (d : Int),
    (Fn.copyEntries given k i f).sigma d =
      if i ≤ d ∧ d < i + k then given[((given.length / 2 : Nat) + d).toNat]?.getD 0 else f.sigma d := by
  intro k
  induction k with
  | zero => intro i f d; rw [if_neg (by push_cast; omega)]; rfl
  | succ k ih =>
    intro i f d
    unfold Fn.copyEntries
    rw [ih]
    push_cast
    by_cases h1 : i + 1 ≤ d ∧ d < i + 1 + k
    · rw [if_pos h1, if_pos (by omega)]
    · rw [if_neg h1]
      by_cases h2 : d = i
      · subst h2
        rw [if_pos (by omega)]
        simp [Fn.setS]
      · rw [if_neg (by omega)]
        simp [Fn.setS, h2]

theorem copyEntries_inv (given : List Int) : ∀ (k : Nat) (i : Int) (f : Fn), (Fn.copyEntries given k i f).inv = f.inv := by
  intro k
  induction k with
  | zero => intro i f; rfl
  | succ k ih => intro i f; unfold Fn.copyEntries; rw [ih]; rfl

theorem invertEdges_sigma : ∀ (ls : List Nat) (f : Fn), (Fn.invertEdges ls f).sigma = f.sigma := by
  intro ls
  induction ls with
  | nil => intro f; rfl
  | cons l ls ih => intro f; unfold Fn.invertEdges; rw [ih]; rfl

/-- entries that no edge of the list is mapped to stay -/
theorem invertEdges_other : ∀ (ls : List Nat) (f : Fn) (x : Int), (∀ d : Int, d.natAbs ∈ ls → f.sigma d ≠ x) → (Fn.invertEdges ls f).inv x = f.inv x := by
  intro ls
  induction ls with
  | nil => intro f x _; rfl
  | cons l ls ih =>
    intro f x h
    unfold Fn.invertEdges
    rw [ih ((f.setI (f.sigma l) l).setI (f.sigma (-(l : Int))) (-(l : Int))) x (fun d hd => h d (by simp [hd]))]
    have h1 := h l (by simp)
    have h2 := h (-(l : Int)) (by simp)
    simp only [Fn.setI]
    rw [Function.update_of_ne (Ne.symm h2), Function.update_of_ne (Ne.symm h1)]

theorem invertEdges_inv : ∀ (ls : List Nat) (f : Fn), (∀ d e : Int, d.natAbs ∈ ls → e.natAbs ∈ ls → f.sigma d = f.sigma e → d = e) →
    ∀ d : Int, d.natAbs ∈ ls → (Fn.invertEdges ls f).inv (f.sigma d) = d := by
  intro ls
  induction ls with
  | nil => intro f _ d hd; simp at hd
  | cons l ls ih =>
    intro f hinj d hd
    unfold Fn.invertEdges
    by_cases hm : d.natAbs ∈ ls
    · exact ih ((f.setI (f.sigma l) l).setI (f.sigma (-(l : Int))) (-(l : Int))) (fun a b ha hb h => hinj a b (by simp [ha]) (by simp [hb]) h) d hm
    · have hdl : d.natAbs = l := by
        rcases List.mem_cons.mp hd with h | h
        · exact h
        · exact absurd h hm
      rw [invertEdges_other _ _ _ (fun e he h => by
        have := hinj e d (by simp [he]) hd h
        rw [this] at he; exact hm he)]
      simp only [Fn.setI]
      rcases Int.natAbs_eq d with h | h
      · rw [hdl] at h
        subst h
        by_cases e : f.sigma (l : Int) = f.sigma (-(l : Int))
        · have := hinj (l : Int) (-(l : Int)) (by simp) (by simp) e
          rw [e, Function.update_self]; exact this.symm
        · rw [Function.update_of_ne e, Function.update_self]
      · rw [hdl] at h
        subst h
        rw [Function.update_self]

/-! ## the Python view -/

theorem trim_spec : ∀ (fuel : Nat) (l : List Int) (c : Nat), l.length = 2 * c + 1 →
    ∃ k ≤ c, (Arrays.trim fuel l).length = 2 * k + 1 ∧
      (∀ i : Int, i.natAbs ≤ k → (Arrays.trim fuel l)[((k : Int) + i).toNat]? = l[((c : Int) + i).toNat]?) ∧
      ∀ i : Int, k < i.natAbs → i.natAbs ≤ c → l[((c : Int) + i).toNat]? = some 0 := by
  intro fuel
  induction fuel with
  | zero => intro l c h; exact ⟨c, le_rfl, h, fun _ _ => rfl, fun i h1 h2 => absurd h1 (by omega)⟩
  | succ fuel ih =>
    intro l c h
    unfold Arrays.trim
    by_cases hc : l.head? = some 0 ∧ l.getLast? = some 0 ∧ 3 ≤ l.length
    · rw [if_pos hc]
      obtain ⟨h0, h1, h3⟩ := hc
      obtain ⟨c', rfl⟩ : ∃ c', c = c' + 1 := ⟨c - 1, by omega⟩
      obtain ⟨k, hk, e1, e2, e3⟩ := ih (l.drop 1).dropLast c' (by simp; omega)
      have hget : ∀ i : Int, i.natAbs ≤ c' → (l.drop 1).dropLast[((c' : Int) + i).toNat]? = l[(((c' + 1 : Nat) : Int) + i).toNat]? := by
        intro i hi
        rw [List.getElem?_dropLast, if_pos (by simp; omega), List.getElem?_drop]
        congr 1; push_cast; omega
      refine ⟨k, by omega, e1, fun i hi => ?_, fun i hi1 hi2 => ?_⟩
      · rw [e2 i hi, hget i (by omega)]
      · by_cases hi : i.natAbs ≤ c'
        · rw [← hget i hi]; exact e3 i hi1 hi
        · have h2 : i = -(((c' + 1 : Nat)) : Int) ∨ i = ((c' + 1 : Nat) : Int) := by omega
          rcases h2 with rfl | rfl
          · rw [List.head?_eq_getElem?] at h0
            rw [← h0]; congr 1; omega
          · rw [List.getLast?_eq_getElem?] at h1
            rw [← h1]; congr 1; omega
    · rw [if_neg hc]
      exact ⟨c, le_rfl, h, fun _ _ => rfl, fun i h1 h2 => absurd h1 (by omega)⟩

theorem pyExport_spec {a : Arrays} {f : Fn} (h : Agree a f) (live : Nat → Bool) :
    ∃ k ≤ a.centre, (a.pyExport live).length = 2 * k + 1 ∧
      (∀ i : Int, i.natAbs ≤ k → (a.pyExport live)[((k : Int) + i).toNat]? = some (if live (f.sigma i).natAbs then f.sigma i else 0)) ∧
      ∀ i : Int, k < i.natAbs → f.sigma i = 0 := by
  obtain ⟨k, hk, e1, e2, e3⟩ := trim_spec a.sig.length a.sig a.centre h.slen
  refine ⟨k, hk, ?_, ?_, ?_⟩
  · unfold Arrays.pyExport; simpa using e1
  · intro i hi
    unfold Arrays.pyExport
    rw [List.getElem?_map, e2 i hi, h.s i (by omega)]; rfl
  · intro i hi
    by_cases hc : i.natAbs ≤ a.centre
    · have := e3 i hi hc
      rw [h.s i hc] at this
      exact Option.some.inj this
    · exact h.s0 i (by omega)

end Verif.Sigma
