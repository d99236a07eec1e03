import Verif.DSL.Tangent

/-! The tangent loop of `tangentDSL`. -/

namespace Verif.DSL

/-- The Freeman code of the step from point `i` to point `i + 1`, where point `0` is the
point with index `start` (indices are cyclic). -/
def codeAt (codes : List Nat) (start : Nat) (i : Int) : Nat :=
  codes.getD (((start : Int) + i) % codes.length).toNat 0

/-- `h i` is the height of point `i` of the chain, relative to point `0`: every step goes
one to the right, and one up if its code is odd. -/
structure IsPath (codes : List Nat) (start : Nat) (h : Int → Int) : Prop where
  zero : h 0 = 0
  step : ∀ i, h (i + 1) = h i + (codeAt codes start i % 2 : Nat)

theorem IsPath.chain {codes : List Nat} {start : Nat} {h : Int → Int}
    (hp : IsPath codes start h) : Chain h := by
  intro i
  have := hp.step i
  have : codeAt codes start i % 2 < 2 := Nat.mod_lt _ (by norm_num)
  omega

theorem code_eq {codes : List Nat} {i : Nat} (h : i < codes.length) :
    code codes i = .ok (codes.getD i 0) := by
  simp [code, List.getD, h]

theorem code_at {codes : List Nat} {start i : Nat} {d : Int} (hi : i < codes.length)
    (he : (i : Int) = ((start : Int) + d) % codes.length) :
    code codes i = .ok (codeAt codes start d) := by
  rw [code_eq hi, codeAt, ← he]; simp

theorem fwd_some {n i j start : Nat} {closed : Bool} {d : Int} (hi : i < n)
    (he : (i : Int) = ((start : Int) + d) % n) (h : fwd n closed i = some j) :
    j < n ∧ (j : Int) = ((start : Int) + (d + 1)) % n := by
  have e1 : ((start : Int) + (d + 1)) % n = ((i : Int) + 1) % n := by
    rw [he, ← add_assoc]; simp [Int.add_emod]
  rw [e1]
  simp only [fwd] at h
  split at h
  · next h1 =>
    split at h
    · cases h
      refine ⟨by omega, ?_⟩
      have : (i : Int) + 1 = n := by omega
      rw [this]; simp
    · cases h
  · cases h
    refine ⟨by omega, ?_⟩
    rw [Int.emod_eq_of_lt (by omega) (by omega)]; push_cast; rfl

theorem bwd_some {n i j start : Nat} {closed : Bool} {d : Int} (hi : i < n)
    (he : (i : Int) = ((start : Int) + d) % n) (h : bwd n closed i = some j) :
    j < n ∧ (j : Int) = ((start : Int) + (d - 1)) % n := by
  have e1 : ((start : Int) + (d - 1)) % n = ((i : Int) - 1) % n := by
    rw [he, ← add_sub_assoc]; simp [Int.sub_emod]
  rw [e1]
  simp only [bwd] at h
  split at h
  · next h1 =>
    split at h
    · cases h
      refine ⟨by omega, ?_⟩
      subst h1
      have : ((0 : Nat) : Int) - 1 = ((n : Int) - 1) - n := by push_cast; ring
      rw [this, Int.sub_emod_right, Int.emod_eq_of_lt (by omega) (by omega)]; omega
    · cases h
  · cases h
    refine ⟨by omega, ?_⟩
    rw [Int.emod_eq_of_lt (by omega) (by omega)]; omega

/-- What a stored result satisfies. -/
def Stored (codes : List Nat) (start : Nat) (h : Int → Int) (c1 c2 : Nat) (dsl0 : Line)
    (d : Nat) (L : Line) : Prop :=
  (d = 0 ∧ L = dsl0) ∨
  (1 ≤ d ∧ TInv h L (-d) d ∧
    ∀ i : Int, -d ≤ i → i < d → codeAt codes start i = c1 ∨ codeAt codes start i = c2)

/-- Invariant at the top of the tangent loop. -/
structure LInv (codes : List Nat) (start : Nat) (h : Int → Int) (c1 c2 : Nat) (dsl0 : Line)
    (s : TState) : Prop where
  p1 : s.p1 = ((s.dist : Int), h s.dist)
  p2 : s.p2 = (-(s.dist : Int), h (-s.dist))
  o : s.o = s.p2
  fi : s.fi < codes.length ∧ (s.fi : Int) = ((start : Int) + s.dist) % codes.length
  bi : s.bi < codes.length ∧ (s.bi : Int) = ((start : Int) + (-1 - s.dist)) % codes.length
  tan : TInv h s.tangent (-s.dist) s.dist
  res : Stored codes start h c1 c2 dsl0 s.dist s.dsl
  codes : ∀ i : Int, -s.dist ≤ i → i < s.dist → codeAt codes start i = c1 ∨ codeAt codes start i = c2

theorem extendTangent_spec {codes : List Nat} {start : Nat} {h : Int → Int} {c1 c2 : Nat}
    {dsl0 : Line} {s : TState} (hp : IsPath codes start h)
    (H : LInv codes start h c1 c2 dsl0 s) :
    extendTangent codes c1 c2 s = .ok none ∨
    ∃ s', extendTangent codes c1 c2 s = .ok (some s') ∧ s'.fi = s.fi ∧ s'.bi = s.bi ∧
      s'.dist = s.dist + 1 ∧ s'.p1 = ((s'.dist : Int), h s'.dist) ∧
      s'.p2 = (-(s'.dist : Int), h (-s'.dist)) ∧ s'.o = s'.p2 ∧ s'.dsl = s'.tangent ∧
      TInv h s'.tangent (-s'.dist) s'.dist ∧
      ∀ i : Int, -s'.dist ≤ i → i < s'.dist → codeAt codes start i = c1 ∨ codeAt codes start i = c2 := by
  have hc := hp.chain
  simp only [extendTangent]
  rw [code_at H.fi.1 H.fi.2, code_at H.bi.1 H.bi.2]
  simp only [Outcome.bind_ok]
  set d : Int := (s.dist : Int) with hd
  by_cases h1 : codeAt codes start d ≠ c1 ∧ codeAt codes start d ≠ c2
  · left; rw [if_pos h1]
  rw [if_neg h1]
  by_cases h2 : codeAt codes start (-1 - d) ≠ c1 ∧ codeAt codes start (-1 - d) ≠ c2
  · left; rw [if_pos h2]
  rw [if_neg h2]
  have q1 : fwdPoint s.p1 (codeAt codes start d) = (d + 1, h (d + 1)) := by
    rw [H.p1, fwdPoint, hp.step d]
  have q2 : bwdPoint s.p2 (codeAt codes start (-1 - d)) = (-d - 1, h (-d - 1)) := by
    have := hp.step (-d - 1)
    rw [sub_add_cancel] at this
    rw [H.p2, bwdPoint, this, show (-1 - d : Int) = -d - 1 by ring]
    simp
    rfl
  rw [q1, q2, H.o, H.p2]
  obtain ⟨r, L1, e1, hr1⟩ := addRel_fwd hc H.tan (by omega)
  rw [e1]
  simp only [Outcome.bind_ok]
  cases r with
  | false => left; simp
  | true =>
    simp only [Bool.true_eq_false, if_false]
    obtain ⟨r, L2, e2, hr2⟩ := addRel_bwd hc (hr1 rfl) (by omega)
    rw [e2]
    simp only [Outcome.bind_ok]
    cases r with
    | false => left; simp
    | true =>
      right
      simp only [Bool.true_eq_false, if_false]
      refine ⟨_, rfl, rfl, rfl, rfl, ?_, ?_, rfl, rfl, ?_, ?_⟩
      · simp [hd]
      · simp only [Prod.mk.injEq]; push_cast
        rw [show -(d + 1) = -d - 1 by ring]; simp
      · have := hr2 rfl
        push_cast
        rw [show -(d + 1) = -d - 1 by ring]; exact this
      · intro i hi1 hi2
        simp only at hi1 hi2
        push_cast at hi1 hi2
        by_cases e : i = d
        · subst e; by_contra hn; push Not at hn; exact h1 hn
        by_cases e' : i = -1 - d
        · subst e'; by_contra hn; push Not at hn; exact h2 hn
        exact H.codes i (by omega) (by omega)

theorem tangentLoop_spec {codes : List Nat} {closed : Bool} {start : Nat} {h : Int → Int}
    {c1 c2 : Nat} {dsl0 : Line} (hp : IsPath codes start h) (fuel : Nat) (s : TState)
    (H : LInv codes start h c1 c2 dsl0 s) :
    tangentLoop codes closed c1 c2 fuel s = .hang ∨
    ∃ d L, tangentLoop codes closed c1 c2 fuel s = .ok (d, L) ∧
      Stored codes start h c1 c2 dsl0 d L := by
  induction fuel generalizing s with
  | zero => left; rfl
  | succ fuel ih =>
    rw [tangentLoop]
    rcases extendTangent_spec hp H with e | ⟨s', e, hfi, hbi, hdist, h1, h2, h3, h4, h5, h6⟩
    · rw [e]; right; exact ⟨_, _, rfl, H.res⟩
    · rw [e]
      simp only [Outcome.bind_ok]
      have hst : Stored codes start h c1 c2 dsl0 s'.dist s'.dsl :=
        Or.inr ⟨by omega, by rw [h4]; exact h5, h6⟩
      cases ha : advance codes.length closed s' with
      | none => right; exact ⟨_, _, rfl, hst⟩
      | some s'' =>
        apply ih
        simp only [advance] at ha
        split at ha
        · cases ha
        · next fi' hf =>
          split at ha
          · cases ha
          · next bi' hb =>
            cases ha
            rw [hfi] at hf
            rw [hbi] at hb
            have hf := fwd_some H.fi.1 H.fi.2 hf
            have hb := bwd_some H.bi.1 H.bi.2 hb
            refine ⟨h1, h2, h3, ⟨hf.1, ?_⟩, ⟨hb.1, ?_⟩, h5, hst, h6⟩
            · rw [hf.2]; simp only [hdist]; push_cast; rfl
            · rw [hb.2]; simp only [hdist]; push_cast; congr 1; ring

/-- An open sequence is left after at most `n - fi` iterations. -/
theorem tangentLoop_open {codes : List Nat} {start : Nat} {h : Int → Int}
    {c1 c2 : Nat} {dsl0 : Line} (hp : IsPath codes start h) (fuel : Nat) (s : TState)
    (H : LInv codes start h c1 c2 dsl0 s) (hf : codes.length - s.fi < fuel + 1) :
    tangentLoop codes false c1 c2 fuel s ≠ .hang := by
  induction fuel generalizing s with
  | zero => have := H.fi.1; omega
  | succ fuel ih =>
    rw [tangentLoop]
    rcases extendTangent_spec hp H with e | ⟨s', e, hfi, hbi, hdist, h1, h2, h3, h4, h5, h6⟩
    · rw [e]; simp
    · rw [e]
      simp only [Outcome.bind_ok]
      have hst : Stored codes start h c1 c2 dsl0 s'.dist s'.dsl :=
        Or.inr ⟨by omega, by rw [h4]; exact h5, h6⟩
      cases ha : advance codes.length false s' with
      | none => simp
      | some s'' =>
        simp only [advance] at ha
        split at ha
        · cases ha
        · next fi' hf1 =>
          split at ha
          · cases ha
          · next bi' hb1 =>
            cases ha
            rw [hfi] at hf1
            rw [hbi] at hb1
            have hf2 := fwd_some H.fi.1 H.fi.2 hf1
            have hb2 := bwd_some H.bi.1 H.bi.2 hb1
            have hinc : fi' = s.fi + 1 := by
              simp only [fwd] at hf1
              split at hf1
              · simp at hf1
              · cases hf1; rfl
            apply ih
            · refine ⟨h1, h2, h3, ⟨hf2.1, ?_⟩, ⟨hb2.1, ?_⟩, h5, hst, h6⟩
              · rw [hf2.2]; simp only [hdist]; push_cast; rfl
              · rw [hb2.2]; simp only [hdist]; push_cast; congr 1; ring
            · simp only; rw [hinc]; have := H.fi.1; omega

theorem linv_init {codes : List Nat} {start si bi c : Nat} {h : Int → Int} {c1 c2 : Nat}
    (hp : IsPath codes start h) (dsl0 : Line)
    (hsi : si < codes.length ∧ (si : Int) = ((start : Int) + 0) % codes.length)
    (hbi : bi < codes.length ∧ (bi : Int) = ((start : Int) + (-1)) % codes.length) :
    LInv codes start h c1 c2 dsl0 (tangentInit si bi c dsl0) := by
  have hz := hp.zero
  refine ⟨by simp [tangentInit, hz], by simp [tangentInit, hz], rfl, by simpa [tangentInit] using hsi,
    by simpa [tangentInit] using hbi, ?_, Or.inl ⟨rfl, rfl⟩, ?_⟩
  · refine ⟨⟨rfl, ?_, ?_, ?_, ?_⟩, Or.inl rfl, ?_⟩
    · simp only [tangentInit]; omega
    · simp only [tangentInit]; omega
    · simp [tangentInit]
    · simp only [tangentInit]; exact isCoprime_one_right
    · intro i h1 h2
      simp only [tangentInit] at h1 h2 ⊢
      obtain rfl : i = 0 := by push_cast at h1 h2; omega
      simp [hz]
  · intro i h1 h2
    simp only [tangentInit] at h1 h2
    push_cast at h1 h2; omega

/-- Start indices of `tangentDSL`. -/
theorem start_index {n idx : Nat} {closed : Bool}
    (hv : closed = true ∧ 0 < n ∨ closed = false ∧ 0 < idx ∧ idx < n) :
    let si := if closed then idx % n else idx
    let bi := (if si = 0 then n else si) - 1
    (si < n ∧ (si : Int) = ((idx : Int) + 0) % n) ∧
      (bi < n ∧ (bi : Int) = ((idx : Int) + (-1)) % n) := by
  intro si bi
  have hsi : si < n ∧ (si : Int) = (idx : Int) % n := by
    rcases hv with ⟨hc, hn⟩ | ⟨hc, h1, h2⟩
    · simp only [si, hc, if_true]
      exact ⟨Nat.mod_lt _ hn, by push_cast; rfl⟩
    · simp only [si, hc, Bool.false_eq_true, if_false]
      exact ⟨h2, by rw [Int.emod_eq_of_lt (by omega) (by omega)]⟩
  refine ⟨by simpa using hsi, ?_⟩
  have e1 : ((idx : Int) + (-1)) % n = ((si : Int) - 1) % n := by
    rw [hsi.2, ← sub_eq_add_neg]; simp [Int.sub_emod]
  rw [e1]
  by_cases h0 : si = 0
  · simp only [bi, h0, if_true]
    refine ⟨by omega, ?_⟩
    have : ((0 : Nat) : Int) - 1 = ((n : Int) - 1) - n := by push_cast; ring
    rw [this, Int.sub_emod_right, Int.emod_eq_of_lt (by omega) (by omega)]; omega
  · simp only [bi, h0, if_false]
    refine ⟨by omega, ?_⟩
    rw [Int.emod_eq_of_lt (by omega) (by omega)]; omega

/-- Without assertions, the search for the second code never leaves the sequence. -/
theorem findCodes_defined {codes : List Nat} {closed : Bool} {start : Nat} (fuel fc1 fc2 fi bi : Nat)
    (hf : fi < codes.length) (hb : bi < codes.length) :
    findCodes false codes closed start fuel fc1 fc2 fi bi = .hang ∨
      ∃ r, findCodes false codes closed start fuel fc1 fc2 fi bi = .ok r := by
  induction fuel generalizing fc2 fi bi with
  | zero => left; rfl
  | succ fuel ih =>
    rw [findCodes]
    by_cases h1 : fc2 ≠ fc1
    · right; rw [if_pos h1]; exact ⟨_, rfl⟩
    rw [if_neg h1]
    cases e1 : fwd codes.length closed fi with
    | none => right; exact ⟨_, rfl⟩
    | some fi' =>
      simp only [Bool.false_eq_true, false_and, if_false]
      cases e2 : bwd codes.length closed bi with
      | none => right; exact ⟨_, rfl⟩
      | some bi' =>
        have hf' := (fwd_some (start := fi) (d := 0) hf
          (by rw [Int.emod_eq_of_lt] <;> omega) e1).1
        have hb' := (bwd_some (start := bi) (d := 0) hb
          (by rw [Int.emod_eq_of_lt] <;> omega) e2).1
        simp only [code_eq hf', code_eq hb', Outcome.bind_ok]
        cases pickCode fc1 fc2 (codes.getD fi' 0) (codes.getD bi' 0) with
        | none => right; exact ⟨_, rfl⟩
        | some fc2' => exact ih fc2' fi' bi' hf' hb'

theorem findCodes_open {codes : List Nat} {start : Nat} (fuel fc1 fc2 fi bi : Nat)
    (hf : fi < codes.length) (hb : bi < codes.length) (hfu : codes.length - fi < fuel + 1) :
    findCodes false codes false start fuel fc1 fc2 fi bi ≠ .hang := by
  induction fuel generalizing fc2 fi bi with
  | zero => omega
  | succ fuel ih =>
    rw [findCodes]
    by_cases h1 : fc2 ≠ fc1
    · rw [if_pos h1]; simp
    rw [if_neg h1]
    cases e1 : fwd codes.length false fi with
    | none => simp
    | some fi' =>
      simp only [Bool.false_eq_true, false_and, if_false]
      cases e2 : bwd codes.length false bi with
      | none => simp
      | some bi' =>
        have hf' := (fwd_some (start := fi) (d := 0) hf
          (by rw [Int.emod_eq_of_lt] <;> omega) e1).1
        have hb' := (bwd_some (start := bi) (d := 0) hb
          (by rw [Int.emod_eq_of_lt] <;> omega) e2).1
        have hinc : fi' = fi + 1 := by
          simp only [fwd] at e1
          split at e1
          · simp at e1
          · cases e1; rfl
        simp only [code_eq hf', code_eq hb', Outcome.bind_ok]
        cases pickCode fc1 fc2 (codes.getD fi' 0) (codes.getD bi' 0) with
        | none => simp
        | some fc2' => exact ih fc2' fi' bi' hf' hb' (by omega)

end Verif.DSL
