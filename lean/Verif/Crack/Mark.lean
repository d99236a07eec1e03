import Verif.Crack.Image

/-! # The marked crack image -/

set_option linter.unusedSectionVars false

namespace Verif.Crack
open Verif

instance decDir {P : Dir → Prop} [∀ x, Decidable (P x)] : Decidable (∀ x, P x) :=
  decidable_of_iff (P .E ∧ P .N ∧ P .W ∧ P .S)
    ⟨fun h x => by rcases h with ⟨h1, h2, h3, h4⟩; cases x <;> assumption, fun h => ⟨h _, h _, h _, h _⟩⟩

instance decDirE {P : Dir → Prop} [∀ x, Decidable (P x)] : Decidable (∃ x, P x) :=
  decidable_of_iff (P .E ∨ P .N ∨ P .W ∨ P .S)
    ⟨fun h => by rcases h with h | h | h | h <;> exact ⟨_, h⟩, fun ⟨x, h⟩ => by cases x <;> simp_all⟩

instance decConn {P : Conn → Prop} [∀ x, Decidable (P x)] : Decidable (∀ x, P x) :=
  decidable_of_iff (∀ a b c d e f g h : Bool, P ⟨a, b, c, d, e, f, g, h⟩)
    ⟨fun h ⟨_, _, _, _, _, _, _, _⟩ => h _ _ _ _ _ _ _ _, fun h _ _ _ _ _ _ _ _ => h _⟩

/-- number of cracks -/
def Conn.deg (c : Conn) : Nat := c.r.toNat + c.d.toNat + c.l.toNat + c.u.toNat

/-- the pixels before `markNodes` -/
def Conn.pre (c : Conn) : Bool := !c.node && !c.maybe && !(c.ul && c.ur) && (!c.diag || (c.r && c.d && c.l && c.u)) && c.deg ≠ 1

/-- the pixels after `markNodes` -/
def Conn.valid (c : Conn) : Bool :=
  !(c.ul && c.ur) && (!c.diag || (c.r && c.d && c.l && c.u)) && c.deg ≠ 1 && (c.node == (2 < c.deg && !c.diag)) &&
    (c.maybe == (!c.node && ((c.r && c.d && !c.l && !c.u) || c.diag)))

/-- the two ends of a path through a corner that is not a node -/
def Conn.tau (c : Conn) (m : Dir) : Dir :=
  if c.diag then (if turnsLeft c m.opp then m.opp.left else m.opp.right)
  else if c.has m.opp.right then m.opp.right else if c.has m.opp then m.opp else if c.has m.opp.left then m.opp.left else m

/-- the effect of `markNode` -/
def Conn.mark (c : Conn) : Conn :=
  { c with
    node := 2 < c.deg && !c.diag
    maybe := !(2 < c.deg && !c.diag) && ((c.r && c.d && !c.l && !c.u) || c.diag) }

theorem markNode_pre : ∀ c : Conn, c.pre = true → markNode c = .ok c.mark := by
  have : ∀ c : Conn, c.pre = true → conn2degree[c.toNat]? = some (if c.diag then 2 else c.deg) := by decide +kernel
  intro c hc
  unfold markNode
  rw [this c hc]
  have h2 : ∀ c : Conn, c.pre = true → (if (if c.diag then 2 else c.deg) > 2 then { c with node := true }
    else if (c.r && c.d && !c.l && !c.u) || c.diag then { c with maybe := true } else c) = c.mark := by decide +kernel
  rw [← h2 c hc]
  simp only
  split_ifs <;> rfl

theorem mark_valid : ∀ c : Conn, c.pre = true → c.mark.valid = true := by decide +kernel

theorem mark_has (c : Conn) (x : Dir) : c.mark.has x = c.has x := by cases x <;> rfl

section tables
theorem tau_has : ∀ c : Conn, c.valid = true → c.node = false → ∀ m, c.has m = true → c.has (c.tau m) = true := by decide +kernel
theorem tau_ne : ∀ c : Conn, c.valid = true → c.node = false → ∀ m, c.has m = true → c.tau m ≠ m := by decide +kernel
theorem tau_tau : ∀ c : Conn, c.valid = true → c.node = false → ∀ m, c.has m = true → c.tau (c.tau m) = m := by decide +kernel
theorem tau_two : ∀ c : Conn, c.valid = true → c.node = false → c.diag = false → ∀ m, c.has m = true → ∀ x, c.has x = true → x = m ∨ x = c.tau m := by
  decide +kernel
theorem maybe_or : ∀ c : Conn, c.valid = true → c.node = false → c.maybe = false → ∀ m, c.has m = true → ∃ x, c.has x = true ∧ (x = .N ∨ x = .W) := by
  decide +kernel
theorem diag_not_node : ∀ c : Conn, c.valid = true → c.diag = true → c.node = false := by decide +kernel
theorem diag_maybe : ∀ c : Conn, c.valid = true → c.diag = true → c.maybe = true := by decide +kernel
theorem node_not_maybe : ∀ c : Conn, c.valid = true → c.node = true → c.maybe = false := by decide +kernel
theorem diag_has : ∀ c : Conn, c.valid = true → c.diag = true → ∀ x, c.has x = true := by decide +kernel
theorem maybe_has : ∀ c : Conn, c.valid = true → c.maybe = true → ∃ x, c.has x = true := by decide +kernel
theorem maybe_not_node : ∀ c : Conn, c.valid = true → c.maybe = true → c.node = false := by decide +kernel

/-- the direction search finds the other crack -/
theorem findDir_tau : ∀ c : Conn, c.valid = true → c.node = false → c.diag = false → ∀ m, c.has m = true →
    findDir c 4 m.opp.right = .ok (c.tau m) := by
  have key : ∀ c : Conn, c.valid = true → c.node = false → c.diag = false → ∀ m, c.has m = true →
      c.tau m = if c.has m.opp.right then m.opp.right else if c.has m.opp.right.left then m.opp.right.left
        else if c.has m.opp.right.left.left then m.opp.right.left.left else m.opp.right.left.left.left := by decide +kernel
  have key2 : ∀ c : Conn, c.valid = true → c.node = false → c.diag = false → ∀ m, c.has m = true →
      c.has m.opp.right.left.left.left = true := by decide +kernel
  intro c h1 h2 h3 m h4
  rw [key c h1 h2 h3 m h4]
  simp only [findDir, key2 c h1 h2 h3 m h4, if_true]
  split_ifs <;> rfl

theorem passDiag_dir (c0 c : Conn) (hu : c.ul = c0.ul) (hd : c0.diag = true) (m : Dir) : (passDiag c m.opp).2 = c0.tau m := by
  have : turnsLeft c m.opp = turnsLeft c0 m.opp := by simp only [turnsLeft, hu]
  unfold passDiag Conn.tau
  rw [if_pos hd, this]

theorem opp_opp (x : Dir) : x.opp.opp = x := by cases x <;> rfl

theorem clear_has (c : Conn) (m x : Dir) : (c.clear m).has x = (c.has x && decide (x ≠ m)) := by
  revert c m x; decide +kernel

theorem none4_iff (c : Conn) : c.none4 = true ↔ ∀ x, c.has x = false := by
  revert c; decide +kernel

theorem passDiag_has (c : Conn) (m x : Dir) :
    (passDiag c m.opp).1.has x = (c.has x && decide (x ≠ m) && decide (x ≠ (passDiag c m.opp).2)) := by
  revert c m x; decide +kernel

theorem passDiag_bits (c : Conn) (m : Dir) : (passDiag c m.opp).1.ul = c.ul ∧ (passDiag c m.opp).1.ur = c.ur ∧
    (passDiag c m.opp).1.node = c.node ∧
    ((passDiag c m.opp).1.maybe = true ↔ c.maybe = true ∧ ∃ x, (passDiag c m.opp).1.has x = true) := by
  revert c m; decide +kernel

theorem has_ext {c c' : Conn} (h : ∀ x, c.has x = c'.has x) : c.r = c'.r ∧ c.u = c'.u ∧ c.l = c'.l ∧ c.d = c'.d :=
  ⟨h .E, h .N, h .W, h .S⟩

theorem findDir_congr {c c' : Conn} (h : ∀ x, c.has x = c'.has x) (n : Nat) (m : Dir) : findDir c n m = findDir c' n m := by
  induction n generalizing m with
  | zero => rfl
  | succ n ih => simp only [findDir, h, ih]
end tables

section
variable {α : Type} [LinearOrder α]

theorem isCrack_alpha (lab : Pos → α) (w h : Nat) (p : Pos) (x : Dir) :
    IsCrack lab w h (p + x.diff) x.opp ↔ IsCrack lab w h p x := by
  obtain ⟨a, b⟩ := p
  cases x
  · rw [show ((a, b) : Pos) + Dir.E.diff = (a + 1, b) by ext <;> simp [Dir.diff]]
    simp only [IsCrack, Dir.opp, leftPix, rightPix]
    rw [show a + 1 - 1 = a by omega]
    exact ne_comm
  · rw [show ((a, b) : Pos) + Dir.N.diff = (a, b - 1) by ext <;> simp [Dir.diff]; omega]
    simp only [IsCrack, Dir.opp, leftPix, rightPix]
    exact ne_comm
  · rw [show ((a, b) : Pos) + Dir.W.diff = (a - 1, b) by ext <;> simp [Dir.diff]; omega]
    simp only [IsCrack, Dir.opp, leftPix, rightPix]
    exact ne_comm
  · rw [show ((a, b) : Pos) + Dir.S.diff = (a, b + 1) by ext <;> simp [Dir.diff]]
    simp only [IsCrack, Dir.opp, leftPix, rightPix]
    rw [show b + 1 - 1 = b by omega]
    exact ne_comm

theorem isCrack_inside {lab : Pos → α} {w h : Nat} {p : Pos} {x : Dir} (hc : IsCrack lab w h p x) : inside w h p := by
  by_contra hn
  apply hc
  obtain ⟨a, b⟩ := p
  simp only [inside] at hn
  cases x <;> simp only [leftPix, rightPix] <;>
    rw [pix_out (by simp only; omega), pix_out (by simp only; omega)]

theorem not_one {β : Type} [DecidableEq β] (a b c d : β) : (decide (b ≠ c)).toNat + (decide (c ≠ d)).toNat +
    (decide (d ≠ a)).toNat + (decide (a ≠ b)).toNat ≠ 1 := by
  by_cases h1 : a = b <;> by_cases h2 : b = c <;> by_cases h3 : c = d <;> by_cases h4 : d = a <;> simp_all

theorem symTarget_deg (lab : Pos → α) (w h : Nat) (p : Pos) : (symTarget lab w h p).deg ≠ 1 := by
  have := not_one (pix lab w h (p.1 - 1, p.2 - 1)) (pix lab w h (p.1, p.2 - 1)) (pix lab w h p) (pix lab w h (p.1 - 1, p.2))
  simp only [Conn.deg, symTarget, IsCrack, leftPix, rightPix]
  have e1 : decide (pix lab w h (p.1 - 1, p.2) ≠ pix lab w h (p.1 - 1, p.2 - 1)) =
      decide (pix lab w h (p.1 - 1, p.2) ≠ pix lab w h (p.1 - 1, p.2 - 1)) := rfl
  exact this

theorem symTarget_pre (lab : Pos → α) (w h : Nat) (p : Pos) : (symTarget lab w h p).pre = true := by
  have := symTarget_deg lab w h p
  simp only [Conn.pre, Conn.diag, this, ne_eq, not_false_eq_true, decide_true, Bool.and_true]
  simp [symTarget]

theorem markEight_bits (lab : Pos → α) (p : Pos) (c : Conn) :
    (markEight lab p c).r = c.r ∧ (markEight lab p c).d = c.d ∧ (markEight lab p c).l = c.l ∧ (markEight lab p c).u = c.u ∧
    (markEight lab p c).node = c.node ∧ (markEight lab p c).maybe = c.maybe := by
  unfold markEight
  split
  · simp only
    generalize hc1 : (if lab p = lab (p.1 - 1, p.2 - 1) then { c with ul := true } else c) = c1
    have h1 : c1.r = c.r ∧ c1.d = c.d ∧ c1.l = c.l ∧ c1.u = c.u ∧ c1.node = c.node ∧ c1.maybe = c.maybe := by
      rw [← hc1]; split <;> simp
    generalize hc2 : (if lab (p.1 - 1, p.2) = lab (p.1, p.2 - 1) then { c1 with ur := true } else c1) = c2
    have h2 : c2.r = c.r ∧ c2.d = c.d ∧ c2.l = c.l ∧ c2.u = c.u ∧ c2.node = c.node ∧ c2.maybe = c.maybe := by
      rw [← hc2]; split <;> simp [h1]
    split_ifs <;> simp [h2]
  · simp

theorem markEight_pre (lab : Pos → α) (p : Pos) (c : Conn) (h : c.pre = true) : (markEight lab p c).pre = true := by
  unfold markEight
  split
  · rename_i h4
    simp only [Conn.isAll4, decide_eq_true_eq] at h4
    subst h4
    simp only
    split_ifs <;> first | decide | simp_all
  · exact h

/-- the image that the edges are followed in -/
def marked (lab : Pos → α) (w h : Nat) (eight : Bool) (q : Pos) : Conn :=
  (if eight = true ∧ q ∈ inner w h then markEight lab q (symTarget lab w h q) else symTarget lab w h q).mark

theorem marked_has (lab : Pos → α) (w h : Nat) (eight : Bool) (q : Pos) (x : Dir) :
    (marked lab w h eight q).has x = true ↔ IsCrack lab w h q x := by
  unfold marked
  rw [mark_has]
  have : (if eight = true ∧ q ∈ inner w h then markEight lab q (symTarget lab w h q) else symTarget lab w h q).has x =
      (symTarget lab w h q).has x := by
    split
    · obtain ⟨h1, h2, h3, h4, -, -⟩ := markEight_bits lab q (symTarget lab w h q)
      cases x <;> assumption
    · rfl
  rw [this]
  cases x <;> simp [symTarget, Conn.has]

theorem marked_valid (lab : Pos → α) (w h : Nat) (eight : Bool) (q : Pos) : (marked lab w h eight q).valid = true := by
  unfold marked
  apply mark_valid
  split
  · exact markEight_pre _ _ _ (symTarget_pre _ _ _ _)
  · exact symTarget_pre _ _ _ _

/-- all steps up to `markNodes` -/
theorem markNodes_marked (lab : Pos → α) {w h : Nat} (eight : Bool) {im : CImg} (him : ∀ q, im.get q = crackTarget lab w h q) :
    ∃ cc, markNodes w h (if eight then markEightConnectedRegions lab w h (makeCCSymmetric w h im) else makeCCSymmetric w h im) = .ok cc ∧
      ∀ q, cc.get q = marked lab w h eight q := by
  have e : ∀ q, (if eight then markEightConnectedRegions lab w h (makeCCSymmetric w h im) else makeCCSymmetric w h im).get q =
      if eight = true ∧ q ∈ inner w h then markEight lab q (symTarget lab w h q) else symTarget lab w h q := by
    intro q
    cases eight
    · simp [sym_get lab him]
    · simp only [if_true, markEight_get, sym_get lab him, true_and]
  obtain ⟨cc, h1, h2⟩ := markNodes_get (f := marked lab w h eight) (raster w h) (nodup_raster w h) _ fun p _ => by
    rw [e]
    unfold marked
    apply markNode_pre
    split
    · exact markEight_pre _ _ _ (symTarget_pre _ _ _ _)
    · exact symTarget_pre _ _ _ _
  refine ⟨cc, h1, fun q => ?_⟩
  rw [h2]
  split
  · rfl
  · rename_i hq
    rw [mem_raster] at hq
    have hno : ∀ x, ¬ IsCrack lab w h q x := fun x hx => hq (isCrack_inside hx)
    rw [e, if_neg, ]
    · unfold marked
      have hin : ¬ (eight = true ∧ q ∈ inner w h) := by
        rw [mem_inner]
        simp only [inside] at hq
        omega
      rw [if_neg hin]
      have : symTarget lab w h q = {} := by simp [symTarget, hno]
      rw [this]
      rfl
    · rw [mem_inner]
      simp only [inside] at hq
      omega

end
end Verif.Crack
