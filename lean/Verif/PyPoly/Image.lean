import Verif.PyPoly.Model

/-! # Marking edges in a label image: helper lemmas -/

namespace Verif.PyPoly
open Verif

/-- how often the segments cover `x` -/
def hits (x : Int) (l : List (Int × Int)) : Nat := l.countP fun s => decide (s.1 ≤ x ∧ x < s.2)

/-- the value of a pixel after `n` calls of `f` -/
def iter (f : Int → Int × Bool) : Nat → Int → Int
  | 0, v => v
  | n + 1, v => iter f n (f v).1

/-- how often the pixel is returned in `n` calls of `f` -/
def outs (f : Int → Int × Bool) : Nat → Int → Nat
  | 0, _ => 0
  | n + 1, v => (if (f v).2 then 1 else 0) + outs f n (f v).1

theorem iter_add (f : Int → Int × Bool) (m n : Nat) (v : Int) : iter f (m + n) v = iter f n (iter f m v) := by
  induction m generalizing v with
  | zero => simp [iter]
  | succ m ih => rw [Nat.succ_add]; exact ih _

theorem outs_add (f : Int → Int × Bool) (m n : Nat) (v : Int) : outs f (m + n) v = outs f m v + outs f n (iter f m v) := by
  induction m generalizing v with
  | zero => simp [outs, iter]
  | succ m ih => rw [Nat.succ_add]; simp only [outs, iter, ih]; omega

/-- the effect of a part of the loop that handles pixel `(a, b)` `c a b` times -/
def Acts (f : Int → Int × Bool) (c : Int → Int → Nat) (s s' : Img × List (Int × Int)) : Prop :=
  s'.1.w = s.1.w ∧ s'.1.h = s.1.h ∧ (∀ a b, s'.1.px a b = iter f (c a b) (s.1.px a b)) ∧
    ∀ a b, s'.2.count (a, b) = s.2.count (a, b) + outs f (c a b) (s.1.px a b)

theorem Acts.trans {f : Int → Int × Bool} {c d : Int → Int → Nat} {s s' s'' : Img × List (Int × Int)} (h : Acts f c s s') (k : Acts f d s' s'') :
    Acts f (fun a b => c a b + d a b) s s'' := by
  refine ⟨k.1.trans h.1, k.2.1.trans h.2.1, fun a b => ?_, fun a b => ?_⟩
  · rw [k.2.2.1, h.2.2.1, iter_add]
  · rw [k.2.2.2, h.2.2.2, outs_add, h.2.2.1]; omega

theorem Acts.refl (f : Int → Int × Bool) (s : Img × List (Int × Int)) : Acts f (fun _ _ => 0) s s :=
  ⟨rfl, rfl, fun _ _ => rfl, fun _ _ => by simp [outs]⟩

theorem Acts.congr {f : Int → Int × Bool} {c d : Int → Int → Nat} {s s' : Img × List (Int × Int)} (h : Acts f c s s') (e : ∀ a b, c a b = d a b) : Acts f d s s' := by
  have : c = d := funext fun a => funext fun b => e a b
  exact this ▸ h

theorem rowLoop_spec (f : Int → Int × Bool) (y : Int) (n : Nat) : ∀ (x : Int) (s : Img × List (Int × Int)), 0 ≤ x → x + n ≤ max x s.1.w → 0 ≤ y → y < s.1.h →
    ∃ s', rowLoop f y n x s = .ok s' ∧ Acts f (fun a b => if b = y ∧ x ≤ a ∧ a < x + n then 1 else 0) s s' := by
  induction n with
  | zero =>
    intro x s _ _ _ _
    refine ⟨s, rfl, (Acts.refl f s).congr fun a b => ?_⟩
    rw [if_neg]; omega
  | succ n ih =>
    intro x s hx hn hy hyh
    have hxw : x < s.1.w := by omega
    simp only [rowLoop]
    rw [if_pos ⟨hx, hxw, hy, hyh⟩]
    obtain ⟨s', e, A⟩ := ih (x + 1)
      ({ s.1 with
          px := fun a b => if a = x ∧ b = y then (f (s.1.px x y)).1 else s.1.px a b }, if (f (s.1.px x y)).2 then s.2 ++ [(x, y)] else s.2) (by omega)
      (by dsimp only; omega) hy hyh
    refine ⟨s', e, ?_⟩
    have B : Acts f (fun a b => if a = x ∧ b = y then 1 else 0) s
        ({ s.1 with
          px := fun a b => if a = x ∧ b = y then (f (s.1.px x y)).1 else s.1.px a b }, if (f (s.1.px x y)).2 then s.2 ++ [(x, y)] else s.2) := by
      refine ⟨rfl, rfl, fun a b => ?_, fun a b => ?_⟩
      · by_cases h : a = x ∧ b = y
        · simp only [if_pos h, iter]; rw [h.1, h.2]
        · simp only [if_neg h, iter]
      · by_cases h : a = x ∧ b = y
        · simp only [if_pos h, outs]
          rw [h.1, h.2]
          by_cases h2 : (f (s.1.px x y)).2 = true
          · simp [h2]
          · simp [h2]
        · simp only [if_neg h, outs]
          by_cases h2 : (f (s.1.px x y)).2 = true
          · have : ((x, y) : Int × Int) ≠ (a, b) := by
              intro e; exact h ⟨(Prod.mk.inj e).1.symm, (Prod.mk.inj e).2.symm⟩
            simp [h2, this]
          · simp [h2]
    refine (B.trans A).congr fun a b => ?_
    by_cases h1 : a = x ∧ b = y
    · rw [if_pos h1, if_neg (by omega), if_pos (by omega)]
    · rw [if_neg h1]
      by_cases h2 : b = y ∧ x + 1 ≤ a ∧ a < x + 1 + n
      · rw [if_pos h2, if_pos (by omega)]
      · rw [if_neg h2, if_neg (by omega)]

theorem lineLoop_spec (f : Int → Int × Bool) (y : Int) (l : List (Int × Int)) : ∀ (s : Img × List (Int × Int)), 0 ≤ y → y < s.1.h →
    ∃ s', lineLoop f y l s = .ok s' ∧ Acts f (fun a b => if b = y ∧ 0 ≤ a ∧ a < s.1.w then hits a l else 0) s s' := by
  induction l with
  | nil =>
    intro s _ _
    exact ⟨s, rfl, (Acts.refl f s).congr fun a b => by simp [hits]⟩
  | cons seg t ih =>
    intro s hy hyh
    obtain ⟨s1, e1, A1⟩ := rowLoop_spec f y ((if seg.2 > s.1.w then s.1.w else seg.2) - (if seg.1 < 0 then 0 else seg.1)).toNat (if seg.1 < 0 then 0 else seg.1) s
      (by split <;> omega) (by split <;> split <;> omega) hy hyh
    obtain ⟨s2, e2, A2⟩ := ih s1 hy (by rw [A1.2.1]; exact hyh)
    refine ⟨s2, by simp only [lineLoop]; rw [e1]; exact e2, (A1.trans A2).congr fun a b => ?_⟩
    rw [A1.1]
    by_cases h : b = y ∧ 0 ≤ a ∧ a < s.1.w
    · rw [if_pos h, if_pos h]
      simp only [hits, List.countP_cons, decide_eq_true_eq]
      have : (b = y ∧ (if seg.1 < 0 then 0 else seg.1) ≤ a ∧ a < (if seg.1 < 0 then 0 else seg.1) + (((if seg.2 > s.1.w then s.1.w else seg.2) - (if seg.1 < 0 then 0 else seg.1)).toNat : Int)) ↔
          (seg.1 ≤ a ∧ a < seg.2) := by
        split <;> split <;> omega
      rw [if_congr this rfl rfl]; omega
    · rw [if_neg h, if_neg h, if_neg]
      split <;> split <;> omega

theorem imgLoop_spec (f : Int → Int × Bool) (l : Lines) (n : Nat) : ∀ (y : Int) (s : Img × List (Int × Int)), 0 ≤ y → l.start ≤ y → y + n ≤ max y s.1.h →
    y + n ≤ max y (l.start + l.count) →
    ∃ s', imgLoop f l n y s = .ok s' ∧ Acts f (fun a b => if y ≤ b ∧ b < y + n ∧ 0 ≤ a ∧ a < s.1.w then hits a (l.segs b) else 0) s s' := by
  induction n with
  | zero =>
    intro y s _ _ _ _
    refine ⟨s, rfl, (Acts.refl f s).congr fun a b => ?_⟩
    rw [if_neg]; omega
  | succ n ih =>
    intro y s hy hl h1 h2
    obtain ⟨s1, e1, A1⟩ := lineLoop_spec f y (l.segs y) s hy (by omega)
    obtain ⟨s2, e2, A2⟩ := ih (y + 1) s1 (by omega) (by omega) (by rw [A1.2.1]; omega) (by omega)
    refine ⟨s2, by simp only [imgLoop]; rw [if_pos (by omega), e1]; exact e2, (A1.trans A2).congr fun a b => ?_⟩
    rw [A1.1]
    by_cases h : b = y ∧ 0 ≤ a ∧ a < s.1.w
    · rw [if_pos h, if_neg (by omega), if_pos (by omega), h.1]; rfl
    · rw [if_neg h]
      by_cases h' : y + 1 ≤ b ∧ b < y + 1 + n ∧ 0 ≤ a ∧ a < s.1.w
      · rw [if_pos h', if_pos (by omega)]; omega
      · rw [if_neg h', if_neg (by omega)]

theorem iter_mark (n : Nat) (v : Int) : iter markVal n v = if n = 0 then v else if v < 0 then v - n else -n := by
  induction n generalizing v with
  | zero => rfl
  | succ n ih =>
    simp only [iter, ih, markVal]
    split_ifs <;> first | omega | (exfalso; omega)

theorem removeVal_ne {sub v : Int} (h : v ≠ -1) : removeVal sub v = (v + 1, false) := if_pos h

theorem removeVal_eq {sub v : Int} (h : v = -1) : removeVal sub v = (sub, true) := if_neg (by simpa using h)

theorem iter_remove (sub : Int) (n : Nat) (v : Int) (h : v + n ≤ -1) : iter (removeVal sub) n v = v + n := by
  induction n generalizing v with
  | zero => simp [iter]
  | succ n ih =>
    simp only [iter, removeVal_ne (show v ≠ -1 by omega)]
    rw [ih _ (by omega)]; omega

theorem outs_remove (sub : Int) (n : Nat) (v : Int) (h : v + n ≤ -1) : outs (removeVal sub) n v = 0 := by
  induction n generalizing v with
  | zero => simp [outs]
  | succ n ih =>
    simp only [outs, removeVal_ne (show v ≠ -1 by omega)]
    rw [ih _ (by omega)]; simp

theorem iter_remove_last (sub : Int) (n : Nat) (v : Int) (hn : 0 < n) (h : v + n = 0) : iter (removeVal sub) n v = sub ∧ outs (removeVal sub) n v = 1 := by
  obtain ⟨m, rfl⟩ : ∃ m, n = m + 1 := ⟨n - 1, by omega⟩
  rw [iter_add, outs_add, iter_remove sub m v (by omega), outs_remove sub m v (by omega)]
  simp only [iter, outs, removeVal_eq (show v + m = -1 by omega)]
  simp

theorem outs_mark (n : Nat) (v : Int) : outs markVal n v = 0 := by
  induction n generalizing v with
  | zero => rfl
  | succ n ih => simp only [outs, ih, markVal]; simp

/-! ## The specification -/

/-- How often the scanlines cover the pixel `(x, y)` of the image -/
def Lines.cover (l : Lines) (img : Img) (x y : Int) : Nat :=
  if l.start ≤ y ∧ y < l.start + l.count ∧ 0 ≤ x ∧ x < img.w ∧ 0 ≤ y ∧ y < img.h then (l.segs y).countP fun s => decide (s.1 ≤ x ∧ x < s.2) else 0

theorem imgLoop_all (f : Int → Int × Bool) (l : Lines) (img : Img) :
    ∃ s', imgLoop f l (min img.h (l.start + l.count) - max 0 l.start).toNat (max 0 l.start) (img, []) = .ok s' ∧ Acts f (l.cover img) (img, []) s' := by
  obtain ⟨s', e, A⟩ := imgLoop_spec f l (min img.h (l.start + l.count) - max 0 l.start).toNat (max 0 l.start) (img, []) (by omega) (by omega) (by dsimp only; omega) (by omega)
  refine ⟨s', e, A.congr fun a b => ?_⟩
  unfold Lines.cover hits
  apply if_congr _ rfl rfl
  dsimp only
  omega

end Verif.PyPoly
