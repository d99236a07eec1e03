import Verif.Hull.Lemmas

/-! # Graham's scan -/

set_option linter.unusedSectionVars false

namespace Verif.Hull
open Verif

variable {K : Type} [Field K] [LinearOrder K] [IsStrictOrderedRing K]

/-- two points on the same ray from the extremal point -/
theorem inTri_ray {p a b : Pt K} (ha : H p a) (hb : H p b) (h0 : orient p a b = 0) (hd : sqMag (a - p) ≤ sqMag (b - p)) : InTri p p b a := by
  have key : ∀ μ : K, 0 < μ → a.1 - p.1 = μ * (b.1 - p.1) → a.2 - p.2 = μ * (b.2 - p.2) → InTri p p b a := by
    intro μ hμ h1 h2
    have hb0 : 0 < sqMag (b - p) := by
      unfold sqMag
      simp only [Prod.fst_sub, Prod.snd_sub]
      rcases hb with hb | ⟨-, hb⟩
      · have := mul_pos_of_neg_of_neg (show b.2 - p.2 < 0 by linarith) (show b.2 - p.2 < 0 by linarith)
        have := mul_self_nonneg (b.1 - p.1)
        linarith
      · have := mul_pos (show 0 < b.1 - p.1 by linarith) (show 0 < b.1 - p.1 by linarith)
        have := mul_self_nonneg (b.2 - p.2)
        linarith
    have he : sqMag (a - p) = μ * μ * sqMag (b - p) := by
      unfold sqMag
      simp only [Prod.fst_sub, Prod.snd_sub, h1, h2]
      ring
    have hle : μ ≤ 1 := by
      by_contra hn
      push Not at hn
      rw [he] at hd
      have h3 : 1 < μ * μ := by nlinarith
      have := mul_lt_mul_of_pos_right h3 hb0
      linarith
    exact ⟨0, μ, le_refl _, hμ.le, by linarith, by linarith, by linarith⟩
  unfold orient at h0
  rcases hb with hb | ⟨hb, hb'⟩
  · have hb0 : b.2 - p.2 < 0 := by linarith
    have hb1 : b.2 - p.2 ≠ 0 := hb0.ne
    have ha0 : a.2 - p.2 < 0 := by
      rcases ha with ha | ⟨ha, ha'⟩
      · linarith
      · exfalso
        rw [ha] at h0
        have := mul_neg_of_pos_of_neg (show 0 < a.1 - p.1 by linarith) hb0
        linarith
    refine key ((a.2 - p.2) / (b.2 - p.2)) (div_pos_of_neg_of_neg ha0 hb0) ?_ ?_
    · field_simp
      linarith
    · field_simp
  · have hx : (0 : K) < b.1 - p.1 := by linarith
    have ha0 : a.2 - p.2 = 0 := by
      rw [hb] at h0
      have : (a.2 - p.2) * (b.1 - p.1) = 0 := by linarith
      rcases mul_eq_zero.mp this with h | h
      · exact h
      · exact absurd h hx.ne'
    have ha1 : (0 : K) < a.1 - p.1 := by
      rcases ha with ha | ⟨-, ha'⟩ <;> linarith
    refine key ((a.1 - p.1) / (b.1 - p.1)) (by positivity) ?_ ?_
    · field_simp
    · rw [ha0, hb]; ring

/-- the point is covered by the corners on the stack -/
def Cov (p : Pt K) (s : List (Pt K)) (q : Pt K) : Prop := ∃ a b, Side s a b ∧ InTri p a b q

theorem Cov.cons {p : Pt K} {o t : Pt K} {s : List (Pt K)} {q : Pt K} (h : Cov p (t :: s) q) : Cov p (o :: t :: s) q := by
  obtain ⟨a, b, h1, h2⟩ := h
  exact ⟨a, b, side_cons.mpr (Or.inr h1), h2⟩

theorem cov_top {p : Pt K} {o t : Pt K} {s : List (Pt K)} {q : Pt K} (h : InTri p t o q) : Cov p (o :: t :: s) q :=
  ⟨t, o, side_cons.mpr (Or.inl ⟨rfl, rfl⟩), h⟩

theorem scanPoint_cons (o t u : Pt K) (rest : List (Pt K)) : scanPoint o (t :: u :: rest) =
    if 0 < orient u t o then .ok (o :: t :: u :: rest)
    else if orient u t o = 0 then .ok (if sqMag (t - u) < sqMag (o - u) then o :: u :: rest else t :: u :: rest)
    else scanPoint o (u :: rest) := by
  have : (o - u).1 * (t - u).2 - (t - u).1 * (o - u).2 = orient u t o := by
    unfold orient
    simp only [Prod.fst_sub, Prod.snd_sub]
    ring
  conv_lhs => unfold scanPoint
  simp only [this]

/-- what one point does to the stack -/
structure Scanned (p o : Pt K) (Q : List (Pt K)) (s s' : List (Pt K)) : Prop where
  valid : Valid p s'
  cov : ∀ q ∈ Q, Cov p s' q
  new : Cov p s' o
  mem : ∀ c ∈ s', c ∈ s ∨ c = o
  len : s'.length ≤ s.length + 1

theorem scanPoint_spec {p : Pt K} {s : List (Pt K)} (hv : Valid p s) {o : Pt K} (ho : H p o) {Q : List (Pt K)} {t : Pt K} {r : List (Pt K)} (hs : s = t :: r)
    (hle : 0 ≤ orient p t o) (hnear : ∀ c ∈ s, c ≠ p → orient p c o = 0 → sqMag (c - p) ≤ sqMag (o - p))
    (hQ : ∀ q ∈ Q, Cov p s q ∨ InTri p t o q) : ∃ s', scanPoint o s = .ok s' ∧ Scanned p o Q s s' := by
  induction hv generalizing t r with
  | @one t' ht =>
    obtain ⟨rfl, rfl⟩ : t' = t ∧ [p] = r := by simpa using hs
    rw [scanPoint_cons]
    rcases hle.lt_or_eq with hlt | heq
    · rw [if_pos hlt]
      refine ⟨_, rfl, .push (.one ht) ho hlt hlt, fun q hq => (hQ q hq).elim (fun h => h.cons) cov_top, cov_top (InTri.right _ _ _), ?_, by simp⟩
      intro c hc
      rw [List.mem_cons] at hc
      exact hc.symm
    · rw [if_neg (by rw [← heq]; exact lt_irrefl _), if_pos heq.symm]
      have hone : ∀ q, Cov p [t', p] q → InTri p p t' q := by
        rintro q ⟨a, b, h1, h2⟩
        rw [side_one] at h1
        obtain ⟨rfl, rfl⟩ := h1
        exact h2
      split
      · rename_i hlt
        have hto := inTri_ray ht ho heq.symm hlt.le
        refine ⟨_, rfl, .one ho, fun q hq => cov_top ?_, cov_top (InTri.right _ _ _), ?_, by simp⟩
        · rcases hQ q hq with h | h
          · exact (hone q h).trans (InTri.base _ _ _) hto
          · exact h.trans hto (InTri.right _ _ _)
        · intro c hc
          simp at hc ⊢
          tauto
      · rename_i hge
        have hto := inTri_ray ho ht (by rw [orient_swap, ← heq, neg_zero]) (not_lt.mp hge)
        refine ⟨_, rfl, .one ht, fun q hq => ?_, cov_top hto, fun c hc => Or.inl hc, by simp⟩
        rcases hQ q hq with h | h
        · exact h
        · exact cov_top (h.trans (InTri.right _ _ _) hto)
  | @push t' u v rest hv ht h1 h2 ih =>
    obtain ⟨rfl, rfl⟩ : t' = t ∧ u :: v :: rest = r := by simpa using hs
    have hV := Valid.push hv ht h1 h2
    have hall := hV.larger ho hle
    have hu : 0 ≤ orient p u o := hall u (by simp)
    rw [scanPoint_cons]
    by_cases hlt : 0 < orient u t' o
    · rw [if_pos hlt]
      have hpos : 0 < orient p t' o := by
        rcases hle.lt_or_eq with h | h
        · exact h
        · exfalso
          obtain ⟨α, μ, k1, k2, k3, k4, k5⟩ := inTri_ray ht ho h.symm (hnear t' (by simp) ht.ne h.symm)
          have e : orient u t' o = -((1 - μ) * orient p u o) := by
            unfold orient
            rw [k4, k5]
            ring
          have := mul_nonneg (show 0 ≤ 1 - μ by linarith) hu
          linarith
      refine ⟨_, rfl, .push hV ho hlt hpos, fun q hq => (hQ q hq).elim (fun h => h.cons) cov_top, cov_top (InTri.right _ _ _), ?_, by simp⟩
      intro c hc
      rw [List.mem_cons] at hc
      exact hc.symm
    · rw [if_neg hlt]
      obtain ⟨hto, hpu⟩ := inTri_pop h2 hle (not_lt.mp hlt)
      by_cases heq : orient u t' o = 0
      · rw [if_pos heq]
        obtain ⟨l, hl0, hl1, hl2⟩ : ∃ l : K, 0 ≤ l ∧ o.1 - u.1 = (1 + l) * (t'.1 - u.1) ∧ o.2 - u.2 = (1 + l) * (t'.2 - u.2) := by
          refine ⟨orient p t' o / orient p u t', by positivity, ?_, ?_⟩
          · have : (o.1 - t'.1) * orient p u t' = orient p t' o * (t'.1 - u.1) - orient u t' o * (t'.1 - p.1) := by unfold orient; ring
            rw [heq] at this
            field_simp
            linarith
          · have : (o.2 - t'.2) * orient p u t' = orient p t' o * (t'.2 - u.2) - orient u t' o * (t'.2 - p.2) := by unfold orient; ring
            rw [heq] at this
            field_simp
            linarith
        split
        · refine ⟨_, rfl, .push hv ho ?_ hpu, fun q hq => ?_, cov_top (InTri.right _ _ _), ?_, by simp⟩
          · have : orient v u o = (1 + l) * orient v u t' := by
              have e : orient v u o = (u.2 - v.2) * ((o.1 - u.1) + (u.1 - v.1)) - (u.1 - v.1) * ((o.2 - u.2) + (u.2 - v.2)) := by unfold orient; ring
              rw [e, hl1, hl2]
              unfold orient
              ring
            rw [this]
            exact mul_pos (by linarith) h1
          · rcases hQ q hq with ⟨a, b, g1, g2⟩ | h
            · rw [side_cons] at g1
              rcases g1 with ⟨rfl, rfl⟩ | g1
              · exact cov_top (g2.trans (InTri.left _ _ _) hto)
              · exact ⟨a, b, side_cons.mpr (Or.inr g1), g2⟩
            · exact cov_top (h.trans hto (InTri.right _ _ _))
          · intro c hc
            rw [List.mem_cons] at hc
            rcases hc with rfl | hc
            · exact Or.inr rfl
            · exact Or.inl (List.mem_cons_of_mem _ hc)
        · rename_i hge
          -- o = t'
          have hsq : sqMag (o - u) = (1 + l) * (1 + l) * sqMag (t' - u) := by
            unfold sqMag
            simp only [Prod.fst_sub, Prod.snd_sub, hl1, hl2]
            ring
          have hl : l = 0 := by
            by_contra hne
            have hlp : 0 < l := lt_of_le_of_ne hl0 (Ne.symm hne)
            have h0 : 0 ≤ sqMag (t' - u) := by unfold sqMag; exact add_nonneg (mul_self_nonneg _) (mul_self_nonneg _)
            have h00 : sqMag (t' - u) = 0 := by
              rw [hsq] at hge
              push Not at hge
              have hp := mul_pos hlp hlp
              nlinarith
            unfold sqMag at h00
            simp only [Prod.fst_sub, Prod.snd_sub] at h00
            have e1 := mul_self_nonneg (t'.1 - u.1)
            have e2 := mul_self_nonneg (t'.2 - u.2)
            have f1 : t'.1 - u.1 = 0 := mul_self_eq_zero.mp (by linarith)
            have f2 : t'.2 - u.2 = 0 := mul_self_eq_zero.mp (by linarith)
            have : orient p u t' = 0 := by
              unfold orient
              rw [show t'.1 = u.1 by linarith, show t'.2 = u.2 by linarith]
              ring
            linarith
          have hot : o = t' := by
            rw [hl] at hl1 hl2
            exact Prod.ext (by linarith) (by linarith)
          subst hot
          refine ⟨_, rfl, hV, fun q hq => ?_, cov_top (InTri.right _ _ _), fun c hc => Or.inl hc, by simp⟩
          rcases hQ q hq with h | h
          · exact h
          · exact cov_top (h.trans (InTri.right _ _ _) (InTri.right _ _ _))
      · rw [if_neg heq]
        obtain ⟨s', g1, g2⟩ := ih (t := u) rfl hu (fun c hc => hnear c (List.mem_cons_of_mem _ hc)) (by
          intro q hq
          rcases hQ q hq with ⟨a, b, g1, g2⟩ | h
          · rw [side_cons] at g1
            rcases g1 with ⟨rfl, rfl⟩ | g1
            · exact Or.inr (g2.trans (InTri.left _ _ _) hto)
            · exact Or.inl ⟨a, b, g1, g2⟩
          · exact Or.inr (h.trans hto (InTri.right _ _ _)))
        refine ⟨s', g1, g2.valid, g2.cov, g2.new, fun c hc => (g2.mem c hc).imp_left (List.mem_cons_of_mem _), ?_⟩
        have := g2.len
        simp only [List.length_cons] at this ⊢
        omega

theorem scan_spec {p : Pt K} (os : List (Pt K)) {s Q : List (Pt K)} (hv : Valid p s) (hH : ∀ o ∈ os, H p o)
    (hsort : os.Pairwise fun a b => 0 ≤ orient p a b) (hsort' : ∀ c ∈ s, ∀ o ∈ os, 0 ≤ orient p c o)
    (hnear : os.Pairwise fun a b => orient p a b = 0 → sqMag (a - p) ≤ sqMag (b - p))
    (hnear' : ∀ c ∈ s, c ≠ p → ∀ o ∈ os, orient p c o = 0 → sqMag (c - p) ≤ sqMag (o - p))
    (hQ : ∀ q ∈ Q, Cov p s q) :
    ∃ s', scan os s = .ok s' ∧ Valid p s' ∧ (∀ q ∈ Q, Cov p s' q) ∧ (∀ q ∈ os, Cov p s' q) ∧ (∀ c ∈ s', c ∈ s ∨ c ∈ os) ∧
      s'.length ≤ s.length + os.length := by
  induction os generalizing s Q with
  | nil => exact ⟨s, rfl, hv, hQ, by simp, fun c hc => Or.inl hc, by simp⟩
  | cons o os ih =>
    rw [List.pairwise_cons] at hsort hnear
    obtain ⟨t, r, rfl⟩ : ∃ t r, s = t :: r := by cases hv <;> exact ⟨_, _, rfl⟩
    obtain ⟨s1, e1, S⟩ := scanPoint_spec hv (hH o (by simp)) rfl (hsort' t (by simp) o (by simp)) (fun c hc hn => hnear' c hc hn o (by simp))
      (fun q hq => Or.inl (hQ q hq))
    obtain ⟨s2, e2, k1, k2, k3, k4, k5⟩ := ih (Q := o :: Q) S.valid (fun q hq => hH q (by simp [hq])) hsort.2
      (fun c hc q hq => (S.mem c hc).elim (fun h => hsort' c h q (by simp [hq])) (fun h => by subst h; exact hsort.1 q hq)) hnear.2
      (fun c hc hn q hq => (S.mem c hc).elim (fun h => hnear' c h hn q (by simp [hq])) (fun h => by subst h; exact hnear.1 q hq))
      (fun q hq => by
        rw [List.mem_cons] at hq
        rcases hq with rfl | hq
        · exact S.new
        · exact S.cov q hq)
    refine ⟨s2, ?_, k1, fun q hq => k2 q (by simp [hq]), ?_, ?_, ?_⟩
    · unfold scan
      rw [e1, Outcome.bind_ok, e2]
    · intro q hq
      rw [List.mem_cons] at hq
      rcases hq with rfl | hq
      · exact k2 _ (by simp)
      · exact k3 q hq
    · intro c hc
      rcases k4 c hc with h | h
      · rcases S.mem c h with h | rfl
        · exact Or.inl h
        · exact Or.inr (by simp)
      · exact Or.inr (by simp [h])
    · have := S.len
      simp only [List.length_cons] at *
      omega

/-- the scan never reaches the bottom of the stack -/
theorem scanPoint_safe {p o : Pt K} (xs : List (Pt K)) (hne : xs ≠ []) (hx : ∀ c ∈ xs, 0 ≤ orient p c o) :
    ∃ ys, scanPoint o (xs ++ [p]) = .ok (ys ++ [p]) ∧ ys ≠ [] ∧ (∀ c ∈ ys, c ∈ xs ∨ c = o) ∧ ys.length ≤ xs.length + 1 := by
  induction xs with
  | nil => exact absurd rfl hne
  | cons t xs ih =>
    cases xs with
    | nil =>
      simp only [List.cons_append, List.nil_append]
      rw [scanPoint_cons]
      have ht := hx t (by simp)
      split
      · exact ⟨[o, t], rfl, by simp, by simp, by simp⟩
      · rw [if_pos (by linarith)]
        split
        · exact ⟨[o], rfl, by simp, by simp, by simp⟩
        · exact ⟨[t], rfl, by simp, by simp, by simp⟩
    | cons u xs =>
      simp only [List.cons_append]
      rw [scanPoint_cons]
      split
      · exact ⟨o :: t :: u :: xs, rfl, by simp, by simp; tauto, by simp⟩
      · split
        · split
          · exact ⟨o :: u :: xs, rfl, by simp, by simp; tauto, by simp⟩
          · exact ⟨t :: u :: xs, rfl, by simp, fun c hc => Or.inl hc, by simp⟩
        · obtain ⟨ys, h1, h2, h3, h4⟩ := ih (by simp) (fun c hc => hx c (List.mem_cons_of_mem _ hc))
          exact ⟨ys, h1, h2, fun c hc => (h3 c hc).imp_left (List.mem_cons_of_mem _), by simp at h4 ⊢; omega⟩

theorem scan_safe {p : Pt K} (L os xs : List (Pt K)) (hne : xs ≠ []) (hxs : ∀ c ∈ xs, c ∈ L) (hos : ∀ c ∈ os, c ∈ L)
    (hs : os.Pairwise fun a b => 0 ≤ orient p a b) (hx : ∀ c ∈ xs, ∀ o ∈ os, 0 ≤ orient p c o) :
    ∃ ys, scan os (xs ++ [p]) = .ok (ys ++ [p]) ∧ ys ≠ [] ∧ (∀ c ∈ ys, c ∈ L) ∧ ys.length ≤ xs.length + os.length ∧ True := by
  induction os generalizing xs with
  | nil => exact ⟨xs, rfl, hne, hxs, by simp, trivial⟩
  | cons o os ih =>
    rw [List.pairwise_cons] at hs
    obtain ⟨ys, h1, h2, h3, h4⟩ := scanPoint_safe (o := o) xs hne fun c hc => hx c hc o (by simp)
    obtain ⟨zs, k1, k2, k3, k4, -⟩ := ih ys h2 (fun c hc => (h3 c hc).elim (hxs c) (fun e => by subst e; exact hos _ (by simp)))
      (fun c hc => hos c (by simp [hc])) hs.2
      (fun c hc q hq => (h3 c hc).elim (fun h => hx c h q (by simp [hq])) (fun e => by subst e; exact hs.1 q hq))
    refine ⟨zs, ?_, k2, k3, by simp; omega, trivial⟩
    unfold scan
    rw [h1, Outcome.bind_ok, k1]

/-! ## the extremal point -/

/-- `p` is not after `q` -/
def NotAfter (p q : Pt K) : Prop := q.2 < p.2 ∨ (q.2 = p.2 ∧ p.1 ≤ q.1)

theorem NotAfter.trans {a b c : Pt K} (h1 : NotAfter a b) (h2 : NotAfter b c) : NotAfter a c := by
  unfold NotAfter at *
  rcases h1 with h1 | ⟨h1, h1'⟩ <;> rcases h2 with h2 | ⟨h2, h2'⟩
  · left; linarith
  · left; linarith
  · left; linarith
  · right; constructor <;> linarith

theorem better_spec (a b : Pt K × Nat) : (better a b = a ∨ better a b = b) ∧ NotAfter (better a b).1 a.1 ∧ NotAfter (better a b).1 b.1 := by
  unfold better NotAfter
  simp only
  split
  · rename_i h
    refine ⟨Or.inr rfl, ?_, Or.inr ⟨rfl, le_refl _⟩⟩
    rcases h with h | ⟨h, h'⟩
    · left; linarith
    · right; constructor <;> linarith
  · rename_i h
    push Not at h
    refine ⟨Or.inl rfl, Or.inr ⟨rfl, le_refl _⟩, ?_⟩
    rcases h.1.lt_or_eq with h1 | h1
    · left; linarith
    · right
      exact ⟨by linarith, h.2 h1⟩

theorem extreme_fold (l : List (Pt K × Nat)) (a : Pt K × Nat) :
    (l.foldl better a = a ∨ l.foldl better a ∈ l) ∧ NotAfter (l.foldl better a).1 a.1 ∧ ∀ x ∈ l, NotAfter (l.foldl better a).1 x.1 := by
  induction l generalizing a with
  | nil => exact ⟨Or.inl rfl, Or.inr ⟨rfl, le_refl _⟩, by simp⟩
  | cons b l ih =>
    obtain ⟨h1, h2, h3⟩ := ih (better a b)
    obtain ⟨k1, k2, k3⟩ := better_spec a b
    simp only [List.foldl_cons]
    refine ⟨?_, h2.trans k2, ?_⟩
    · rcases h1 with h1 | h1
      · rw [h1]
        rcases k1 with k | k <;> rw [k]
        · exact Or.inl rfl
        · exact Or.inr (by simp)
      · exact Or.inr (by simp [h1])
    · intro x hx
      rw [List.mem_cons] at hx
      rcases hx with rfl | hx
      · exact h2.trans k3
      · exact h3 x hx

theorem extreme_spec (a : Pt K) (l : List (Pt K)) :
    (a :: l)[(extreme a l).2]? = some (extreme a l).1 ∧ ∀ q ∈ a :: l, NotAfter (extreme a l).1 q := by
  obtain ⟨h1, h2, h3⟩ := extreme_fold (l.zipIdx 1) (a, 0)
  unfold extreme
  constructor
  · rcases h1 with h | h
    · rw [h]; rfl
    · have := List.mem_zipIdx_iff_le_and_getElem?_sub.mp h
      obtain ⟨k1, k2⟩ := this
      rw [← k2]
      generalize (List.foldl better (a, 0) (l.zipIdx 1)).2 = n at *
      cases n with
      | zero => omega
      | succ n => simp
  · intro q hq
    rw [List.mem_cons] at hq
    rcases hq with rfl | hq
    · exact h2
    · obtain ⟨i, hi⟩ := List.mem_iff_getElem?.mp hq
      exact h3 (q, i + 1) (List.mem_zipIdx_iff_le_and_getElem?_sub.mpr ⟨by simp, by simpa using hi⟩)

/-- a strictly before b in the order of the search -/
def Before (p q : Pt K) : Prop := q.2 < p.2 ∨ (q.2 = p.2 ∧ p.1 < q.1)

theorem Before.trans {a b c : Pt K} (h1 : Before a b) (h2 : NotAfter b c) : Before a c := by
  unfold NotAfter Before at *
  rcases h1 with h1 | ⟨h1, h1'⟩ <;> rcases h2 with h2 | ⟨h2, h2'⟩
  · left; linarith
  · left; linarith
  · left; linarith
  · right; constructor <;> linarith

theorem extreme_first (l : List (Pt K × Nat)) (a : Pt K × Nat) :
    l.foldl better a = a ∨ ∃ l1 l2, l = l1 ++ l.foldl better a :: l2 ∧ Before (l.foldl better a).1 a.1 ∧ ∀ x ∈ l1, Before (l.foldl better a).1 x.1 := by
  induction l generalizing a with
  | nil => exact Or.inl rfl
  | cons b l ih =>
    simp only [List.foldl_cons]
    obtain ⟨-, k2, k3⟩ := better_spec a b
    rcases ih (better a b) with h | ⟨l1, l2, h1, h2, h3⟩
    · rw [h]
      by_cases hb : better a b = a
      · exact Or.inl hb
      · right
        have hb' : better a b = b := by
          unfold better at hb ⊢
          simp only at hb ⊢
          split at hb
          · rename_i hc; rw [if_pos hc]
          · exact absurd rfl hb
        rw [hb']
        refine ⟨[], l, rfl, ?_, by simp⟩
        unfold better at hb
        simp only at hb
        split at hb
        · rename_i hc
          rcases hc with hc | ⟨hc, hc'⟩
          · left; linarith
          · right; constructor <;> linarith
        · exact absurd rfl hb
    · right
      refine ⟨b :: l1, l2, by rw [List.cons_append, ← h1], h2.trans k2, ?_⟩
      intro x hx
      rw [List.mem_cons] at hx
      rcases hx with rfl | hx
      · exact h2.trans k3
      · exact h3 x hx

/-- the code erases the first copy of the extremal point -/
theorem extreme_erase (a : Pt K) (l : List (Pt K)) : (a :: l).eraseIdx (extreme a l).2 = (a :: l).erase (extreme a l).1 := by
  have hB : ∀ x : Pt K, ¬ Before x x := fun x h => by rcases h with h | ⟨-, h⟩ <;> exact lt_irrefl _ h
  rw [List.erase_eq_eraseIdx_of_idxOf rfl]
  congr 1
  unfold extreme
  rcases extreme_first (l.zipIdx 1) (a, 0) with h | ⟨l1, l2, h1, h2, h3⟩
  · rw [h]
    simp
  · generalize List.foldl better (a, 0) (l.zipIdx 1) = r at *
    have hr : (l.zipIdx 1)[l1.length]? = some r := by
      conv_lhs => rw [h1]
      simp
    rw [List.getElem?_zipIdx] at hr
    obtain ⟨x, g1, g2⟩ := Option.map_eq_some_iff.mp hr
    subst g2
    have hne : ∀ j, j < l1.length → ∀ y, l[j]? = some y → Before x y := by
      intro j hj y hy
      have : (l.zipIdx 1)[j]? = some (y, 1 + j) := by rw [List.getElem?_zipIdx, hy]; rfl
      rw [h1, List.getElem?_append_left hj] at this
      exact h3 _ (List.mem_of_getElem? this)
    have hget : (a :: l)[1 + l1.length]? = some x := by rw [Nat.add_comm, List.getElem?_cons_succ]; exact g1
    simp only
    have hi := List.idxOf_lt_length_of_mem (List.mem_of_getElem? hget)
    have h5 : (a :: l)[(a :: l).idxOf x]? = some x := by rw [List.getElem?_eq_getElem hi, List.getElem_idxOf]
    rcases Nat.lt_trichotomy ((a :: l).idxOf x) (1 + l1.length) with hlt | heq | hgt
    · exfalso
      generalize (a :: l).idxOf x = j at *
      cases j with
      | zero =>
        simp only [List.getElem?_cons_zero, Option.some.injEq] at h5
        subst h5
        exact hB _ h2
      | succ j =>
        rw [List.getElem?_cons_succ] at h5
        exact hB _ (hne j (by omega) x h5)
    · exact heq.symm
    · exfalso
      have := List.not_of_lt_findIdx (p := (· == x)) (xs := a :: l) hgt
      obtain ⟨m1, m2⟩ := List.getElem?_eq_some_iff.mp hget
      rw [m2] at this
      simp at this

end Verif.Hull
