import Verif.Resample.Lemmas
import Mathlib.Tactic.Linarith
import Mathlib.Tactic.Positivity

/-! # `resamplePolygon`: all accesses are inside of the arrays -/

namespace Verif.Resample
open Verif Verif.GeoMap Verif.DartPos

theorem addAt_ok {a : List (Pt ℝ)} {i : Nat} (v : Pt ℝ) (h : i < a.length) : ∃ b, addAt a i v = .ok b ∧ b.length = a.length :=
  ⟨a.set i (a[i] + v), by rw [addAt, rd_lt h, Outcome.bind_ok, wr_lt _ h], by simp⟩

theorem accumulate_ok {f : Fit} {count : Nat} (p : Pt ℝ) (t : ℝ) (h : f.ints.length = count + 1) (h2 : f.l ≤ count) :
    ∃ b, accumulate f p t = .ok b ∧ b.length = count + 1 := by
  obtain ⟨a, e1, l1⟩ := addAt_ok (a := f.ints) (i := f.l - 1) (sum1 f.p1 p f.t1 t - sumt f.p1 p f.t1 t) (by omega)
  obtain ⟨b, e2, l2⟩ := addAt_ok (a := a) (i := f.l) (sumt f.p1 p f.t1 t) (by omega)
  exact ⟨b, by rw [accumulate, e1, Outcome.bind_ok, e2], by omega⟩

theorem openStart_ok {a : List (Pt ℝ)} {count : Nat} (isOpen : Bool) (l : Nat) (first : Pt ℝ) (h : a.length = count + 1) (hc : 1 ≤ count) :
    ∃ b, openStart isOpen l first a = .ok b ∧ b.length = count + 1 := by
  unfold openStart
  split
  · rw [rd_lt (i := 1) (by omega), Outcome.bind_ok]
    obtain ⟨b, e, l⟩ := addAt_ok (a := a) (i := 0) (first - a[1]) (by omega)
    exact ⟨b, e, by omega⟩
  · exact ⟨a, rfl, h⟩

theorem openEnd_ok {a : List (Pt ℝ)} {count : Nat} (isOpen : Bool) (l : Nat) (h : a.length = count + 1) (hc : 1 ≤ count) :
    ∃ b, openEnd isOpen l count a = .ok b ∧ b.length = count + 1 := by
  unfold openEnd
  split
  · rw [rd_lt (i := count - 1) (by omega), Outcome.bind_ok]
    obtain ⟨b, e, l⟩ := addAt_ok (a := a) (i := count) a[count - 1] (by omega)
    exact ⟨b, e, by omega⟩
  · exact ⟨a, rfl, h⟩

/-- What holds for the state of the integration at a position `e` (in units of the sample distance). -/
structure FitInv (count : Nat) (e : ℝ) (f : Fit) : Prop where
  ints : f.ints.length = count + 1
  pos : 1 ≤ f.l
  le : f.l ≤ count + 1
  before : f.l ≤ count → e < f.l

theorem fitWhile_ok {isOpen : Bool} {count : Nat} {first q p : Pt ℝ} {e d : ℝ} (hc : 1 ≤ count) (n : Nat) (f : Fit) (hf : FitInv count e f)
    (hn : count + 2 ≤ n + f.l) : ∃ f', fitWhile isOpen count first q p e d n f = .ok f' ∧ FitInv count d f' := by
  induction n generalizing f with
  | zero => have := hf.le; omega
  | succ n ih =>
    rw [fitWhile]
    split
    · next h =>
      have he := hf.before h.2
      rw [quot_ok (by linarith [h.1]), Outcome.bind_ok]
      set o := ((f.l : ℝ) - e) / (d - e)
      obtain ⟨a, e1, l1⟩ := accumulate_ok (f := f) (count := count) ((1 - o) • q + o • p) 1 hf.ints h.2
      obtain ⟨b, e2, l2⟩ := openStart_ok (a := a) isOpen f.l first l1 hc
      obtain ⟨c, e3, l3⟩ := openEnd_ok (a := b) isOpen (f.l + 1) l2 hc
      rw [e1, Outcome.bind_ok, e2, Outcome.bind_ok, e3, Outcome.bind_ok]
      refine ih _ ⟨l3, by simp, by have := h.2; simp; omega, fun _ => ?_⟩ (by simp; omega)
      push_cast
      linarith
    · next h =>
      refine ⟨f, rfl, ⟨hf.ints, hf.pos, hf.le, fun hl => ?_⟩⟩
      by_contra hd
      exact h ⟨not_lt.1 hd, hl⟩

theorem fitRest_ok {count : Nat} {p : Pt ℝ} {d : ℝ} {f : Fit} (hf : FitInv count d f) :
    ∃ f', fitRest count p d f = .ok f' ∧ FitInv count d f' := by
  unfold fitRest
  split
  · next h =>
    obtain ⟨a, e1, l1⟩ := accumulate_ok (f := f) (count := count) p (Int.fract d) hf.ints h.2
    exact ⟨⟨a, p, Int.fract d, f.l⟩, by rw [e1, Outcome.bind_ok], ⟨l1, hf.pos, hf.le, hf.before⟩⟩
  · exact ⟨f, rfl, hf⟩

theorem fit_loop {isOpen : Bool} {count : Nat} {L : List (Pt ℝ)} {arc : List ℝ} {first : Pt ℝ} (hc : 1 ≤ count) (hL : 1 ≤ L.length)
    (harc : arc.length = L.length) (h0 : arc[0]? = some 0) :
    ∃ f, forUp (fitBody isOpen count L arc first) (L.length - 1) 1 ⟨List.replicate (count + 1) 0, first, 0, 1⟩ = .ok f ∧ f.ints.length = count + 1 := by
  obtain ⟨f, e, hf⟩ := forUp_inv (body := fitBody isOpen count L arc first) (fun k f => ∃ x, arc[k - 1]? = some x ∧ FitInv count x f) (L.length - 1) 1
    (⟨List.replicate (count + 1) 0, first, 0, 1⟩ : Fit) ⟨0, h0, ⟨by simp, le_rfl, by simp, fun _ => by simp⟩⟩ (by
      rintro j f h1 h2 ⟨x, hx, hf⟩
      have hj : j < arc.length := by omega
      obtain ⟨f1, e1, g1⟩ := fitWhile_ok (isOpen := isOpen) (first := first) (q := L[j - 1]'(by omega)) (p := L[j]'(by omega)) (d := arc[j]) hc (count + 2) f hf
        (by have := hf.pos; omega)
      obtain ⟨f2, e2, g2⟩ := fitRest_ok (p := L[j]'(by omega)) g1
      refine ⟨f2, ?_, ⟨arc[j], by simp, g2⟩⟩
      rw [fitBody, rd_lt hj, Outcome.bind_ok, rd_ok hx, Outcome.bind_ok, rd_lt (l := L) (i := j - 1) (by omega), Outcome.bind_ok,
        rd_lt (l := L) (i := j) (by omega), Outcome.bind_ok, e1, Outcome.bind_ok, e2])
  obtain ⟨x, _, hf⟩ := hf
  exact ⟨f, e, hf.ints⟩

/-! ## The two systems -/

/-- The elimination: `b` stays between one half and two thirds. -/
theorem elim_loop {ints : List (Pt ℝ)} {count : Nat} (hi : ints.length = count + 1) (hc : 2 ≤ count) (x y : Pt ℝ) :
    ∃ g b s, forUp (elimBody ints) (count - 2) 2 (List.replicate count 0, 2 / 3, [x, y]) = .ok (g, b, s) ∧ g.length = count ∧
      s.length = count ∧ s[0]? = some x := by
  obtain ⟨⟨g, b, s⟩, e, h1, h2, h3, h4, h5⟩ := forUp_inv (body := elimBody ints)
    (fun k (s : List ℝ × ℝ × List (Pt ℝ)) => s.1.length = count ∧ 1 / 2 ≤ s.2.1 ∧ s.2.1 ≤ 2 / 3 ∧ s.2.2.length = k ∧ s.2.2[0]? = some x)
    (count - 2) 2 (List.replicate count (0 : ℝ), ((2 / 3 : ℝ), [x, y])) (by refine ⟨by simp, by norm_num, by norm_num, by simp, by simp⟩) (by
      rintro j ⟨g, b, s⟩ h1 h2 ⟨a1, a2, a3, a4, a5⟩
      dsimp only at a1 a2 a3 a4 a5
      have hb : 0 < b := by linarith
      have hg1 : 1 / 6 / b ≤ 1 / 3 := by rw [div_le_iff₀ hb]; linarith
      have hg0 : 0 ≤ 1 / 6 / b := by positivity
      refine ⟨(g.set j (1 / 6 / b), 2 / 3 - 1 / 6 / b / 6, s ++ [(1 / (2 / 3 - 1 / 6 / b / 6)) •
        (ints[j]'(by omega) - (1 / 6 : ℝ) • s[j - 1]'(by omega))]), ?_, ?_⟩
      · rw [elimBody, quot_ok hb.ne', Outcome.bind_ok, wr_lt _ (by dsimp only; omega), Outcome.bind_ok, rd_lt (by omega), Outcome.bind_ok,
          rd_lt (by dsimp only; omega), Outcome.bind_ok, if_neg (by linarith)]
      · refine ⟨by simp [a1], by linarith, by linarith, by simp [a4], ?_⟩
        rw [List.getElem?_append_left (by omega)]
        exact a5)
  exact ⟨g, b, s, e, h1, by dsimp only at h4; omega, h5⟩

theorem subst_loop {g : List ℝ} {s : List (Pt ℝ)} {count : Nat} {x : Pt ℝ} (hg : g.length = count) (hs : s.length = count) (hc : 2 ≤ count)
    (h0 : s[0]? = some x) :
    ∃ r, forDown (substBody g) (count - 2) (count - 2) s = .ok r ∧ r.length = count ∧ r[0]? = some x := by
  obtain ⟨r, e, h1, h2⟩ := forDown_inv (body := substBody g) (fun r : List (Pt ℝ) => r.length = count ∧ r[0]? = some x) (count - 2) (count - 2) s ⟨hs, h0⟩ (by
    rintro j r h1 h2 ⟨a1, a2⟩
    refine ⟨r.set j (r[j]'(by omega) + -(g[j + 1]'(by omega) • r[j + 1]'(by omega))), ?_, by simp [a1], ?_⟩
    · rw [substBody, rd_lt (by omega), Outcome.bind_ok, rd_lt (by omega), Outcome.bind_ok, addAt, rd_lt (by omega), Outcome.bind_ok, wr_lt _ (by omega)]
    · rw [List.getElem?_set_ne (by omega)]
      exact a2)
  exact ⟨r, e, h1, h2⟩

theorem solveOpen_ok {ints : List (Pt ℝ)} {count : Nat} (hi : ints.length = count + 1) (hc : 2 ≤ count) (first last : Pt ℝ) :
    ∃ r, solveOpen ints [] count first last = .ok (r ++ [last]) ∧ r.length = count ∧ r[0]? = some first := by
  obtain ⟨a, e1, l1⟩ := addAt_ok (a := ints) (i := count) (last - ints[count - 1]'(by omega)) (by omega)
  obtain ⟨b, e2, l2⟩ := addAt_ok (a := a) (i := 1) (-((1 / 6 : ℝ) • a[0]'(by omega))) (by omega)
  obtain ⟨c, e3, l3⟩ := addAt_ok (a := b) (i := count - 1) (-((1 / 6 : ℝ) • b[count]'(by omega))) (by omega)
  obtain ⟨g, bb, s, e4, l4, l5, l6⟩ := elim_loop (ints := c) (by omega) hc first ((1 / (2 / 3 : ℝ)) • c[1]'(by omega))
  obtain ⟨r, e5, l7, l8⟩ := subst_loop l4 l5 hc l6
  refine ⟨r, ?_, l7, l8⟩
  rw [solveOpen, rd_lt (i := count - 1) (by omega), Outcome.bind_ok, e1, Outcome.bind_ok, rd_lt (i := 0) (by omega), Outcome.bind_ok, e2, Outcome.bind_ok,
    rd_lt (i := count) (by omega), Outcome.bind_ok, e3, Outcome.bind_ok, rd_lt (i := 1) (by omega), Outcome.bind_ok, List.nil_append, e4, Outcome.bind_ok, e5,
    Outcome.bind_ok]

theorem push_loop {p : List (Pt ℝ)} (n k : Nat) (s : List (Pt ℝ)) (h : k + n ≤ p.length) :
    forUp (pushBody p) n k s = .ok (s ++ (p.drop k).take n) := by
  induction n generalizing k s with
  | zero => simp [forUp]
  | succ n ih =>
    have hk : k < p.length := by omega
    rw [forUp, pushBody, rd_lt hk, Outcome.bind_ok, Outcome.bind_ok, ih (k + 1) _ (by omega), List.append_assoc, List.singleton_append,
      List.drop_eq_getElem_cons hk, List.take_succ_cons]

theorem solveClosed_ok {ints : List (Pt ℝ)} {count : Nat} (hi : ints.length = count + 1) (hc : 2 ≤ count) :
    ∃ r x, solveClosed ints [] count = .ok r ∧ r.length = count + 1 ∧ r[0]? = some x ∧ r[count]? = some x := by
  have hb : bC ≠ 0 := by unfold bC; norm_num
  obtain ⟨a, e1, l1⟩ := addAt_ok (a := ints) (i := 0) (ints[count]'(by omega)) (by omega)
  obtain ⟨i, hi1⟩ : ∃ i, i = min count 5 := ⟨_, rfl⟩
  have hi2 : i ≤ count := by omega
  have hi3 : 2 ≤ i := by omega
  obtain ⟨p1, e2, l2⟩ := forUp_inv (body := cycBody a count) (fun _ p => p.length = count + 2 * i) (count + 2 * i - 1) 1
    ((List.replicate (count + 2 * i) (0 : Pt ℝ)).set 0 ((1 / bC) • a[0]'(by omega))) (by simp) (by
      intro j p h1 h2 hp
      have : j % count < a.length := by have := Nat.mod_lt j (show 0 < count by omega); omega
      exact ⟨_, by rw [cycBody, rd_lt this, Outcome.bind_ok, rd_lt (by omega), Outcome.bind_ok, wr_lt _ (by omega)], by simp [hp]⟩)
  obtain ⟨p2, e3, l3⟩ := forDown_inv (body := cycBack) (fun p => p.length = count + 2 * i) (count + 2 * i - 1 - i) (count + 2 * i - 2) p1 l2 (by
      intro j p h1 h2 hp
      obtain ⟨b, eb, lb⟩ := addAt_ok (a := p) (i := j) (-(gC • p[j + 1]'(by omega))) (by omega)
      exact ⟨b, by rw [cycBack, rd_lt (by omega), Outcome.bind_ok, eb], by omega⟩)
  refine ⟨(p2.drop count).take i ++ (p2.drop i).take (count + 1 - i), p2[count]'(by omega), ?_, ?_, ?_, ?_⟩
  · rw [solveClosed, rd_lt (i := count) (by omega), Outcome.bind_ok, e1, Outcome.bind_ok]
    dsimp only
    rw [← hi1, rd_lt (i := 0) (by omega), Outcome.bind_ok, wr_lt _ (by simp; omega), Outcome.bind_ok, e2, Outcome.bind_ok, e3, Outcome.bind_ok,
      push_loop _ _ _ (by omega), Outcome.bind_ok, push_loop _ _ _ (by omega), List.nil_append]
  · simp [l3]; omega
  · rw [List.getElem?_append_left (by simp [l3]; omega), List.getElem?_take_of_lt (by omega), List.getElem?_drop]
    simp
  · have hl : ((p2.drop count).take i).length = i := by simp [l3]; omega
    rw [List.getElem?_append_right (by omega), hl, List.getElem?_take_of_lt (by omega), List.getElem?_drop]
    rw [show i + (count - i) = count by omega]
    simp

end Verif.Resample
