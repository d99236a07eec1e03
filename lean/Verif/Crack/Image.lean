import Verif.Crack.Spec
import Mathlib.Data.List.Nodup
import Mathlib.Data.List.Range
import Mathlib.Data.List.ProdSigma

/-! # Crack images: lemmas -/

set_option linter.unusedSectionVars false
set_option linter.unusedSimpArgs false

namespace Verif.Crack
open Verif

variable {α : Type} [LinearOrder α]

/-! ## loops that write -/

theorem put_self (im : CImg) (p : Pos) (c : Conn) : (put im p c).get p = c := Function.update_self _ _ _
theorem put_ne (im : CImg) {p q : Pos} (c : Conn) (h : q ≠ p) : (put im p c).get q = im.get q := Function.update_of_ne h _ _

theorem foldl_put_ne (f : Nat → Pos) (v : Nat → Conn) (n : Nat) (im : CImg) {q : Pos} (h : ∀ i < n, f i ≠ q) :
    ((List.range n).foldl (fun im i => put im (f i) (v i)) im).get q = im.get q := by
  induction n with
  | zero => rfl
  | succ n ih =>
    rw [List.range_succ, List.foldl_append, List.foldl_cons, List.foldl_nil, put_ne _ _ (h n (by omega)).symm]
    exact ih fun i hi => h i (by omega)

theorem foldl_put_eq (f : Nat → Pos) (v : Nat → Conn) (n : Nat) (im : CImg) {i : Nat} (hi : i < n) (hf : ∀ j < n, f j = f i → j = i) :
    ((List.range n).foldl (fun im i => put im (f i) (v i)) im).get (f i) = v i := by
  induction n with
  | zero => omega
  | succ n ih =>
    rw [List.range_succ, List.foldl_append, List.foldl_cons, List.foldl_nil]
    by_cases h : i = n
    · subst h
      exact put_self _ _ _
    · rw [put_ne _ _ fun hc => h (hf n (by omega) hc.symm).symm]
      exact ih (by omega) fun j hj => hf j (by omega)

/-- the value written by `crackConnectionImage` -/
def crackTarget (lab : Pos → α) (w h : Nat) (q : Pos) : Conn :=
  { r := pix lab w h (q.1, q.2 - 1) ≠ pix lab w h q, d := pix lab w h (q.1 - 1, q.2) ≠ pix lab w h q }

theorem pix_in {lab : Pos → α} {w h : Nat} {p : Pos} (hp : 0 ≤ p.1 ∧ p.1 < w ∧ 0 ≤ p.2 ∧ p.2 < h) :
    pix lab w h p = some (lab p) := if_pos hp
theorem pix_out {lab : Pos → α} {w h : Nat} {p : Pos} (hp : ¬ (0 ≤ p.1 ∧ p.1 < w ∧ 0 ≤ p.2 ∧ p.2 < h)) :
    pix lab w h p = none := if_neg hp

theorem firstRow_get (lab : Pos → α) {w h : Nat} (hw : 0 < w) (hh : 0 < h) (im : CImg) (q : Pos) :
    (firstRow lab w im).get q = if q.2 = 0 ∧ 0 ≤ q.1 ∧ q.1 ≤ w then crackTarget lab w h q else im.get q := by
  obtain ⟨x, y⟩ := q
  simp only [firstRow]
  by_cases hq : y = 0 ∧ 0 ≤ x ∧ x ≤ w
  · obtain ⟨rfl, h0, h1⟩ := hq
    rw [if_pos ⟨rfl, h0, h1⟩]
    by_cases hx : x = w
    · subst hx
      rw [put_self]
      simp only [crackTarget]
      rw [pix_out (p := ((w : Int), 0 - 1)) (by simp), pix_out (p := ((w : Int), 0)) (by simp),
        pix_in (p := ((w : Int) - 1, 0)) (by simp; omega)]
      simp
    · rw [put_ne _ _ (by simp [hx])]
      by_cases hx0 : x = 0
      · subst hx0
        rw [foldl_put_ne _ _ _ _ (by intro i _; simp; omega), put_self]
        simp only [crackTarget]
        rw [pix_out (p := ((0 : Int), 0 - 1)) (by simp), pix_in (p := ((0 : Int), 0)) (by simp; omega),
          pix_out (p := ((0 : Int) - 1, 0)) (by simp)]
        simp
      · obtain ⟨i, rfl⟩ : ∃ i : Nat, x = (i : Int) + 1 := ⟨(x - 1).toNat, by omega⟩
        have := foldl_put_eq (fun i : Nat => ((i : Int) + 1, (0 : Int)))
          (fun i : Nat => ({ r := true, d := lab ((i : Int), 0) ≠ lab ((i : Int) + 1, 0) } : Conn)) (w - 1) (put im (0, 0) { r := true, d := true })
          (i := i) (by omega) (by intro j _ hj; simp only [Prod.mk.injEq] at hj; omega)
        rw [this]
        simp only [crackTarget]
        rw [pix_out (p := ((i : Int) + 1, 0 - 1)) (by simp), pix_in (p := ((i : Int) + 1, 0)) (by simp; omega),
          pix_in (p := ((i : Int) + 1 - 1, 0)) (by simp; omega)]
        simp
  · rw [if_neg hq, put_ne _ _ (by simp; omega), foldl_put_ne _ _ _ _ (by intro i _; simp; omega), put_ne _ _ (by simp; omega)]

theorem midRow_get (lab : Pos → α) {w h : Nat} (hw : 0 < w) (im : CImg) {y0 : Int} (h0 : 0 < y0) (h1 : y0 < h) (q : Pos) :
    (midRow lab w im y0).get q = if q.2 = y0 ∧ 0 ≤ q.1 ∧ q.1 ≤ w then crackTarget lab w h q else im.get q := by
  obtain ⟨x, y⟩ := q
  simp only [midRow]
  by_cases hq : y = y0 ∧ 0 ≤ x ∧ x ≤ w
  · obtain ⟨rfl, h0, h1⟩ := hq
    rw [if_pos ⟨rfl, h0, h1⟩]
    by_cases hx : x = w
    · subst hx
      rw [put_self]
      simp only [crackTarget]
      rw [pix_out (p := ((w : Int), y - 1)) (by simp), pix_out (p := ((w : Int), y)) (by simp),
        pix_in (p := ((w : Int) - 1, y)) (by simp; omega)]
      simp
    · rw [put_ne _ _ (by simp [hx])]
      by_cases hx0 : x = 0
      · subst hx0
        rw [foldl_put_ne _ _ _ _ (by intro i _; simp; omega), put_self]
        simp only [crackTarget]
        rw [pix_in (p := ((0 : Int), y - 1)) (by simp; omega), pix_in (p := ((0 : Int), y)) (by simp; omega),
          pix_out (p := ((0 : Int) - 1, y)) (by simp)]
        simp
      · obtain ⟨i, rfl⟩ : ∃ i : Nat, x = (i : Int) + 1 := ⟨(x - 1).toNat, by omega⟩
        have := foldl_put_eq (fun i : Nat => ((i : Int) + 1, y))
          (fun i : Nat => ({ r := lab ((i : Int) + 1, y - 1) ≠ lab ((i : Int) + 1, y),
                             d := lab ((i : Int), y) ≠ lab ((i : Int) + 1, y) } : Conn)) (w - 1)
          (put im (0, y) { d := true, r := lab (0, y - 1) ≠ lab (0, y) })
          (i := i) (by omega) (by intro j _ hj; simp only [Prod.mk.injEq] at hj; omega)
        rw [this]
        simp only [crackTarget]
        rw [pix_in (p := ((i : Int) + 1, y - 1)) (by simp; omega), pix_in (p := ((i : Int) + 1, y)) (by simp; omega),
          pix_in (p := ((i : Int) + 1 - 1, y)) (by simp; omega)]
        simp
  · rw [if_neg hq, put_ne _ _ (by simp; omega), foldl_put_ne _ _ _ _ (by intro i _; simp; omega), put_ne _ _ (by simp; omega)]

theorem lastRow_get (lab : Pos → α) {w h : Nat} (hh : 0 < h) (im : CImg) (q : Pos) :
    (lastRow w h im).get q = if q.2 = h ∧ 0 ≤ q.1 ∧ q.1 < w then crackTarget lab w h q else im.get q := by
  obtain ⟨x, y⟩ := q
  simp only [lastRow]
  by_cases hq : y = h ∧ 0 ≤ x ∧ x < w
  · obtain ⟨rfl, h0, h1⟩ := hq
    rw [if_pos ⟨rfl, h0, h1⟩]
    obtain ⟨i, rfl⟩ : ∃ i : Nat, x = (i : Int) := ⟨x.toNat, by omega⟩
    have := foldl_put_eq (fun i : Nat => ((i : Int), (h : Int))) (fun _ : Nat => ({ r := true } : Conn)) w im
      (i := i) (by omega) (by intro j _ hj; simp only [Prod.mk.injEq] at hj; omega)
    rw [this]
    simp only [crackTarget]
    rw [pix_in (p := ((i : Int), (h : Int) - 1)) (by simp; omega), pix_out (p := ((i : Int), (h : Int))) (by simp),
      pix_out (p := ((i : Int) - 1, (h : Int))) (by simp)]
    simp
  · rw [if_neg hq, foldl_put_ne _ _ _ _ (by intro i _; simp; omega)]

theorem midRows_get (lab : Pos → α) {w h : Nat} (hw : 0 < w) (n : Nat) (hn : n < h) (im : CImg) (q : Pos) :
    ((List.range n).foldl (fun im (i : Nat) => midRow lab w im ((i : Int) + 1)) im).get q =
      if 0 < q.2 ∧ q.2 ≤ n ∧ 0 ≤ q.1 ∧ q.1 ≤ w then crackTarget lab w h q else im.get q := by
  induction n with
  | zero => rw [if_neg (by omega)]; rfl
  | succ n ih =>
    rw [List.range_succ, List.foldl_append, List.foldl_cons, List.foldl_nil, midRow_get lab (h := h) hw _ (by omega) (by omega), ih (by omega)]
    split_ifs <;> first | rfl | omega

theorem crackTarget_out (lab : Pos → α) {w h : Nat} {q : Pos}
    (hq : ¬ (0 ≤ q.1 ∧ q.1 ≤ w ∧ 0 ≤ q.2 ∧ q.2 ≤ h) ∨ (q.1 = w ∧ q.2 = h)) : crackTarget lab w h q = {} := by
  unfold crackTarget
  rw [pix_out (p := q) (by omega), pix_out (p := (q.1, q.2 - 1)) (by simp only; omega), pix_out (p := (q.1 - 1, q.2)) (by simp only; omega)]
  simp

theorem crackConnectionImage_get (lab : Pos → α) {w h : Nat} (hw : 0 < w) (hh : 0 < h) :
    ∃ im, crackConnectionImage lab w h = .ok im ∧ ∀ q, im.get q = crackTarget lab w h q := by
  unfold crackConnectionImage
  rw [if_neg (by omega)]
  refine ⟨_, rfl, fun q => ?_⟩
  rw [lastRow_get lab hh, midRows_get lab (h := h) hw _ (by omega), firstRow_get lab hw hh]
  by_cases h1 : q.2 = h ∧ 0 ≤ q.1 ∧ q.1 < w
  · rw [if_pos h1]
  · rw [if_neg h1]
    by_cases h2 : 0 < q.2 ∧ q.2 ≤ (h - 1 : Nat) ∧ 0 ≤ q.1 ∧ q.1 ≤ w
    · rw [if_pos h2]
    · rw [if_neg h2]
      by_cases h3 : q.2 = 0 ∧ 0 ≤ q.1 ∧ q.1 ≤ w
      · rw [if_pos h3]
      · rw [if_neg h3, crackTarget_out lab (by omega)]

/-! ## symmetry -/

/-- one assignment of `makeCCSymmetric` -/
def symStep (im : CImg) (o : Bool × Pos) : CImg := if o.1 then symRight im o.2 else symDown im o.2

theorem symStep_get (im : CImg) (o : Bool × Pos) (q : Pos) : (symStep im o).get q =
    { im.get q with
      l := (im.get q).l || decide (o.1 = true ∧ (o.2.1 + 1, o.2.2) = q ∧ (im.get o.2).r = true)
      u := (im.get q).u || decide (o.1 = false ∧ (o.2.1, o.2.2 + 1) = q ∧ (im.get o.2).d = true) } := by
  obtain ⟨b, p⟩ := o
  cases b
  · simp only [symStep, symDown]
    by_cases hd : (im.get p).d
    · by_cases hq : (p.1, p.2 + 1) = q
      · subst hq
        simp [hd, put_self]
      · simp [hd, put_ne _ _ (Ne.symm hq), hq]
    · simp [hd]
  · simp only [symStep, symRight]
    by_cases hd : (im.get p).r
    · by_cases hq : (p.1 + 1, p.2) = q
      · subst hq
        simp [hd, put_self]
      · simp [hd, put_ne _ _ (Ne.symm hq), hq]
    · simp [hd]

open Classical in
theorem symFold_get (os : List (Bool × Pos)) (im : CImg) (q : Pos) : (os.foldl symStep im).get q =
    { im.get q with
      l := (im.get q).l || decide (∃ p, (true, p) ∈ os ∧ (p.1 + 1, p.2) = q ∧ (im.get p).r = true)
      u := (im.get q).u || decide (∃ p, (false, p) ∈ os ∧ (p.1, p.2 + 1) = q ∧ (im.get p).d = true) } := by
  induction os generalizing im with
  | nil => simp
  | cons o os ih =>
    have hr : ∀ p, ((symStep im o).get p).r = (im.get p).r := fun p => by rw [symStep_get]
    have hd : ∀ p, ((symStep im o).get p).d = (im.get p).d := fun p => by rw [symStep_get]
    rw [List.foldl_cons, ih]
    simp only [hr, hd]
    rw [symStep_get]
    obtain ⟨b, p0⟩ := o
    have hl : (∃ p, (true, p) ∈ (b, p0) :: os ∧ (p.1 + 1, p.2) = q ∧ (im.get p).r = true) ↔
        (b = true ∧ (p0.1 + 1, p0.2) = q ∧ (im.get p0).r = true) ∨ ∃ p, (true, p) ∈ os ∧ (p.1 + 1, p.2) = q ∧ (im.get p).r = true := by
      constructor
      · rintro ⟨p, hp, h1⟩
        rcases List.mem_cons.mp hp with e | e
        · cases e
          exact .inl ⟨rfl, h1⟩
        · exact .inr ⟨p, e, h1⟩
      · rintro (⟨rfl, h1⟩ | ⟨p, hp, h1⟩)
        · exact ⟨p0, List.mem_cons_self, h1⟩
        · exact ⟨p, List.mem_cons_of_mem _ hp, h1⟩
    have hu : (∃ p, (false, p) ∈ (b, p0) :: os ∧ (p.1, p.2 + 1) = q ∧ (im.get p).d = true) ↔
        (b = false ∧ (p0.1, p0.2 + 1) = q ∧ (im.get p0).d = true) ∨ ∃ p, (false, p) ∈ os ∧ (p.1, p.2 + 1) = q ∧ (im.get p).d = true := by
      constructor
      · rintro ⟨p, hp, h1⟩
        rcases List.mem_cons.mp hp with e | e
        · cases e
          exact .inl ⟨rfl, h1⟩
        · exact .inr ⟨p, e, h1⟩
      · rintro (⟨rfl, h1⟩ | ⟨p, hp, h1⟩)
        · exact ⟨p0, List.mem_cons_self, h1⟩
        · exact ⟨p, List.mem_cons_of_mem _ hp, h1⟩
    simp only [hl, hu]
    simp [Bool.or_assoc]

/-- the assignments of `makeCCSymmetric` in order -/
def symOps (w h : Nat) : List (Bool × Pos) :=
  ((List.range h).flatMap fun y : Nat => ((List.range w).flatMap fun x : Nat => [(true, ((x : Int), (y : Int))), (false, ((x : Int), (y : Int)))]) ++
    [(false, ((w : Int), (y : Int)))]) ++ (List.range w).map fun x : Nat => (true, ((x : Int), (h : Int)))

theorem makeCCSymmetric_eq (w h : Nat) (im : CImg) : makeCCSymmetric w h im = (symOps w h).foldl symStep im := by
  simp only [makeCCSymmetric, symOps, List.foldl_append, List.foldl_flatMap, List.foldl_map, List.foldl_cons, List.foldl_nil, symStep]
  rfl

theorem mem_symOps_true {w h : Nat} {p : Pos} : (true, p) ∈ symOps w h ↔ 0 ≤ p.1 ∧ p.1 < w ∧ 0 ≤ p.2 ∧ p.2 ≤ h := by
  obtain ⟨x, y⟩ := p
  simp only [symOps, List.mem_append, List.mem_flatMap, List.mem_range, List.mem_map, List.mem_cons, Prod.mk.injEq, List.not_mem_nil,
    Bool.true_eq_false, false_and, or_false, true_and, and_false, exists_false]
  constructor
  · rintro (⟨y', hy, x', hx, rfl, rfl⟩ | ⟨x', hx, rfl, rfl⟩) <;> omega
  · intro hb
    by_cases hy : y < h
    · left
      exact ⟨y.toNat, by omega, x.toNat, by omega, by omega, by omega⟩
    · right
      exact ⟨x.toNat, by omega, by omega, by omega⟩

theorem mem_symOps_false {w h : Nat} {p : Pos} : (false, p) ∈ symOps w h ↔ 0 ≤ p.1 ∧ p.1 ≤ w ∧ 0 ≤ p.2 ∧ p.2 < h := by
  obtain ⟨x, y⟩ := p
  simp only [symOps, List.mem_append, List.mem_flatMap, List.mem_range, List.mem_map, List.mem_cons, Prod.mk.injEq, List.not_mem_nil,
    Bool.false_eq_true, false_and, or_false, true_and, and_false, exists_false, false_or]
  constructor
  · rintro (⟨y', hy, ⟨x', hx, rfl, rfl⟩ | ⟨rfl, rfl⟩⟩ | ⟨_, _, hc, _⟩) <;> first | omega | cases hc
  · intro hb
    left
    by_cases hx : x < w
    · exact ⟨y.toNat, by omega, .inl ⟨x.toNat, by omega, by omega, by omega⟩⟩
    · exact ⟨y.toNat, by omega, .inr ⟨by omega, by omega⟩⟩

/-- the pixel after `makeCCSymmetric` -/
def symTarget (lab : Pos → α) (w h : Nat) (q : Pos) : Conn :=
  { r := IsCrack lab w h q .E, d := IsCrack lab w h q .S, l := IsCrack lab w h q .W, u := IsCrack lab w h q .N }

theorem sym_get (lab : Pos → α) {w h : Nat} {im : CImg} (him : ∀ q, im.get q = crackTarget lab w h q) (q : Pos) :
    (makeCCSymmetric w h im).get q = symTarget lab w h q := by
  classical
  rw [makeCCSymmetric_eq, symFold_get, him q]
  unfold symTarget
  have e1 : (∃ p, (true, p) ∈ symOps w h ∧ (p.1 + 1, p.2) = q ∧ (im.get p).r = true) ↔ IsCrack lab w h q .W := by
    obtain ⟨x, y⟩ := q
    simp only [mem_symOps_true, Prod.mk.injEq, him, crackTarget, decide_eq_true_eq]
    constructor
    · rintro ⟨⟨px, py⟩, -, ⟨h1, h2⟩, h3⟩
      simp only at h1 h2 h3
      subst h1 h2
      simp only [IsCrack, leftPix, rightPix]
      rw [show px + 1 - 1 = px by omega]
      exact Ne.symm h3
    · intro hc
      refine ⟨(x - 1, y), ?_, ⟨by simp, rfl⟩, ?_⟩
      · simp only
        by_contra hn
        apply hc
        simp only [leftPix, rightPix]
        rw [pix_out (by simp only; omega), pix_out (by simp only; omega)]
      · exact Ne.symm hc
  have e2 : (∃ p, (false, p) ∈ symOps w h ∧ (p.1, p.2 + 1) = q ∧ (im.get p).d = true) ↔ IsCrack lab w h q .N := by
    obtain ⟨x, y⟩ := q
    simp only [mem_symOps_false, Prod.mk.injEq, him, crackTarget, decide_eq_true_eq]
    constructor
    · rintro ⟨⟨px, py⟩, -, ⟨h1, h2⟩, h3⟩
      simp only at h1 h2 h3
      subst h1 h2
      simp only [IsCrack, leftPix, rightPix]
      rw [show py + 1 - 1 = py by omega]
      exact h3
    · intro hc
      refine ⟨(x, y - 1), ?_, ⟨rfl, by simp⟩, ?_⟩
      · simp only
        by_contra hn
        apply hc
        simp only [leftPix, rightPix]
        rw [pix_out (by simp only; omega), pix_out (by simp only; omega)]
      · exact hc
  have e3 : (pix lab w h (q.1 - 1, q.2) ≠ pix lab w h q) ↔ IsCrack lab w h q .S := by
    simp only [IsCrack, leftPix, rightPix]
    exact ne_comm
  rw [Conn.mk.injEq]
  refine ⟨decide_eq_decide.mpr Iff.rfl, decide_eq_decide.mpr e3, ?_, ?_, rfl, rfl, rfl, rfl⟩
  · simp only [crackTarget, Bool.false_or]
    exact decide_eq_decide.mpr e1
  · simp only [crackTarget, Bool.false_or]
    exact decide_eq_decide.mpr e2

/-! ## loops over all corners -/

theorem mem_raster {w h : Nat} {p : Pos} : p ∈ raster w h ↔ inside w h p := by
  obtain ⟨x, y⟩ := p
  simp only [raster, List.mem_flatMap, List.mem_range, List.mem_map, Prod.mk.injEq, inside]
  constructor
  · rintro ⟨y', hy, x', hx, rfl, rfl⟩
    omega
  · intro h
    exact ⟨y.toNat, by omega, x.toNat, by omega, by omega, by omega⟩

theorem nodup_raster (w h : Nat) : (raster w h).Nodup := by
  unfold raster
  rw [List.nodup_flatMap]
  constructor
  · intro y _
    exact List.Nodup.map (fun a b hab => by simp only [Prod.mk.injEq] at hab; omega) List.nodup_range
  · refine List.nodup_range.imp ?_
    intro a b hab
    simp only [Function.onFun]
    intro p h1 h2
    simp only [List.mem_map] at h1 h2
    obtain ⟨_, -, rfl⟩ := h1
    obtain ⟨_, -, e⟩ := h2
    simp only [Prod.mk.injEq] at e
    omega

theorem markNodes_get {f : Pos → Conn} (L : List Pos) (hL : L.Nodup) (im : CImg) (hf : ∀ p ∈ L, markNode (im.get p) = .ok (f p)) :
    ∃ im', forAll (fun im p => (markNode (im.get p)).bind fun c => .ok (put im p c)) L im = .ok im' ∧
      ∀ q, im'.get q = if q ∈ L then f q else im.get q := by
  induction L generalizing im with
  | nil => exact ⟨im, rfl, fun q => by simp⟩
  | cons p L ih =>
    obtain ⟨h1, h2⟩ := List.nodup_cons.mp hL
    have hp := hf p List.mem_cons_self
    obtain ⟨im', e1, e2⟩ := ih h2 (put im p (f p)) fun q hq => by
      rw [put_ne _ _ (fun hc => h1 (by rw [← hc]; exact hq) : q ≠ p)]
      exact hf q (List.mem_cons_of_mem _ hq)
    refine ⟨im', ?_, fun q => ?_⟩
    · rw [forAll, hp]
      exact e1
    · rw [e2]
      by_cases hq : q = p
      · subst hq
        rw [if_neg h1, put_self, if_pos List.mem_cons_self]
      · rw [put_ne _ _ hq]
        by_cases hL' : q ∈ L
        · rw [if_pos hL', if_pos (List.mem_cons_of_mem _ hL')]
        · rw [if_neg hL', if_neg fun hc => (List.mem_cons.mp hc).elim hq hL']

/-- a loop that changes each of its pixels once -/
theorem foldl_map_get (f : Pos → Conn → Conn) (L : List Pos) (hL : L.Nodup) (im : CImg) (q : Pos) :
    (L.foldl (fun im p => put im p (f p (im.get p))) im).get q = if q ∈ L then f q (im.get q) else im.get q := by
  induction L generalizing im with
  | nil => simp
  | cons p L ih =>
    obtain ⟨h1, h2⟩ := List.nodup_cons.mp hL
    rw [List.foldl_cons, ih h2]
    by_cases hq : q = p
    · subst hq
      rw [if_neg h1, put_self, if_pos List.mem_cons_self]
    · rw [put_ne _ _ hq]
      by_cases hL' : q ∈ L
      · rw [if_pos hL', if_pos (List.mem_cons_of_mem _ hL')]
      · rw [if_neg hL', if_neg fun hc => (List.mem_cons.mp hc).elim hq hL']

/-- the inner corners, row by row -/
def inner (w h : Nat) : List Pos :=
  (List.range (h - 1)).flatMap fun (y : Nat) => (List.range (w - 1)).map fun (x : Nat) => ((x : Int) + 1, (y : Int) + 1)

theorem mem_inner {w h : Nat} {p : Pos} : p ∈ inner w h ↔ 1 ≤ p.1 ∧ p.1 < w ∧ 1 ≤ p.2 ∧ p.2 < h := by
  obtain ⟨x, y⟩ := p
  simp only [inner, List.mem_flatMap, List.mem_range, List.mem_map, Prod.mk.injEq]
  constructor
  · rintro ⟨y', hy, x', hx, rfl, rfl⟩
    omega
  · intro h
    exact ⟨(y - 1).toNat, by omega, (x - 1).toNat, by omega, by omega, by omega⟩

theorem nodup_inner (w h : Nat) : (inner w h).Nodup := by
  unfold inner
  rw [List.nodup_flatMap]
  constructor
  · intro y _
    exact List.Nodup.map (fun a b hab => by simp only [Prod.mk.injEq] at hab; omega) List.nodup_range
  · refine List.nodup_range.imp ?_
    intro a b hab
    simp only [Function.onFun]
    intro p h1 h2
    simp only [List.mem_map] at h1 h2
    obtain ⟨_, -, rfl⟩ := h1
    obtain ⟨_, -, e⟩ := h2
    simp only [Prod.mk.injEq] at e
    omega

theorem markEight_get (lab : Pos → α) (w h : Nat) (im : CImg) (q : Pos) :
    (markEightConnectedRegions lab w h im).get q = if q ∈ inner w h then markEight lab q (im.get q) else im.get q := by
  rw [← foldl_map_get (markEight lab) (inner w h) (nodup_inner w h) im q]
  unfold markEightConnectedRegions inner
  rw [List.foldl_flatMap]
  simp only [List.foldl_map]

end Verif.Crack
