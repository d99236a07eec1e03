import Verif.Crack.All
import Mathlib.Algebra.Order.Field.Basic
import Mathlib.Tactic.Linarith

/-! # Lemmas about the finished crack edge map -/

set_option linter.unusedSectionVars false

namespace Verif.Crack
open Verif Verif.GeoMap

/-! ## lists of directed cracks -/

/-- each directed crack starts where the one before ends -/
def Linked (l : List Dart) : Prop := List.IsChain (fun a b => b.1 = (al a).1) l

section
variable {K : Type} [Field K] [LinearOrder K]

/-- the corners of a list of directed cracks -/
def ptsOf : List Dart → List (Pt K)
  | [] => []
  | δ :: l => vec δ.1 :: (δ :: l).map fun ε => vec (al ε).1

theorem ptsOf_succ (l : List Dart) (i : Nat) : (ptsOf (K := K) l)[i + 1]? = (l[i]?).map fun ε => vec (al ε).1 := by
  cases l with
  | nil => rfl
  | cons a l => unfold ptsOf; rw [List.getElem?_cons_succ, List.getElem?_map]

theorem Linked.get {l : List Dart} (h : Linked l) {i : Nat} {a b : Dart} (ha : l[i]? = some a) (hb : l[i + 1]? = some b) : b.1 = (al a).1 := by
  induction l generalizing i with
  | nil => cases ha
  | cons c l ih =>
    cases l with
    | nil => simp at hb
    | cons c' l =>
      unfold Linked at h
      rw [List.isChain_cons_cons] at h
      cases i with
      | zero =>
        simp only [List.getElem?_cons_zero, List.getElem?_cons_succ, Option.some.injEq] at ha hb
        subst ha hb
        exact h.1
      | succ i => exact ih h.2 (by simpa using ha) (by simpa using hb)

theorem ptsOf_get {l : List Dart} (h : Linked l) {i : Nat} {a : Dart} (ha : l[i]? = some a) : (ptsOf (K := K) l)[i]? = some (vec a.1) := by
  cases i with
  | zero =>
    cases l with
    | nil => cases ha
    | cons b l =>
      simp only [List.getElem?_cons_zero, Option.some.injEq] at ha
      subst ha
      rfl
  | succ i =>
    have hi : i + 1 < l.length := (List.getElem?_eq_some_iff.mp ha).1
    obtain ⟨b, hb⟩ : ∃ b, l[i]? = some b := ⟨l[i], List.getElem?_eq_getElem (by omega)⟩
    rw [ptsOf_succ, hb, Option.map_some, h.get hb ha]

theorem ptsOf_length {l : List Dart} (h : l ≠ []) : (ptsOf (K := K) l).length = l.length + 1 := by
  cases l with
  | nil => exact absurd rfl h
  | cons a l => simp [ptsOf]

theorem Linked.rev {l : List Dart} (h : Linked l) : Linked (l.map al).reverse := by
  unfold Linked at *
  rw [List.isChain_reverse, List.isChain_map]
  refine h.imp ?_
  intro a b hab
  simp only [al_al]
  exact hab.symm

theorem ptsOf_reverse {l : List Dart} (h : Linked l) : (ptsOf (K := K) l).reverse = ptsOf (l.map al).reverse := by
  by_cases hl : l = []
  · subst hl; rfl
  have hl' : (l.map al).reverse ≠ [] := by simpa using hl
  apply List.ext_getElem?
  intro i
  have h1 := ptsOf_length (K := K) hl
  have h2 := ptsOf_length (K := K) hl'
  rw [List.length_reverse, List.length_map] at h2
  by_cases hi : i < l.length + 1
  swap
  · rw [List.getElem?_eq_none (by rw [List.length_reverse]; omega), List.getElem?_eq_none (by omega)]
  rw [List.getElem?_reverse (by omega), h1]
  have hrev : ∀ j, j < l.length → (l.map al).reverse[j]? = (l[l.length - 1 - j]?).map al := by
    intro j hj
    rw [List.getElem?_reverse (by simpa using hj), List.getElem?_map, List.length_map]
  by_cases hi0 : i < l.length
  · obtain ⟨b, hb⟩ : ∃ b, l[l.length - 1 - i]? = some b := ⟨_, List.getElem?_eq_getElem (by omega)⟩
    rw [ptsOf_get h.rev (a := al b) (by rw [hrev i hi0, hb]; rfl)]
    rw [show l.length + 1 - 1 - i = l.length - 1 - i + 1 by omega, ptsOf_succ, hb]
    rfl
  · have : i = l.length := by omega
    subst this
    obtain ⟨b, hb⟩ : ∃ b, l[0]? = some b := ⟨_, List.getElem?_eq_getElem (by
      rcases l with _ | _
      · exact absurd rfl hl
      · simp)⟩
    have hlen : 0 < l.length := (List.getElem?_eq_some_iff.mp hb).1
    rw [show l.length + 1 - 1 - l.length = 0 by omega, ptsOf_get h hb]
    rw [show l.length = l.length - 1 + 1 by omega, ptsOf_succ, hrev _ (by omega)]
    rw [show l.length - 1 - (l.length - 1) = 0 by omega, hb]
    simp [al_al]

end

/-- the directed cracks of a dart -/
def Path.dir (P : Path) (d : Int) : List Dart := if 0 < d then P.darts else (P.darts.map al).reverse

theorem Path.dir_ne (P : Path) (d : Int) : P.dir d ≠ [] := by
  unfold Path.dir Path.darts
  split <;> simp

theorem PathOK.linked {c0 : Pos → Conn} {ns : List Pos} {P : Path} (h : PathOK c0 ns P) (d : Int) : Linked (P.dir d) := by
  have h1 : Linked P.darts := h.chain.imp fun a b hab => by rw [hab.1]
  unfold Path.dir
  split
  · exact h1
  · exact h1.rev

theorem PathOK.dartPts {K : Type} [Field K] [LinearOrder K] {c0 : Pos → Conn} {ns : List Pos} {P : Path} (h : PathOK c0 ns P) (d : Int) :
    (if 0 < d then P.pts else P.pts.reverse) = ptsOf (K := K) (P.dir d) := by
  have h1 : Linked P.darts := h.chain.imp fun a b hab => by rw [hab.1]
  have h2 : P.pts = ptsOf (K := K) P.darts := rfl
  unfold Path.dir
  split
  · exact h2
  · rw [h2, ptsOf_reverse h1]

theorem diff_inj {p : Pos} {x y : Dir} (h : p + x.diff = p + y.diff) : x = y := by
  obtain ⟨a, b⟩ := p
  cases x <;> cases y <;> simp [Dir.diff] at h <;> rfl

/-- a directed crack has one place in the edges -/
theorem flatMap_index {α β : Type} {f : α → List β} {l : List α} (hn : (l.flatMap f).Nodup) {k k' i i' : Nat} {P P' : α} {δ : β}
    (h1 : l[k]? = some P) (h2 : l[k']? = some P') (h3 : (f P)[i]? = some δ) (h4 : (f P')[i']? = some δ) : k = k' ∧ i = i' := by
  rw [List.nodup_flatMap] at hn
  obtain ⟨hn, hp⟩ := hn
  have hk : k = k' := by
    by_contra hne
    obtain ⟨a1, a2⟩ := List.getElem?_eq_some_iff.mp h1
    obtain ⟨b1, b2⟩ := List.getElem?_eq_some_iff.mp h2
    rw [List.pairwise_iff_getElem] at hp
    rcases Nat.lt_or_gt_of_ne hne with hlt | hlt
    · have := hp k k' a1 b1 hlt
      rw [a2, b2] at this
      exact this (List.mem_of_getElem? h3) (List.mem_of_getElem? h4)
    · have := hp k' k b1 a1 hlt
      rw [a2, b2] at this
      exact this (List.mem_of_getElem? h4) (List.mem_of_getElem? h3)
  subst hk
  rw [h1] at h2
  cases h2
  refine ⟨rfl, ?_⟩
  have := hn P (List.mem_of_getElem? h1)
  obtain ⟨a1, a2⟩ := List.getElem?_eq_some_iff.mp h3
  obtain ⟨b1, b2⟩ := List.getElem?_eq_some_iff.mp h4
  exact (this.getElem_inj_iff).mp (a2.trans b2.symm)

theorem dir_index {es : List Path} (hn : (allOf es).Nodup) {d d' : Int} {i i' : Nat} {P P' : Path} {δ : Dart} (hd : d ≠ 0) (hd' : d' ≠ 0)
    (h1 : es[d.natAbs - 1]? = some P) (h2 : es[d'.natAbs - 1]? = some P') (h3 : (P.dir d)[i]? = some δ) (h4 : (P'.dir d')[i']? = some δ) :
    d = d' ∧ i = i' := by
  unfold allOf at hn
  rw [List.nodup_append] at hn
  obtain ⟨hn, -, hdis⟩ := hn
  have hrev : ∀ {P : Path} {i : Nat}, (P.darts.map al).reverse[i]? = some δ → i < P.darts.length ∧ P.darts[P.darts.length - 1 - i]? = some (al δ) := by
    intro P i h
    have hi : i < P.darts.length := by simpa using (List.getElem?_eq_some_iff.mp h).1
    rw [List.getElem?_reverse (by simpa using hi), List.getElem?_map, List.length_map] at h
    refine ⟨hi, ?_⟩
    cases e : P.darts[P.darts.length - 1 - i]? with
    | none => rw [e] at h; cases h
    | some a =>
      rw [e] at h
      simp only [Option.map_some, Option.some.injEq] at h
      rw [← h, al_al]
  have hcon : ∀ {P P' : Path} {k k' i i' : Nat}, es[k]? = some P → es[k']? = some P' → P.darts[i]? = some δ → P'.darts[i']? = some (al δ) → False := by
    intro P P' k k' i i' a1 a2 a3 a4
    refine hdis δ (List.mem_flatMap.mpr ⟨P, List.mem_of_getElem? a1, List.mem_of_getElem? a3⟩) δ
      (List.mem_map.mpr ⟨al δ, List.mem_flatMap.mpr ⟨P', List.mem_of_getElem? a2, List.mem_of_getElem? a4⟩, al_al δ⟩) rfl
  unfold Path.dir at h3 h4
  by_cases hp : 0 < d <;> by_cases hp' : 0 < d'
  · rw [if_pos hp] at h3; rw [if_pos hp'] at h4
    have := flatMap_index hn h1 h2 h3 h4
    omega
  · rw [if_pos hp] at h3; rw [if_neg hp'] at h4
    exact absurd (hcon h1 h2 h3 (hrev h4).2) id
  · rw [if_neg hp] at h3; rw [if_pos hp'] at h4
    exact absurd (hcon h2 h1 h4 (hrev h3).2) id
  · rw [if_neg hp] at h3; rw [if_neg hp'] at h4
    obtain ⟨a1, a2⟩ := hrev h3
    obtain ⟨b1, b2⟩ := hrev h4
    have := flatMap_index hn h1 h2 a2 b2
    have e : d = d' := by omega
    subst e
    rw [h1] at h2
    cases h2
    exact ⟨rfl, by omega⟩

section
variable {K : Type} [Field K] [LinearOrder K] [IsStrictOrderedRing K]

theorem vec_inj {p q : Pos} (h : (vec p : Pt K) = vec q) : p = q := by
  obtain ⟨a, b⟩ := p
  obtain ⟨c, d⟩ := q
  simp only [vec, Prod.mk.injEq, sub_left_inj, Int.cast_inj] at h
  rw [h.1, h.2]

variable {c0 : Pos → Conn} {m : GMap K} {ns : List Pos} {es : List Path}

theorem Built.edge_iff (B : Built m ns es) {d : Int} {e : Edge K} : m.edge d.natAbs = some e ↔
    d ≠ 0 ∧ ∃ P, es[d.natAbs - 1]? = some P ∧ e = ⟨P.a, P.b, none, none, P.pts, 0⟩ := by
  rcases Nat.eq_zero_or_pos d.natAbs with h | h
  · rw [h, B.edge0]
    have : d = 0 := by omega
    simp [this]
  · obtain ⟨k, hk⟩ : ∃ k, d.natAbs = k + 1 := ⟨d.natAbs - 1, by omega⟩
    rw [hk, B.edge, show k + 1 - 1 = k by omega]
    have : d ≠ 0 := by omega
    simp only [this, ne_eq, not_false_eq_true, true_and, Option.map_eq_some_iff]
    exact ⟨fun ⟨P, h1, h2⟩ => ⟨P, h1, h2.symm⟩, fun ⟨P, h1, h2⟩ => ⟨P, h1, h2.symm⟩⟩

/-- segments of darts are directed cracks -/
theorem step_iff (B : Built m ns es) (hP : ∀ P ∈ es, PathOK c0 ns P) {d : Int} {i : Nat} {p : Pos} {x : Dir} :
    Step m d i p x ↔ d ≠ 0 ∧ ∃ P, es[d.natAbs - 1]? = some P ∧ (P.dir d)[i]? = some (p, x) := by
  unfold Step
  constructor
  · rintro ⟨e, h1, h2, h3⟩
    obtain ⟨hd, P, h4, rfl⟩ := B.edge_iff.mp h1
    refine ⟨hd, P, h4, ?_⟩
    have hok := hP P (List.mem_of_getElem? h4)
    simp only [Edge.dartPts, hok.dartPts d] at h2 h3
    rw [ptsOf_succ] at h3
    obtain ⟨δ, h5, h6⟩ := Option.map_eq_some_iff.mp h3
    rw [ptsOf_get (hok.linked d) h5] at h2
    simp only [Option.some.injEq] at h2
    have e1 := vec_inj h2
    have e2 := vec_inj h6
    rw [h5]
    obtain ⟨q, y⟩ := δ
    simp only at e1
    subst e1
    have := diff_inj (show q + y.diff = q + x.diff from e2)
    rw [this]
  · rintro ⟨hd, P, h4, h5⟩
    refine ⟨_, B.edge_iff.mpr ⟨hd, P, h4, rfl⟩, ?_⟩
    have hok := hP P (List.mem_of_getElem? h4)
    simp only [Edge.dartPts, hok.dartPts d]
    rw [ptsOf_succ, h5, ptsOf_get (hok.linked d) h5]
    exact ⟨rfl, rfl⟩

end

theorem mem_dir_iff {es : List Path} {δ : Dart} (h : δ ∈ allOf es) : ∃ (d : Int) (i : Nat) (P : Path), d ≠ 0 ∧ es[d.natAbs - 1]? = some P ∧ (P.dir d)[i]? = some δ := by
  unfold allOf at h
  rcases List.mem_append.mp h with h | h
  · obtain ⟨P, h1, h2⟩ := List.mem_flatMap.mp h
    obtain ⟨k, h1⟩ := List.mem_iff_getElem?.mp h1
    obtain ⟨i, h2⟩ := List.mem_iff_getElem?.mp h2
    refine ⟨(k : Int) + 1, i, P, by omega, ?_, ?_⟩
    · rw [show ((k : Int) + 1).natAbs - 1 = k by omega]; exact h1
    · unfold Path.dir
      rw [if_pos (by omega)]
      exact h2
  · obtain ⟨ε, h', rfl⟩ := List.mem_map.mp h
    obtain ⟨P, h1, h2⟩ := List.mem_flatMap.mp h'
    obtain ⟨k, h1⟩ := List.mem_iff_getElem?.mp h1
    have h3 : al ε ∈ (P.darts.map al).reverse := List.mem_reverse.mpr (List.mem_map.mpr ⟨ε, h2, rfl⟩)
    obtain ⟨i, h3⟩ := List.mem_iff_getElem?.mp h3
    refine ⟨-((k : Int) + 1), i, P, by omega, ?_, ?_⟩
    · rw [show (-((k : Int) + 1)).natAbs - 1 = k by omega]; exact h1
    · unfold Path.dir
      rw [if_neg (by omega)]
      exact h3

theorem dir_mem {es : List Path} {d : Int} {i : Nat} {P : Path} {δ : Dart} (h1 : es[d.natAbs - 1]? = some P) (h2 : (P.dir d)[i]? = some δ) :
    δ ∈ allOf es := by
  have hP := List.mem_of_getElem? h1
  have hδ := List.mem_of_getElem? h2
  unfold allOf
  unfold Path.dir at hδ
  split at hδ
  · exact List.mem_append_left _ (List.mem_flatMap.mpr ⟨P, hP, hδ⟩)
  · obtain ⟨ε, h, rfl⟩ := List.mem_map.mp (List.mem_reverse.mp hδ)
    exact List.mem_append_right _ (List.mem_map.mpr ⟨ε, List.mem_flatMap.mpr ⟨P, hP, h⟩, rfl⟩)

/-! ## labels on both sides -/

theorem left_al (δ : Dart) : leftPix (al δ).1 (al δ).2 = rightPix δ.1 δ.2 := by
  obtain ⟨⟨a, b⟩, x⟩ := δ
  cases x <;> simp [al, Dir.diff, Dir.opp, leftPix, rightPix] <;> omega

theorem right_al (δ : Dart) : rightPix (al δ).1 (al δ).2 = leftPix δ.1 δ.2 := by
  rw [← left_al (al δ), al_al]

/-- the one of four pixels to the left of a direction -/
def lq {β : Type} (nw ne se sw : β) : Dir → β
  | .E => ne | .N => nw | .W => sw | .S => se
/-- the one to the right -/
def rq {β : Type} (nw ne se sw : β) : Dir → β
  | .E => se | .N => ne | .W => nw | .S => sw

/-- the labels around a corner agree between the cracks -/
theorem tau_sides {β : Type} (c : Conn) (hv : c.valid = true) (hn : c.node = false) (nw ne se sw : β)
    (h1 : c.u = false → nw = ne) (h2 : c.r = false → ne = se) (h3 : c.d = false → se = sw) (h4 : c.l = false → sw = nw)
    (h5 : c.ul = true → nw = se) (h6 : c.ur = true → ne = sw) (x : Dir) (hx : c.has x = true) :
    lq nw ne se sw (c.tau x) = rq nw ne se sw x ∧ rq nw ne se sw (c.tau x) = lq nw ne se sw x := by
  obtain ⟨r, d, l, u, ul, ur, node, maybe⟩ := c
  simp only at h1 h2 h3 h4 h5 h6 hn
  subst hn
  cases x <;> cases r <;> cases d <;> cases l <;> cases u <;> cases ul <;> cases ur <;> cases maybe <;>
    first
    | exact absurd hx (by decide)
    | exact absurd hv (by decide)
    | (simp [Conn.tau, Conn.diag, turnsLeft, Dir.opp, Dir.left, Dir.right, Conn.has, lq, rq]; clear hv hx; grind)

section
variable {α : Type} [LinearOrder α]

theorem leftPix_match (f : Pos → Option α) (q : Pos) (x : Dir) : f (leftPix q x) =
    lq (f (q.1 - 1, q.2 - 1)) (f (q.1, q.2 - 1)) (f (q.1, q.2)) (f (q.1 - 1, q.2)) x := by cases x <;> rfl

theorem rightPix_match (f : Pos → Option α) (q : Pos) (x : Dir) : f (rightPix q x) =
    rq (f (q.1 - 1, q.2 - 1)) (f (q.1, q.2 - 1)) (f (q.1, q.2)) (f (q.1 - 1, q.2)) x := by cases x <;> rfl

theorem markEight_ul (lab : Pos → α) (q : Pos) (c : Conn) (hc : c.ul = false ∧ c.ur = false) :
    ((markEight lab q c).ul = true → lab q = lab (q.1 - 1, q.2 - 1)) ∧ ((markEight lab q c).ur = true → lab (q.1 - 1, q.2) = lab (q.1, q.2 - 1)) := by
  unfold markEight
  split
  · simp only
    by_cases e1 : lab q = lab (q.1 - 1, q.2 - 1) <;> by_cases e2 : lab (q.1 - 1, q.2) = lab (q.1, q.2 - 1)
    · exact ⟨fun _ => e1, fun _ => e2⟩
    · simp only [e1, e2, if_true, if_false]
      split_ifs <;> simp_all
    · simp only [e1, e2, if_true, if_false]
      split_ifs <;> simp_all
    · simp only [e1, e2, if_false]
      split_ifs <;> simp_all
  · simp [hc]

theorem marked_ul (lab : Pos → α) (w h : Nat) (eight : Bool) (q : Pos) :
    ((marked lab w h eight q).ul = true → pix lab w h (q.1 - 1, q.2 - 1) = pix lab w h (q.1, q.2)) ∧
    ((marked lab w h eight q).ur = true → pix lab w h (q.1, q.2 - 1) = pix lab w h (q.1 - 1, q.2)) := by
  unfold marked Conn.mark
  by_cases hq : eight = true ∧ q ∈ inner w h
  · rw [if_pos hq]
    have hin := mem_inner.mp hq.2
    obtain ⟨h1, h2⟩ := markEight_ul lab q (symTarget lab w h q) ⟨rfl, rfl⟩
    simp only
    constructor
    · intro hu
      rw [pix_in (by simp only; omega), pix_in (by simp only; omega)]
      exact congrArg some (h1 hu).symm
    · intro hu
      rw [pix_in (by simp only; omega), pix_in (by simp only; omega)]
      exact congrArg some (h2 hu).symm
  · rw [if_neg hq]
    exact ⟨fun h => (nomatch h), fun h => (nomatch h)⟩

theorem not_crack_pix (lab : Pos → α) (w h : Nat) (eight : Bool) (q : Pos) :
    ((marked lab w h eight q).u = false → pix lab w h (q.1 - 1, q.2 - 1) = pix lab w h (q.1, q.2 - 1)) ∧
    ((marked lab w h eight q).r = false → pix lab w h (q.1, q.2 - 1) = pix lab w h (q.1, q.2)) ∧
    ((marked lab w h eight q).d = false → pix lab w h (q.1, q.2) = pix lab w h (q.1 - 1, q.2)) ∧
    ((marked lab w h eight q).l = false → pix lab w h (q.1 - 1, q.2) = pix lab w h (q.1 - 1, q.2 - 1)) := by
  have key : ∀ x, (marked lab w h eight q).has x = false → pix lab w h (leftPix q x) = pix lab w h (rightPix q x) := by
    intro x hx
    by_contra hc
    have := (marked_has lab w h eight q x).mpr hc
    rw [hx] at this
    cases this
  exact ⟨key .N, key .E, key .S, key .W⟩

/-- the labels on both sides do not change where an edge passes a corner -/
theorem tau_pix (lab : Pos → α) (w h : Nat) (eight : Bool) (q : Pos) (hn : (marked lab w h eight q).node = false) (x : Dir)
    (hx : IsCrack lab w h q x) :
    pix lab w h (leftPix q ((marked lab w h eight q).tau x)) = pix lab w h (rightPix q x) ∧
    pix lab w h (rightPix q ((marked lab w h eight q).tau x)) = pix lab w h (leftPix q x) := by
  obtain ⟨h1, h2, h3, h4⟩ := not_crack_pix lab w h eight q
  obtain ⟨h5, h6⟩ := marked_ul lab w h eight q
  have := tau_sides _ (marked_valid lab w h eight q) hn _ _ _ _ h1 h2 h3 h4 h5 h6 x ((marked_has lab w h eight q x).mpr hx)
  simp only [leftPix_match (pix lab w h), rightPix_match (pix lab w h)]
  exact this

/-- the graph of the image -/
theorem marked_graph (lab : Pos → α) (w h : Nat) (eight : Bool) : CrackGraph w h (marked lab w h eight) := by
  refine ⟨marked_valid lab w h eight, fun p x hx => isCrack_inside ((marked_has lab w h eight p x).mp hx), fun p x hx => ?_⟩
  rw [marked_has] at hx ⊢
  exact (isCrack_alpha lab w h p x).mpr hx

theorem crackCount_deg (lab : Pos → α) (w h : Nat) (q : Pos) : (symTarget lab w h q).deg = crackCount lab w h q := by
  simp only [Conn.deg, symTarget, crackCount]
  omega

theorem markEight_diag (lab : Pos → α) (q : Pos) (c : Conn) (hc : c.isAll4 = true) : (markEight lab q c).diag = true ↔ Touches lab q := by
  have : c = { r := true, d := true, l := true, u := true } := by simpa [Conn.isAll4] using hc
  subst this
  unfold markEight Touches
  rw [if_pos hc]
  simp only
  by_cases e1 : lab q = lab (q.1 - 1, q.2 - 1) <;> by_cases e2 : lab (q.1 - 1, q.2) = lab (q.1, q.2 - 1)
  · rw [if_pos e1, if_pos e2]
    have : lab (q.1 - 1, q.2 - 1) = lab (q.1, q.2) := e1.symm
    simp only [this, true_or, iff_true]
    split_ifs <;> rfl
  · rw [if_pos e1, if_neg e2]
    simp [Conn.diag, e1.symm]
  · rw [if_neg e1, if_pos e2]
    simp [Conn.diag, e2]
  · simp only [e1, e2, if_false]
    have e1' : ¬ lab (q.1 - 1, q.2 - 1) = lab (q.1, q.2) := fun h => e1 h.symm
    simp [Conn.diag, e1', e2]

theorem junction_iff (lab : Pos → α) (w h : Nat) (eight : Bool) (q : Pos) :
    (marked lab w h eight q).node = true ↔ Junction lab w h eight q := by
  unfold marked Conn.mark Junction
  simp only [Bool.and_eq_true, decide_eq_true_eq, Bool.not_eq_true']
  have hdeg : (if eight = true ∧ q ∈ inner w h then markEight lab q (symTarget lab w h q) else symTarget lab w h q).deg = crackCount lab w h q := by
    rw [← crackCount_deg]
    split
    · obtain ⟨h1, h2, h3, h4, -, -⟩ := markEight_bits lab q (symTarget lab w h q)
      simp only [Conn.deg, h1, h2, h3, h4]
    · rfl
  rw [hdeg]
  refine and_congr (by omega) ?_
  have hall : crackCount lab w h q = 4 → q ∈ inner w h ∧ (symTarget lab w h q).isAll4 = true := by
    intro h4
    have hb : ∀ b : Bool, b.toNat ≤ 1 := fun b => by cases b <;> decide
    have hE := hb (decide (IsCrack lab w h q .E))
    have hN := hb (decide (IsCrack lab w h q .N))
    have hW := hb (decide (IsCrack lab w h q .W))
    have hS := hb (decide (IsCrack lab w h q .S))
    have ht : ∀ {P : Prop} [Decidable P], (decide P).toNat = 1 → P := fun {P} _ h => by by_contra hc; simp [hc] at h
    unfold crackCount at h4
    have cE : IsCrack lab w h q .E := ht (by omega)
    have cN : IsCrack lab w h q .N := ht (by omega)
    have cW : IsCrack lab w h q .W := ht (by omega)
    have cS : IsCrack lab w h q .S := ht (by omega)
    constructor
    · rw [mem_inner]
      by_contra hno
      have hins := isCrack_inside cE
      simp only [inside] at hins
      have : q.1 = 0 ∨ q.1 = w ∨ q.2 = 0 ∨ q.2 = h := by omega
      rcases this with e | e | e | e
      · apply cW
        simp only [leftPix, rightPix]
        rw [pix_out (by simp only; omega), pix_out (by simp only; omega)]
      · apply cE
        simp only [leftPix, rightPix]
        rw [pix_out (by simp only; omega), pix_out (by simp only; omega)]
      · apply cN
        simp only [leftPix, rightPix]
        rw [pix_out (by simp only; omega), pix_out (by simp only; omega)]
      · apply cS
        simp only [leftPix, rightPix]
        rw [pix_out (by simp only; omega), pix_out (by simp only; omega)]
    · simp [Conn.isAll4, symTarget, cE, cN, cW, cS]
  have hback : (symTarget lab w h q).isAll4 = true → crackCount lab w h q = 4 := by
    intro h4
    rw [← crackCount_deg]
    have : symTarget lab w h q = { r := true, d := true, l := true, u := true } := by simpa [Conn.isAll4] using h4
    rw [this]
    rfl
  by_cases hq : eight = true ∧ q ∈ inner w h
  · rw [if_pos hq]
    by_cases h4 : (symTarget lab w h q).isAll4 = true
    · have := markEight_diag lab q _ h4
      have hc := hback h4
      simp only [hq.1, hc, true_and]
      rw [← this]
      simp
    · have : ¬ crackCount lab w h q = 4 := fun hc => h4 (hall hc).2
      unfold markEight
      rw [if_neg h4]
      simp [this, Conn.diag, symTarget]
  · rw [if_neg hq]
    have : ¬ (eight = true ∧ crackCount lab w h q = 4 ∧ Touches lab q) := fun ⟨a, b, _⟩ => hq ⟨a, (hall b).1⟩
    simp [this, Conn.diag, symTarget]

end
end Verif.Crack
