import Verif.GeoMap.MergeFaces3
import Mathlib.Data.ZMod.Basic
import Mathlib.Algebra.BigOperators.Group.Finset.Basic
import Mathlib.Algebra.CharP.Two
import Mathlib.Tactic.Ring
import Mathlib.Tactic.LinearCombination

/-!
# Planarity and connectivity

`Jordan` is the combinatorial Jordan curve theorem: whenever a set of edges meets every node an
even number of times, the faces can be coloured with two colours such that exactly the edges of the
set separate different colours.  Every plane drawing has this property.
-/

namespace Verif.GeoMap
open Equiv Equiv.Perm Verif.PermLemmas

variable {K : Type}

/-- `w` is the indicator (mod 2) of a set of edges; `bd` counts how often it meets node `n`. -/
def bd (L : Finset Int) (st : Int → Option Nat) (w : Nat → ZMod 2) (n : Nat) : ZMod 2 :=
  ∑ d ∈ L with st d = some n, w d.natAbs

def Jordan (L : Finset Int) (st lf : Int → Option Nat) : Prop :=
  ∀ w : Nat → ZMod 2, (∀ n, bd L st w n = 0) → ∃ c : Option Nat → ZMod 2, ∀ d ∈ L, w d.natAbs = c (lf d) + c (lf (-d))

theorem bd_eraseEdge {L : Finset Int} {st : Int → Option Nat} {w : Nat → ZMod 2} {r : Int} (hr : r ∈ L) (hm : -r ∈ L) (h0 : r ≠ 0)
    (n : Nat) : bd L st w n = bd (eraseEdge L r) st w n + (if st r = some n then w r.natAbs else 0) +
      (if st (-r) = some n then w r.natAbs else 0) := by
  unfold bd
  rw [Finset.sum_filter, Finset.sum_filter]
  have e1 : L = insert r (insert (-r) (eraseEdge L r)) := by
    ext x
    simp only [Finset.mem_insert, mem_eraseEdge]
    constructor
    · intro hx
      by_cases h1 : x = r
      · exact Or.inl h1
      · by_cases h2 : x = -r
        · exact Or.inr (Or.inl h2)
        · exact Or.inr (Or.inr ⟨h2, h1, hx⟩)
    · rintro (rfl | rfl | h)
      · exact hr
      · exact hm
      · exact h.2.2
  conv_lhs => rw [e1]
  rw [Finset.sum_insert, Finset.sum_insert]
  · simp only [Int.natAbs_neg]; ring
  · simp [mem_eraseEdge]
  · simp only [Finset.mem_insert, mem_eraseEdge]
    rintro (h | ⟨-, h, -⟩)
    · omega
    · exact h rfl

theorem bd_congr {L : Finset Int} {st st' : Int → Option Nat} {w w' : Nat → ZMod 2} (hs : ∀ d ∈ L, st' d = st d)
    (hw : ∀ d ∈ L, w' d.natAbs = w d.natAbs) (n : Nat) : bd L st' w' n = bd L st w n := by
  unfold bd
  rw [Finset.sum_filter, Finset.sum_filter]
  refine Finset.sum_congr rfl (fun d hd => ?_)
  rw [hs d hd, hw d hd]

/-- removing an edge; the two faces next to it may be identified -/
theorem Jordan.erase {L : Finset Int} {st lf st' lf' : Int → Option Nat} (h : Jordan L st lf) {r : Int} (hr : r ∈ L) (hm : -r ∈ L)
    (h0 : r ≠ 0) (hst : ∀ d ∈ eraseEdge L r, st' d = st d)
    (hlf : ∀ c : Option Nat → ZMod 2, c (lf r) = c (lf (-r)) → ∀ d ∈ eraseEdge L r, c (lf' d) = c (lf d))
    (hsym : ∀ d ∈ L, -d ∈ L) : Jordan (eraseEdge L r) st' lf' := by
  intro w hw
  have hne : ∀ d ∈ eraseEdge L r, d.natAbs ≠ r.natAbs := by
    intro d hd; rw [mem_eraseEdge] at hd; omega
  obtain ⟨c, hc⟩ := h (Function.update w r.natAbs 0) (by
    intro n
    rw [bd_eraseEdge hr hm h0, Function.update_self,
      bd_congr (st := st') (w := w) (fun d hd => (hst d hd).symm) (fun d hd => Function.update_of_ne (hne d hd) _ _), hw n]
    simp)
  refine ⟨c, fun d hd => ?_⟩
  have hcr := hc r hr
  rw [Function.update_self] at hcr
  have hcr' : c (lf r) = c (lf (-r)) := by
    have := hcr.symm
    rwa [CharTwo.add_eq_zero] at this
  have hd' : -d ∈ eraseEdge L r := by
    rw [mem_eraseEdge] at hd ⊢
    exact ⟨by omega, by omega, hsym d hd.2.2⟩
  have := hc d (mem_eraseEdge.mp hd).2.2
  rw [Function.update_of_ne (hne d hd)] at this
  rw [this, hlf c hcr' d hd, hlf c hcr' _ hd']

/-! ## consequences -/

theorem zmod2_one_ne : (1 : ZMod 2) ≠ 0 := by decide

/-- A contour meets every node an even number of times. -/
theorem contour_closed {L : Finset Int} {f finv : Int → Int} {ψ : Perm Int} {st : Int → Option Nat} (hr : Rep L f finv ψ)
    (hsym : ∀ d ∈ L, -d ∈ L) (hst : ∀ d ∈ L, st (ψ d) = st (-d)) (O : Finset Int) (hO : ∀ d, d ∈ O → d ∈ L)
    (hψ : ∀ d ∈ L, ψ d ∈ O ↔ d ∈ O) (n : Nat) :
    ∑ d ∈ L with st d = some n, ((if d ∈ O then (1 : ZMod 2) else 0) + (if -d ∈ O then 1 else 0)) = 0 := by
  rw [Finset.sum_add_distrib]
  have h1 : ∑ d ∈ L with st d = some n, (if -d ∈ O then (1 : ZMod 2) else 0) = ∑ d ∈ L, if st (-d) = some n ∧ d ∈ O then (1 : ZMod 2) else 0 := by
    rw [Finset.sum_filter]
    refine Finset.sum_bij' (fun d _ => -d) (fun d _ => -d) (fun d hd => hsym d hd) (fun d hd => hsym d hd) (by simp) (by simp) ?_
    intro d hd
    simp only [neg_neg]
    by_cases a : st d = some n <;> by_cases b : -d ∈ O <;> simp [a, b]
  have h2 : ∑ d ∈ L with st d = some n, (if d ∈ O then (1 : ZMod 2) else 0) = ∑ d ∈ L, if st (-d) = some n ∧ d ∈ O then (1 : ZMod 2) else 0 := by
    rw [Finset.sum_filter]
    symm
    refine Finset.sum_bij' (fun d _ => ψ d) (fun d _ => ψ⁻¹ d) (fun d hd => hr.mem hd) (fun d hd => ?_) (by simp) (by simp) ?_
    · rw [← hr.mem_iff]; simpa using hd
    · intro d hd
      rw [hst d hd]
      by_cases a : st (-d) = some n <;> by_cases b : d ∈ O <;> simp [a, b, hψ d hd]
  rw [h1, h2]
  exact CharTwo.add_self_eq_zero _

/-- In a planar map both sides of an edge with the same face on both sides are on one contour. -/
theorem Jordan.bridge {L : Finset Int} {f finv : Int → Int} {ψ : Perm Int} {st lf : Int → Option Nat} (h : Jordan L st lf)
    (hr : Rep L f finv ψ) (hsym : ∀ d ∈ L, -d ∈ L) (hst : ∀ d ∈ L, st (ψ d) = st (-d)) {r : Int} (hrL : r ∈ L)
    (hl : lf r = lf (-r)) : SameCycle ψ r (-r) := by
  classical
  by_contra hne
  set O := L.filter (fun d => SameCycle ψ r d) with hO
  have hmO : ∀ d, d ∈ O ↔ d ∈ L ∧ SameCycle ψ r d := by intro d; simp [hO]
  let w : Nat → ZMod 2 := fun l => (if (l : Int) ∈ O then 1 else 0) + (if -(l : Int) ∈ O then 1 else 0)
  have hw : ∀ d : Int, w d.natAbs = (if d ∈ O then 1 else 0) + (if -d ∈ O then 1 else 0) := by
    intro d
    rcases (by omega : (d.natAbs : Int) = d ∨ (d.natAbs : Int) = -d) with e | e
    · simp only [w, e]
    · simp only [w, e, neg_neg]; ring
  obtain ⟨c, hc⟩ := h w (by
    intro n
    unfold bd
    simp only [hw]
    refine contour_closed hr hsym hst O (fun d hd => ((hmO d).mp hd).1) (fun d hd => ?_) n
    rw [hmO, hmO, hr.mem_iff, sameCycle_apply_right])
  have h1 := hc r hrL
  rw [hw, hl, CharTwo.add_self_eq_zero] at h1
  have m1 : r ∈ O := (hmO r).mpr ⟨hrL, SameCycle.refl _ _⟩
  have m2 : -r ∉ O := fun hc => hne ((hmO _).mp hc).2
  simp only [m1, m2, if_true, if_false, add_zero] at h1
  exact zmod2_one_ne h1

/-! ## connectivity -/

/-- two nodes are joined by an edge -/
def Adj (L : Finset Int) (st : Int → Option Nat) (a b : Nat) : Prop := ∃ d ∈ L, st d = some a ∧ st (-d) = some b

/-- two nodes are joined by a path of edges -/
def Conn (L : Finset Int) (st : Int → Option Nat) : Nat → Nat → Prop := Relation.ReflTransGen (Adj L st)

theorem Adj.symm {L : Finset Int} {st : Int → Option Nat} (hsym : ∀ d ∈ L, -d ∈ L) {a b : Nat} (h : Adj L st a b) : Adj L st b a := by
  obtain ⟨d, h1, h2, h3⟩ := h
  exact ⟨-d, hsym d h1, h3, by rw [neg_neg]; exact h2⟩

theorem Conn.symm {L : Finset Int} {st : Int → Option Nat} (hsym : ∀ d ∈ L, -d ∈ L) {a b : Nat} (h : Conn L st a b) : Conn L st b a := by
  induction h with
  | refl => exact Relation.ReflTransGen.refl
  | tail _ h2 ih => exact Relation.ReflTransGen.head (h2.symm hsym) ih

theorem Conn.refl (L : Finset Int) (st : Int → Option Nat) (a : Nat) : Conn L st a a := Relation.ReflTransGen.refl

theorem Conn.trans {L : Finset Int} {st : Int → Option Nat} {a b c : Nat} (h1 : Conn L st a b) (h2 : Conn L st b c) : Conn L st a c :=
  Relation.ReflTransGen.trans h1 h2

theorem Conn.single {L : Finset Int} {st : Int → Option Nat} {a b : Nat} (h : Adj L st a b) : Conn L st a b :=
  Relation.ReflTransGen.single h

/-- a path gives an edge set whose boundary is the two end points -/
theorem Conn.chain {L : Finset Int} {st : Int → Option Nat} (hsym : ∀ d ∈ L, -d ∈ L) (h0 : ∀ d ∈ L, d ≠ 0) {a b : Nat} (h : Conn L st a b) :
    ∃ w : Nat → ZMod 2, ∀ n, bd L st w n = (if a = n then 1 else 0) + (if b = n then 1 else 0) := by
  induction h with
  | refl =>
    refine ⟨fun _ => 0, fun n => ?_⟩
    rw [CharTwo.add_self_eq_zero]; simp [bd]
  | @tail b c _ h2 ih =>
    obtain ⟨w, hw⟩ := ih
    obtain ⟨d, d1, d2, d3⟩ := h2
    refine ⟨fun l => w l + if l = d.natAbs then 1 else 0, fun n => ?_⟩
    have hadd : bd L st (fun l => w l + if l = d.natAbs then 1 else 0) n = bd L st w n + bd L st (fun l => if l = d.natAbs then 1 else 0) n := by
      unfold bd; rw [Finset.sum_add_distrib]
    have hone : bd L st (fun l => if l = d.natAbs then 1 else 0) n = (if b = n then 1 else 0) + (if c = n then 1 else 0) := by
      rw [bd_eraseEdge d1 (hsym d d1) (h0 d d1)]
      have : bd (eraseEdge L d) st (fun l => if l = d.natAbs then (1 : ZMod 2) else 0) n = 0 := by
        unfold bd
        refine Finset.sum_eq_zero (fun x hx => ?_)
        rw [Finset.mem_filter, mem_eraseEdge] at hx
        exact if_neg (by omega)
      rw [this, d2, d3]
      simp
    rw [hadd, hone, hw]
    have : (if b = n then (1 : ZMod 2) else 0) + (if b = n then 1 else 0) = 0 := CharTwo.add_self_eq_zero _
    linear_combination this

/-- In a planar map the two ends of a bridge are not connected without the bridge. -/
theorem Jordan.disconnect {L : Finset Int} {st lf : Int → Option Nat} (h : Jordan L st lf) (hsym : ∀ d ∈ L, -d ∈ L)
    (h0 : ∀ d ∈ L, d ≠ 0) {r : Int} (hr : r ∈ L) (hl : lf r = lf (-r)) {a b : Nat} (ha : st r = some a) (hb : st (-r) = some b) :
    ¬ Conn (eraseEdge L r) st a b := by
  intro hcon
  have hsym' : ∀ d ∈ eraseEdge L r, -d ∈ eraseEdge L r := by
    intro d hd
    rw [mem_eraseEdge] at hd ⊢
    exact ⟨by omega, by omega, hsym d hd.2.2⟩
  obtain ⟨w, hw⟩ := hcon.chain hsym' (fun d hd => h0 d (mem_eraseEdge.mp hd).2.2)
  obtain ⟨c, hc⟩ := h (Function.update w r.natAbs 1) (by
    intro n
    rw [bd_eraseEdge hr (hsym r hr) (h0 r hr), Function.update_self, bd_congr (st := st) (w := w) (fun d _ => rfl), hw, ha, hb]
    · have h1 : (if a = n then (1 : ZMod 2) else 0) + (if a = n then 1 else 0) = 0 := CharTwo.add_self_eq_zero _
      have h2 : (if b = n then (1 : ZMod 2) else 0) + (if b = n then 1 else 0) = 0 := CharTwo.add_self_eq_zero _
      simp only [Option.some.injEq]
      linear_combination h1 + h2
    · intro d hd
      rw [mem_eraseEdge] at hd
      rw [Function.update_of_ne (by omega)])
  have := hc r hr
  rw [Function.update_self, hl, CharTwo.add_self_eq_zero] at this
  exact zmod2_one_ne this

/-- connectivity with and without one edge -/
theorem conn_erase {L : Finset Int} {st : Int → Option Nat} (hsym : ∀ d ∈ L, -d ∈ L) {r : Int} (hr : r ∈ L) {u v : Nat}
    (hu : st r = some u) (hv : st (-r) = some v) (a b : Nat) :
    Conn L st a b ↔ Conn (eraseEdge L r) st a b ∨ (Conn (eraseEdge L r) st a u ∧ Conn (eraseEdge L r) st v b) ∨
      (Conn (eraseEdge L r) st a v ∧ Conn (eraseEdge L r) st u b) := by
  have mono : ∀ {x y}, Conn (eraseEdge L r) st x y → Conn L st x y := by
    intro x y h
    refine Relation.ReflTransGen.mono (?_ : ∀ x y, _ → _) _ _ h
    rintro x y ⟨d, d1, d2⟩
    exact ⟨d, (mem_eraseEdge.mp d1).2.2, d2⟩
  have huv : Conn L st u v := Conn.single ⟨r, hr, hu, hv⟩
  constructor
  · intro h
    induction h with
    | refl => exact Or.inl (Conn.refl _ _ _)
    | @tail y z _ h2 ih =>
      obtain ⟨d, d1, d2, d3⟩ := h2
      by_cases hd : d ∈ eraseEdge L r
      · have hs : Conn (eraseEdge L r) st y z := Conn.single ⟨d, hd, d2, d3⟩
        rcases ih with h | ⟨h, h'⟩ | ⟨h, h'⟩
        · exact Or.inl (h.trans hs)
        · exact Or.inr (Or.inl ⟨h, h'.trans hs⟩)
        · exact Or.inr (Or.inr ⟨h, h'.trans hs⟩)
      · rw [mem_eraseEdge] at hd
        have : d = r ∨ d = -r := by
          by_contra hcc
          push Not at hcc
          exact hd ⟨hcc.2, hcc.1, d1⟩
        rcases this with rfl | rfl
        · rw [hu] at d2; cases d2
          rw [hv] at d3; cases d3
          rcases ih with h | ⟨h, h'⟩ | ⟨h, h'⟩
          · exact Or.inr (Or.inl ⟨h, Conn.refl _ _ _⟩)
          · exact Or.inr (Or.inl ⟨h, Conn.refl _ _ _⟩)
          · exact Or.inl h
        · rw [hv] at d2; cases d2
          rw [neg_neg, hu] at d3; cases d3
          rcases ih with h | ⟨h, h'⟩ | ⟨h, h'⟩
          · exact Or.inr (Or.inr ⟨h, Conn.refl _ _ _⟩)
          · exact Or.inl h
          · exact Or.inr (Or.inr ⟨h, Conn.refl _ _ _⟩)
  · rintro (h | ⟨h, h'⟩ | ⟨h, h'⟩)
    · exact mono h
    · exact (mono h).trans (huv.trans (mono h'))
    · exact (mono h).trans ((huv.symm hsym).trans (mono h'))

/-- The contour of `r` connects its ends if it does not contain `-r`. -/
theorem conn_of_contour {L : Finset Int} {f finv : Int → Int} {ψ : Perm Int} {st : Int → Option Nat} (hr : Rep L f finv ψ)
    (hst : ∀ d ∈ L, st (ψ d) = st (-d)) {r : Int} (hrL : r ∈ L) (hne : ¬ SameCycle ψ r (-r)) {u v : Nat}
    (hu : st r = some u) (hv : st (-r) = some v) (hall : ∀ d ∈ L, ∃ n, st d = some n) : Conn (eraseEdge L r) st v u := by
  obtain ⟨hp1, hp2⟩ := hr.isPeriodicPt hrL
  have key : ∀ k, k < Function.minimalPeriod f r → ∃ n, st (f^[k + 1] r) = some n ∧ Conn (eraseEdge L r) st v n := by
    intro k
    induction k with
    | zero =>
      intro _
      refine ⟨v, ?_, Conn.refl _ _ _⟩
      show st (f r) = some v
      rw [hr.eq r hrL, hst r hrL, hv]
    | succ k ih =>
      intro hk
      obtain ⟨n, h1, h2⟩ := ih (by omega)
      have hm := (hr.iterate_mem hrL (k + 1)).2
      have hcy : SameCycle ψ r (f^[k + 1] r) := (hr.sameCycle_iff hrL).mpr ⟨_, rfl⟩
      have hx : f^[k + 1] r ∈ eraseEdge L r := by
        rw [mem_eraseEdge]
        refine ⟨?_, ?_, hm⟩
        · intro e; rw [e] at hcy; exact hne hcy
        · exact hr.iterate_ne (by omega) hk
      have e1 : st (f^[k + 1 + 1] r) = st (-(f^[k + 1] r)) := by
        rw [Function.iterate_succ_apply' f (k + 1) r, hr.eq _ hm, hst _ hm]
      obtain ⟨n', hn'⟩ := hall _ (hr.iterate_mem hrL (k + 1 + 1)).2
      exact ⟨n', hn', h2.trans (Conn.single ⟨_, hx, h1, by rw [← e1, hn']⟩)⟩
  obtain ⟨n, h1, h2⟩ := key (Function.minimalPeriod f r - 1) (by omega)
  rw [Nat.sub_add_cancel hp1, Function.iterate_minimalPeriod, hu] at h1
  cases h1
  exact h2

/-! ## counting components -/

open Classical in
/-- number of classes of `R` on `V` -/
noncomputable def classes (V : Finset Nat) (R : Nat → Nat → Prop) : Nat :=
  (V.image fun n => V.filter (R n)).card

theorem classes_congr {V : Finset Nat} {R R' : Nat → Nat → Prop} (h : ∀ a ∈ V, ∀ b ∈ V, R a b ↔ R' a b) : classes V R = classes V R' := by
  classical
  unfold classes
  congr 1
  refine Finset.image_congr (fun a ha => ?_)
  ext b
  simp only [Finset.mem_filter]
  constructor
  · rintro ⟨h1, h2⟩; exact ⟨h1, (h a ha b h1).mp h2⟩
  · rintro ⟨h1, h2⟩; exact ⟨h1, (h a ha b h1).mpr h2⟩

open Classical in
theorem class_eq_iff {V : Finset Nat} {R : Nat → Nat → Prop} (hE : Equivalence R) {a b : Nat} (_ha : a ∈ V) (hb : b ∈ V) :
    V.filter (R a) = V.filter (R b) ↔ R a b := by
  constructor
  · intro h
    have : b ∈ V.filter (R b) := by simp [hb, hE.refl b]
    rw [← h] at this
    exact (Finset.mem_filter.mp this).2
  · intro h
    ext x
    simp only [Finset.mem_filter]
    constructor
    · rintro ⟨h1, h2⟩; exact ⟨h1, hE.trans (hE.symm h) h2⟩
    · rintro ⟨h1, h2⟩; exact ⟨h1, hE.trans h h2⟩

/-- joining two classes reduces the number by one -/
theorem classes_join {V : Finset Nat} {R R' : Nat → Nat → Prop} (hE : Equivalence R) (hE' : Equivalence R') {u v : Nat} (hu : u ∈ V) (hv : v ∈ V)
    (hj : ∀ a ∈ V, ∀ b ∈ V, R a b ↔ R' a b ∨ (R' a u ∧ R' v b) ∨ (R' a v ∧ R' u b)) (hne : ¬ R' u v) :
    classes V R' = classes V R + 1 := by
  classical
  unfold classes
  have himg : V.image (fun n => V.filter (R' n)) = insert (V.filter (R' v)) ((V.filter (fun n => ¬ R' v n)).image (fun n => V.filter (R' n))) := by
    ext A
    simp only [Finset.mem_image, Finset.mem_insert, Finset.mem_filter]
    constructor
    · rintro ⟨n, hn, rfl⟩
      by_cases h : R' v n
      · exact Or.inl ((class_eq_iff hE' hn hv).mpr (hE'.symm h))
      · exact Or.inr ⟨n, ⟨hn, h⟩, rfl⟩
    · rintro (rfl | ⟨n, ⟨hn, -⟩, rfl⟩)
      · exact ⟨v, hv, rfl⟩
      · exact ⟨n, hn, rfl⟩
  rw [himg, Finset.card_insert_of_notMem]
  · congr 1
    have hR : V.image (fun n => V.filter (R n)) = ((V.filter (fun n => ¬ R' v n)).image (fun n => V.filter (R n))) := by
      ext A
      simp only [Finset.mem_image, Finset.mem_filter]
      constructor
      · rintro ⟨n, hn, rfl⟩
        by_cases h : R' v n
        · refine ⟨u, ⟨hu, fun h' => hne (hE'.symm h')⟩, ?_⟩
          rw [class_eq_iff hE hu hn, hj u hu n hn]
          exact Or.inr (Or.inl ⟨hE'.refl _, h⟩)
        · exact ⟨n, ⟨hn, h⟩, rfl⟩
      · rintro ⟨n, ⟨hn, -⟩, rfl⟩
        exact ⟨n, hn, rfl⟩
    rw [hR]
    set W := V.filter (fun n => ¬ R' v n) with hW
    have hWm : ∀ n, n ∈ W ↔ n ∈ V ∧ ¬ R' v n := by intro n; simp [hW]
    -- both images have the same kernel on W
    have hker : ∀ a ∈ W, ∀ b ∈ W, V.filter (R' a) = V.filter (R' b) ↔ V.filter (R a) = V.filter (R b) := by
      intro a ha b hb
      obtain ⟨a1, a2⟩ := (hWm a).mp ha
      obtain ⟨b1, b2⟩ := (hWm b).mp hb
      rw [class_eq_iff hE' a1 b1, class_eq_iff hE a1 b1, hj a a1 b b1]
      constructor
      · exact Or.inl
      · rintro (h | ⟨-, h⟩ | ⟨h, -⟩)
        · exact h
        · exact absurd h b2
        · exact absurd (hE'.symm h) a2
    refine Finset.card_bij (fun A _ => if hA : ∃ n ∈ W, V.filter (R' n) = A then V.filter (R hA.choose) else ∅) ?_ ?_ ?_
    · intro A hA
      have hA' : ∃ n ∈ W, V.filter (R' n) = A := by simpa using hA
      rw [dif_pos hA']
      exact Finset.mem_image_of_mem _ hA'.choose_spec.1
    · intro A hA B hB hAB
      have hA' : ∃ n ∈ W, V.filter (R' n) = A := by simpa using hA
      have hB' : ∃ n ∈ W, V.filter (R' n) = B := by simpa using hB
      rw [dif_pos hA', dif_pos hB'] at hAB
      rw [← hA'.choose_spec.2, ← hB'.choose_spec.2]
      exact (hker _ hA'.choose_spec.1 _ hB'.choose_spec.1).mpr hAB
    · intro B hB
      obtain ⟨n, hn, rfl⟩ := Finset.mem_image.mp hB
      refine ⟨V.filter (R' n), Finset.mem_image_of_mem _ hn, ?_⟩
      have hA' : ∃ m ∈ W, V.filter (R' m) = V.filter (R' n) := ⟨n, hn, rfl⟩
      rw [dif_pos hA']
      exact (hker _ hA'.choose_spec.1 _ hn).mp hA'.choose_spec.2
  · simp only [Finset.mem_image, Finset.mem_filter, not_exists, not_and, and_imp]
    intro n hn h e
    exact h ((class_eq_iff hE' hv hn).mp e.symm)

/-- removing a member of a class with another member -/
theorem classes_erase_of_rel {V : Finset Nat} {R : Nat → Nat → Prop} (hE : Equivalence R) {m k : Nat} (hm : m ∈ V) (hk : k ∈ V) (hkm : k ≠ m)
    (h : R m k) : classes (V.erase m) R = classes V R := by
  classical
  unfold classes
  have hR : V.image (fun n => V.filter (R n)) = (V.erase m).image (fun n => V.filter (R n)) := by
    ext A
    simp only [Finset.mem_image]
    constructor
    · rintro ⟨n, hn, rfl⟩
      by_cases e : n = m
      · subst e
        exact ⟨k, Finset.mem_erase.mpr ⟨hkm, hk⟩, (class_eq_iff hE hk hn).mpr (hE.symm h)⟩
      · exact ⟨n, Finset.mem_erase.mpr ⟨e, hn⟩, rfl⟩
    · rintro ⟨n, hn, rfl⟩
      exact ⟨n, (Finset.mem_erase.mp hn).2, rfl⟩
  rw [hR]
  refine Finset.card_bij (fun A _ => if hA : ∃ n ∈ V.erase m, (V.erase m).filter (R n) = A then V.filter (R hA.choose) else ∅) ?_ ?_ ?_
  · intro A hA
    have hA' : ∃ n ∈ V.erase m, (V.erase m).filter (R n) = A := by simpa using hA
    rw [dif_pos hA']
    exact Finset.mem_image_of_mem _ hA'.choose_spec.1
  · intro A hA B hB hAB
    have hA' : ∃ n ∈ V.erase m, (V.erase m).filter (R n) = A := by simpa using hA
    have hB' : ∃ n ∈ V.erase m, (V.erase m).filter (R n) = B := by simpa using hB
    rw [dif_pos hA', dif_pos hB'] at hAB
    rw [← hA'.choose_spec.2, ← hB'.choose_spec.2]
    rw [class_eq_iff hE hA'.choose_spec.1 hB'.choose_spec.1]
    exact (class_eq_iff hE (Finset.mem_erase.mp hA'.choose_spec.1).2 (Finset.mem_erase.mp hB'.choose_spec.1).2).mp hAB
  · intro B hB
    obtain ⟨n, hn, rfl⟩ := Finset.mem_image.mp hB
    refine ⟨(V.erase m).filter (R n), Finset.mem_image_of_mem _ hn, ?_⟩
    have hA' : ∃ k ∈ V.erase m, (V.erase m).filter (R k) = (V.erase m).filter (R n) := ⟨n, hn, rfl⟩
    rw [dif_pos hA']
    rw [class_eq_iff hE (Finset.mem_erase.mp hA'.choose_spec.1).2 (Finset.mem_erase.mp hn).2]
    exact (class_eq_iff hE hA'.choose_spec.1 hn).mp hA'.choose_spec.2

/-- removing a class with one member -/
theorem classes_erase_single {V : Finset Nat} {R : Nat → Nat → Prop} (hE : Equivalence R) {m : Nat} (hm : m ∈ V)
    (h : ∀ k ∈ V, R m k → k = m) : classes V R = classes (V.erase m) R + 1 := by
  classical
  unfold classes
  have himg : V.image (fun n => V.filter (R n)) = insert {m} ((V.erase m).image (fun n => (V.erase m).filter (R n))) := by
    have hmm : V.filter (R m) = {m} := by
      ext x
      simp only [Finset.mem_filter, Finset.mem_singleton]
      constructor
      · rintro ⟨h1, h2⟩; exact h x h1 h2
      · rintro rfl; exact ⟨hm, hE.refl _⟩
    have hnn : ∀ n ∈ V.erase m, V.filter (R n) = (V.erase m).filter (R n) := by
      intro n hn
      obtain ⟨n1, n2⟩ := Finset.mem_erase.mp hn
      ext x
      simp only [Finset.mem_filter, Finset.mem_erase]
      constructor
      · rintro ⟨h1, h2⟩
        refine ⟨⟨?_, h1⟩, h2⟩
        rintro rfl
        exact n1 (h n n2 (hE.symm h2))
      · rintro ⟨⟨-, h1⟩, h2⟩; exact ⟨h1, h2⟩
    ext A
    simp only [Finset.mem_image, Finset.mem_insert]
    constructor
    · rintro ⟨n, hn, rfl⟩
      by_cases e : n = m
      · subst e; exact Or.inl hmm
      · have := Finset.mem_erase.mpr ⟨e, hn⟩
        exact Or.inr ⟨n, this, (hnn n this).symm⟩
    · rintro (rfl | ⟨n, hn, rfl⟩)
      · exact ⟨m, hm, hmm⟩
      · exact ⟨n, (Finset.mem_erase.mp hn).2, hnn n hn⟩
  rw [himg, Finset.card_insert_of_notMem]
  intro hc
  obtain ⟨n, hn, e⟩ := Finset.mem_image.mp hc
  have : n ∈ ({m} : Finset Nat) := by rw [← e]; simp [hn, hE.refl n]
  rw [Finset.mem_singleton] at this
  exact (Finset.mem_erase.mp hn).1 this

theorem conn_equivalence {L : Finset Int} {st : Int → Option Nat} (hsym : ∀ d ∈ L, -d ∈ L) : Equivalence (Conn L st) :=
  ⟨Conn.refl L st, fun h => h.symm hsym, fun h1 h2 => h1.trans h2⟩

end Verif.GeoMap
