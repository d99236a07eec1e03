import Verif.FourEight.DartLemmas
import Verif.FourEight.DartTable

/-!
# Following an edge

A step of `EdgelIterator` is undone by the same step in the other direction, therefore following an edge from its start ends, and following
it from there leads back.
-/

namespace Verif.FourEight
open Verif Verif.CellImage

section
variable {m : Map}

/-- a way from a pixel of a node or an edge to another one -/
structure Link (m : Map) (d : Dart) : Prop where
  inside : m.inside d.x d.y
  here : (m.px d.x d.y).1 ≠ .region
  there : (m.look d.x d.y d.dir).1 ≠ .region
  between : d.dir.val % 2 = 1 → (m.look d.x d.y (d.dir + 1)).1 = .region ∧ (m.look d.x d.y (d.dir + 7)).1 = .region

theorem IsDart.link {d : Dart} (h : IsDart m d) : Link m d :=
  ⟨h.inside, by rw [h.node]; decide, by rw [h.edge]; decide, h.between⟩

theorem swap_swap (d : Dart) : d.swap.swap = d := by
  obtain ⟨x, y, δ⟩ := d
  have h := dir_opp δ
  show Dart.mk (x + dx δ + dx (δ + 4)) (y + dy δ + dy (δ + 4)) (δ + 4 + 4) = _
  have e : δ + 4 + 4 = δ := by revert δ; decide
  rw [add_assoc, add_assoc, h.1, h.2, add_zero, add_zero, e]

theorem swap_inj {a b : Dart} (h : a.swap = b.swap) : a = b := by rw [← swap_swap a, h, swap_swap]

theorem look_swap (d : Dart) : m.look d.swap.x d.swap.y d.swap.dir = m.px d.x d.y := look_back (dir_opp d.dir)

theorem px_swap (d : Dart) : m.px d.swap.x d.swap.y = m.look d.x d.y d.dir := rfl

theorem dir_between1 {δ : Fin 8} (h : δ.val % 2 = 1) : dx δ + dx (δ + 4 + 1) = dx (δ + 7) ∧ dy δ + dy (δ + 4 + 1) = dy (δ + 7) := by
  revert h; revert δ; decide

theorem dir_between7 {δ : Fin 8} (h : δ.val % 2 = 1) : dx δ + dx (δ + 4 + 7) = dx (δ + 1) ∧ dy δ + dy (δ + 4 + 7) = dy (δ + 1) := by
  revert h; revert δ; decide

theorem par_opp (δ : Fin 8) : (δ + 4).val % 2 = δ.val % 2 := by revert δ; decide

theorem Link.swap (hc : Clean m) {d : Dart} (h : Link m d) : Link m d.swap where
  inside := hc.near h.inside h.here d.dir
  here := h.there
  there := by rw [look_swap]; exact h.here
  between := by
    intro ho
    have ho' : d.dir.val % 2 = 1 := by rw [← par_opp]; exact ho
    obtain ⟨h1, h2⟩ := h.between ho'
    constructor
    · show (m.look (d.x + dx d.dir) (d.y + dy d.dir) (d.dir + 4 + 1)).1 = _
      rw [look_shift (dir_between1 ho')]; exact h2
    · show (m.look (d.x + dx d.dir) (d.y + dy d.dir) (d.dir + 4 + 7)).1 = _
      rw [look_shift (dir_between7 ho')]; exact h1

/-- the neighbours that belong to nodes or edges -/
def ringOf (m : Map) (x y : Int) : Fin 8 → Bool := fun j => decide ((m.look x y j).1 ≠ .region)

theorem ringOf_true {x y : Int} {j : Fin 8} : ringOf m x y j = true ↔ (m.look x y j).1 ≠ .region := by
  unfold ringOf; exact decide_eq_true_iff

theorem ringOf_false {x y : Int} {j : Fin 8} : ringOf m x y j = false ↔ (m.look x y j).1 = .region := by
  unfold ringOf; rw [decide_eq_false_iff_not, not_not]

theorem link_iff {x y : Int} {b : Fin 8} (hi : m.inside x y) (hn : (m.px x y).1 ≠ .region) :
    Link m ⟨x, y, b⟩ ↔ good (ringOf m x y) b = true := by
  unfold good
  rw [Bool.and_eq_true, ringOf_true, Bool.or_eq_true, beq_iff_eq, Bool.and_eq_true, Bool.not_eq_true', Bool.not_eq_true', ringOf_false,
    ringOf_false]
  constructor
  · intro h
    refine ⟨h.there, ?_⟩
    by_cases ho : b.val % 2 = 1
    · exact Or.inr (h.between ho)
    · exact Or.inl (by omega)
  · rintro ⟨h1, h2⟩
    refine ⟨hi, hn, h1, fun ho => ?_⟩
    rcases h2 with h2 | h2
    · exact absurd (show b.val % 2 = 1 from ho) (by omega)
    · exact h2

theorem edgelTurn_eq (hc : Clean m) {x y : Int} (hi : m.inside x y) (hn : (m.px x y).1 ≠ .region) (k : Nat) (j : Fin 8) {e : Fin 8}
    (h : turnTo (ringOf m x y) k j = some e) : edgelTurn m k ⟨x, y, j⟩ = .ok ⟨x, y, e⟩ := by
  induction k generalizing j with
  | zero => simp [turnTo] at h
  | succ k ih =>
    rw [turnTo] at h
    rw [edgelTurn, hc.nb (d := ⟨x, y, j⟩) hi hn, Outcome.bind_ok]
    dsimp only
    rw [add_zero]
    by_cases hj : ringOf m x y j = true
    · rw [if_pos hj] at h
      rw [if_pos (ringOf_true.1 hj)]
      cases h
      rfl
    · rw [if_neg hj] at h
      rw [if_neg (fun hh => hj (ringOf_true.2 hh))]
      exact ih _ h

/-- one step along an edge -/
theorem edgelNext_eq (hc : Clean m) (ht : Traceable m) {d : Dart} (h : Link m d) (hl : (m.look d.x d.y d.dir).1 = .line) :
    ∃ e, exit (ringOf m d.swap.x d.swap.y) d.swap.dir = some e ∧ edgelNext m d = .ok ⟨d.swap.x, d.swap.y, e⟩ ∧
      Link m ⟨d.swap.x, d.swap.y, e⟩ ∧ exit (ringOf m d.swap.x d.swap.y) e = some d.swap.dir := by
  have hs := h.swap hc
  have hcl : cellConf .line (ringOf m d.swap.x d.swap.y) = .line := ht _ _ hs.inside hl
  have hg : good (ringOf m d.swap.x d.swap.y) d.swap.dir = true := (link_iff hs.inside hs.here).1 hs
  obtain ⟨e, h1, h2, h3⟩ := table_exit _ hcl _ hg
  refine ⟨e, h1, ?_, (link_iff hs.inside hs.here).2 h2, h3⟩
  unfold exit at h1
  obtain ⟨a, ha, hae⟩ := Option.map_eq_some_iff.1 h1
  have hturn := edgelTurn_eq hc hs.inside hs.here 8 _ ha
  have e0 : d.move.turn 6 = ⟨d.swap.x, d.swap.y, d.swap.dir + 4 + 6⟩ := by
    show Dart.mk (d.x + dx d.dir) (d.y + dy d.dir) (d.dir + 6) = ⟨d.x + dx d.dir, d.y + dy d.dir, d.dir + 4 + 4 + 6⟩
    have : d.dir + 4 + 4 + 6 = d.dir + 6 := by generalize d.dir = δ; revert δ; decide
    rw [this]
  unfold edgelNext
  rw [e0, hturn, Outcome.bind_ok]
  unfold straighten at hae
  dsimp only
  by_cases ho : a.val % 2 = 1
  · rw [if_pos ho] at hae ⊢
    rw [hc.nb (d := ⟨d.swap.x, d.swap.y, a⟩) hs.inside hs.here, Outcome.bind_ok]
    dsimp only
    by_cases hn : ringOf m d.swap.x d.swap.y (a + 1) = true
    · rw [if_pos hn] at hae
      rw [if_pos (ringOf_true.1 hn), ← hae]
      rfl
    · rw [if_neg hn] at hae
      rw [if_neg (fun hh => hn (ringOf_true.2 hh)), hae]
  · rw [if_neg ho] at hae ⊢
    rw [hae]

/-- the next position along an edge (as a total function) -/
def nextD (m : Map) (d : Dart) : Dart := ⟨d.swap.x, d.swap.y, (exit (ringOf m d.swap.x d.swap.y) d.swap.dir).getD 0⟩

theorem nextD_spec (hc : Clean m) (ht : Traceable m) {d : Dart} (h : Link m d) (hl : (m.look d.x d.y d.dir).1 = .line) :
    edgelNext m d = .ok (nextD m d) ∧ Link m (nextD m d) ∧ nextD m (nextD m d).swap = d.swap ∧
    exit (ringOf m d.swap.x d.swap.y) d.swap.dir = some (nextD m d).dir := by
  obtain ⟨e, h1, h2, h3, h4⟩ := edgelNext_eq hc ht h hl
  have e1 : nextD m d = ⟨d.swap.x, d.swap.y, e⟩ := by unfold nextD; rw [h1]; rfl
  rw [e1]
  refine ⟨h2, h3, ?_, h1⟩
  unfold nextD
  rw [swap_swap]
  dsimp only
  rw [h4]
  rfl

theorem iter_link (hc : Clean m) (ht : Traceable m) {d : Dart} (h : Link m d) (n : Nat)
    (hl : ∀ i < n, (m.look ((nextD m)^[i] d).x ((nextD m)^[i] d).y ((nextD m)^[i] d).dir).1 = .line) :
    Link m ((nextD m)^[n] d) := by
  induction n with
  | zero => exact h
  | succ n ih =>
    rw [Function.iterate_succ_apply']
    exact (nextD_spec hc ht (ih fun i hi => hl i (by omega)) (hl n (by omega))).2.1

theorem iter_back (hc : Clean m) (ht : Traceable m) {d : Dart} (h : Link m d) (n : Nat)
    (hl : ∀ i < n, (m.look ((nextD m)^[i] d).x ((nextD m)^[i] d).y ((nextD m)^[i] d).dir).1 = .line) (i : Nat) (hi : i ≤ n) :
    (nextD m)^[i] ((nextD m)^[n] d).swap = ((nextD m)^[n - i] d).swap := by
  induction i with
  | zero => rfl
  | succ i ih =>
    rw [Function.iterate_succ_apply', ih (by omega)]
    obtain ⟨j, hj⟩ : ∃ j, n - i = j + 1 := ⟨n - i - 1, by omega⟩
    rw [hj, Function.iterate_succ_apply', (nextD_spec hc ht (iter_link hc ht h j fun a ha => hl a (by omega)) (hl j (by omega))).2.2.1]
    congr 2
    omega

/-- the centre of a later position is the neighbour of the one before -/
theorem px_nextD (d : Dart) : m.px (nextD m d).x (nextD m d).y = m.look d.x d.y d.dir := rfl

theorem iter_inj (hc : Clean m) (ht : Traceable m) {d : Dart} (h : Link m d) (hv : (m.px d.x d.y).1 = .vertex) (n : Nat)
    (hl : ∀ i < n, (m.look ((nextD m)^[i] d).x ((nextD m)^[i] d).y ((nextD m)^[i] d).dir).1 = .line) (j i : Nat) (hij : i < j) (hj : j ≤ n) :
    (nextD m)^[i] d ≠ (nextD m)^[j] d := by
  induction i generalizing j with
  | zero =>
    intro e
    obtain ⟨j', rfl⟩ : ∃ j', j = j' + 1 := ⟨j - 1, by omega⟩
    have h1 := hl j' (by omega)
    rw [← px_nextD, ← Function.iterate_succ_apply' (f := nextD m), ← e] at h1
    exact absurd (hv.symm.trans h1) (by decide)
  | succ i ih =>
    intro e
    obtain ⟨j', rfl⟩ : ∃ j', j = j' + 1 := ⟨j - 1, by omega⟩
    refine ih j' (by omega) (by omega) (swap_inj ?_)
    rw [Function.iterate_succ_apply', Function.iterate_succ_apply'] at e
    rw [← (nextD_spec hc ht (iter_link hc ht h i fun a ha => hl a (by omega)) (hl i (by omega))).2.2.1,
      ← (nextD_spec hc ht (iter_link hc ht h j' fun a ha => hl a (by omega)) (hl j' (by omega))).2.2.1, e]

/-- following an edge ends -/
theorem edge_ends (hc : Clean m) (ht : Traceable m) {d : Dart} (h : IsDart m d) :
    ∃ n, n < m.fuel ∧ (m.look ((nextD m)^[n + 1] d).x ((nextD m)^[n + 1] d).y ((nextD m)^[n + 1] d).dir).1 = .vertex ∧
      ∀ i < n + 1, (m.look ((nextD m)^[i] d).x ((nextD m)^[i] d).y ((nextD m)^[i] d).dir).1 = .line := by
  classical
  by_cases hall : ∀ i ≤ 8 * m.w * m.h, (m.look ((nextD m)^[i] d).x ((nextD m)^[i] d).y ((nextD m)^[i] d).dir).1 = .line
  · exfalso
    let S := (Finset.Ico (-2) ((m.w : Int) - 2) ×ˢ Finset.Ico (-2) ((m.h : Int) - 2)) ×ˢ (Finset.univ : Finset (Fin 8))
    have hS : S.card = 8 * m.w * m.h := by
      simp only [S, Finset.card_product, Int.card_Ico, Finset.card_univ, Fintype.card_fin]
      have e1 : ((m.w : Int) - 2 - -2).toNat = m.w := by omega
      have e2 : ((m.h : Int) - 2 - -2).toNat = m.h := by omega
      rw [e1, e2]
      ring
    have hcard : (Finset.range (8 * m.w * m.h + 1)).card ≤ S.card := by
      refine Finset.card_le_card_of_injOn (fun i => ((((nextD m)^[i] d).x, ((nextD m)^[i] d).y), ((nextD m)^[i] d).dir)) ?_ ?_
      · intro i hi
        have hi' : i < 8 * m.w * m.h + 1 := by simpa using hi
        have hin := (iter_link hc ht h.link i fun a ha => hall a (by omega)).inside
        unfold Map.inside at hin
        simp only [S, Finset.coe_product, Set.mem_prod, Finset.mem_coe, Finset.mem_Ico, Finset.mem_univ, and_true]
        omega
      · intro i hi j hj e
        have hi' : i < 8 * m.w * m.h + 1 := by simpa using hi
        have hj' : j < 8 * m.w * m.h + 1 := by simpa using hj
        have e' : (nextD m)^[i] d = (nextD m)^[j] d := by
          simp only [Prod.mk.injEq] at e
          rcases ha : (nextD m)^[i] d with ⟨a, b, c⟩
          rcases hb : (nextD m)^[j] d with ⟨a', b', c'⟩
          rw [ha, hb] at e
          obtain ⟨⟨rfl, rfl⟩, rfl⟩ := e
          rfl
        rcases Nat.lt_trichotomy i j with hh | hh | hh
        · exact absurd e' (iter_inj hc ht h.link h.node (8 * m.w * m.h) (fun a ha => hall a (by omega)) j i hh (by omega))
        · exact hh
        · exact absurd e'.symm (iter_inj hc ht h.link h.node (8 * m.w * m.h) (fun a ha => hall a (by omega)) i j hh (by omega))
    rw [hS, Finset.card_range] at hcard
    omega
  · have hex : ∃ i, ¬(m.look ((nextD m)^[i] d).x ((nextD m)^[i] d).y ((nextD m)^[i] d).dir).1 = .line := by
      by_contra hh
      exact hall fun i _ => by
        by_contra h2
        exact hh ⟨i, h2⟩
    have hmin : ∀ i < Nat.find hex, (m.look ((nextD m)^[i] d).x ((nextD m)^[i] d).y ((nextD m)^[i] d).dir).1 = .line :=
      fun i hi => by
        by_contra h2
        exact Nat.find_min hex hi h2
    have hpos : 0 < Nat.find hex := by
      rcases Nat.eq_zero_or_pos (Nat.find hex) with h0 | h0
      · exfalso
        have := Nat.find_spec hex
        rw [h0] at this
        exact this h.edge
      · exact h0
    obtain ⟨n, hn⟩ : ∃ n, Nat.find hex = n + 1 := ⟨Nat.find hex - 1, by omega⟩
    refine ⟨n, ?_, ?_, fun i hi => hmin i (by omega)⟩
    · push Not at hall
      obtain ⟨i, h1, h2⟩ := hall
      have := Nat.find_min' hex h2
      unfold Map.fuel
      omega
    · have h1 := Nat.find_spec hex
      rw [hn] at h1
      have hlk := iter_link hc ht h.link (n + 1) fun i hi => hmin i (by omega)
      rcases hc.look_types hlk.inside hlk.here ((nextD m)^[n + 1] d).dir with h2 | h2 | h2
      · exact h2
      · exact absurd h2 h1
      · exact absurd h2 hlk.there

theorem edgelJump_eq (hc : Clean m) (ht : Traceable m) (n : Nat) {d : Dart} (h : Link m d)
    (hv : (m.look ((nextD m)^[n + 1] d).x ((nextD m)^[n + 1] d).y ((nextD m)^[n + 1] d).dir).1 = .vertex)
    (hl : ∀ i < n + 1, (m.look ((nextD m)^[i] d).x ((nextD m)^[i] d).y ((nextD m)^[i] d).dir).1 = .line) (k : Nat) (hk : n < k) :
    edgelJump m k d = .ok ((nextD m)^[n + 1] d).swap := by
  induction n generalizing d k with
  | zero =>
    obtain ⟨k, rfl⟩ : ∃ k', k = k' + 1 := ⟨k - 1, by omega⟩
    obtain ⟨h1, h2, -⟩ := nextD_spec hc ht h (hl 0 (by omega))
    have hv' : (m.look (nextD m d).x (nextD m d).y (nextD m d).dir).1 = .vertex := hv
    rw [edgelJump, h1, Outcome.bind_ok, hc.nb h2.inside h2.here, Outcome.bind_ok, add_zero, if_pos hv']
    rfl
  | succ n ih =>
    obtain ⟨k, rfl⟩ : ∃ k', k = k' + 1 := ⟨k - 1, by omega⟩
    obtain ⟨h1, h2, -⟩ := nextD_spec hc ht h (hl 0 (by omega))
    have h3 := hl 1 (by omega)
    rw [edgelJump, h1, Outcome.bind_ok, hc.nb h2.inside h2.here, Outcome.bind_ok, add_zero,
      if_neg (by
        intro hh
        exact absurd (hh.symm.trans h3) (by decide))]
    exact ih h2 hv (fun i hi => hl (i + 1) (by omega)) k (by omega)

/-- what following an edge does, in both directions -/
theorem jump_both (hc : Clean m) (ht : Traceable m) {d : Dart} (h : IsDart m d) :
    ∃ n, edgelJump m m.fuel d = .ok ((nextD m)^[n + 1] d).swap ∧ IsDart m ((nextD m)^[n + 1] d).swap ∧
      edgelJump m m.fuel ((nextD m)^[n + 1] d).swap = .ok d ∧
      ∀ i < n + 1, (m.look ((nextD m)^[i] d).x ((nextD m)^[i] d).y ((nextD m)^[i] d).dir).1 = .line := by
  obtain ⟨n, hf, hv, hl⟩ := edge_ends hc ht h
  have hend := iter_link hc ht h.link (n + 1) hl
  have hsw := hend.swap hc
  have hback := iter_back hc ht h.link (n + 1) hl
  have hedge : (m.look ((nextD m)^[n + 1] d).swap.x ((nextD m)^[n + 1] d).swap.y ((nextD m)^[n + 1] d).swap.dir).1 = .line := by
    rw [look_swap, Function.iterate_succ_apply', px_nextD]
    exact hl n (by omega)
  refine ⟨n, edgelJump_eq hc ht n h.link hv hl _ hf, ⟨hsw.inside, hv, hedge, hsw.between⟩, ?_, hl⟩
  have e := edgelJump_eq hc ht n hsw (k := m.fuel) ?_ ?_ hf
  · rw [e, hback (n + 1) (by omega), Nat.sub_self, Function.iterate_zero, id_eq, swap_swap]
  · rw [hback (n + 1) (by omega), Nat.sub_self, Function.iterate_zero, id_eq, look_swap]
    exact h.node
  · intro i hi
    rw [hback i (by omega), look_swap]
    obtain ⟨j, hj⟩ : ∃ j, n + 1 - i = j + 1 := ⟨n - i, by omega⟩
    rw [hj, Function.iterate_succ_apply', px_nextD]
    exact hl j (by omega)

end

end Verif.FourEight
