import Verif.NodeIndex.Model
import Mathlib.Tactic.Linarith
import Mathlib.Tactic.Ring
import Mathlib.Data.List.Perm.Basic
import Mathlib.Data.List.Nodup
import Mathlib.Algebra.Order.Ring.Rat

/-! # Looking up nodes by position: properties (C28) -/

set_option linter.unusedSectionVars false

namespace Verif.NodeIndex
open Verif Verif.GeoMap

variable {K : Type} [Field K] [LinearOrder K] [IsStrictOrderedRing K]

/-! ## Specification -/

/-- There is a node with the label `l` at `p`. -/
def At (nodes : List (Option (Pt K))) (l : Nat) (p : Pt K) : Prop := nodes[l]? = some (some p)

/-- No two nodes are at the same position. -/
def Distinct (nodes : List (Option (Pt K))) : Prop := ∀ l l' p, At nodes l p → At nodes l' p → l = l'

/-- `r` is the answer to a query: a node nearer than the bound and not further away than any other node, or
nothing if there is no node nearer than the bound. -/
def IsNearest (nodes : List (Option (Pt K))) (p : Pt K) (maxDist2 : K) : Option Nat → Prop
  | some l => ∃ q, At nodes l q ∧ dist2 q p < maxDist2 ∧ ∀ l' q', At nodes l' q' → dist2 q p ≤ dist2 q' p
  | none => ∀ l q, At nodes l q → maxDist2 ≤ dist2 q p

/-- What the operations are meant to do to the nodes. -/
def Op.nodes (nodes : List (Option (Pt K))) : Op K → List (Option (Pt K))
  | .add p => nodes ++ [some p]
  | .remove l => nodes.set l none
  | .move l p => nodes.set l (some p)

/-- The operation refers to a node that exists. -/
def Op.legal (nodes : List (Option (Pt K))) : Op K → Prop
  | .add _ => True
  | .remove l => ∃ p, At nodes l p
  | .move l _ => ∃ p, At nodes l p

/-- Running a sequence of operations; the map starts without nodes (cppmap.cxx:230-243). -/
def runAll (eps : K) : State K → List (Op K) → Outcome (State K)
  | s, [] => .ok s
  | s, o :: os => (o.run eps s).bind fun t => runAll eps t os

def init : State K := { nodes := [], index := [] }

/-- A history that refers to existing nodes and never puts two nodes on the same position. -/
def Legal : List (Option (Pt K)) → List (Op K) → Prop
  | _, [] => True
  | ns, o :: os => o.legal ns ∧ Distinct (o.nodes ns) ∧ Legal (o.nodes ns) os

/-- The nodes after a history. -/
def finalNodes (ns : List (Option (Pt K))) (os : List (Op K)) : List (Option (Pt K)) :=
  os.foldl Op.nodes ns

/-! ## The search -/

/-- squared distance in the first coordinate -/
def dx2 (v : Pt K) (e : Entry K) : K := (e.pos.1 - v.1) * (e.pos.1 - v.1)

theorem dx2_le (v : Pt K) (e : Entry K) : dx2 v e ≤ dist2 e.pos v :=
  le_add_of_nonneg_right (mul_self_nonneg _)

theorem look_spec (v : Pt K) (L : List (Entry K × Nat)) (best : Option Nat × K)
    (hs : L.Pairwise fun a b => dx2 v a.1 ≤ dx2 v b.1) :
    (look v best L).2 ≤ best.2 ∧ (∀ a ∈ L, (look v best L).2 ≤ dist2 a.1.pos v) ∧
      (look v best L = best ∨ ∃ a ∈ L, look v best L = (some a.2, dist2 a.1.pos v) ∧
        (look v best L).2 < best.2) := by
  induction L generalizing best with
  | nil => exact ⟨le_rfl, fun a ha => (by cases ha), .inl rfl⟩
  | cons a L ih =>
    obtain ⟨e, i⟩ := a
    obtain ⟨hs1, hs2⟩ := List.pairwise_cons.mp hs
    simp only [look]
    by_cases hb : best.2 < (e.pos.1 - v.1) * (e.pos.1 - v.1)
    · rw [if_pos hb]
      refine ⟨le_rfl, fun a ha => ?_, .inl rfl⟩
      rcases List.mem_cons.mp ha with rfl | ha
      · exact hb.le.trans (dx2_le v e)
      · exact hb.le.trans ((hs1 a ha).trans (dx2_le v a.1))
    · rw [if_neg hb]
      by_cases hd : dist2 e.pos v < best.2
      · rw [if_pos hd]
        obtain ⟨h1, h2, h3⟩ := ih (some i, dist2 e.pos v) hs2
        refine ⟨h1.trans hd.le, fun a ha => ?_, .inr ?_⟩
        · rcases List.mem_cons.mp ha with rfl | ha
          · exact h1
          · exact h2 a ha
        · rcases h3 with h3 | ⟨a, ha, h3, h4⟩
          · exact ⟨(e, i), List.mem_cons_self, h3, by rw [h3]; exact hd⟩
          · exact ⟨a, List.mem_cons_of_mem _ ha, h3, h4.trans hd⟩
      · rw [if_neg hd]
        obtain ⟨h1, h2, h3⟩ := ih best hs2
        refine ⟨h1, fun a ha => ?_, ?_⟩
        · rcases List.mem_cons.mp ha with rfl | ha
          · exact h1.trans (not_lt.mp hd)
          · exact h2 a ha
        · rcases h3 with h3 | ⟨a, ha, h3, h4⟩
          · exact .inl h3
          · exact .inr ⟨a, List.mem_cons_of_mem _ ha, h3, h4⟩

/-- the order of the multimap -/
def Sorted (m : List (Entry K)) : Prop := m.Pairwise fun a b => a.pos.1 ≤ b.pos.1

theorem lowerBound_spec {m : List (Entry K)} (hs : Sorted m) (x : K) :
    (∀ e ∈ m.take (lowerBound x m), e.pos.1 < x) ∧ (∀ e ∈ m.drop (lowerBound x m), x ≤ e.pos.1) := by
  induction m with
  | nil => simp
  | cons f m ih =>
    obtain ⟨h1, h2⟩ := List.pairwise_cons.mp hs
    simp only [lowerBound]
    by_cases h : f.pos.1 < x
    · rw [if_pos h]
      obtain ⟨i1, i2⟩ := ih h2
      refine ⟨fun e he => ?_, fun e he => i2 e he⟩
      rw [List.take_succ_cons] at he
      rcases List.mem_cons.mp he with rfl | he
      · exact h
      · exact i1 e he
    · rw [if_neg h]
      refine ⟨fun e he => by simp at he, fun e he => ?_⟩
      rcases List.mem_cons.mp he with rfl | he
      · exact not_lt.mp h
      · exact (not_lt.mp h).trans (h1 e he)

theorem zipIdx_mem {m : List (Entry K)} {a : Entry K × Nat} (h : a ∈ m.zipIdx) : m[a.2]? = some a.1 := by
  rw [List.mem_zipIdx_iff_getElem?] at h
  exact h

theorem mem_zip {m : List (Entry K)} {e : Entry K} (h : e ∈ m) : ∃ i, (e, i) ∈ m.zipIdx := by
  obtain ⟨i, hi⟩ := List.getElem?_of_mem h
  exact ⟨i, List.mem_zipIdx_iff_getElem?.mpr hi⟩

theorem zip_sorted {m : List (Entry K)} (hs : Sorted m) :
    m.zipIdx.Pairwise fun a b => a.1.pos.1 ≤ b.1.pos.1 := by
  have : (m.zipIdx.map Prod.fst).Pairwise fun a b => a.pos.1 ≤ b.pos.1 := by
    rw [List.zipIdx_map_fst]
    exact hs
  exact (List.pairwise_map (R := fun a b : Entry K => a.pos.1 ≤ b.pos.1)).mp this

theorem fst_mem {m : List (Entry K)} (k : Nat) :
    (∀ a ∈ m.zipIdx.take k, a.1 ∈ m.take k) ∧ (∀ a ∈ m.zipIdx.drop k, a.1 ∈ m.drop k) := by
  constructor
  · intro a ha
    have := List.mem_map_of_mem (f := Prod.fst) ha
    rwa [List.map_take, List.zipIdx_map_fst] at this
  · intro a ha
    have := List.mem_map_of_mem (f := Prod.fst) ha
    rwa [List.map_drop, List.zipIdx_map_fst] at this

/-- What `nearest` returns. -/
theorem nearest_spec {m : List (Entry K)} (hs : Sorted m) (v : Pt K) (M : K) :
    match nearest m v M with
    | none => ∀ e ∈ m, M ≤ dist2 e.pos v
    | some i => ∃ e, m[i]? = some e ∧ dist2 e.pos v < M ∧ ∀ e' ∈ m, dist2 e.pos v ≤ dist2 e'.pos v := by
  obtain ⟨b1, b2⟩ := lowerBound_spec hs v.1
  obtain ⟨f1, f2⟩ := fst_mem (m := m) (lowerBound v.1 m)
  have hz := zip_sorted hs
  rw [show nearest m v M = (look v (look v (none, M) (m.zipIdx.drop (lowerBound v.1 m)))
    (m.zipIdx.take (lowerBound v.1 m)).reverse).1 from rfl]
  set k := lowerBound v.1 m
  have s1 : (m.zipIdx.drop k).Pairwise fun a b => dx2 v a.1 ≤ dx2 v b.1 := by
    refine (hz.drop (i := k)).imp_of_mem fun {a b} ha hb hab => ?_
    have ha' := b2 _ (f2 a ha)
    exact mul_self_le_mul_self (sub_nonneg.mpr ha') (sub_le_sub_right hab _)
  have s2 : (m.zipIdx.take k).reverse.Pairwise fun a b => dx2 v a.1 ≤ dx2 v b.1 := by
    rw [List.pairwise_reverse]
    refine (hz.take (i := k)).imp_of_mem fun {a b} ha hb hab => ?_
    have hb' := b1 _ (f1 b hb)
    have e : ∀ x : Entry K, dx2 v x = (v.1 - x.pos.1) * (v.1 - x.pos.1) := fun x => by unfold dx2; ring
    rw [e, e]
    exact mul_self_le_mul_self (sub_nonneg.mpr hb'.le) (sub_le_sub_left hab _)
  obtain ⟨p1, p2, p3⟩ := look_spec v (m.zipIdx.drop k) (none, M) s1
  obtain ⟨q1, q2, q3⟩ := look_spec v (m.zipIdx.take k).reverse (look v (none, M) (m.zipIdx.drop k)) s2
  set r1 := look v (none, M) (m.zipIdx.drop k)
  set r2 := look v r1 (m.zipIdx.take k).reverse
  have all : ∀ e ∈ m, r2.2 ≤ dist2 e.pos v := by
    intro e he
    obtain ⟨i, hi⟩ := mem_zip he
    rw [← List.take_append_drop k m.zipIdx] at hi
    rcases List.mem_append.mp hi with hi | hi
    · exact q2 (e, i) (List.mem_reverse.mpr hi)
    · exact q1.trans (p2 (e, i) hi)
  have found : r2 = (none, M) ∨ ∃ e i, m[i]? = some e ∧ r2 = (some i, dist2 e.pos v) ∧ dist2 e.pos v < M := by
    rcases q3 with q3 | ⟨a, ha, q3, q4⟩
    · rcases p3 with p3 | ⟨a, ha, p3, p4⟩
      · exact .inl (q3.trans p3)
      · refine .inr ⟨a.1, a.2, zipIdx_mem (List.mem_of_mem_drop ha), q3.trans p3, ?_⟩
        rw [p3] at p4
        exact p4
    · refine .inr ⟨a.1, a.2, zipIdx_mem (List.mem_of_mem_take (List.mem_reverse.mp ha)), q3, ?_⟩
      rw [q3] at q4
      exact lt_of_lt_of_le q4 p1
  rcases found with h | ⟨e, i, he, h, hlt⟩
  · rw [h] at all ⊢
    exact all
  · rw [h] at all ⊢
    exact ⟨e, he, hlt, all⟩

/-! ## Keeping the index up to date -/

theorem insert_perm (e : Entry K) (m : List (Entry K)) : (insert e m).Perm (e :: m) := by
  induction m with
  | nil => exact .refl _
  | cons f m ih =>
    simp only [insert]
    split
    · exact .refl _
    · exact (ih.cons f).trans (.swap e f m)

theorem insert_sorted {e : Entry K} {m : List (Entry K)} (h : Sorted m) : Sorted (insert e m) := by
  induction m with
  | nil => exact List.pairwise_singleton _ _
  | cons f m ih =>
    obtain ⟨h1, h2⟩ := List.pairwise_cons.mp h
    simp only [insert]
    split
    · rename_i hlt
      refine List.pairwise_cons.mpr ⟨fun g hg => ?_, h⟩
      rcases List.mem_cons.mp hg with rfl | hg
      · exact hlt.le
      · exact hlt.le.trans (h1 g hg)
    · rename_i hlt
      refine List.pairwise_cons.mpr ⟨fun g hg => ?_, ih h2⟩
      rcases List.mem_cons.mp ((insert_perm e m).mem_iff.mp hg) with rfl | hg
      · exact not_lt.mp hlt
      · exact h1 g hg

/-- The index holds every node exactly once. -/
structure Inv (s : State K) : Prop where
  sorted : Sorted s.index
  nodup : s.index.Nodup
  mem : ∀ e : Entry K, e ∈ s.index ↔ At s.nodes e.label e.pos

theorem dist2_self (p : Pt K) : dist2 p p = 0 := by simp [dist2]

theorem eq_of_dist2 {p q : Pt K} (h : dist2 p q ≤ 0) : p = q := by
  have h1 : 0 ≤ (p.1 - q.1) * (p.1 - q.1) := mul_self_nonneg _
  have h2 : 0 ≤ (p.2 - q.2) * (p.2 - q.2) := mul_self_nonneg _
  unfold dist2 at h
  have e1 : p.1 - q.1 = 0 := mul_self_eq_zero.mp (by linarith)
  have e2 : p.2 - q.2 = 0 := mul_self_eq_zero.mp (by linarith)
  exact Prod.ext (sub_eq_zero.mp e1) (sub_eq_zero.mp e2)

theorem eraseAt_spec {eps : K} (he : 0 < eps) {s : State K} (hi : Inv s) (hd : Distinct s.nodes) {l : Nat} {p : Pt K}
    (hl : At s.nodes l p) :
    ∃ m, eraseAt eps s.index p = .ok m ∧ Sorted m ∧ m.Nodup ∧ ∀ e, e ∈ m ↔ e ∈ s.index ∧ e.label ≠ l := by
  have hmem : (⟨p, l⟩ : Entry K) ∈ s.index := (hi.mem ⟨p, l⟩).mpr hl
  have hn := nearest_spec hi.sorted p eps
  unfold eraseAt
  cases hr : nearest s.index p eps with
  | none =>
    rw [hr] at hn
    have := hn _ hmem
    simp only [dist2_self] at this
    exact absurd he (not_lt.mpr this)
  | some i =>
    rw [hr] at hn
    obtain ⟨e, h1, h2, h3⟩ := hn
    have h4 := h3 _ hmem
    simp only [dist2_self] at h4
    have h5 : e.pos = p := eq_of_dist2 h4
    have h6 : At s.nodes e.label p := h5 ▸ (hi.mem e).mp (List.mem_of_getElem? h1)
    have h7 : e.label = l := hd _ _ _ h6 hl
    obtain ⟨hlt, hget⟩ := List.getElem?_eq_some_iff.mp h1
    refine ⟨s.index.eraseIdx i, rfl, hi.sorted.sublist (List.eraseIdx_sublist _ _),
      hi.nodup.sublist (List.eraseIdx_sublist _ _), fun f => ?_⟩
    have hme : f ∈ s.index.eraseIdx i ↔ f ≠ e ∧ f ∈ s.index := by
      rw [List.mem_eraseIdx_iff_getElem?]
      constructor
      · rintro ⟨j, hj, hf⟩
        refine ⟨fun hfe => hj ?_, List.mem_of_getElem? hf⟩
        rw [hfe] at hf
        obtain ⟨hjl, hjg⟩ := List.getElem?_eq_some_iff.mp hf
        exact (List.Nodup.getElem_inj_iff hi.nodup (hi := hjl) (hj := hlt)).mp (hjg.trans hget.symm)
      · rintro ⟨hfe, hf⟩
        obtain ⟨j, hj⟩ := List.getElem?_of_mem hf
        refine ⟨j, fun hji => hfe ?_, hj⟩
        rw [hji, h1] at hj
        exact (Option.some.inj hj).symm
    rw [hme]
    constructor
    · rintro ⟨a, b⟩
      refine ⟨b, fun hf => a ?_⟩
      have h8 : At s.nodes f.label f.pos := (hi.mem f).mp b
      rw [hf] at h8
      have h9 : f.pos = p := by
        unfold At at h8 hl
        rw [hl] at h8
        injection h8 with h8
        injection h8 with h8
        exact h8.symm
      obtain ⟨fp, fl⟩ := f
      obtain ⟨ep, el⟩ := e
      simp only at h5 h7 hf h9
      rw [h5, h7, hf, h9]
    · rintro ⟨a, b⟩
      refine ⟨fun hf => b (by rw [hf, h7]), a⟩

theorem at_set {ns : List (Option (Pt K))} {l : Nat} {o : Option (Pt K)} (hl : l < ns.length) (k : Nat) (p : Pt K) :
    At (ns.set l o) k p ↔ (k = l ∧ o = some p) ∨ (k ≠ l ∧ At ns k p) := by
  unfold At
  by_cases hk : k = l
  · subst hk
    simp [hl]
  · rw [List.getElem?_set_ne (Ne.symm hk)]
    simp [hk]

theorem at_lt {ns : List (Option (Pt K))} {l : Nat} {p : Pt K} (h : At ns l p) : l < ns.length :=
  (List.getElem?_eq_some_iff.mp h).1

theorem at_append {ns : List (Option (Pt K))} {q : Pt K} (k : Nat) (p : Pt K) :
    At (ns ++ [some q]) k p ↔ (k = ns.length ∧ q = p) ∨ At ns k p := by
  unfold At
  rcases Nat.lt_trichotomy k ns.length with h | h | h
  · rw [List.getElem?_append_left h]
    exact ⟨.inr, fun hh => hh.resolve_left fun hc => by omega⟩
  · subst h
    rw [List.getElem?_concat_length]
    simp
  · rw [List.getElem?_eq_none (by simp; omega), List.getElem?_eq_none (by omega)]
    simp
    omega

theorem run_spec {eps : K} (he : 0 < eps) {s : State K} (hi : Inv s) (hd : Distinct s.nodes) (o : Op K)
    (hl : o.legal s.nodes) : ∃ t, o.run eps s = .ok t ∧ t.nodes = o.nodes s.nodes ∧ Inv t := by
  cases o with
  | add p =>
    refine ⟨_, rfl, rfl, insert_sorted hi.sorted, ?_, fun e => ?_⟩
    · refine (insert_perm _ _).nodup_iff.mpr (List.nodup_cons.mpr ⟨fun hm => ?_, hi.nodup⟩)
      have := at_lt ((hi.mem _).mp hm)
      simp at this
    · simp only [addNode]
      rw [(insert_perm _ _).mem_iff, List.mem_cons, hi.mem e, at_append]
      refine or_congr_left ⟨fun h => by rw [h]; exact ⟨rfl, rfl⟩, fun h => ?_⟩
      obtain ⟨ep, el⟩ := e
      simp only at h
      rw [h.1, h.2]
  | remove l =>
    obtain ⟨p, hp⟩ := hl
    obtain ⟨m, h1, h2, h3, h4⟩ := eraseAt_spec he hi hd hp
    refine ⟨{ nodes := s.nodes.set l none, index := m }, ?_, rfl, h2, h3, fun e => ?_⟩
    · simp only [Op.run, removeNode]
      rw [show s.nodes[l]? = some (some p) from hp]
      simp only
      rw [h1]
      rfl
    · simp only
      rw [h4 e, hi.mem e, at_set (at_lt hp)]
      simp [and_comm]
  | move l q =>
    obtain ⟨p, hp⟩ := hl
    obtain ⟨m, h1, h2, h3, h4⟩ := eraseAt_spec he hi hd hp
    refine ⟨{ nodes := s.nodes.set l (some q), index := insert ⟨q, l⟩ m }, ?_, rfl, insert_sorted h2, ?_, fun e => ?_⟩
    · simp only [Op.run, setPosition]
      rw [show s.nodes[l]? = some (some p) from hp]
      simp only
      rw [h1]
      rfl
    · refine (insert_perm _ _).nodup_iff.mpr (List.nodup_cons.mpr ⟨fun hm => ?_, h3⟩)
      exact ((h4 _).mp hm).2 rfl
    · simp only
      rw [(insert_perm _ _).mem_iff, List.mem_cons, h4 e, hi.mem e, at_set (at_lt hp)]
      refine or_congr ⟨fun h => by rw [h]; exact ⟨rfl, rfl⟩, fun h => ?_⟩ and_comm
      obtain ⟨ep, el⟩ := e
      simp only [Option.some.injEq] at h
      rw [h.1, h.2]

theorem inv_init : Inv (init : State K) where
  sorted := List.Pairwise.nil
  nodup := List.nodup_nil
  mem := by
    intro e
    simp only [init, At]
    refine ⟨fun h => (by cases h), fun h => ?_⟩
    simp at h

theorem distinct_init : Distinct (init : State K).nodes := by
  intro l l' p h
  have := (inv_init.mem ⟨p, l⟩).mpr h
  simp [init] at this

theorem runAll_inv {eps : K} (he : 0 < eps) (os : List (Op K)) {s : State K} (hi : Inv s) (hd : Distinct s.nodes)
    (hl : Legal s.nodes os) :
    ∃ t, runAll eps s os = .ok t ∧ t.nodes = finalNodes s.nodes os ∧ Inv t := by
  induction os generalizing s with
  | nil => exact ⟨s, rfl, rfl, hi⟩
  | cons o os ih =>
    obtain ⟨h1, h2, h3⟩ := hl
    obtain ⟨t, e1, e2, e3⟩ := run_spec he hi hd o h1
    obtain ⟨u, f1, f2, f3⟩ := ih (s := t) e3 (by rw [e2]; exact h2) (by rw [e2]; exact h3)
    refine ⟨u, ?_, ?_, f3⟩
    · rw [runAll, e1]
      exact f1
    · rw [f2, e2]
      rfl

/-! ## Properties -/

/-- `nearestNode` with a correct index. -/
theorem Inv.nearestNode {t : State K} (h3 : Inv t) (p : Pt K) (maxDist2 : K) :
    ∃ r, nearestNode t p maxDist2 = .ok r ∧ IsNearest t.nodes p maxDist2 r := by
  have hn := nearest_spec h3.sorted p maxDist2
  unfold NodeIndex.nearestNode
  cases hr : nearest t.index p maxDist2 with
  | none =>
    rw [hr] at hn
    exact ⟨none, rfl, fun l q hq => hn ⟨q, l⟩ ((h3.mem ⟨q, l⟩).mpr hq)⟩
  | some i =>
    rw [hr] at hn
    obtain ⟨e, e1, e2, e3⟩ := hn
    have hat := (h3.mem e).mp (List.mem_of_getElem? e1)
    refine ⟨some e.label, ?_, e.pos, hat, e2, fun l' q' hq => e3 ⟨q', l'⟩ ((h3.mem ⟨q', l'⟩).mpr hq)⟩
    simp only
    rw [e1]
    simp only
    rw [show t.nodes[e.label]? = some (some e.pos) from hat]

/-- C28: whatever nodes were added, removed and moved, as long as no two nodes are at the same position,
`nearestNode` finds a nearest node within the range, and nothing only if there is none.  In particular a removed
node is never returned. -/
theorem nearestNode_nearest {eps : K} (he : 0 < eps) (os : List (Op K)) (hl : Legal (init : State K).nodes os)
    (p : Pt K) (maxDist2 : K) :
    ∃ t r, runAll eps init os = .ok t ∧ t.nodes = finalNodes [] os ∧
      nearestNode t p maxDist2 = .ok r ∧ IsNearest (finalNodes [] os) p maxDist2 r := by
  obtain ⟨t, h1, h2, h3⟩ := runAll_inv he os inv_init distinct_init hl
  obtain ⟨r, r1, r2⟩ := h3.nearestNode p maxDist2
  rw [show finalNodes [] os = t.nodes from h2.symm]
  exact ⟨t, r, h1, rfl, r1, r2⟩

/-- Two nodes at the same position: the removal of the second one takes the first one out of the index, and
`nearestNode` finds nothing although the first node is still there. -/
theorem coincident_violated : ∃ (os : List (Op Rat)) (t : State Rat) (p : Pt Rat),
    runAll (1 / 1000) init os = .ok t ∧ At t.nodes 0 p ∧ nearestNode t p 1 = .ok none := by
  refine ⟨[.add (0, 0), .add (0, 0), .remove 1], ⟨[some (0, 0), none], [⟨(0, 0), 1⟩]⟩, (0, 0), ?_, rfl, ?_⟩ <;>
    decide +kernel

/-! ## Examples -/

/-- a history of additions, a move across another node and a removal -/
def exOps : List (Op Rat) := [.add (0, 0), .add (5, 1), .add (5, 3), .move 0 (9, 2), .remove 1, .add (2, 2)]

theorem exOps_nodes : finalNodes [] exOps =
    [some (9, 2), none, some (5, 3), some (2, 2)] := by decide +kernel

example : Legal (init : State Rat).nodes exOps := by
  have hd : ∀ ns : List (Option (Pt Rat)), (ns.filterMap id).Nodup → Distinct ns := by
    intro ns
    induction ns with
    | nil => intro _ l l' p h; simp [At] at h
    | cons o ns ih =>
      intro hn l l' p h1 h2
      cases o with
      | none =>
        simp only [List.filterMap_cons_none, id] at hn
        cases l with
        | zero => simp [At] at h1
        | succ l => cases l' with
          | zero => simp [At] at h2
          | succ l' => rw [ih hn l l' p h1 h2]
      | some q =>
        rw [List.filterMap_cons_some (f := id) (a := some q) (b := q) rfl, List.nodup_cons] at hn
        have key : ∀ k, At ns k q → False := fun k hk =>
          hn.1 (List.mem_filterMap.mpr ⟨some q, List.mem_of_getElem? hk, rfl⟩)
        cases l with
        | zero =>
          have e : q = p := by simpa [At] using h1
          subst e
          cases l' with
          | zero => rfl
          | succ l' => exact (key l' h2).elim
        | succ l =>
          cases l' with
          | zero =>
            have e : q = p := by simpa [At] using h2
            subst e
            exact (key l h1).elim
          | succ l' => rw [ih hn.2 l l' p h1 h2]
  refine ⟨trivial, hd _ (by decide +kernel), trivial, hd _ (by decide +kernel), trivial, hd _ (by decide +kernel),
    ⟨(0, 0), rfl⟩, hd _ (by decide +kernel), ⟨(5, 1), rfl⟩, hd _ (by decide +kernel), trivial,
    hd _ (by decide +kernel), trivial⟩

example : (runAll (1 / 1000) init exOps).bind (fun t => nearestNode t (4, 2) 100) = .ok (some 2) := by decide +kernel
example : (runAll (1 / 1000) init exOps).bind (fun t => nearestNode t (0, 0) 8) = .ok none := by decide +kernel
example : (runAll (1 / 1000) init exOps).bind (fun t => nearestNode t (0, 0) 9) = .ok (some 3) := by decide +kernel

end Verif.NodeIndex
