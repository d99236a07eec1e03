import Verif.Copy.Writes
import Mathlib.Algebra.Order.Ring.Rat

/-!
# Copies are equal and independent (C19)
-/

namespace Verif.Copy
open Verif Verif.GeoMap Verif.LabelLUT Verif.NodeIndex

variable {K : Type}

/-! ## Independence -/

/-- Writes to one map do what they are meant to do to it, and nothing to any other map. -/
theorem runAll_view {h : Heap K} (hw : Well h) (ws : List (Nat × Write K)) {h' : Heap K} (hr : runAll ws h = .ok h') :
    Well h' ∧ ∀ m V, h.view m = some V →
      h'.view m = applyAll V ((ws.filter fun x => x.1 = m).map Prod.snd) := by
  induction ws generalizing h with
  | nil =>
    simp only [runAll, Outcome.ok.injEq] at hr
    subst hr
    exact ⟨hw, fun m V hV => hV⟩
  | cons x ws ih =>
    obtain ⟨m, w⟩ := x
    obtain ⟨g, hg, hr'⟩ := Outcome.bind_eq_ok.mp hr
    have hm : ∃ V, h.view m = some V := by
      cases hM : h.map m with
      | none => simp [Write.run, hM] at hg
      | some M => exact ⟨_, by rw [Heap.view, hM]; rfl⟩
    obtain ⟨V, hV⟩ := hm
    obtain ⟨r1, r2⟩ := run_view hw hV w
    cases hV' : w.apply V with
    | none => rw [r2 hV'] at hg; cases hg
    | some V' =>
      obtain ⟨g', q1, q2, q3, q4⟩ := r1 V' hV'
      rw [hg] at q1
      cases q1
      obtain ⟨i1, i2⟩ := ih q2 hr'
      refine ⟨i1, fun m' U hU => ?_⟩
      by_cases hmm : m' = m
      · subst hmm
        rw [hV] at hU
        cases hU
        rw [i2 m' V' q3]
        simp [applyAll, hV']
      · rw [i2 m' U (by rw [q4 m' hmm]; exact hU)]
        rw [List.filter_cons_of_neg (by simpa using fun h => hmm h.symm)]

/-! ## Copying -/

section
variable [Field K] [LinearOrder K] [IsStrictOrderedRing K]

/-- One loop of the copy constructor, started with a vector of null pointers. -/
theorem copyTable {h g : Heap K} {src : Nat} {M : MapObj K} (w : MapWell h src M) (k : Kind) (new : Nat)
    (ix : List (Entry K)) (hfr : h.fresh ≤ g.fresh) (hcell : ∀ a, a < h.fresh → g.cell a = h.cell a) :
    ∃ g' out ix', copyCells new (M.table k) (g, List.replicate (M.table k).length none, ix) = .ok (g', out, ix') ∧
      g'.map = g.map ∧ g'.image = g.image ∧ g.fresh ≤ g'.fresh ∧ (∀ a, a < g.fresh → g'.cell a = g.cell a) ∧
      out.length = (M.table k).length ∧
      (∀ l : Nat, (M.table k)[l]?.join = none → out[l]?.join = none) ∧
      (∀ (l a : Nat) c, (M.table k)[l]? = some (some a) → h.cell a = some c →
        ∃ b, out[l]? = some (some b) ∧ b < g'.fresh ∧ g'.cell b = some ⟨some new, l, c.data.copy new⟩) ∧
      (k ≠ .node → ix' = ix) ∧
      (k = .node → ix = [] → Inv ⟨h.positions M, ix'⟩) := by
  have hin : ∀ (j a : Nat), (M.table k)[j]? = some (some a) → a < g.fresh ∧ ∃ c, g.cell a = some c ∧ c.label = 0 + j ∧
      c.data.kind = k := fun j a e => by
    obtain ⟨v1, c, v2, v3, v4, v5, -⟩ := w.cells k j a e
    exact ⟨by omega, c, by rw [hcell a v1]; exact v2, by omega, v5⟩
  obtain ⟨g', out, ix', e1, e2, e3, e4, e5, e6, -, e8, e9⟩ := copyCells_spec new (M.table k) 0 g
    (List.replicate (M.table k).length none) ix (by simp) (fun j a e => by
      obtain ⟨x, c, y, z, -⟩ := hin j a e
      exact ⟨x, c, y, z⟩)
  refine ⟨g', out, ix', e1, e2, e3, e4, e5, by simpa using e6, fun l hl => ?_, fun l a c hl hc => ?_, fun hk => ?_,
    fun hk hix => ?_⟩
  · cases e : (M.table k)[l]? with
    | none =>
      rw [List.getElem?_eq_none]
      · rfl
      · rw [e6, List.length_replicate]
        exact List.getElem?_eq_none_iff.mp e
    | some p =>
      rw [e] at hl
      cases p with
      | some a => cases hl
      | none =>
        have hlt := (List.getElem?_eq_some_iff.mp e).1
        have := e8 l e
        rw [Nat.zero_add, List.getElem?_replicate_of_lt hlt] at this
        rw [this]
        rfl
  · obtain ⟨v1, -⟩ := w.cells k l a hl
    obtain ⟨b, f1, -, f3, f4⟩ := e9 l a c hl (by rw [hcell a v1]; exact hc)
    simp only [Nat.zero_add] at f1 f4
    exact ⟨b, f1, f3, f4⟩
  · refine copyCells_edges new (M.table k) g _ ix (fun j a e => ?_) e1
    obtain ⟨x, c, y, -, t⟩ := hin j a e
    exact ⟨x, c, y, by rw [t]; exact hk⟩
  · subst hk hix
    obtain ⟨k1, k2, k3⟩ := copyCells_index new (M.table .node) 0 g _ [] (fun j a e => by
      obtain ⟨x, c, y, z, t⟩ := hin j a e
      cases hd : c.data with
      | node p an => exact ⟨x, c, p, an, y, z, hd⟩
      | edge => rw [hd] at t; cases t
      | face => rw [hd] at t; cases t) List.Pairwise.nil List.nodup_nil (by simp) e1
    refine ⟨k1, k2, fun e => (k3 e).trans ?_⟩
    simp only [List.not_mem_nil, false_or, Nat.zero_add, At, Heap.positions, List.getElem?_map]
    constructor
    · rintro ⟨j, a, c, x, u1, u2, u3, u4⟩
      obtain ⟨v1, -⟩ := w.cells .node j a u1
      rw [hcell a v1] at u2
      rw [u4, u1]
      obtain ⟨cm, cl, cd⟩ := c
      simp only at u3
      subst u3
      simp [u2]
    · intro hat
      cases e' : (M.table .node)[e.label]? with
      | none => simp [e'] at hat
      | some p =>
        cases p with
        | none => simp [e'] at hat
        | some a =>
          obtain ⟨v1, ⟨cm, cl, cd⟩, v2, -, -, v5, -⟩ := w.cells .node _ a e'
          rw [e'] at hat
          simp only [v2, Option.map_some, Option.some.injEq] at hat
          cases cd with
          | node p an =>
            simp only [Option.some.injEq] at hat
            subst hat
            exact ⟨e.label, a, _, an, e', by rw [hcell a v1]; exact v2, rfl, rfl⟩
          | edge => cases v5
          | face => cases v5

/-- Copying a map, with everything that is used below. -/
theorem copyMap_spec {h : Heap K} (hw : Well h) {src : Nat} {M : MapObj K} (hM : h.map src = some M)
    (hf : M.img ≠ none → M.table .face ≠ []) :
    ∃ h' new N, copyMap h src = .ok (h', new) ∧ h.view new = none ∧ Well h' ∧ h'.view new = h.view src ∧
      (∀ m, m ≠ new → h'.view m = h.view m) ∧ h'.map new = some N ∧ Inv ⟨h.positions M, N.index⟩ := by
  have wm := hw.maps src M hM
  have hnew : h.map h.fresh = none := by
    cases e : h.map h.fresh with
    | none => rfl
    | some N => exact absurd (hw.maps _ N e).here (lt_irrefl _)
  set g0 : Heap K := { h with fresh := h.fresh + 1 } with hg0
  obtain ⟨g1, nodes, ix1, n1, n2, n3, n4, n5, n6, n7, n8, -, n10⟩ := copyTable wm .node h.fresh []
    (g := g0) (Nat.le_succ _) (fun _ _ => rfl)
  have n4' : h.fresh + 1 ≤ g1.fresh := n4
  have c1 : ∀ a, a < h.fresh → g1.cell a = h.cell a := fun a ha => n5 a (Nat.lt_succ_of_lt ha)
  obtain ⟨g2, edges, ix2, d1, d2, d3, d4, d5, d6, d7, d8, d9, -⟩ := copyTable wm .edge h.fresh ix1
    (g := g1) (by omega) c1
  have c2 : ∀ a, a < h.fresh → g2.cell a = h.cell a := fun a ha => (d5 a (by omega)).trans (c1 a ha)
  obtain ⟨g3, faces, ix3, f1, f2, f3, f4, f5, f6, f7, f8, f9, -⟩ := copyTable wm .face h.fresh ix2
    (g := g2) (by omega) c2
  have c3 : ∀ a, a < h.fresh → g3.cell a = h.cell a := fun a ha => (f5 a (by omega)).trans (c2 a ha)
  have hix : ix3 = ix1 := (f9 (by simp)).trans (d9 (by simp))
  have hmap : g3.map = h.map := f2.trans (d2.trans n2)
  have himg : g3.image = h.image := f3.trans (d3.trans n3)
  -- the tables of the copy
  set tbl : Kind → List (Option Nat) := fun
    | .node => nodes
    | .edge => edges
    | .face => faces with htbl
  have tlen : ∀ k, (tbl k).length = (M.table k).length := by
    intro k
    cases k
    · exact n6
    · exact d6
    · exact f6
  have tnone : ∀ k (l : Nat), (M.table k)[l]?.join = none → (tbl k)[l]?.join = none := by
    intro k
    cases k
    · exact n7
    · exact d7
    · exact f7
  have tsome : ∀ k (l a : Nat) c, (M.table k)[l]? = some (some a) → h.cell a = some c →
      ∃ b, (tbl k)[l]? = some (some b) ∧ b < g3.fresh ∧ g3.cell b = some ⟨some h.fresh, l, c.data.copy h.fresh⟩ := by
    intro k l a c hl hc
    cases k
    · obtain ⟨b, x, y, z⟩ := n8 l a c hl hc
      exact ⟨b, x, by omega, by rw [f5 b (by omega), d5 b y]; exact z⟩
    · obtain ⟨b, x, y, z⟩ := d8 l a c hl hc
      exact ⟨b, x, by omega, by rw [f5 b y]; exact z⟩
    · obtain ⟨b, x, y, z⟩ := f8 l a c hl hc
      exact ⟨b, x, y, z⟩
  set N : MapObj K := ⟨M.sigma, M.sigmaInv, (h.fresh, M.sigma.length / 2), (h.fresh, M.sigmaInv.length / 2), tbl, M.count, ix3,
    M.size, none, ⟨[], []⟩, M.sorted⟩ with hN
  -- any heap that has these cells
  have fin : ∀ (h' : Heap K) (img : Option Nat) (lut : LUT), copyMap h src = .ok (h', h.fresh) →
      h'.map = Function.update h.map h.fresh (some { N with img := img, lut := lut }) → h'.cell = g3.cell →
      g3.fresh ≤ h'.fresh → (∀ a, a < h.fresh → h'.image a = h.image a) →
      (∀ a, img = some a → h.fresh ≤ a ∧ a < h'.fresh ∧ ∃ im, h'.image a = some im) →
      img.map (fun a => (h'.image a, lut)) = M.img.map (fun a => (h.image a, M.lut)) →
      ∃ h' new N, copyMap h src = .ok (h', new) ∧ h.view new = none ∧ Well h' ∧ h'.view new = h.view src ∧
        (∀ m, m ≠ new → h'.view m = h.view m) ∧ h'.map new = some N ∧ Inv ⟨h.positions M, N.index⟩ := by
    intro h' img lut r q1 q2 q3 q4 q5 q6
    have self : h'.map h.fresh = some { N with img := img, lut := lut } := by rw [q1, Function.update_self]
    have wn : MapWell h' h.fresh { N with img := img, lut := lut } := by
      refine ⟨by omega, fun k l b e => ?_, fun a e => (q5 a e).2, rfl, rfl⟩
      have e' : (tbl k)[l]? = some (some b) := e
      cases hs : (M.table k)[l]?.join with
      | none =>
        have := tnone k l hs
        rw [e'] at this
        cases this
      | some a =>
        have hs' : (M.table k)[l]? = some (some a) := by simpa [Option.join_eq_some_iff] using hs
        obtain ⟨v1, c, v2, v3, v4, v5, v6⟩ := wm.cells k l a hs'
        obtain ⟨b', t1, t2, t3⟩ := tsome k l a c hs' v2
        rw [e'] at t1
        cases t1
        exact ⟨by omega, _, by rw [q2]; exact t3, rfl, rfl, (copy_kind _ _).trans v5, copy_own _ _⟩
    have same : ∀ m M, h.map m = some M → SameFor h h' m M := by
      intro m M' e
      have w := hw.maps m M' e
      refine ⟨?_, fun k l a ha => ?_, fun a ha => q4 a (w.image a ha).1, by omega⟩
      · rw [q1, Function.update_of_ne (by have := w.here; omega)]
        exact e
      · rw [q2]
        exact c3 a (w.cells k l a ha).1
    have old : ∀ m M', m ≠ h.fresh → h'.map m = some M' → h.map m = some M' := fun m M' hne e => by
      rwa [q1, Function.update_of_ne hne] at e
    refine ⟨h', h.fresh, _, r, by simp [Heap.view, hnew], ⟨fun m M' e => ?_, ?_⟩, ?_, fun m hne => ?_, self, ?_⟩
    · by_cases hne : m = h.fresh
      · subst hne
        rw [self] at e
        cases e
        exact wn
      · exact (same m M' (old m M' hne e)).well (hw.maps m M' (old m M' hne e))
    · intro m1 N1 m2 N2 a e1 e2 i1 i2
      have key : ∀ m2 N2, h'.map m2 = some N2 → N2.img = some a → img = some a → m2 = h.fresh := by
        intro m2 N2 e2 i2 i1
        by_contra hne
        have := ((hw.maps m2 N2 (old m2 N2 hne e2)).image a i2).1
        have := (q5 a i1).1
        omega
      by_cases h1 : m1 = h.fresh
      · subst h1
        rw [self] at e1
        cases e1
        exact (key m2 N2 e2 i2 i1).symm
      · by_cases h2 : m2 = h.fresh
        · subst h2
          rw [self] at e2
          cases e2
          exact key m1 N1 e1 i1 i2
        · exact hw.apart m1 N1 m2 N2 a (old _ _ h1 e1) (old _ _ h2 e2) i1 i2
    · rw [view_of self wn, view_of hM wm]
      simp only [Option.some.injEq, View.mk.injEq]
      refine ⟨?_, funext tlen, rfl, rfl, rfl, rfl, q6, rfl⟩
      funext k l
      show ((tbl k)[l]?.join.bind h'.cell).map _ = _
      cases hs : (M.table k)[l]?.join with
      | none => rw [tnone k l hs]; rfl
      | some a =>
        have hs' : (M.table k)[l]? = some (some a) := by simpa [Option.join_eq_some_iff] using hs
        obtain ⟨v1, c, v2, v3, v4, v5, v6⟩ := wm.cells k l a hs'
        obtain ⟨b, t1, t2, t3⟩ := tsome k l a c hs' v2
        rw [t1]
        simp [q2, t3, v2, copy_shown _ src _ v6]
    · cases e : h.map m with
      | none =>
        have e' : h'.map m = none := by rw [q1, Function.update_of_ne hne, e]
        simp [Heap.view, e, e']
      | some M' => exact (same m M' e).view e (hw.maps m M' e)
    · show Inv ⟨h.positions M, ix3⟩
      rw [hix]
      exact n10 rfl rfl
  have run : copyMap h src = (match M.img with
    | none => .ok ({ g3 with map := Function.update g3.map h.fresh (some N) }, h.fresh)
    | some a =>
      if M.table .face = [] then .ok ({ g3 with map := Function.update g3.map h.fresh (some N) }, h.fresh)
      else
        match g3.image a with
        | none => .ub
        | some im => .ok ({ g3 with
            image := Function.update g3.image g3.fresh (some im)
            map := Function.update g3.map h.fresh (some { N with img := some g3.fresh, lut := M.lut })
            fresh := g3.fresh + 1 }, h.fresh)) := by
    simp only [copyMap, hM]
    change (copyCells h.fresh _ (g0, _, _)).bind _ = _
    rw [n1]
    change (copyCells h.fresh _ (g1, _, _)).bind _ = _
    rw [d1]
    change (copyCells h.fresh _ (g2, _, _)).bind _ = _
    rw [f1]
    rfl
  cases hi : M.img with
  | none =>
    rw [hi] at run
    exact fin _ none ⟨[], []⟩ run (by simp [hmap, hN]) rfl le_rfl (fun a _ => by rw [show _ = g3.image from rfl, himg])
      (fun a e => (nomatch e)) (by rw [hi]; rfl)
  | some a =>
    obtain ⟨w1, im, w2⟩ := wm.image a hi
    rw [hi] at run
    simp only at run
    rw [if_neg (hf (by rw [hi]; simp)), himg, w2] at run
    refine fin _ (some g3.fresh) M.lut run (by simp [hmap]) rfl (Nat.le_succ _) (fun b hb => ?_) (fun b e => ?_) ?_
    · exact Function.update_of_ne (by omega) _ _
    · cases e
      exact ⟨by omega, Nat.lt_succ_self _, im, by simp⟩
    · simp [hi, w2]

/-! ## Properties -/

/-- C19, equality: the copy shows everything its source shows, is a map of its own (its cells and darts refer
to it, nothing is shared: `Well`), and copying changes no other map. -/
theorem copy_equal {h : Heap K} (hw : Well h) {src : Nat} {M : MapObj K} (hM : h.map src = some M)
    (hf : M.img ≠ none → M.table .face ≠ []) :
    ∃ h' new, copyMap h src = .ok (h', new) ∧ h.view new = none ∧ Well h' ∧ h'.view new = h.view src ∧
      ∀ m, m ≠ new → h'.view m = h.view m := by
  obtain ⟨h', new, N, e1, e2, e3, e4, e5, -⟩ := copyMap_spec hw hM hf
  exact ⟨h', new, e1, e2, e3, e4, e5⟩

/-- C19, independence: after any sequence of writes to the source, to the copy and to other maps, the source
looks as if only the writes to the source had been made, and the copy as if those to the copy had been made to the
source. -/
theorem copy_independent {h : Heap K} (hw : Well h) {src : Nat} {V : View K} (hV : h.view src = some V) {h' new}
    (hc : copyMap h src = .ok (h', new)) (hf : ∀ M, h.map src = some M → M.img ≠ none → M.table .face ≠ [])
    (ws : List (Nat × Write K)) {h'' : Heap K} (hr : runAll ws h' = .ok h'') :
    new ≠ src ∧ h''.view src = applyAll V ((ws.filter fun x => x.1 = src).map Prod.snd) ∧
      h''.view new = applyAll V ((ws.filter fun x => x.1 = new).map Prod.snd) := by
  cases hM : h.map src with
  | none => simp [Heap.view, hM] at hV
  | some M =>
    obtain ⟨g, new', e1, e2, e3, e4, e5⟩ := copy_equal hw hM (hf M hM)
    rw [hc] at e1
    cases e1
    have hne : new ≠ src := fun e => by rw [e, hV] at e2; cases e2
    obtain ⟨-, r2⟩ := runAll_view e3 ws hr
    exact ⟨hne, r2 src V (by rw [e5 src hne.symm]; exact hV), r2 new V (e4.trans hV)⟩

omit [Field K] [LinearOrder K] [IsStrictOrderedRing K] in
/-- A write is refused by the copy exactly if it is refused by the source. -/
theorem copy_refuses {h : Heap K} (hw : Well h) {m m' : Nat} (hV : h.view m = h.view m') (hm : h.view m ≠ none)
    (w : Write K) : w.run m h = .precond ↔ w.run m' h = .precond := by
  obtain ⟨V, hV'⟩ := Option.ne_none_iff_exists'.mp hm
  obtain ⟨a1, a2⟩ := run_view hw hV' w
  obtain ⟨b1, b2⟩ := run_view hw (hV.symm.trans hV') w
  cases e : w.apply V with
  | none => exact ⟨fun _ => b2 e, fun _ => a2 e⟩
  | some V' =>
    obtain ⟨x, hx, -⟩ := a1 V' e
    obtain ⟨y, hy, -⟩ := b1 V' e
    rw [hx, hy]
    simp

/-- C19, `nearestNode` of the copy: it finds a nearest node of the source. -/
theorem copy_nearest {h : Heap K} (hw : Well h) {src : Nat} {M : MapObj K} (hM : h.map src = some M)
    (hf : M.img ≠ none → M.table .face ≠ []) (p : Pt K) (maxDist2 : K) :
    ∃ h' new N r, copyMap h src = .ok (h', new) ∧ h'.map new = some N ∧
      nearestNode ⟨h.positions M, N.index⟩ p maxDist2 = .ok r ∧ IsNearest (h.positions M) p maxDist2 r := by
  obtain ⟨h', new, N, e1, -, -, -, -, e6, e7⟩ := copyMap_spec hw hM hf
  obtain ⟨r, r1, r2⟩ := e7.nearestNode p maxDist2
  exact ⟨h', new, N, r, e1, e6, r1, r2⟩

end

/-! ## A concrete case -/

/-- A heap with one map without cells. -/
def start : Heap Rat where
  cell _ := none
  map m := if m = 0 then some ⟨[], [], (0, 0), (0, 0), fun _ => [], fun _ => 0, [], (4, 4), none, ⟨[], []⟩, false⟩ else none
  image _ := none
  fresh := 1

theorem start_well : Well start := by
  have one : ∀ m M, start.map m = some M → m = 0 ∧ M.img = none ∧ M.sigmaAt = (0, M.sigma.length / 2) ∧
      M.invAt = (0, M.sigmaInv.length / 2) ∧ ∀ k, M.table k = [] := by
    intro m M e
    simp only [start] at e
    split at e
    · cases e
      exact ⟨by assumption, rfl, rfl, rfl, fun _ => rfl⟩
    · cases e
  refine ⟨fun m M e => ?_, fun m M m' M' a e _ i _ => ?_⟩
  · obtain ⟨rfl, h2, h3, h4, h5⟩ := one m M e
    refine ⟨Nat.one_pos, fun k l a e' => ?_, fun a e' => ?_, h3, h4⟩
    · rw [h5] at e'
      cases e'
    · rw [h2] at e'
      cases e'
  · rw [(one m M e).2.1] at i
    cases i

/-- A loop with an inner face, a label image, and a second node that is removed again. -/
def build : List (Nat × Write Rat) :=
  [(0, .create 0 (.node (1, 1) 0)), (0, .create 0 (.node (5, 5) 0)), (0, .create 1 (.edge 0 0 (some 1) (some 0) [(1, 1), (3, 1), (3, 3), (1, 1)] 0 none)),
    (0, .cell 0 (.node (1, 1) 1)), (0, .remove .node 1), (0, .sigma [1, 0, -1] [1, 0, -1]),
    (0, .create 0 (.face [⟨0, -1⟩] none 12)), (0, .create 0 (.face [⟨0, 1⟩] (some 2) 4)),
    (0, .newImage (fun p => if p.1 = 2 then 1 else 0) ⟨[0, 1], [0, 1]⟩)]

example : ∃ (h h' h'' : Heap Rat) (new : Nat) (V : View Rat), runAll build start = .ok h ∧ Well h ∧ h.view 0 = some V ∧
    V.max .face = 2 ∧ V.image ≠ none ∧ V.cell .face 1 = some (True, 1, .face [(True, 1)] (some 2) 4) ∧ V.cell .node 1 = none ∧
    copyMap h 0 = .ok (h', new) ∧ h'.view new = some V ∧
    runAll [(new, .remove .face 1), (0, .cell 0 (.node (2, 1) 1))] h' = .ok h'' ∧
    (∃ W, h''.view 0 = some W ∧ W.cell .face 1 = V.cell .face 1 ∧ W.cell .node 0 ≠ V.cell .node 0) ∧
    ∃ W, h''.view new = some W ∧ W.cell .face 1 = none ∧ W.cell .node 0 = V.cell .node 0 := by
  obtain ⟨h, hr⟩ : ∃ h, runAll build start = .ok h := ⟨_, rfl⟩
  obtain ⟨hw, hv⟩ := runAll_view start_well build hr
  have hV := hv 0 _ rfl
  generalize hV' : applyAll _ _ = V at hV
  have hV' := hV'.symm
  cases V with
  | none => cases hV'
  | some V =>
  cases hM : h.map 0 with
  | none => simp [Heap.view, hM] at hV
  | some M =>
  have hf : M.img ≠ none → M.table .face ≠ [] := by
    intro _ e
    have : V.max .face = 0 := by
      rw [view_of hM (hw.maps _ _ hM)] at hV
      cases hV
      simp [e]
    cases hV'
    cases this
  obtain ⟨h', new, c1, c2, c3, c4, c5⟩ := copy_equal hw hM hf
  have hne : new ≠ 0 := fun e => by rw [e, hV] at c2; cases c2
  have v1 : V.cell .face 1 = some (True, 1, .face [(True, 1)] (some 2) 4) := by
    cases hV'
    simp [put, Data.kind, Data.darts, Data.shown]
  have v2 : V.cell .node 0 = some (True, 0, .node (1, 1) 1) := by
    cases hV'
    simp [put, Data.kind, Data.darts, Data.shown]
  obtain ⟨h1, q1, q2, q3, q4⟩ := (run_view c3 (c4.trans hV) (.remove .face 1)).1 _ (by simp only [Write.apply, v1, Option.map_some]; rfl)
  obtain ⟨h2, p1, p2, p3, p4⟩ := (run_view q2 ((q4 0 hne.symm).trans ((c5 0 hne.symm).trans hV)) (.cell 0 (.node (2, 1) 1))).1 _
    (by simp only [Write.apply, Data.kind, v2, Option.map_some]; rfl)
  refine ⟨h, h', h2, new, V, hr, hw, hV, ?_, ?_, v1, ?_, c1, c4.trans hV, ?_, ⟨_, p3, ?_, ?_⟩, _, (p4 new hne).trans q3, ?_, ?_⟩
  · cases hV'
    rfl
  · cases hV'
    simp
  · cases hV'
    simp [put, Data.kind]
  · simp [runAll, q1, p1]
  · simp [put]
  · simp [put, v2, Data.darts, Data.shown]
  · simp [put]
  · simp [put]

/-- What a refused `changeFaceLabels` can leave behind: two faces with the same label. -/
def clash : Heap Rat where
  cell a := if a = 1 then some ⟨some 0, 0, .face [] none 0⟩
    else if a = 2 then some ⟨some 0, 2, .face [] (some 1) 0⟩
    else if a = 3 then some ⟨some 0, 2, .face [] (some 2) 0⟩ else none
  map m := if m = 0 then some ⟨[], [], (0, 0), (0, 0), fun | .face => [some 1, some 2, some 3] | _ => [], fun _ => 0, [], (4, 4), none, ⟨[], []⟩, false⟩
    else none
  image _ := none
  fresh := 4

/-- C19 needs that faces carry the label they are stored under: after a refused `changeFaceLabels` (which changes labels
before it refuses, see `changeFaceLabels_atomic_violated`) the copy lacks a face. -/
theorem copy_clash_violated : ∃ h' new V W, copyMap clash 0 = .ok (h', new) ∧ clash.view 0 = some V ∧
    h'.view new = some W ∧ V.cell .face 1 ≠ none ∧ W.cell .face 1 = none :=
  ⟨_, _, _, _, rfl, rfl, rfl, by simp [Heap.show, clash], rfl⟩

end Verif.Copy
