import Verif.Copy.Spec

/-!
# Lemmas about copying

Helper lemmas for `Verif.Copy.Props`.
-/

namespace Verif.Copy
open Verif Verif.GeoMap Verif.LabelLUT Verif.NodeIndex

variable {K : Type}

/-! ## Changes that another map does not see -/

/-- What `m` looks at is the same in both heaps. -/
structure SameFor (h h' : Heap K) (m : Nat) (M : MapObj K) : Prop where
  map : h'.map m = some M
  cell : ∀ k (l a : Nat), (M.table k)[l]? = some (some a) → h'.cell a = h.cell a
  image : ∀ a, M.img = some a → h'.image a = h.image a
  fresh : h.fresh ≤ h'.fresh

theorem SameFor.view {h h' : Heap K} {m : Nat} {M : MapObj K} (s : SameFor h h' m M) (hM : h.map m = some M)
    (w : MapWell h m M) : h'.view m = h.view m := by
  unfold Heap.view
  rw [s.map, hM]
  simp only [Option.map_some, Option.some.injEq, View.mk.injEq, true_and, and_true]
  refine ⟨?_, ?_, ?_, ?_⟩
  · funext k l
    cases e : (M.table k)[l]? with
    | none => rfl
    | some p =>
      cases p with
      | none => rfl
      | some a => simp only [Heap.show, s.cell k l a e]
  · funext d
    simp only [Heap.read, w.sigma, s.map, hM]
  · funext d
    simp only [Heap.read, w.inv, s.map, hM]
  · cases e : M.img with
    | none => rfl
    | some a => simp only [Option.map_some, s.image a e]

theorem SameFor.well {h h' : Heap K} {m : Nat} {M : MapObj K} (s : SameFor h h' m M) (w : MapWell h m M) :
    MapWell h' m M where
  here := lt_of_lt_of_le w.here s.fresh
  cells k l a e := by
    obtain ⟨w1, c, w2⟩ := w.cells k l a e
    exact ⟨lt_of_lt_of_le w1 s.fresh, c, by rw [s.cell k l a e]; exact w2⟩
  image a e := by
    obtain ⟨w1, im, w2⟩ := w.image a e
    exact ⟨lt_of_lt_of_le w1 s.fresh, im, by rw [s.image a e]; exact w2⟩
  sigma := w.sigma
  inv := w.inv

/-! ## The copying loop -/

theorem copy_kind (new : Nat) (d : Data K) : (d.copy new).kind = d.kind := by cases d <;> rfl

theorem copy_own (new : Nat) (d : Data K) : (d.copy new).Own new := by
  cases d with
  | face as ar px =>
    intro d hd
    obtain ⟨e, -, rfl⟩ := List.mem_map.mp hd
    rfl
  | _ => trivial

theorem copy_shown (new m : Nat) (d : Data K) (h : d.Own m) : (d.copy new).shown new = d.shown m := by
  cases d with
  | face as ar px =>
    simp only [Data.copy, Data.shown, List.map_map, Shown.face.injEq, and_true]
    refine List.map_congr_left fun d hd => ?_
    simp [h d hd]
  | _ => rfl

theorem darts_kind (m : Nat) (d : Data K) : (d.darts m).kind = d.kind := by cases d <;> rfl

theorem darts_own (m : Nat) (d : Data K) : (d.darts m).Own m := by
  cases d with
  | face as ar px =>
    intro d hd
    obtain ⟨e, -, rfl⟩ := List.mem_map.mp hd
    rfl
  | _ => trivial

theorem darts_shown (m n : Nat) (d : Data K) : (d.darts m).shown m = (d.darts n).shown n := by
  cases d with
  | face as ar px =>
    simp only [Data.darts, Data.shown, List.map_map, Shown.face.injEq, and_true]
    refine List.map_congr_left fun d hd => ?_
    simp
  | _ => rfl

section
variable [Field K] [LinearOrder K] [IsStrictOrderedRing K]

theorem copyCells_spec (new : Nat) (src : List (Option Nat)) (i : Nat) (h : Heap K) (out : List (Option Nat))
    (ix : List (Entry K)) (hlen : i + src.length = out.length)
    (hc : ∀ (j a : Nat), src[j]? = some (some a) → a < h.fresh ∧ ∃ c, h.cell a = some c ∧ c.label = i + j) :
    ∃ h' out' ix', copyCells new src (h, out, ix) = .ok (h', out', ix') ∧ h'.map = h.map ∧ h'.image = h.image ∧
      h.fresh ≤ h'.fresh ∧ (∀ a, a < h.fresh → h'.cell a = h.cell a) ∧ out'.length = out.length ∧
      (∀ l, l < i → out'[l]? = out[l]?) ∧ (∀ j : Nat, src[j]? = some none → out'[i + j]? = out[i + j]?) ∧
      ∀ (j a : Nat) c, src[j]? = some (some a) → h.cell a = some c → ∃ b, out'[i + j]? = some (some b) ∧ h.fresh ≤ b ∧
        b < h'.fresh ∧ h'.cell b = some ⟨some new, i + j, c.data.copy new⟩ := by
  induction src generalizing i h out ix with
  | nil => exact ⟨h, out, ix, rfl, rfl, rfl, le_rfl, fun _ _ => rfl, rfl, fun _ _ => rfl, by simp, by simp⟩
  | cons p src ih =>
    have hlen' : i + 1 + src.length = out.length := by simp only [List.length_cons] at hlen; omega
    cases p with
    | none =>
      obtain ⟨h', out', ix', e1, e2, e3, e4, e5, e6, e7, e8, e9⟩ := ih (i + 1) h out ix hlen' (fun j a e => by
        obtain ⟨x, c, y, z⟩ := hc (j + 1) a (by simpa using e)
        exact ⟨x, c, y, by omega⟩)
      refine ⟨h', out', ix', e1, e2, e3, e4, e5, e6, fun l hl => e7 l (by omega), fun j hj => ?_, fun j a c hj hcell => ?_⟩
      · cases j with
        | zero => exact e7 i (by omega)
        | succ j => simpa [Nat.add_assoc, Nat.add_comm 1 j] using e8 j (by simpa using hj)
      · cases j with
        | zero => simp at hj
        | succ j => simpa [Nat.add_assoc, Nat.add_comm 1 j] using e9 j a c (by simpa using hj) hcell
    | some a =>
      obtain ⟨ha, c, hca, hl⟩ := hc 0 a (by simp)
      simp only [Nat.add_zero] at hl
      set g : Heap K := { h with
        cell := Function.update h.cell h.fresh (some ⟨some new, c.label, c.data.copy new⟩)
        fresh := h.fresh + 1 } with hg
      have hgc : ∀ x, x < h.fresh → g.cell x = h.cell x := fun x hx => Function.update_of_ne (by omega) _ _
      obtain ⟨h', out', ix', e1, e2, e3, e4, e5, e6, e7, e8, e9⟩ := ih (i + 1) g (out.set c.label (some h.fresh))
        (c.data.enter c.label ix) (by simpa using hlen') (fun j b e => by
        obtain ⟨x, c', y, z⟩ := hc (j + 1) b (by simpa using e)
        refine ⟨show b < h.fresh + 1 by omega, c', by rw [hgc b x]; exact y, by omega⟩)
      have hio : i < out.length := by omega
      refine ⟨h', out', ix', ?_, e2, e3, (Nat.le_succ _).trans e4, fun x hx => ?_, by simpa using e6, fun l hl' => ?_,
        fun j hj => ?_, fun j b c' hj hcell => ?_⟩
      · simp only [copyCells, hca]
        rw [if_pos (by omega)]
        exact e1
      · rw [e5 x (Nat.lt_succ_of_lt hx), hgc x hx]
      · rw [e7 l (by omega), List.getElem?_set_ne (by omega)]
      · cases j with
        | zero => simp at hj
        | succ j =>
          have := e8 j (by simpa using hj)
          rw [List.getElem?_set_ne (by omega)] at this
          simpa [Nat.add_assoc, Nat.add_comm 1 j] using this
      · cases j with
        | zero =>
          simp only [List.getElem?_cons_zero, Option.some.injEq] at hj
          subst hj
          rw [hca] at hcell
          cases hcell
          refine ⟨h.fresh, ?_, le_rfl, lt_of_lt_of_le (Nat.lt_succ_self _) e4, ?_⟩
          · rw [Nat.add_zero, e7 i (by omega), hl]
            simp [hio]
          · rw [e5 h.fresh (Nat.lt_succ_self _)]
            simp [hg, hl]
        | succ j =>
          obtain ⟨x, -⟩ := hc (j + 1) b hj
          obtain ⟨y, f1, f2, f3, f4⟩ := e9 j b c' (by simpa using hj) (by rw [hgc b x]; exact hcell)
          have f2' : h.fresh + 1 ≤ y := f2
          refine ⟨y, ?_, by omega, f3, ?_⟩
          · simpa [Nat.add_assoc, Nat.add_comm 1 j] using f1
          · simpa [Nat.add_assoc, Nat.add_comm 1 j] using f4

/-- The index after the loop over the nodes. -/
theorem copyCells_index (new : Nat) (src : List (Option Nat)) (i : Nat) (h : Heap K) (out : List (Option Nat))
    (ix : List (Entry K)) (hc : ∀ (j a : Nat), src[j]? = some (some a) → a < h.fresh ∧ ∃ c p x, h.cell a = some c ∧
      c.label = i + j ∧ c.data = .node p x)
    (hs : Sorted ix) (hn : ix.Nodup) (hlt : ∀ e ∈ ix, e.label < i) {h' out' ix'}
    (hr : copyCells new src (h, out, ix) = .ok (h', out', ix')) :
    Sorted ix' ∧ ix'.Nodup ∧ ∀ e : Entry K, e ∈ ix' ↔ e ∈ ix ∨
      ∃ (j a : Nat) (c : Cell K) (x : Int), src[j]? = some (some a) ∧ h.cell a = some c ∧ c.data = .node e.pos x ∧ e.label = i + j := by
  induction src generalizing i h out ix with
  | nil =>
    simp only [copyCells, Outcome.ok.injEq, Prod.mk.injEq] at hr
    obtain ⟨-, -, rfl⟩ := hr
    exact ⟨hs, hn, by simp⟩
  | cons p src ih =>
    cases p with
    | none =>
      obtain ⟨k1, k2, k3⟩ := ih (i + 1) h out ix (fun j a e => by
        obtain ⟨x, c, p, an, y, z, t⟩ := hc (j + 1) a (by simpa using e)
        exact ⟨x, c, p, an, y, by omega, t⟩) hs hn (fun e he => Nat.lt_succ_of_lt (hlt e he)) hr
      refine ⟨k1, k2, fun e => (k3 e).trans (or_congr_right ⟨?_, ?_⟩)⟩
      · rintro ⟨j, a, c, x, u1, u2, u3, u4⟩
        exact ⟨j + 1, a, c, x, by simpa using u1, u2, u3, by omega⟩
      · rintro ⟨j, a, c, x, u1, u2, u3, u4⟩
        cases j with
        | zero => simp at u1
        | succ j => exact ⟨j, a, c, x, by simpa using u1, u2, u3, by omega⟩
    | some a =>
      obtain ⟨ha, c, p, an, hca, hl, hd⟩ := hc 0 a (by simp)
      simp only [Nat.add_zero] at hl
      simp only [copyCells, hca] at hr
      split at hr
      case isFalse => exact absurd hr (by simp)
      set g : Heap K := { h with
        cell := Function.update h.cell h.fresh (some ⟨some new, c.label, c.data.copy new⟩)
        fresh := h.fresh + 1 } with hg
      have hgc : ∀ x, x < h.fresh → g.cell x = h.cell x := fun x hx => Function.update_of_ne (by omega) _ _
      have hent : c.data.enter c.label ix = NodeIndex.insert ⟨p, i⟩ ix := by rw [hd, hl]; rfl
      rw [hent] at hr
      have hmem : ∀ e, e ∈ NodeIndex.insert (⟨p, i⟩ : Entry K) ix ↔ e = ⟨p, i⟩ ∨ e ∈ ix := fun e => by
        rw [(insert_perm _ _).mem_iff, List.mem_cons]
      obtain ⟨k1, k2, k3⟩ := ih (i + 1) g _ _ (fun j b e => by
        obtain ⟨x, c', p, an, y, z, t⟩ := hc (j + 1) b (by simpa using e)
        exact ⟨show b < h.fresh + 1 by omega, c', p, an, by rw [hgc b x]; exact y, by omega, t⟩)
        (insert_sorted hs) ((insert_perm _ _).nodup_iff.mpr (List.nodup_cons.mpr
          ⟨fun hin => absurd (hlt _ hin) (lt_irrefl _), hn⟩))
        (fun e he => by
          rcases (hmem e).mp he with rfl | he
          · exact Nat.lt_succ_self _
          · exact Nat.lt_succ_of_lt (hlt e he)) hr
      refine ⟨k1, k2, fun e => (k3 e).trans ⟨?_, ?_⟩⟩
      · rintro (he | ⟨j, b, c', x, u1, u2, u3, u4⟩)
        · rcases (hmem e).mp he with rfl | he
          · exact .inr ⟨0, a, c, an, by simp, hca, hd, by simp⟩
          · exact .inl he
        · obtain ⟨w, -⟩ := hc (j + 1) b (by simpa using u1)
          rw [hgc b w] at u2
          exact .inr ⟨j + 1, b, c', x, by simpa using u1, u2, u3, by omega⟩
      · rintro (he | ⟨j, b, c', x, u1, u2, u3, u4⟩)
        · exact .inl ((hmem e).mpr (.inr he))
        · cases j with
          | zero =>
            simp only [List.getElem?_cons_zero, Option.some.injEq] at u1
            subst u1
            rw [hca] at u2
            cases u2
            rw [hd] at u3
            cases u3
            refine .inl ((hmem e).mpr (.inl ?_))
            cases e
            simp only [Nat.add_zero] at u4
            rw [u4]
          | succ j =>
            obtain ⟨w, -⟩ := hc (j + 1) b u1
            exact .inr ⟨j, b, c', x, by simpa using u1, by rw [hgc b w]; exact u2, u3, by omega⟩

theorem copyCells_edges (new : Nat) (src : List (Option Nat)) (h : Heap K) (out : List (Option Nat))
    (ix : List (Entry K)) (hc : ∀ (j a : Nat), src[j]? = some (some a) → a < h.fresh ∧ ∃ c, h.cell a = some c ∧
      c.data.kind ≠ .node) {h' out' ix'}
    (hr : copyCells new src (h, out, ix) = .ok (h', out', ix')) : ix' = ix := by
  induction src generalizing h out ix with
  | nil =>
    simp only [copyCells, Outcome.ok.injEq, Prod.mk.injEq] at hr
    exact hr.2.2.symm
  | cons p src ih =>
    cases p with
    | none => exact ih h out ix (fun j a e => hc (j + 1) a (by simpa using e)) hr
    | some a =>
      obtain ⟨ha, c, hca, hk⟩ := hc 0 a (by simp)
      simp only [copyCells, hca] at hr
      split at hr
      case isFalse => exact absurd hr (by simp)
      rw [ih _ _ _ (fun j b e => ?_) hr]
      · cases hd : c.data with
        | node => rw [hd] at hk; exact absurd rfl hk
        | _ => rfl
      · obtain ⟨x, c', y, z⟩ := hc (j + 1) b (by simpa using e)
        exact ⟨show b < h.fresh + 1 by omega, c', (Function.update_of_ne (by omega) _ _).trans y, z⟩

end

end Verif.Copy
