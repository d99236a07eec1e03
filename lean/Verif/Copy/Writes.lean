import Verif.Copy.Lemmas

/-!
# Lemmas about writes

Helper lemmas for `Verif.Copy.Props`.
-/

namespace Verif.Copy
open Verif Verif.GeoMap Verif.LabelLUT Verif.NodeIndex

variable {K : Type}

/-- Everything that changed belongs to `m`. -/
structure Touch (m : Nat) (M : MapObj K) (h h' : Heap K) (M' : MapObj K) : Prop where
  map : h'.map = Function.update h.map m (some M')
  fresh : h.fresh ≤ h'.fresh
  cell : ∀ a c, h.cell a = some c → a < h.fresh → c.map ≠ some m → h'.cell a = h.cell a
  image : ∀ a, a < h.fresh → M.img ≠ some a → h'.image a = h.image a
  well : MapWell h' m M'
  img : ∀ a, M'.img = some a → M.img = some a ∨ h.fresh ≤ a

theorem Touch.spec {m : Nat} {M M' : MapObj K} {h h' : Heap K} (t : Touch m M h h' M') (hw : Well h)
    (hM : h.map m = some M) :
    Well h' ∧ (∀ m', m' ≠ m → h'.view m' = h.view m') := by
  have same : ∀ m' N, m' ≠ m → h.map m' = some N → SameFor h h' m' N := by
    intro m' N hne hN
    have w := hw.maps m' N hN
    refine ⟨?_, fun k l a e => ?_, fun a e => ?_, t.fresh⟩
    · rw [t.map, Function.update_of_ne hne]
      exact hN
    · obtain ⟨w1, c, w2, w3, -⟩ := w.cells k l a e
      exact t.cell a c w2 w1 (by rw [w3]; simpa using hne)
    · exact t.image a (w.image a e).1 fun e' => hne (hw.apart m' N m M a hN hM e e')
  have old : ∀ m' N', m' ≠ m → h'.map m' = some N' → h.map m' = some N' := by
    intro m' N' hne e
    rwa [t.map, Function.update_of_ne hne] at e
  have self : h'.map m = some M' := by rw [t.map, Function.update_self]
  refine ⟨⟨fun m' N' e => ?_, fun m1 N1 m2 N2 a e1 e2 i1 i2 => ?_⟩, fun m' hne => ?_⟩
  · by_cases hne : m' = m
    · subst hne
      rw [self] at e
      cases e
      exact t.well
    · exact (same m' N' hne (old m' N' hne e)).well (hw.maps m' N' (old m' N' hne e))
  · have key : ∀ m2 N2, h'.map m2 = some N2 → N2.img = some a → M'.img = some a → m2 = m := by
      intro m2 N2 e2 i2 i1
      by_contra hne
      have e2' := old m2 N2 hne e2
      rcases t.img a i1 with i | i
      · exact hne (hw.apart m2 N2 m M a e2' hM i2 i)
      · exact absurd ((hw.maps m2 N2 e2').image a i2).1 (by omega)
    by_cases h1 : m1 = m
    · subst h1
      rw [self] at e1
      cases e1
      exact (key m2 N2 e2 i2 i1).symm
    · by_cases h2 : m2 = m
      · subst h2
        rw [self] at e2
        cases e2
        exact key m1 N1 e1 i1 i2
      · exact hw.apart m1 N1 m2 N2 a (old _ _ h1 e1) (old _ _ h2 e2) i1 i2
  · cases hN : h.map m' with
    | none =>
      have hN' : h'.map m' = none := by rw [t.map, Function.update_of_ne hne, hN]
      simp [Heap.view, hN, hN']
    | some N => exact (same m' N hne hN).view hN (hw.maps m' N hN)

/-- The view of a map whose pointers are in order. -/
theorem view_of {h : Heap K} {m : Nat} {M : MapObj K} (hM : h.map m = some M) (w : MapWell h m M) :
    h.view m = some
      { cell := fun k l => ((M.table k)[l]?.join.bind h.cell).map fun c => (True, l, c.data.shown m)
        max := fun k => (M.table k).length
        count := M.count
        next := readMid M.sigma
        prev := readMid M.sigmaInv
        size := M.size
        image := M.img.map fun a => (h.image a, M.lut)
        sorted := M.sorted } := by
  unfold Heap.view
  rw [hM]
  simp only [Option.map_some, Option.some.injEq, View.mk.injEq, true_and, and_true]
  refine ⟨?_, ?_, ?_⟩
  · funext k l
    cases e : (M.table k)[l]? with
    | none => rfl
    | some p =>
      cases p with
      | none => rfl
      | some a =>
        obtain ⟨-, c, w2, w3, w4, -⟩ := w.cells k l a e
        simp [Heap.show, w2, w3, w4]
  · funext d
    simp [Heap.read, readMid, w.sigma, hM]
  · funext d
    simp [Heap.read, readMid, w.inv, hM]

theorem kindLabel {h : Heap K} {m : Nat} {M : MapObj K} (w : MapWell h m M) {k k' : Kind} {l l' a : Nat}
    (e : (M.table k)[l]? = some (some a)) (e' : (M.table k')[l']? = some (some a)) : k = k' ∧ l = l' := by
  obtain ⟨-, c, h1, -, h3, h4, -⟩ := w.cells k l a e
  obtain ⟨-, c', h1', -, h3', h4', -⟩ := w.cells k' l' a e'
  rw [h1] at h1'
  cases h1'
  exact ⟨h4.symm.trans h4', h3.symm.trans h3'⟩

theorem relabel_at (p : Option Nat) (l : Nat) (cell : Nat → Option (Cell K)) (b : Nat) :
    relabel p l cell b = if p = some b then (cell b).map (fun c => ⟨c.map, l, c.data⟩) else cell b := by
  cases p with
  | none => simp [relabel]
  | some a =>
    by_cases h : b = a
    · subst h
      simp [relabel]
    · rw [if_neg (fun e => h (by simpa using e.symm))]
      exact Function.update_of_ne h _ _

theorem run_view {h : Heap K} (hw : Well h) {m : Nat} {V : View K} (hV : h.view m = some V) (w : Write K) :
    (∀ V', w.apply V = some V' → ∃ h', w.run m h = .ok h' ∧ Well h' ∧ h'.view m = some V' ∧
      ∀ m', m' ≠ m → h'.view m' = h.view m') ∧
    (w.apply V = none → w.run m h = .precond) := by
  cases hM : h.map m with
  | none => simp [Heap.view, hM] at hV
  | some M =>
  have wm := hw.maps m M hM
  rw [view_of hM wm] at hV
  have fin : ∀ {h' M' V'}, w.run m h = .ok h' → Touch m M h h' M' → 
      (∀ k l, ((M'.table k)[l]?.join.bind h'.cell).map (fun c => (True, l, c.data.shown m)) = V'.cell k l) →
      (∀ k, (M'.table k).length = V'.max k) → M'.count = V'.count → readMid M'.sigma = V'.next → readMid M'.sigmaInv = V'.prev →
      M'.size = V'.size → M'.img.map (fun a => (h'.image a, M'.lut)) = V'.image → M'.sorted = V'.sorted →
      ∃ h', w.run m h = .ok h' ∧ Well h' ∧ h'.view m = some V' ∧ ∀ m', m' ≠ m → h'.view m' = h.view m' := by
    intro h' M' V' r t c1 c2 c3 c4 c5 c6 c7 c8
    obtain ⟨t1, t2⟩ := t.spec hw hM
    refine ⟨h', r, t1, ?_, t2⟩
    rw [view_of (by rw [t.map, Function.update_self]) t.well]
    cases V'
    simp only at c1 c2 c3 c4 c5 c6 c7 c8
    simp only [Option.some.injEq, View.mk.injEq]
    exact ⟨funext fun k => funext fun l => c1 k l, funext c2, c3, c4, c5, c6, c7, c8⟩
  simp only [Option.some.injEq] at hV
  subst hV
  cases w with
  | cell l d =>
    cases e : (M.table d.kind)[l]? with
    | none => simp [Write.apply, Write.run, hM, e]
    | some p =>
      cases p with
      | none => simp [Write.apply, Write.run, hM, e]
      | some a =>
        obtain ⟨w1, c, w2, w3, w4, w5, w6⟩ := wm.cells _ _ _ e
        refine ⟨fun V' hV' => ?_, fun hn => by simp [Write.apply, e, w2] at hn⟩
        simp only [Write.apply, e, Option.join_some, Option.bind_some, w2, Option.map_some, Option.some.injEq] at hV'
        subst hV'
        have new : ∀ k (l' b : Nat), (M.table k)[l']? = some (some b) → b ≠ a ∨ (k = d.kind ∧ l' = l) := by
          intro k l' b e'
          by_cases hb : b = a
          · subst hb
            exact .inr (kindLabel wm e' e)
          · exact .inl hb
        refine fin (h' := { h with cell := Function.update h.cell a (some ⟨c.map, c.label, d.darts m⟩) })
          (M' := M)
          (by simp only [Write.run, hM, e, w2]) ⟨?_, le_rfl, fun b c' hb _ hm => ?_,
          fun _ _ _ => rfl, ⟨wm.here, fun k l' b e' => ?_, wm.image, wm.sigma, wm.inv⟩, fun _ h => .inl h⟩
          (fun k l' => ?_) (fun _ => rfl) rfl rfl rfl rfl rfl rfl
        · simp [← hM]
        · refine Function.update_of_ne (fun hba => ?_) _ _
          rw [hba, w2] at hb
          cases hb
          exact hm w3
        · obtain ⟨v1, c', v2, v3, v4, v5, v6⟩ := wm.cells k l' b e'
          refine ⟨v1, ?_⟩
          rcases new k l' b e' with hb | ⟨rfl, rfl⟩
          · exact ⟨c', by simpa [Function.update_of_ne hb] using v2, v3, v4, v5, v6⟩
          · rw [e] at e'
            cases e'
            exact ⟨⟨c.map, c.label, d.darts m⟩, by simp, w3, w4, darts_kind _ _, darts_own _ _⟩
        · simp only [put]
          split
          · rename_i hh
            obtain ⟨rfl, rfl⟩ := hh
            simp [e, darts_shown m 0]
          · rename_i hh
            cases e' : (M.table k)[l']? with
            | none => rfl
            | some q =>
              cases q with
              | none => rfl
              | some b =>
                have hb : b ≠ a := (new k l' b e').resolve_right hh
                simp [Function.update_of_ne hb]
  | create pad d =>
    refine ⟨fun V' hV' => ?_, fun hn => by simp [Write.apply] at hn⟩
    simp only [Write.apply, Option.some.injEq] at hV'
    subst hV'
    have tab : ∀ k (l : Nat), (Function.update M.table d.kind (M.table d.kind ++ List.replicate pad none ++ [some h.fresh]) k)[l]?.join =
        if k = d.kind ∧ l = (M.table d.kind).length + pad then some h.fresh else (M.table k)[l]?.join := by
      intro k l
      by_cases hk : k = d.kind
      · subst hk
        rw [Function.update_self]
        simp only [true_and]
        rcases lt_trichotomy l ((M.table d.kind).length + pad) with hl | hl | hl
        · rw [if_neg (by omega), List.getElem?_append_left (by simpa using hl)]
          by_cases hl' : l < (M.table d.kind).length
          · rw [List.getElem?_append_left hl']
          · rw [List.getElem?_append_right (by omega), List.getElem?_eq_none (l := M.table d.kind) (by omega),
              List.getElem?_replicate_of_lt (by omega)]
            rfl
        · subst hl
          rw [if_pos rfl, List.getElem?_append_right (by simp)]
          simp
        · rw [if_neg (by omega), List.getElem?_eq_none (by simp; omega), List.getElem?_eq_none (by omega)]
      · rw [Function.update_of_ne hk, if_neg (by tauto)]
    have keep : ∀ k (l a : Nat), (M.table k)[l]?.join = some a → (M.table k)[l]? = some (some a) := fun k l a e => by
      simpa [Option.join_eq_some_iff] using e
    refine fin (h' := ⟨Function.update h.cell h.fresh (some ⟨some m, (M.table d.kind ++ List.replicate pad none).length, d.darts m⟩),
          Function.update h.map m (some { M with table := Function.update M.table d.kind (M.table d.kind ++ List.replicate pad none ++ [some h.fresh]) }), h.image, h.fresh + 1⟩)
          (M' := { M with table := Function.update M.table d.kind (M.table d.kind ++ List.replicate pad none ++ [some h.fresh]) })
          (by simp only [Write.run, hM]) ⟨rfl, Nat.le_succ _, fun b c' hb hlt hm => ?_,
      fun _ _ _ => rfl, ⟨Nat.lt_succ_of_lt wm.here, fun k l' b e' => ?_, fun a e => ?_, wm.sigma, wm.inv⟩, fun _ h => .inl h⟩
      (fun k l' => ?_) (fun k => ?_) rfl rfl rfl rfl rfl rfl
    · exact Function.update_of_ne (by omega) _ _
    · have e2 := tab k l'
      simp only at e'
      rw [e', Option.join_some] at e2
      split at e2
      · rename_i hh
        obtain ⟨rfl, rfl⟩ := hh
        cases e2
        exact ⟨Nat.lt_succ_self _, _, by simp; rfl, rfl, by simp, darts_kind _ _, darts_own _ _⟩
      · obtain ⟨v1, c', v2, v⟩ := wm.cells k l' b (keep _ _ _ e2.symm)
        exact ⟨Nat.lt_succ_of_lt v1, c', (Function.update_of_ne (by omega) _ _).trans v2, v⟩
    · obtain ⟨v1, v2⟩ := wm.image a e
      exact ⟨Nat.lt_succ_of_lt v1, v2⟩
    · simp only [tab, put]
      split
      · rename_i hh
        obtain ⟨rfl, rfl⟩ := hh
        simp [darts_shown m 0]
      · cases e : (M.table k)[l']?.join with
        | none => rfl
        | some b =>
          have := (wm.cells k l' b (keep _ _ _ e)).1
          simp [Function.update_of_ne (show b ≠ h.fresh by omega)]
    · by_cases hk : k = d.kind
      · subst hk
        simp
        omega
      · simp [Function.update_of_ne hk]
  | remove k l =>
    cases e : (M.table k)[l]? with
    | none => simp [Write.apply, Write.run, hM, e]
    | some p =>
      cases p with
      | none => simp [Write.apply, Write.run, hM, e]
      | some a =>
        obtain ⟨w1, c, w2, w3, w4, w5, w6⟩ := wm.cells _ _ _ e
        refine ⟨fun V' hV' => ?_, fun hn => by simp [Write.apply, e, w2] at hn⟩
        simp only [Write.apply, e, Option.join_some, Option.bind_some, w2, Option.map_some, Option.some.injEq] at hV'
        subst hV'
        have tab : ∀ k' (l' : Nat), (Function.update M.table k ((M.table k).set l none) k')[l']?.join =
            if k' = k ∧ l' = l then none else (M.table k')[l']?.join := by
          intro k' l'
          by_cases hk : k' = k
          · subst hk
            rw [Function.update_self, List.getElem?_set]
            by_cases hl : l = l'
            · subst hl
              rw [if_pos rfl, if_pos (⟨rfl, rfl⟩ : k' = k' ∧ l = l)]
              split <;> rfl
            · rw [if_neg hl, if_neg (by omega)]
          · rw [Function.update_of_ne hk, if_neg (by tauto)]
        have new : ∀ k' (l' b : Nat), (M.table k')[l']?.join = some b → b ≠ a ∨ (k' = k ∧ l' = l) := by
          intro k' l' b e'
          by_cases hb : b = a
          · subst hb
            exact .inr (kindLabel wm (by simpa [Option.join_eq_some_iff] using e') e)
          · exact .inl hb
        refine fin (h' := ⟨Function.update h.cell a (some { c with map := none }),
          Function.update h.map m (some { M with table := Function.update M.table k ((M.table k).set l none) }), h.image, h.fresh⟩)
          (M' := { M with table := Function.update M.table k ((M.table k).set l none) })
          (by simp only [Write.run, hM, e, w2]) ⟨rfl, le_rfl, fun b c' hb _ hm => ?_,
          fun _ _ _ => rfl, ⟨wm.here, fun k' l' b e' => ?_, wm.image, wm.sigma, wm.inv⟩, fun _ h => .inl h⟩
          (fun k' l' => ?_) (fun k' => ?_) rfl rfl rfl rfl rfl rfl
        · refine Function.update_of_ne (fun hba => ?_) _ _
          rw [hba, w2] at hb
          cases hb
          exact hm w3
        · have e2 := tab k' l'
          simp only at e'
          rw [e', Option.join_some] at e2
          split at e2
          · cases e2
          · rename_i hh
            obtain ⟨v1, c', v2, v⟩ := wm.cells k' l' b (by simpa [Option.join_eq_some_iff] using e2.symm)
            exact ⟨v1, c', (Function.update_of_ne ((new k' l' b e2.symm).resolve_right hh) _ _).trans v2, v⟩
        · simp only [tab, put]
          split
          · rfl
          · rename_i hh
            cases e' : (M.table k')[l']?.join with
            | none => rfl
            | some b => simp [Function.update_of_ne ((new k' l' b e').resolve_right hh)]
        · by_cases hk : k' = k
          · subst hk
            simp
          · simp [Function.update_of_ne hk]
  | swap k l l' =>
    by_cases hin : l < (M.table k).length ∧ l' < (M.table k).length
    swap
    · refine ⟨fun V' hV' => ?_, fun _ => ?_⟩
      · simp only [Write.apply] at hV'
        rw [if_neg hin] at hV'
        cases hV'
      · simp only [Write.run, hM]
        split
        · rename_i e1 e2
          exact absurd ⟨(List.getElem?_eq_some_iff.mp e1).1, (List.getElem?_eq_some_iff.mp e2).1⟩ hin
        · rfl
    obtain ⟨p, hp⟩ : ∃ p, (M.table k)[l]? = some p := ⟨_, List.getElem?_eq_getElem hin.1⟩
    obtain ⟨q, hq⟩ : ∃ q, (M.table k)[l']? = some q := ⟨_, List.getElem?_eq_getElem hin.2⟩
    refine ⟨fun V' hV' => ?_, fun hn => by simp only [Write.apply] at hn; rw [if_pos hin] at hn; cases hn⟩
    simp only [Write.apply] at hV'
    rw [if_pos hin, Option.some.injEq] at hV'
    subst hV'
    have tab : ∀ k' (x : Nat), (Function.update M.table k (((M.table k).set l q).set l' p) k')[x]? =
        if k' = k ∧ x = l' then some p else if k' = k ∧ x = l then some q else (M.table k')[x]? := by
      intro k' x
      by_cases hk : k' = k
      · subst hk
        rw [Function.update_self]
        simp only [true_and, List.getElem?_set, List.length_set, hin.1, hin.2, if_true]
        by_cases h1 : x = l'
        · simp [h1]
        · by_cases h2 : x = l
          · subst h2
            simp [h1, Ne.symm h1]
          · simp [h1, h2, Ne.symm h1, Ne.symm h2]
      · rw [Function.update_of_ne hk, if_neg (by tauto), if_neg (by tauto)]
    have far : ∀ k' (x b : Nat), (M.table k')[x]? = some (some b) → ¬ (k' = k ∧ x = l') → ¬ (k' = k ∧ x = l) →
        p ≠ some b ∧ q ≠ some b := by
      intro k' x b e h1 h2
      refine ⟨?_, ?_⟩ <;> rintro rfl
      · exact h2 (kindLabel wm e hp)
      · exact h1 (kindLabel wm e hq)
    have data : ∀ b c, h.cell b = some c → ∃ x, relabel q l (relabel p l' h.cell) b = some ⟨c.map, x, c.data⟩ := by
      intro b c e
      rw [relabel_at, relabel_at, e]
      split <;> split <;> exact ⟨_, rfl⟩
    refine fin (h' := ⟨relabel q l (relabel p l' h.cell), Function.update h.map m (some { M with
        table := Function.update M.table k (((M.table k).set l q).set l' p) }), h.image, h.fresh⟩)
      (M' := { M with table := Function.update M.table k (((M.table k).set l q).set l' p) })
      (by simp only [Write.run, hM, hp, hq]) ⟨rfl, le_rfl, fun b c' hb _ hm => ?_,
      fun _ _ _ => rfl, ⟨wm.here, fun k' x b e' => ?_, wm.image, wm.sigma, wm.inv⟩, fun _ h => .inl h⟩
      (fun k' x => ?_) (fun k' => ?_) rfl rfl rfl rfl rfl rfl
    · have h1 : p ≠ some b := by
        rintro rfl
        obtain ⟨-, c, v2, v3, -⟩ := wm.cells _ _ _ hp
        rw [hb] at v2
        cases v2
        exact hm v3
      have h2 : q ≠ some b := by
        rintro rfl
        obtain ⟨-, c, v2, v3, -⟩ := wm.cells _ _ _ hq
        rw [hb] at v2
        cases v2
        exact hm v3
      simp only [relabel_at, h1, h2, if_false]
    · simp only [tab] at e'
      split at e'
      · rename_i hh
        obtain ⟨rfl, rfl⟩ := hh
        cases e'
        obtain ⟨v1, c, v2, v3, v4, v5, v6⟩ := wm.cells _ _ _ hp
        refine ⟨v1, ⟨c.map, x, c.data⟩, ?_, v3, rfl, v5, v6⟩
        simp only [relabel_at, v2, if_true, Option.map_some]
        split
        · rename_i hqb
          subst hqb
          rw [(kindLabel wm hp hq).2]
        · rfl
      · split at e'
        · rename_i hh
          obtain ⟨rfl, rfl⟩ := hh
          cases e'
          obtain ⟨v1, c, v2, v3, v4, v5, v6⟩ := wm.cells _ _ _ hq
          refine ⟨v1, ⟨c.map, x, c.data⟩, ?_, v3, rfl, v5, v6⟩
          simp only [relabel_at, v2, if_true]
          split <;> rfl
        · rename_i g1 g2
          obtain ⟨v1, c, v2, v⟩ := wm.cells _ _ _ e'
          obtain ⟨f1, f2⟩ := far _ _ _ e' g1 g2
          exact ⟨v1, c, by simp only [relabel_at, f1, f2, if_false, v2], v⟩
    · have look : ∀ (o : Option (Option Nat)) (y : Nat), (∀ b, o = some (some b) → ∃ c, h.cell b = some c) →
          (o.join.bind (relabel q l (relabel p l' h.cell))).map (fun c => (True, y, c.data.shown m)) =
            (o.join.bind h.cell).map fun c => (True, y, c.data.shown m) := by
        intro o y ho
        match o, ho with
        | none, _ => rfl
        | some none, _ => rfl
        | some (some b), ho =>
          obtain ⟨c, hc⟩ := ho b rfl
          obtain ⟨z, hz⟩ := data b c hc
          simp [hz, hc]
      have ex : ∀ k' (x b : Nat), (M.table k')[x]? = some (some b) → ∃ c, h.cell b = some c := fun k' x b e => by
        obtain ⟨-, c, v, -⟩ := wm.cells _ _ _ e
        exact ⟨c, v⟩
      simp only [tab, put]
      split
      · rename_i hh
        obtain ⟨rfl, rfl⟩ := hh
        rw [look (some p) x (fun b e => ex k' l b (by rw [hp, e])), hp]
        simp [Function.comp_def]
      · split
        · rename_i hh
          obtain ⟨rfl, rfl⟩ := hh
          rw [look (some q) x (fun b e => ex k' l' b (by rw [hq, e])), hq]
          simp [Function.comp_def]
        · exact look _ x (ex k' x)
    · by_cases hk : k' = k
      · subst hk
        simp
      · simp [Function.update_of_ne hk]
  | resize k n =>
    refine ⟨fun V' hV' => ?_, fun hn => by simp [Write.apply] at hn⟩
    simp only [Write.apply, Option.some.injEq] at hV'
    subst hV'
    have tab : ∀ k' (l' : Nat), (Function.update M.table k ((M.table k).take n ++
        List.replicate (n - (M.table k).length) none) k')[l']?.join =
        if k' = k ∧ n ≤ l' then none else (M.table k')[l']?.join := by
      intro k' l'
      by_cases hk : k' = k
      · subst hk
        rw [Function.update_self]
        simp only [true_and]
        by_cases hl : n ≤ l'
        · rw [if_pos hl, List.getElem?_eq_none (by simp; omega)]
          rfl
        · rw [if_neg hl]
          by_cases hl' : l' < (M.table k').length
          · rw [List.getElem?_append_left (by simp; omega), List.getElem?_take_of_lt (by omega)]
          · rw [List.getElem?_append_right (by simp; omega), List.getElem?_eq_none (l := M.table k') (by omega),
              List.getElem?_replicate_of_lt (by simp; omega)]
            rfl
      · rw [Function.update_of_ne hk, if_neg (by tauto)]
    refine fin (h' := ⟨h.cell,
          Function.update h.map m (some { M with table := Function.update M.table k ((M.table k).take n ++ List.replicate (n - (M.table k).length) none) }), h.image, h.fresh⟩)
          (M' := { M with table := Function.update M.table k ((M.table k).take n ++ List.replicate (n - (M.table k).length) none) })
          (by simp only [Write.run, hM]) ⟨rfl, le_rfl, fun _ _ _ _ _ => rfl,
      fun _ _ _ => rfl, ⟨wm.here, fun k' l' b e' => ?_, wm.image, wm.sigma, wm.inv⟩, fun _ h => .inl h⟩
      (fun k' l' => ?_) (fun k' => ?_) rfl rfl rfl rfl rfl rfl
    · have e2 := tab k' l'
      simp only at e'
      rw [e', Option.join_some] at e2
      split at e2
      · cases e2
      · exact wm.cells k' l' b (by simpa [Option.join_eq_some_iff] using e2.symm)
    · simp only [tab]
      split <;> rfl
    · by_cases hk : k' = k
      · subst hk
        simp
        omega
      · simp [Function.update_of_ne hk]
  | plain count ix lut sorted =>
    refine ⟨fun V' hV' => ?_, fun hn => by simp [Write.apply] at hn⟩
    simp only [Write.apply, Option.some.injEq] at hV'
    subst hV'
    refine fin (h' := ⟨h.cell,
          Function.update h.map m (some { M with count := count, index := ix, lut := lut, sorted := sorted }), h.image, h.fresh⟩)
          (M' := { M with count := count, index := ix, lut := lut, sorted := sorted })
          (by simp only [Write.run, hM]) ⟨rfl, le_rfl, fun _ _ _ _ _ => rfl, fun _ _ _ => rfl,
      ⟨wm.here, wm.cells, wm.image, wm.sigma, wm.inv⟩, fun _ h => .inl h⟩
      (fun _ _ => rfl) (fun _ => rfl) rfl rfl rfl rfl (by simp [Function.comp_def]) rfl
  | sigma s i =>
    refine ⟨fun V' hV' => ?_, fun hn => by simp [Write.apply] at hn⟩
    simp only [Write.apply, Option.some.injEq] at hV'
    subst hV'
    refine fin (h' := ⟨h.cell,
          Function.update h.map m (some { M with sigma := s, sigmaInv := i, sigmaAt := (m, s.length / 2), invAt := (m, i.length / 2) }), h.image, h.fresh⟩)
          (M' := { M with sigma := s, sigmaInv := i, sigmaAt := (m, s.length / 2), invAt := (m, i.length / 2) })
          (by simp only [Write.run, hM]) ⟨rfl, le_rfl, fun _ _ _ _ _ => rfl, fun _ _ _ => rfl,
      ⟨wm.here, wm.cells, wm.image, rfl, rfl⟩, fun _ h => .inl h⟩
      (fun _ _ => rfl) (fun _ => rfl) rfl rfl rfl rfl rfl rfl
  | newImage im lut =>
    refine ⟨fun V' hV' => ?_, fun hn => by simp [Write.apply] at hn⟩
    simp only [Write.apply, Option.some.injEq] at hV'
    subst hV'
    refine fin (h' := ⟨h.cell,
          Function.update h.map m (some { M with img := some h.fresh, lut := lut }), Function.update h.image h.fresh (some im), h.fresh + 1⟩)
          (M' := { M with img := some h.fresh, lut := lut })
          (by simp only [Write.run, hM]) ⟨rfl, Nat.le_succ _, fun _ _ _ _ _ => rfl,
      fun a ha _ => Function.update_of_ne (by omega) _ _,
      ⟨Nat.lt_succ_of_lt wm.here, fun k l a e => ?_, fun a e => ?_, wm.sigma, wm.inv⟩, fun a e => ?_⟩
      (fun _ _ => rfl) (fun _ => rfl) rfl rfl rfl rfl (by simp) rfl
    · obtain ⟨v1, v⟩ := wm.cells k l a e
      exact ⟨Nat.lt_succ_of_lt v1, v⟩
    · cases e
      exact ⟨Nat.lt_succ_self _, im, by simp⟩
    · cases e
      exact .inr le_rfl
  | image im =>
    cases e : M.img with
    | none => simp [Write.apply, Write.run, hM, e]
    | some a =>
      refine ⟨fun V' hV' => ?_, fun hn => by simp [Write.apply, e] at hn⟩
      simp only [Write.apply, e, Option.map_some, Option.some.injEq] at hV'
      subst hV'
      refine fin (h' := ⟨h.cell, h.map, Function.update h.image a (some im), h.fresh⟩)
          (M' := M)
          (by simp only [Write.run, hM, e]) ⟨by simp [← hM], le_rfl, fun _ _ _ _ _ => rfl,
        fun b hb hne => Function.update_of_ne (by rintro rfl; exact hne e) _ _,
        ⟨wm.here, wm.cells, fun b e' => ?_, wm.sigma, wm.inv⟩, fun _ h => .inl h⟩
        (fun _ _ => rfl) (fun _ => rfl) rfl rfl rfl rfl (by simp [e]) rfl
      rw [e] at e'
      cases e'
      exact ⟨(wm.image a e).1, im, by simp⟩
  | dropImage =>
    cases e : M.img with
    | none => simp [Write.apply, Write.run, hM, e]
    | some a =>
      refine ⟨fun V' hV' => ?_, fun hn => by simp [Write.apply, e] at hn⟩
      simp only [Write.apply, e, Option.map_some, Option.some.injEq] at hV'
      subst hV'
      refine fin (h' := ⟨h.cell,
          Function.update h.map m (some { M with img := none }), Function.update h.image a none, h.fresh⟩)
          (M' := { M with img := none })
          (by simp only [Write.run, hM, e]) ⟨rfl, le_rfl, fun _ _ _ _ _ => rfl,
        fun b hb hne => Function.update_of_ne (by rintro rfl; exact hne e) _ _,
        ⟨wm.here, wm.cells, fun b e' => (nomatch e'), wm.sigma, wm.inv⟩, fun _ h => (nomatch h)⟩
        (fun _ _ => rfl) (fun _ => rfl) rfl rfl rfl rfl rfl rfl

end Verif.Copy
