import Verif.FaceStats.Run
import Verif.LabelImage.Props

/-!
# The invariant of the statistics holds in every reachable state

`run_step` (one call), `construct_inv` (the constructor) and `SReach.inv` (all histories).
-/

set_option linter.unusedSectionVars false

namespace Verif.FaceStats
open Verif Verif.GeoMap Verif.LabelImage

variable {K V : Type} [Field K] [LinearOrder K] [IsStrictOrderedRing K] [FloorRing K]

/-! ## Helpers -/

theorem map_eq_precond {A B : Type} {o : Outcome A} (f : A → B) (h : o = .precond) : o.map f = .precond := by rw [h]; rfl

/-- One call. -/
theorem run_step {env : Env K V} (hb : BoxesCover env) {m : LMap K} {st : Stats V} (hS : SInv env m st) (h : Hooks K) (asked : Bool) (op : LOp K)
    (hl : op.op.legal m.g) (hf : op.fits m.g) :
    (op.run h m = .precond ∧ run env h asked m st op = .precond) ∨
    (∃ sl ml, Merges h m op sl ml ∧ LastMark st sl ml ∧ run env h asked m st op = .ub) ∨
    ((∀ sl ml, Merges h m op sl ml → ¬ LastMark st sl ml) ∧
      ∃ n st', op.run h m = .ok n ∧ run env h asked m st op = .ok (n, st') ∧ SInv env n st') := by
  obtain ⟨im, hI⟩ := hS.reach.inv
  have plain : ∀ {g : GMap K}, run env h asked m st op = (op.run h m).map (fun n => (n, st)) → (∀ d, op ≠ .mergeFaces d ∧ op ≠ .removeEdge d) →
      op.run h m = .ok { m with g := g } → g.nEdges = m.g.nEdges → g.nFaces = m.g.nFaces →
      (∀ l, (g.edge l).map (·.pts) = (m.g.edge l).map (·.pts)) → (∀ f, (g.face f).map (·.pixelArea) = (m.g.face f).map (·.pixelArea)) →
      op.op.run h m.g = .ok g →
      ((∀ sl ml, Merges h m op sl ml → ¬ LastMark st sl ml) ∧
      ∃ n st', op.run h m = .ok n ∧ run env h asked m st op = .ok (n, st') ∧ SInv env n st') := by
    intro g h0 hno h1 h2 h3 h4 h5 h6
    refine ⟨?_, { m with g := g }, st, h1, by rw [h0, h1]; rfl, ?_⟩
    · rintro sl ml ⟨d, n, px, h7 | h7, -⟩
      · exact absurd h7 (hno d).1
      · exact absurd h7 (hno d).2
    · rcases hI.gstep h op hl hf with e' | ⟨t, e', hg, hG⟩
      · rw [h6] at e'; cases e'
      · rw [h6] at e'; cases e'
        refine hS.quiet (.call h op hS.reach hl hf h1) h3 (fun f => ?_) (fun f => ?_)
        · have := congrArg Option.isSome (h5 f)
          simpa using this
        · exact values_same hI (hI.same hg hG h2 h3 h4 h5) rfl rfl (fun _ _ => rfl) _ _
  have merge : ∀ d, (op = .mergeFaces d ∨ op = .removeEdge d) → op.run h m = (m.mergeFaces h d).map (·.2.1) →
      run env h asked m st op = mergeFaces env h asked m st d →
      (op.run h m = .precond ∧ run env h asked m st op = .precond) ∨
      (∃ sl ml, Merges h m op sl ml ∧ LastMark st sl ml ∧ run env h asked m st op = .ub) ∨
      ((∀ sl ml, Merges h m op sl ml → ¬ LastMark st sl ml) ∧
        ∃ n st', op.run h m = .ok n ∧ run env h asked m st op = .ok (n, st') ∧ SInv env n st') := by
    intro d hop hr1 hr2
    have hd : ∀ d', (op = .mergeFaces d' ∨ op = .removeEdge d') → d' = d := by
      rintro d' (q | q) <;> rcases hop with p | p <;> rw [p] at q <;> cases q <;> rfl
    rw [hr1, hr2]
    rcases mergeFaces_step hb hS h asked d with ⟨e1, e2⟩ | ⟨n, px, e1, st', e2, e3⟩ | ⟨sl, ml, n, px, e1, hne, hs, e2⟩
    · exact Or.inl ⟨by rw [e1]; rfl, e2⟩
    · refine Or.inr (Or.inr ⟨?_, n, st', by rw [e1]; rfl, e2, e3⟩)
      rintro sl ml ⟨d', n', px', hd', hh, -⟩
      rw [hd d' hd', e1] at hh
      cases hh
    · rcases e2 with ⟨hL, e2⟩ | ⟨hL, st', e2, e3⟩
      · exact Or.inr (Or.inl ⟨sl, ml, ⟨d, n, px, hop, e1, hne, hs⟩, hL, e2⟩)
      · refine Or.inr (Or.inr ⟨?_, n, st', by rw [e1]; rfl, e2, e3⟩)
        rintro sl' ml' ⟨d', n', px', hd', hh, hne', hs'⟩
        rw [hd d' hd'] at hh hs'
        rw [e1] at hh
        simp only [Outcome.ok.injEq, Prod.mk.injEq, Option.some.injEq] at hh
        obtain ⟨rfl, -, -⟩ := hh
        have : ml' = ml := by
          rcases hs with ⟨a, b⟩ | ⟨a, b⟩ <;> rcases hs' with ⟨a', b'⟩ | ⟨a', b'⟩ <;> rw [a] at a' <;> rw [b] at b' <;>
            simp only [Option.some.injEq] at a' b' <;> omega
        rw [this]
        exact hL
  have bridge : ∀ d, (op = .removeBridge d ∨ (op = .removeEdge d ∧ m.g.left? d = m.g.left? (-d))) → op.run h m = (m.removeBridge h d).map (·.2.1) →
      run env h asked m st op = removeBridge env h m st d →
      (op.run h m = .precond ∧ run env h asked m st op = .precond) ∨
      (∃ sl ml, Merges h m op sl ml ∧ LastMark st sl ml ∧ run env h asked m st op = .ub) ∨
      ((∀ sl ml, Merges h m op sl ml → ¬ LastMark st sl ml) ∧
        ∃ n st', op.run h m = .ok n ∧ run env h asked m st op = .ok (n, st') ∧ SInv env n st') := by
    intro d hop hr1 hr2
    rw [hr1, hr2]
    rcases removeBridge_step hb hS h d with ⟨e1, e2⟩ | ⟨r, n, px, e1, st', e2, e3⟩
    · exact Or.inl ⟨by rw [e1]; rfl, e2⟩
    · refine Or.inr (Or.inr ⟨?_, n, st', by rw [e1]; rfl, e2, e3⟩)
      rintro sl ml ⟨d', n', px', hd', -, hne, hs⟩
      rcases hop with rfl | ⟨rfl, hlr⟩
      · rcases hd' with q | q <;> cases q
      · rcases hd' with q | q
        · cases q
        · cases q
          rcases hs with ⟨a, b⟩ | ⟨a, b⟩ <;> rw [a, b] at hlr <;> simp only [Option.some.injEq] at hlr <;> omega
  cases op with
  | addNode p label =>
    exact Or.inr (Or.inr (plain rfl (fun d => ⟨by simp, by simp⟩) rfl rfl rfl (fun _ => rfl) (fun _ => rfl) rfl))
  | removeIsolatedNode k =>
    obtain ⟨r, t, e, -⟩ := removeIsolatedNode_step hI.good.map h hl.1 hl.2
    have hsame := removeIsolatedNode_same e
    refine Or.inr (Or.inr (plain (g := t) rfl (fun d => ⟨by simp, by simp⟩) ?_ hsame.1 hsame.2.1 (fun l => by rw [hsame.2.2.1])
      (fun f => by rw [hsame.2.2.2]) ?_))
    · show (m.g.removeIsolatedNode h k).map _ = _
      rw [e]; rfl
    · show (m.g.removeIsolatedNode h k).map (·.2) = _
      rw [e]; rfl
  | area f =>
    obtain ⟨x, t, e, -, hA⟩ := area_step hI.good.map (f := f) hl
    have hp : ∀ f, (t.face f).map (·.pixelArea) = (m.g.face f).map (·.pixelArea) := by
      intro f
      rcases hA.faces f with h1 | ⟨F, a1, a2, a3⟩
      · rw [h1]
      · rw [a1, a3]; rfl
    obtain ⟨face', hf'⟩ := hA.eq
    refine Or.inr (Or.inr (plain (g := t) rfl (fun d => ⟨by simp, by simp⟩) ?_ (by rw [hf']) (by rw [hf']) (fun l => by rw [hf']) hp ?_))
    · show (m.g.faceArea (some f)).map _ = _
      rw [e]; rfl
    · show (m.g.faceArea (some f)).map (·.2) = _
      rw [e]; rfl
  | setFlags l flags =>
    cases he : m.g.edge l with
    | none =>
      left
      have : m.g.setFlags l flags = .precond := by
        unfold GMap.setFlags GMap.guaranteedEdge
        simp [he, bind]
      have h1 : (LOp.setFlags l flags).run h m = .precond := by show (m.g.setFlags l flags).map _ = _; rw [this]; rfl
      exact ⟨h1, map_eq_precond _ h1⟩
    | some e =>
      have : m.g.setFlags l flags = .ok (m.g.setEdge l (some { e with flags := flags })) := by
        unfold GMap.setFlags GMap.guaranteedEdge
        simp [he, bind]
      refine Or.inr (Or.inr (plain (g := m.g.setEdge l (some { e with flags := flags })) rfl (fun d => ⟨by simp, by simp⟩) (by show (m.g.setFlags l flags).map _ = _; rw [this]; rfl) rfl rfl
        (fun k => ?_) (fun _ => rfl) this))
      simp only [GMap.setEdge]
      by_cases hk : k = l
      · subst hk; rw [Function.update_self, he]; rfl
      · rw [Function.update_of_ne hk]
  | mergeEdges d =>
    rcases mergeEdges_inv hI h d with ⟨e1, e2⟩ | ⟨r, g, n, im', e1, e2, e3, e4, e5, e6, e7⟩
    · left
      have h1 : (LOp.mergeEdges d).run h m = .precond := by show (m.mergeEdges h d).map _ = _; rw [e2]; rfl
      exact ⟨h1, map_eq_precond _ h1⟩
    · have h1 : (LOp.mergeEdges d).run h m = .ok n := by show (m.mergeEdges h d).map _ = _; rw [e2]; rfl
      refine Or.inr (Or.inr ⟨?_, n, st, h1, by show ((LOp.mergeEdges d).run h m).map _ = _; rw [h1]; rfl, ?_⟩)
      · rintro sl ml ⟨d', n', px', q | q, -⟩ <;> cases q
      · have hfaces : n.g.nFaces = m.g.nFaces ∧ ∀ f, (n.g.face f).map (fun F => (F.area, F.pixelArea)) = (m.g.face f).map (fun F => (F.area, F.pixelArea)) := by
          rw [e3]
          cases r with
          | none =>
            have hv := (mergeEdges_vetoed hI.good.map e1).1
            obtain ⟨f1, hf1⟩ := hv.eq
            exact ⟨by rw [hf1], hv.face⟩
          | some l =>
            obtain ⟨d1, d2, k, -, -, E⟩ := mergeEdges_effect hI.good.map e1
            exact ⟨E.sizes.2.2, E.faces⟩
        refine hS.quiet (.call h (.mergeEdges d) hS.reach hl hf h1) hfaces.1 (fun f => ?_) (fun f => values_same hI e4 e5 e6 e7 _ _)
        have := congrArg Option.isSome (hfaces.2 f)
        simpa using this
  | splitEdge l i np =>
    rcases splitEdge_inv hI l i np hf with ⟨e1, e2⟩ | ⟨r, g, n, im', e1, e2, e3, e4, e5, e6, e7⟩
    · left
      have h1 : (LOp.splitEdge l i np).run h m = .precond := by show (m.splitEdge l i np).map _ = _; rw [e2]; rfl
      exact ⟨h1, map_eq_precond _ h1⟩
    · have h1 : (LOp.splitEdge l i np).run h m = .ok n := by show (m.splitEdge l i np).map _ = _; rw [e2]; rfl
      refine Or.inr (Or.inr ⟨?_, n, st, h1, by show ((LOp.splitEdge l i np).run h m).map _ = _; rw [h1]; rfl, ?_⟩)
      · rintro sl ml ⟨d', n', px', q | q, -⟩ <;> cases q
      · have E := splitEdge_effect hI.good.map e1
        refine hS.quiet (.call h (.splitEdge l i np) hS.reach hl hf h1) (by rw [e3]; exact E.sizes.2.2) (fun f => by rw [e3, E.faces])
          (fun f => values_same hI e4 e5 e6 e7 _ _)
  | removeBridge d => exact bridge d (Or.inl rfl) rfl rfl
  | mergeFaces d => exact merge d (Or.inl rfl) rfl rfl
  | removeEdge d =>
    cases he : m.g.edge d.natAbs with
    | none =>
      left
      constructor
      · show (m.removeEdge h d).map _ = _
        unfold LMap.removeEdge
        simp [GMap.guaranteedEdge, he, bind, Outcome.map, Outcome.bind]
      · show removeEdge env h asked m st d = _
        unfold removeEdge
        simp [GMap.guaranteedEdge, he, bind]
    | some e =>
      have d0 : d ≠ 0 := by
        rintro rfl
        rw [Int.natAbs_zero, hI.good.map.graph.labels.edge_zero] at he
        cases he
      have h1 : m.removeEdge h d = if e.leftF = e.rightF then m.removeBridge h d else m.mergeFaces h d := by
        unfold LMap.removeEdge
        simp only [guaranteedEdge_of he, bind, Outcome.bind_ok]
      have h2 : removeEdge env h asked m st d = if e.leftF = e.rightF then removeBridge env h m st d else mergeFaces env h asked m st d := by
        unfold removeEdge
        simp only [guaranteedEdge_of he, bind, Outcome.bind_ok]
      by_cases hlr : e.leftF = e.rightF
      · rw [if_pos hlr] at h1 h2
        refine bridge d (Or.inr ⟨rfl, ?_⟩) (by show (m.removeEdge h d).map _ = _; rw [h1]) h2
        rw [left?_of he, left?_of (d := -d) (by simpa using he)]
        unfold Edge.leftOf
        split_ifs <;> simp [hlr]
      · rw [if_neg hlr] at h1 h2
        exact merge d (Or.inr rfl) (by show (m.removeEdge h d).map _ = _; rw [h1]) h2

/-! ### Construction -/

theorem inspect_spec {env : Env K V} {m : LMap K} (hm : LReach m) {l : List (Int × Int)} (hl : ∀ p ∈ l, InImage m.w m.h p)
    {fn : Nat → Option (Multiset V)} (hfn : ∀ f, (fn f).isSome = (m.g.face f).isSome) :
    ∃ fn', inspect env m m.g.nFaces l fn = .ok fn' ∧
      ∀ f, fn' f = (fn f).map (· + (((l.filter fun p => decide (m.report p = .ok (f : Int))).map env.orig : List V) : Multiset V)) := by
  induction l generalizing fn with
  | nil =>
    refine ⟨fn, rfl, fun f => ?_⟩
    cases fn f <;> simp
  | cons p ps ih =>
    have hp := labelImage_meaning hm (hl p List.mem_cons_self)
    by_cases hc : crossing m.g p = 0
    · obtain ⟨f, hf, hr⟩ := hp.2 hc
      have hlt := face_lt hm hf
      obtain ⟨a, ha⟩ := Option.isSome_iff_exists.mp ((hfn f).trans hf)
      obtain ⟨fn', h1, h2⟩ := ih (fun q hq => hl q (List.mem_cons_of_mem _ hq)) (fn := Function.update fn f (some (a + {env.orig p})))
        (fun g => by
          by_cases hg : g = f
          · subst hg; rw [Function.update_self, hf]; rfl
          · rw [Function.update_of_ne hg]; exact hfn g)
      refine ⟨fn', ?_, fun g => ?_⟩
      · unfold inspect
        simp only [hr, bind, Outcome.bind_ok]
        rw [if_pos (by omega), Int.toNat_natCast, if_pos hlt, ha]
        exact h1
      · rw [h2, List.filter_cons, hr]
        by_cases hg : g = f
        · subst hg
          rw [Function.update_self, ha]
          simp only [decide_true, if_true, List.map_cons, Option.map_some, ← Multiset.cons_coe]
          rw [add_assoc, Multiset.singleton_add]
        · rw [Function.update_of_ne hg]
          have : ¬ (Outcome.ok (f : Int) = Outcome.ok (g : Int)) := by
            simp only [Outcome.ok.injEq]
            omega
          simp [this]
    · have hr := hp.1 hc
      obtain ⟨fn', h1, h2⟩ := ih (fun q hq => hl q (List.mem_cons_of_mem _ hq)) hfn
      refine ⟨fn', ?_, fun g => ?_⟩
      · unfold inspect
        simp only [hr, bind, Outcome.bind_ok]
        rw [if_neg (by omega)]
        exact h1
      · rw [h2, List.filter_cons, hr]
        have : ¬ (Outcome.ok (-(crossing m.g p : Int)) = Outcome.ok (g : Int)) := by
          simp only [Outcome.ok.injEq]
          omega
        simp [this]

theorem sampleLoop_mark (grid : Nat → List V) (c left s : Nat) (a : Multiset V) : (sampleLoop grid c left s a).1 ≠ 0 := by
  induction left generalizing s a with
  | zero => simp [sampleLoop]
  | succ k ih =>
    unfold sampleLoop
    simp only
    split_ifs
    · exact ih _ _
    · simp

theorem ensure_spec {m : LMap K} (hm : LReach m) (grid : Nat → Nat → List V) (c : Nat) (orig : Int × Int → V) {fs : List Nat} (hnd : fs.Nodup)
    {fn : Nat → Option (Multiset V)} {t : Nat → Nat} {n : Nat} (h0 : ∀ f ∈ fs, t f = 0)
    (hfn : ∀ f, (fn f).isSome = (m.g.face f).isSome) (hn : n = markCount m.g t)
    (hv : ∀ f, (m.g.face f).isSome = true → t f = 0 → fn f = some (faceValues orig m f)) :
    let r := ensure m.g grid c fs (fn, t, n)
    (∀ f, (r.1 f).isSome = (m.g.face f).isSome) ∧ r.2.2 = markCount m.g r.2.1 ∧
      ∀ f, (m.g.face f).isSome = true → r.2.1 f = 0 → r.1 f = some (faceValues orig m f) := by
  induction fs generalizing fn t n with
  | nil => exact ⟨hfn, hn, hv⟩
  | cons f fs ih =>
    have hnd' := List.nodup_cons.mp hnd
    have hskip := ih hnd'.2 (fun g hg => h0 g (List.mem_cons_of_mem _ hg)) hfn hn hv
    unfold ensure
    cases hF : m.g.face f with
    | none => exact hskip
    | some F =>
      cases ha : fn f with
      | none => exact hskip
      | some a =>
        simp only
        by_cases hc : a.card < c
        · rw [if_pos hc]
          have hmk := sampleLoop_mark (grid f) c 16 0 a
          have hlive : (m.g.face f).isSome = true := by rw [hF]; rfl
          have h1 := markCount_one (t := t) (s := (sampleLoop (grid f) c 16 0 a).1) hlive (face_lt hm hlive)
          rw [if_neg hmk, if_pos (h0 f List.mem_cons_self)] at h1
          refine ih hnd'.2 (fun g hg => ?_) (fun g => ?_) (by omega) (fun g hg ht => ?_)
          · rw [Function.update_of_ne (by rintro rfl; exact hnd'.1 hg)]
            exact h0 g (List.mem_cons_of_mem _ hg)
          · by_cases hg : g = f
            · subst hg; rw [Function.update_self, hlive]; rfl
            · rw [Function.update_of_ne hg]; exact hfn g
          · have hgf : g ≠ f := by
              rintro rfl
              rw [Function.update_self] at ht
              exact hmk ht
            rw [Function.update_of_ne hgf] at ht ⊢
            exact hv g hg ht
        · rw [if_neg hc]
          exact hskip

theorem construct_inv (env : Env K V) (grid : Nat → Nat → List V) (c : Nat) {m : LMap K} (hm : LReach m) :
    ∃ st, construct env grid c m = .ok st ∧ SInv env m st ∧ st.minCount = c := by
  obtain ⟨fn, h1, h2⟩ := inspect_spec (env := env) hm (l := LMap.allPixels m.w m.h) (fun p hp => (mem_allPixels).mp hp)
    (fn := fun f => (m.g.face f).map fun _ => (0 : Multiset V)) (fun f => by simp)
  have hfn : ∀ f, (fn f).isSome = (m.g.face f).isSome := fun f => by rw [h2]; simp
  have hv : ∀ f, (m.g.face f).isSome = true → fn f = some (faceValues env.orig m f) := by
    intro f hf
    obtain ⟨F, hF⟩ := Option.isSome_iff_exists.mp hf
    have hr := rescan_values (env := ⟨env.orig, fun _ _ _ => true⟩) (fun _ _ _ _ _ => rfl) hm f
    rw [h2, hF]
    simp only [Option.map_some, zero_add, Option.some.injEq]
    rw [← hr]
    unfold rescan
    simp
  have hzero : markCount m.g (fun _ => 0) = 0 := by
    unfold markCount
    simp
  unfold construct
  simp only [h1, bind, Outcome.bind_ok]
  by_cases hc : c = 0
  · rw [if_pos hc]
    exact ⟨_, rfl, ⟨hm, rfl, hfn, rfl, fun f hf _ => hv f hf⟩, rfl⟩
  · rw [if_neg hc]
    obtain ⟨q1, q2, q3⟩ := ensure_spec hm grid c env.orig (fs := List.range' 1 (m.g.nFaces - 1)) (List.nodup_range' (h := by omega)) (fn := fn) (t := fun _ => 0) (n := 0)
      (fun _ _ => rfl) hfn hzero.symm (fun f hf _ => hv f hf)
    refine ⟨_, rfl, ⟨hm, rfl, q1, ?_, fun f hf hmk => q3 f hf ?_⟩, rfl⟩
    · unfold CountOK
      simp only
      split_ifs with h0
      · exact h0
      · exact q2
    · by_contra hne
      by_cases h0 : (ensure m.g grid c (List.range' 1 (m.g.nFaces - 1)) (fn, fun _ => 0, 0)).2.2 = 0
      · have := markCount_pos hf (face_lt hm hf) hne
        omega
      · exact hmk ⟨_, if_neg h0, hne⟩

theorem SReach.inv {env : Env K V} (hb : BoxesCover env) {m : LMap K} {st : Stats V} (h : SReach env m st) : SInv env m st := by
  induction h with
  | new grid c hm e =>
    obtain ⟨st', e', hS, -⟩ := construct_inv env grid c hm
    rw [e'] at e; cases e
    exact hS
  | call hk asked op _ hl hf e ih =>
    rcases run_step hb ih hk asked op hl hf with ⟨-, e'⟩ | ⟨_, _, -, -, e'⟩ | ⟨-, n, st', -, e', hS⟩
    · rw [e'] at e; cases e
    · rw [e'] at e; cases e
    · rw [e'] at e; cases e
      exact hS

end Verif.FaceStats
