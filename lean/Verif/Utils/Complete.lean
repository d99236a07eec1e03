import Verif.Utils.Thin

/-! # Lemmas about `mergeFacesCompletely` -/

namespace Verif.GeoMap
open Verif Equiv Equiv.Perm Verif.PermLemmas

variable {K : Type} [Field K] [LinearOrder K]

omit [Field K] [LinearOrder K] in
theorem rightOf_left? {s : GMap K} {d : Int} {e : Edge K} (h0 : d ≠ 0) (he : s.edge d.natAbs = some e) : e.rightOf d = s.left? (-d) := by
  rw [left?_of (d := -d) (e := e) (by simpa using he), e.leftOf_neg h0]

/-- the edge of the dart carries one of the protection flags -/
def GMap.guarded (s : GMap K) (d : Int) : Bool :=
  match s.edge d.natAbs with
  | some e => e.flag allProtection
  | none => false

omit [Field K] [LinearOrder K] in
theorem commonLoop_eq {s : GMap K} {L : Finset Int} {ψ : Perm Int} (hr : Rep L s.phi s.phiInv ψ)
    (hl : ∀ d ∈ L, s.liveD d) (h0 : ∀ d ∈ L, d ≠ 0) {d : Int} (hd : d ∈ L) (R : Option Nat) (n k : Nat) (hk : k < Function.minimalPeriod s.phi d)
    (hn : Function.minimalPeriod s.phi d - k ≤ n) (acc : List Int) :
    s.commonLoop d R n (s.phi^[k] d) acc =
      .ok (if ((List.range' k (Function.minimalPeriod s.phi d - k)).map (fun i => s.phi^[i] d)).any (fun x => decide (s.left? (-x) = R) && s.guarded x) then none
        else some (acc ++ ((List.range' k (Function.minimalPeriod s.phi d - k)).map (fun i => s.phi^[i] d)).filter (fun x => decide (s.left? (-x) = R)))) := by
  induction n generalizing k acc with
  | zero => omega
  | succ n ih =>
    unfold GMap.commonLoop
    have hm := (hr.iterate_mem hd k).2
    obtain ⟨e, he⟩ := liveD_exists (hl _ hm)
    rw [guaranteedEdge_of he]
    simp only [bind, Outcome.bind_ok]
    have hg : s.guarded (s.phi^[k] d) = e.flag allProtection := by unfold GMap.guarded; rw [he]
    rw [rightOf_left? (h0 _ hm) he, ← Function.iterate_succ_apply' s.phi k d]
    have hrange : List.range' k (Function.minimalPeriod s.phi d - k) = k :: List.range' (k + 1) (Function.minimalPeriod s.phi d - (k + 1)) := by
      rw [← List.range'_succ]; congr 1; omega
    rw [hrange, List.map_cons, List.any_cons, List.filter_cons, hg]
    by_cases hk1 : k + 1 = Function.minimalPeriod s.phi d
    · have hb : s.phi^[k + 1] d = d := by rw [hk1]; exact Function.iterate_minimalPeriod
      rw [← hk1]
      by_cases hc : s.left? (-s.phi^[k] d) = R
      · by_cases hp : e.flag allProtection = true
        · simp [hc, hp]
        · simp [hc, hp, hb]
      · simp [hc, hb]
    · have hb : s.phi^[k + 1] d ≠ d := hr.iterate_ne (by omega) (by omega)
      have ih' := fun acc => ih (k + 1) (by omega) (by omega) acc
      by_cases hc : s.left? (-s.phi^[k] d) = R
      · by_cases hp : e.flag allProtection = true
        · simp [hc, hp]
        · simp only [hc, hp, if_true, if_neg hb, ih', decide_true, Bool.true_and, Bool.false_or, if_false, Bool.false_eq_true, List.append_assoc, List.singleton_append]
      · simp only [hc, if_false, if_neg hb, ih', decide_false, Bool.false_and, Bool.false_or, Bool.false_eq_true]

/-- Two faces of a planar map have all their common edges on one contour of each. -/
theorem Jordan.common {L : Finset Int} {f finv : Int → Int} {ψ : Perm Int} {st lf : Int → Option Nat} (h : Jordan L st lf)
    (hr : Rep L f finv ψ) (hsym : ∀ d ∈ L, -d ∈ L) (hst : ∀ d ∈ L, st (ψ d) = st (-d)) (hlf : ∀ d ∈ L, ∀ x, SameCycle ψ d x → lf x = lf d) {r x : Int} (hrL : r ∈ L) (hxL : x ∈ L)
    (hl : lf r = lf x) (hm : lf (-r) = lf (-x)) (hne : lf r ≠ lf (-r)) : SameCycle ψ r x := by
  classical
  by_contra hcon
  set O := L.filter (fun d => SameCycle ψ r d) with hO
  have hmO : ∀ d, d ∈ O ↔ d ∈ L ∧ SameCycle ψ r d := by intro d; simp [hO]
  let w : Nat → ZMod 2 := fun l => (if (l : Int) ∈ O then 1 else 0) + (if -(l : Int) ∈ O then 1 else 0)
  have hw : ∀ d : Int, w d.natAbs = (if d ∈ O then 1 else 0) + (if -d ∈ O then 1 else 0) := by
    intro d
    rcases (by omega : (d.natAbs : Int) = d ∨ (d.natAbs : Int) = -d) with e | e
    · simp only [w, e]
    · simp only [w, e, neg_neg]; ring
  obtain ⟨c, hc⟩ := h w (by
    intro n
    unfold bd
    simp only [hw]
    refine contour_closed hr hsym hst O (fun d hd => ((hmO d).mp hd).1) (fun d hd => ?_) n
    rw [hmO, hmO, hr.mem_iff, sameCycle_apply_right])
  have h1 := hc r hrL
  have h2 := hc x hxL
  rw [← hl, ← hm, ← h1, hw, hw] at h2
  have m1 : r ∈ O := (hmO r).mpr ⟨hrL, SameCycle.refl _ _⟩
  have m2 : -r ∉ O := fun hh => hne (hlf r hrL _ ((hmO _).mp hh).2).symm
  have m3 : x ∉ O := fun hh => hcon ((hmO _).mp hh).2
  have m4 : -x ∉ O := fun hh => hne ((hlf r hrL _ ((hmO _).mp hh).2).symm.trans hm.symm)
  simp only [m1, m2, m3, m4, if_true, if_false, add_zero] at h2
  exact zmod2_one_ne h2.symm

/-- `commonLoop` on a reachable map: all darts between the two faces, or nothing if one of them is protected. -/
theorem common_spec {s : GMap K} (hs : Reach s) (hi : s.initialized) {d : Int} (hd : s.liveD d) (hne : s.left? d ≠ s.left? (-d)) :
    ((∃ x, s.liveD x ∧ s.left? x = s.left? d ∧ s.left? (-x) = s.left? (-d) ∧ s.guarded x = true) ∧
        s.commonLoop d (s.left? (-d)) s.fuel d [] = .ok none) ∨
    ((∀ x, s.liveD x → s.left? x = s.left? d → s.left? (-x) = s.left? (-d) → s.guarded x = false) ∧
      ∃ ds, s.commonLoop d (s.left? (-d)) s.fuel d [] = .ok (some ds) ∧ (ds.map Int.natAbs).Nodup ∧
        ∀ x, x ∈ ds ↔ s.liveD x ∧ s.left? x = s.left? d ∧ s.left? (-x) = s.left? (-d)) := by
  have hM := hs.good.map
  obtain ⟨π, hg⟩ := hM.graph.exists_rep
  obtain ⟨ψ, hc⟩ := (hM.contours hi).exists_rep hg
  have hdL := (hg.live d).mpr hd
  have hr := hc.rep
  have hlive : ∀ x ∈ s.darts, s.liveD x := fun x hx => (hg.live x).mp hx
  have h0 : ∀ x ∈ s.darts, x ≠ 0 := fun x hx => by
    rintro rfl
    have := hlive 0 hx
    unfold GMap.liveD at this
    rw [Int.natAbs_zero, hM.graph.edge_zero] at this; cases this
  have hp := hr.isPeriodicPt hdL
  have heq := commonLoop_eq hr hlive h0 hdL (s.left? (-d)) s.fuel 0 hp.1 (by unfold GMap.fuel; have := hg.card_le; omega) []
  simp only [Function.iterate_zero, id, Nat.sub_zero, List.nil_append] at heq
  have hconst : ∀ a ∈ s.darts, ∀ x, SameCycle ψ a x → s.left? x = s.left? a := by
    intro a ha x hx
    obtain ⟨k, rfl⟩ := (hr.sameCycle_iff ha).mp hx
    induction k with
    | zero => rfl
    | succ k ih =>
      rw [Function.iterate_succ_apply', (hM.contours hi).left_phi _ (hlive _ (hr.iterate_mem ha k).2)]
      exact ih ((hr.sameCycle_iff ha).mpr ⟨k, rfl⟩)
  have hmem : ∀ x, (∃ i < Function.minimalPeriod s.phi d, s.phi^[i] d = x) ∧ s.left? (-x) = s.left? (-d) ↔
      s.liveD x ∧ s.left? x = s.left? d ∧ s.left? (-x) = s.left? (-d) := by
    intro x
    constructor
    · rintro ⟨⟨i, -, rfl⟩, h2⟩
      have hm := (hr.iterate_mem hdL i).2
      exact ⟨hlive _ hm, hconst d hdL _ ((hr.sameCycle_iff hdL).mpr ⟨i, rfl⟩), h2⟩
    · rintro ⟨h1, h2, h3⟩
      refine ⟨?_, h3⟩
      have hxL := (hg.live x).mpr h1
      have hP : Jordan s.darts s.startN? s.left? := hs.good.planar hi
      obtain ⟨k, rfl⟩ := (hr.sameCycle_iff hdL).mp (hP.common hr hg.symm (hg.start_phi hr) hconst hdL hxL h2.symm h3.symm hne)
      exact ⟨k % Function.minimalPeriod s.phi d, Nat.mod_lt _ hp.1, Function.iterate_mod_minimalPeriod_eq⟩
  have hml : ∀ x, x ∈ (List.range' 0 (Function.minimalPeriod s.phi d)).map (fun i => s.phi^[i] d) ↔ ∃ i < Function.minimalPeriod s.phi d, s.phi^[i] d = x := by
    intro x
    simp [List.mem_range'_1]
  by_cases hany : ((List.range' 0 (Function.minimalPeriod s.phi d)).map (fun i => s.phi^[i] d)).any (fun x => decide (s.left? (-x) = s.left? (-d)) && s.guarded x) = true
  · rw [if_pos hany] at heq
    refine Or.inl ⟨?_, heq⟩
    obtain ⟨x, hx, hx2⟩ := List.any_eq_true.mp hany
    rw [Bool.and_eq_true, decide_eq_true_eq] at hx2
    obtain ⟨h1, h2, h3⟩ := (hmem x).mp ⟨(hml x).mp hx, hx2.1⟩
    exact ⟨x, h1, h2, h3, hx2.2⟩
  · rw [if_neg hany] at heq
    refine Or.inr ⟨fun x h1 h2 h3 => ?_, _, heq, ?_, fun x => ?_⟩
    · by_contra hgd
      apply hany
      rw [List.any_eq_true]
      obtain ⟨h4, -⟩ := (hmem x).mpr ⟨h1, h2, h3⟩
      exact ⟨x, (hml x).mpr h4, by rw [Bool.and_eq_true, decide_eq_true_eq]; exact ⟨h3, by simpa using hgd⟩⟩
    · have hnd : ((List.range' 0 (Function.minimalPeriod s.phi d)).map (fun i => s.phi^[i] d)).Nodup := by
        refine List.Nodup.map_on ?_ (List.nodup_range')
        intro i hi' j hj' hij
        rw [List.mem_range'_1] at hi' hj'
        exact Function.iterate_injOn_Iio_minimalPeriod (by simpa using hi'.2) (by simpa using hj'.2) hij
      refine List.Nodup.map_on ?_ (hnd.filter _)
      intro x hx y hy hxy
      rw [List.mem_filter, decide_eq_true_eq] at hx hy
      obtain ⟨x1, x2, x3⟩ := (hmem x).mp ⟨(hml x).mp hx.1, hx.2⟩
      obtain ⟨y1, y2, y3⟩ := (hmem y).mp ⟨(hml y).mp hy.1, hy.2⟩
      rcases Int.natAbs_eq_natAbs_iff.mp hxy with h4 | h4
      · exact h4
      · exfalso
        subst h4
        rw [neg_neg] at x3
        exact hne (y2.symm.trans x3)
    · rw [List.mem_filter, decide_eq_true_eq, hml]
      exact hmem x

/-- the end nodes of the darts, in the order in which they are collected -/
def endsOf (s : GMap K) : List Int → List Nat
  | [] => []
  | x :: xs => ((s.startN? x).toList ++ (s.startN? (-x)).toList) ++ endsOf s xs

omit [Field K] [LinearOrder K] in
theorem mem_endsOf {s : GMap K} {n : Nat} : ∀ {ds : List Int}, n ∈ endsOf s ds ↔ ∃ x ∈ ds, s.startN? x = some n ∨ s.startN? (-x) = some n
  | [] => by simp [endsOf]
  | x :: xs => by
    simp only [endsOf, List.mem_append, mem_endsOf (ds := xs), List.mem_cons, exists_eq_or_imp, Option.mem_toList]

omit [Field K] [LinearOrder K] in
theorem endsOf_congr {s t : GMap K} : ∀ {ds : List Int}, (∀ x ∈ ds, t.startN? x = s.startN? x ∧ t.startN? (-x) = s.startN? (-x)) → endsOf t ds = endsOf s ds
  | [], _ => rfl
  | x :: xs, h => by
    simp only [endsOf]
    rw [(h x (by simp)).1, (h x (by simp)).2, endsOf_congr (fun y hy => h y (List.mem_cons_of_mem _ hy))]

omit [Field K] [LinearOrder K] in
theorem ends_of {s : GMap K} {d : Int} {e : Edge K} (h0 : d ≠ 0) (he : s.edge d.natAbs = some e) :
    [e.startOf d, e.endOf d] = (s.startN? d).toList ++ (s.startN? (-d)).toList := by
  rw [startN?_of he, startN?_of (d := -d) (e := e) (by simpa using he), e.startOf_neg h0]
  rfl

/-- the other darts of the list are untouched by removing the first -/
theorem Thinned.startN {P : Nat → Prop} {s t : GMap K} {k : Nat} (h : Thinned P s t k) {x : Int} (hx : t.liveD x) : t.startN? x = s.startN? x := by
  obtain ⟨e', he'⟩ := liveD_exists hx
  obtain ⟨e, he, h1, h2, -⟩ := h.edges _ _ he'
  rw [startN?_of he', startN?_of he]
  unfold Edge.startOf
  rw [h1, h2]

theorem Thinned.live_of {P : Nat → Prop} {s t : GMap K} {k : Nat} (h : Thinned P s t k) {x : Int} (hx : s.liveD x) (hP : ¬ P x.natAbs) : t.liveD x := by
  unfold GMap.liveD at hx ⊢
  cases ht : t.edge x.natAbs with
  | some _ => rfl
  | none => exact absurd (h.gone _ hx ht) hP

theorem mergeCommon_bridges (h : Hooks K) : ∀ (ds : List Int) {s : GMap K} (_ : Reach s) (_ : s.initialized) (f : Nat) (ns : List Nat)
    (_ : (ds.map Int.natAbs).Nodup) (_ : ∀ x ∈ ds, s.liveD x ∧ s.left? x = s.left? (-x)),
    ∃ k t, GMap.mergeCommon h ds (some f) ns s = .ok (some f, ns ++ endsOf s ds, t) ∧ Removed 31 (· ∈ ds.map Int.natAbs) s t k ∧
      ∀ x ∈ ds, t.liveD x → RefusedBridge h s x.natAbs := by
  intro ds
  induction ds with
  | nil => intro s hs hi f ns _ _; exact ⟨0, s, by simp [GMap.mergeCommon, endsOf], Removed.refl _ _ s, by simp⟩
  | cons x xs ih =>
    intro s hs hi f ns hnd hb
    obtain ⟨hnx, hnd'⟩ : (∀ y ∈ xs, ¬ y.natAbs = x.natAbs) ∧ (xs.map Int.natAbs).Nodup := by simpa using hnd
    obtain ⟨hx, hxb⟩ := hb x (by simp)
    obtain ⟨e, he⟩ := liveD_exists hx
    have h0 : x ≠ 0 := by
      rintro rfl
      rw [Int.natAbs_zero, hs.good.map.graph.edge_zero] at he; cases he
    unfold GMap.mergeCommon
    simp only [bind, guaranteedEdge_of he, Outcome.bind_ok]
    have fin : ∀ (u : GMap K) (j : Nat) (r : Option Nat), s.removeBridge h x = .ok (r, u) → Removed 31 (· = x.natAbs) s u j → (u.liveD x → RefusedBridge h s x.natAbs) →
        ∃ k t, ((s.removeBridge h x).bind fun y => GMap.mergeCommon h xs (some f) (ns ++ [e.startOf x, e.endOf x]) y.2) = .ok (some f, ns ++ endsOf s (x :: xs), t) ∧
          Removed 31 (· ∈ (x :: xs).map Int.natAbs) s t k ∧ ∀ y ∈ x :: xs, t.liveD y → RefusedBridge h s y.natAbs := by
      intro u j r hr hR href
      have hT := hR.thinned (Or.inr rfl)
      have hlive : ∀ y ∈ xs, u.liveD y ∧ u.liveD (-y) := by
        intro y hy
        have h1 := (hb y (List.mem_cons_of_mem _ hy)).1
        have h2 : y.natAbs ≠ x.natAbs := fun hh => hnx y hy hh
        exact ⟨hT.live_of h1 h2, hT.live_of (by unfold GMap.liveD at h1 ⊢; simpa using h1) (by simpa using h2)⟩
      obtain ⟨k, t, g1, g2, g3⟩ := ih (hT.later.reach hs) (hT.init hi) f (ns ++ [e.startOf x, e.endOf x]) hnd' (fun y hy => by
        obtain ⟨h1, h2⟩ := hlive y hy
        refine ⟨h1, ?_⟩
        rw [(hR.left h1).1, (hR.left h2).1]
        exact (hb y (List.mem_cons_of_mem _ hy)).2)
      refine ⟨j + k, t, ?_, ?_, ?_⟩
      · rw [hr, Outcome.bind_ok, g1]
        rw [endsOf_congr (fun y hy => ⟨(hR.left (hlive y hy).1).2.1, (hR.left (hlive y hy).2).2.1⟩)]
        simp only [endsOf, ends_of h0 he, List.append_assoc]
      · refine (hR.weaken (Q := (· ∈ (x :: xs).map Int.natAbs)) (fun l _ hl => by rw [hl]; simp)).trans g2 (fun l _ _ hl => ?_)
        rw [List.map_cons]; exact List.mem_cons_of_mem _ hl
      · intro y hy hyt
        rcases List.mem_cons.mp hy with rfl | hy
        · exact href (g2.left hyt).2.2
        · exact (g3 y hy hyt).mono hT.later
    rcases removeBridge_cases hs hi h hx hxb with ⟨f', u, e1, hlat, -, hE⟩ | ⟨e1, hv⟩
    · exact fin u 1 _ e1 (Removed.ofEffect hlat hE rfl) (fun hh => absurd hh hE.edge_gone.2)
    · exact fin s 0 _ e1 (Removed.refl _ _ s) (fun _ => ⟨s, x, .refl s, hx, rfl, hv⟩)

/-- Face `ml` was merged into face `sl`; the other faces are as before. -/
structure MergedInto (s t : GMap K) (sl ml : Nat) : Prop where
  distinct : sl ≠ ml ∧ ml ≠ 0
  gone : (s.face ml).isSome = true ∧ t.face ml = none
  areas : ∃ S M T, s.face sl = some S ∧ s.face ml = some M ∧ t.face sl = some T ∧ T.pixelArea = S.pixelArea + M.pixelArea
  lefts : ∀ x, t.liveD x → t.left? x = if s.left? x = some ml then some sl else s.left? x
  others : ∀ g, g ≠ sl → g ≠ ml → ((t.face g).isSome = (s.face g).isSome ∧
    (t.face g).map (·.pixelArea) = (s.face g).map (·.pixelArea))
  count : t.faceCount + 1 = s.faceCount

theorem mergeCommon_spec (h : Hooks K) {A B : Option Nat} (hAB : A ≠ B) : ∀ (ds : List Int) {s : GMap K} (_ : Reach s) (_ : s.initialized) (ns : List Nat)
    (_ : (ds.map Int.natAbs).Nodup) (_ : ∀ x ∈ ds, s.liveD x ∧ s.left? x = A ∧ s.left? (-x) = B),
    ∃ r k t, GMap.mergeCommon h ds none ns s = .ok (r, ns ++ endsOf s ds, t) ∧ Thinned (· ∈ ds.map Int.natAbs) s t k ∧
      ((r = none ∧ AreasCached s t ∧ ∀ x ∈ ds, RefusedFaces h s x.natAbs) ∨
       (∃ sl ml, r = some sl ∧ ((A = some sl ∧ B = some ml) ∨ (A = some ml ∧ B = some sl)) ∧ MergedInto s t sl ml ∧
          ∀ x ∈ ds, t.liveD x → RefusedFaces h s x.natAbs ∨ RefusedBridge h s x.natAbs)) := by
  intro ds
  induction ds with
  | nil => intro s hs hi ns _ _; exact ⟨none, 0, s, by simp [GMap.mergeCommon, endsOf], Thinned.refl _ s, Or.inl ⟨rfl, AreasCached.refl s, by simp⟩⟩
  | cons x xs ih =>
    intro s hs hi ns hnd hb
    obtain ⟨hnx, hnd'⟩ : (∀ y ∈ xs, ¬ y.natAbs = x.natAbs) ∧ (xs.map Int.natAbs).Nodup := by simpa using hnd
    obtain ⟨hx, hxA, hxB⟩ := hb x (by simp)
    obtain ⟨e, he⟩ := liveD_exists hx
    have h0 : x ≠ 0 := by
      rintro rfl
      rw [Int.natAbs_zero, hs.good.map.graph.edge_zero] at he; cases he
    have hne : s.left? x ≠ s.left? (-x) := by rw [hxA, hxB]; exact hAB
    unfold GMap.mergeCommon
    simp only [bind, guaranteedEdge_of he, Outcome.bind_ok]
    rcases mergeFaces_cases hs hi h hx hne with ⟨sl, ml, u, e1, hlat, hiu, hE⟩ | ⟨u, r, e1, hlat, hA, hr, hv⟩
    · have hT : Thinned (· = x.natAbs) s u 1 := Thinned.ofMerge hlat hE rfl
      have hlive : ∀ y ∈ xs, u.liveD y ∧ u.liveD (-y) := by
        intro y hy
        have h1 := (hb y (List.mem_cons_of_mem _ hy)).1
        have h2 : y.natAbs ≠ x.natAbs := fun hh => hnx y hy hh
        exact ⟨hT.live_of h1 h2, hT.live_of (by unfold GMap.liveD at h1 ⊢; simpa using h1) (by simpa using h2)⟩
      have hsides := hE.sides
      rw [hxA, hxB] at hsides
      obtain ⟨k, t, g1, g2, g3⟩ := mergeCommon_bridges h xs (hlat.reach hs) hiu sl (ns ++ [e.startOf x, e.endOf x]) hnd' (fun y hy => by
        obtain ⟨h1, h2⟩ := hlive y hy
        obtain ⟨-, h3, h4⟩ := hb y (List.mem_cons_of_mem _ hy)
        refine ⟨h1, ?_⟩
        rw [hE.lefts y h1, hE.lefts _ h2, h3, h4]
        have := hE.distinct.1
        rcases hsides with ⟨q1, q2⟩ | ⟨q1, q2⟩ <;> simp [q1, q2, this])
      refine ⟨some sl, 1 + k, t, ?_, ?_, Or.inr ⟨sl, ml, rfl, hsides, ?_, ?_⟩⟩
      · rw [e1, Outcome.bind_ok, g1]
        rw [endsOf_congr (fun y hy => ⟨hT.startN (hlive y hy).1, hT.startN (hlive y hy).2⟩)]
        simp only [endsOf, ends_of h0 he, List.append_assoc]
      · refine (hT.weaken (Q := (· ∈ (x :: xs).map Int.natAbs)) (fun l _ hl => by rw [hl]; simp)).trans (g2.thinned (Or.inr rfl)) (fun l _ _ hl => ?_)
        rw [List.map_cons]; exact List.mem_cons_of_mem _ hl
      · have hpix : ∀ g, (t.face g).map (·.pixelArea) = (u.face g).map (·.pixelArea) := fun g => by
          have := congrArg (Option.map Prod.snd) (g2.faces g)
          simpa [Option.map_map, Function.comp_def] using this
        have hsome : ∀ g, (t.face g).isSome = (u.face g).isSome := fun g => by
          have := congrArg Option.isSome (hpix g)
          simpa using this
        refine ⟨hE.distinct, ⟨hE.face_gone.1, ?_⟩, ?_, ?_, ?_, ?_⟩
        · have := hsome ml
          rw [hE.face_gone.2] at this
          simpa using this
        · obtain ⟨S, M, T, q1, q2, q3, q4⟩ := hE.areas
          have := hpix sl
          rw [q3] at this
          cases ht : t.face sl with
          | none => rw [ht] at this; cases this
          | some T' =>
            rw [ht] at this
            simp only [Option.map_some, Option.some.injEq] at this
            exact ⟨S, M, T', q1, q2, rfl, this.trans q4⟩
        · intro y hy
          obtain ⟨h1, -, h3⟩ := g2.left hy
          rw [h1, hE.lefts y h3]
        · intro g h1 h2
          rw [hsome g, hpix g, hE.faces g h1 h2]
          exact ⟨rfl, rfl⟩
        · rw [g2.faceCount]; exact hE.counts.2.2.2
      · intro y hy hyt
        rcases List.mem_cons.mp hy with rfl | hy
        · exact absurd (g2.left hyt).2.2 hE.edge_gone.2
        · exact Or.inr ((g3 y hy hyt).mono hlat)
    · have hT : Thinned (· = x.natAbs) s u 0 := Thinned.ofAreas hlat hA
      have hee : u.edge = s.edge := by obtain ⟨f, e2⟩ := hA.eq; rw [e2]
      have hll : u.left? = s.left? := by obtain ⟨f, e2⟩ := hA.eq; rw [e2]; rfl
      have hstt : u.startN? = s.startN? := by obtain ⟨f, e2⟩ := hA.eq; rw [e2]; rfl
      have hlv : ∀ y, u.liveD y ↔ s.liveD y := fun y => by unfold GMap.liveD; rw [hee]
      have href : RefusedFaces h s x.natAbs := by
        refine ⟨u, r, hlat, ?_, ?_, hv⟩
        · rw [hlv]
          rcases hr with rfl | rfl
          · exact hx
          · unfold GMap.liveD at hx ⊢; simpa using hx
        · rcases hr with rfl | rfl <;> simp
      obtain ⟨r', k, t, g1, g2, g3⟩ := ih (hlat.reach hs) (hT.init hi) (ns ++ [e.startOf x, e.endOf x]) hnd' (fun y hy => by
        rw [hlv, hll]; exact hb y (List.mem_cons_of_mem _ hy))
      refine ⟨r', 0 + k, t, ?_, ?_, ?_⟩
      · rw [e1, Outcome.bind_ok, g1]
        rw [endsOf_congr (s := s) (fun y _ => by rw [hstt]; exact ⟨rfl, rfl⟩)]
        simp only [endsOf, ends_of h0 he, List.append_assoc]
      · refine (hT.weaken (Q := (· ∈ (x :: xs).map Int.natAbs)) (fun l _ hl => by rw [hl]; simp)).trans g2 (fun l _ _ hl => ?_)
        rw [List.map_cons]; exact List.mem_cons_of_mem _ hl
      · rcases g3 with ⟨q1, q2, q3⟩ | ⟨sl, ml, q1, q2, q3, q4⟩
        · refine Or.inl ⟨q1, hA.trans q2, fun y hy => ?_⟩
          rcases List.mem_cons.mp hy with rfl | hy
          · exact href
          · exact (q3 y hy).mono hlat
        · have hfs : ∀ g, (u.face g).isSome = (s.face g).isSome := hA.isSome
          have hpx : ∀ g, (u.face g).map (·.pixelArea) = (s.face g).map (·.pixelArea) := by
            intro g
            rcases hA.faces g with h1 | ⟨F, h1, -, h2⟩
            · rw [h1]
            · rw [h1, h2]; rfl
          refine Or.inr ⟨sl, ml, q1, q2, ⟨q3.distinct, ⟨by rw [← hfs]; exact q3.gone.1, q3.gone.2⟩, ?_, ?_, ?_, ?_⟩, fun y hy hyt => ?_⟩
          · obtain ⟨S, M, T, p1, p2, p3, p4⟩ := q3.areas
            have a1 := hpx sl
            have a2 := hpx ml
            rw [p1] at a1; rw [p2] at a2
            cases hS : s.face sl with
            | none => rw [hS] at a1; cases a1
            | some S' =>
              cases hM : s.face ml with
              | none => rw [hM] at a2; cases a2
              | some M' =>
                rw [hS] at a1; rw [hM] at a2
                simp only [Option.map_some, Option.some.injEq] at a1 a2
                exact ⟨S', M', T, rfl, rfl, p3, by rw [p4, a1, a2]⟩
          · intro y hy; rw [q3.lefts y hy, hll]
          · intro g h1 h2
            rw [← hfs g, ← hpx g]; exact q3.others g h1 h2
          · have : u.faceCount = s.faceCount := by obtain ⟨f, e2⟩ := hA.eq; rw [e2]
            rw [← this]; exact q3.count
          · rcases List.mem_cons.mp hy with rfl | hy
            · exact Or.inl href
            · rcases q4 y hy hyt with h1 | h1
              · exact Or.inl (h1.mono hlat)
              · exact Or.inr (h1.mono hlat)

/-! ## the nodes -/

/-- Only nodes without darts and nodes of degree 2 disappear (`j` and `k` of them; with a node of degree 2
its two edges become one); degrees, faces and the sides of the remaining darts stay as they are. -/
structure Tidied (s t : GMap K) (j k : Nat) : Prop where
  later : Later s t
  sizes : t.nNodes = s.nNodes ∧ t.nEdges = s.nEdges ∧ t.nFaces = s.nFaces
  counts : t.nodeCount + j + k = s.nodeCount ∧ t.edgeCount + k = s.edgeCount ∧ t.faceCount = s.faceCount
  nodes : ∀ n nd, t.node n = some nd → ∃ nd', s.node n = some nd' ∧ nd.pos = nd'.pos
  degrees : ∀ n, (t.node n).isSome = true → (t.star n).card = (s.star n).card
  gone : ∀ n, (s.node n).isSome = true → t.node n = none → (s.star n).card = 0 ∨ (s.star n).card = 2
  loops : ∀ n, (t.node n).isSome = true → s.HasLoop n → t.HasLoop n
  edges : ∀ l, (t.edge l).isSome = true → (s.edge l).isSome = true
  lefts : ∀ x, t.liveD x → t.left? x = s.left? x
  faces : ∀ f, (t.face f).map (fun F => (F.area, F.pixelArea)) = (s.face f).map (fun F => (F.area, F.pixelArea))

theorem Tidied.refl (s : GMap K) : Tidied s s 0 0 :=
  ⟨.refl s, ⟨rfl, rfl, rfl⟩, ⟨rfl, rfl, rfl⟩, fun _ nd h => ⟨nd, h, rfl⟩, fun _ _ => rfl, fun _ h1 h2 => (by rw [h2] at h1; cases h1), fun _ _ => id, fun _ => id,
    fun _ _ => rfl, fun _ => rfl⟩

theorem Tidied.live {s t : GMap K} {j k : Nat} (h : Tidied s t j k) {n : Nat} (hn : (t.node n).isSome = true) : (s.node n).isSome = true := by
  obtain ⟨nd, hnd⟩ := Option.isSome_iff_exists.mp hn
  obtain ⟨nd', h1, -⟩ := h.nodes n nd hnd
  simp [h1]

theorem Tidied.trans {s t u : GMap K} {j k j' k' : Nat} (h : Tidied s t j k) (g : Tidied t u j' k') : Tidied s u (j + j') (k + k') where
  later := h.later.trans g.later
  sizes := ⟨g.sizes.1.trans h.sizes.1, g.sizes.2.1.trans h.sizes.2.1, g.sizes.2.2.trans h.sizes.2.2⟩
  counts := by
    have h1 := h.counts; have h2 := g.counts
    refine ⟨by omega, by omega, h2.2.2.trans h1.2.2⟩
  nodes := fun n nd hn => by
    obtain ⟨n1, h1, h2⟩ := g.nodes n nd hn
    obtain ⟨n2, h3, h4⟩ := h.nodes n n1 h1
    exact ⟨n2, h3, h2.trans h4⟩
  degrees := fun n hn => (g.degrees n hn).trans (h.degrees n (g.live hn))
  gone := fun n h1 h2 => by
    cases ht : t.node n with
    | none => exact h.gone n h1 ht
    | some nd =>
      have hl : (t.node n).isSome = true := by simp [ht]
      rw [← h.degrees n hl]
      exact g.gone n hl h2
  loops := fun n hn hl => g.loops n hn (h.loops n (g.live hn) hl)
  edges := fun l hl => h.edges l (g.edges l hl)
  lefts := fun x hx => by
    have : t.liveD x := g.edges _ hx
    rw [g.lefts x hx, h.lefts x this]
  faces := fun f => (g.faces f).trans (h.faces f)

theorem NodesMerged.tidied {s t : GMap K} {k : Nat} (h : NodesMerged s t k) : Tidied s t 0 k :=
  ⟨h.later, h.sizes, by rw [add_zero]; exact h.counts, h.nodes, h.degrees, fun n h1 h2 => Or.inr (h.gone n h1 h2), h.loops, h.edges, h.lefts, h.faces⟩

theorem NodesRemoved.tidied {s t : GMap K} (hs : Reach s) {k : Nat} (h : NodesRemoved s t k) : Tidied s t k 0 := by
  have hc := h.count
  have hn := h.nodes
  have hl := h.later
  have hst : t.star = s.star := by obtain ⟨n1, c1, rfl⟩ := h.eq; rfl
  have hgone : ∀ n, (s.node n).isSome = true → t.node n = none → (s.star n).card = 0 := by
    intro n h1 h2
    rcases hn n with h3 | ⟨-, h4⟩
    · rw [h2] at h3; rw [← h3] at h1; cases h1
    · rw [Finset.card_eq_zero]
      ext x
      rw [Props.mem_star hs]
      simp [h4.2 x]
  have hnodes : ∀ n nd, t.node n = some nd → ∃ nd', s.node n = some nd' ∧ nd.pos = nd'.pos := by
    intro n nd h1
    rcases hn n with h3 | ⟨h3, -⟩
    · exact ⟨nd, by rw [← h3]; exact h1, rfl⟩
    · rw [h3] at h1; cases h1
  obtain ⟨n1, c1, rfl⟩ := h.eq
  exact ⟨hl, ⟨rfl, rfl, rfl⟩, ⟨hc, rfl, rfl⟩, hnodes, fun _ _ => rfl, fun n h1 h2 => Or.inl (hgone n h1 h2), fun _ _ => id, fun _ => id, fun _ _ => rfl, fun _ => rfl⟩

theorem isolated_iff_card {s : GMap K} (hs : Reach s) {n : Nat} : s.Isolated n ↔ (s.node n).isSome = true ∧ (s.star n).card = 0 := by
  unfold GMap.Isolated
  rw [Finset.card_eq_zero, Finset.eq_empty_iff_forall_notMem]
  simp only [Props.mem_star hs]

theorem cleanNode_spec (h : Hooks K) (merge2 : Bool) {s : GMap K} (hs : Reach s) {n : Nat} (hn : n < s.nNodes) :
    ∃ j k t, GMap.cleanNode h merge2 n s = .ok t ∧ Tidied s t j k ∧ (t.Isolated n → RefusedNode h s n) ∧ (merge2 = true → Settled h s t n) ∧ (merge2 = false → k = 0) := by
  unfold GMap.cleanNode
  rw [if_pos hn]
  cases hnd : s.node n with
  | none =>
    exact ⟨0, 0, s, rfl, Tidied.refl s, fun hI => (by rw [GMap.Isolated, hnd] at hI; simp at hI), fun _ hh => (by rw [hnd] at hh; cases hh), fun _ => rfl⟩
  | some nd =>
    dsimp only
    by_cases ha : nd.anchor = 0
    · obtain ⟨j, t, g1, g2, g3⟩ := isolatedStep_spec h hs n 0
      unfold GMap.isolatedStep at g1
      rw [hnd] at g1
      simp only [if_pos ha] at g1 ⊢
      obtain ⟨⟨b, u⟩, hb, g1⟩ := Outcome.bind_eq_ok.mp g1
      have hut : u = t := by
        simp only [Outcome.ok.injEq, Prod.mk.injEq] at g1; exact g1.2
      subst hut
      refine ⟨j, 0, u, ?_, g2.tidied hs, g3, fun _ hh hdeg => ?_, fun _ => rfl⟩
      · simp only [bind, hb, Outcome.bind_ok]
      · exfalso
        have hT := g2.tidied hs
        rw [hT.degrees n hh] at hdeg
        have := (isolated_iff_card hs).mp ((isolated_iff_anchor hs hnd).mpr ha)
        omega
    · rw [if_neg ha]
      have hnI : ¬ s.Isolated n := fun hI => ha ((isolated_iff_anchor hs hnd).mp hI)
      cases hm2 : merge2 with
      | false => exact ⟨0, 0, s, rfl, Tidied.refl s, fun hI => absurd hI hnI, fun h => (by cases h), fun _ => rfl⟩
      | true =>
        have hq := (Props.degree_counts_darts hs (n := n) (by simp [hnd])).2.1 2
        simp only [if_true, bind, hq, Outcome.bind_ok]
        by_cases hdeg : (s.star n).card = 2
        swap
        · refine ⟨0, 0, s, ?_, Tidied.refl s, fun hI => absurd hI hnI, fun _ _ hh => absurd hh hdeg, fun _ => rfl⟩
          simp [hdeg]
        simp only [hdeg, decide_true, if_true]
        have hst := hs.good.map.graph.anchor_start n nd hnd ha
        obtain ⟨e, he⟩ := liveD_exists (liveD_of_start hst)
        have hend : s.endLabel nd.anchor = .ok (e.endOf nd.anchor) := by
          unfold GMap.endLabel; rw [guaranteedEdge_of he]; rfl
        rw [hend, Outcome.bind_ok]
        rw [startN?_of he] at hst
        have hst' := Option.some.inj hst
        have hiff : e.endOf nd.anchor ≠ n ↔ e.startN ≠ e.endN := by
          rw [← hst']
          unfold Edge.endOf Edge.startOf
          split_ifs
          · exact ne_comm
          · exact Iff.rfl
        by_cases hl : e.startN = e.endN
        · rw [if_neg (by rw [hiff]; exact fun hh => hh hl)]
          refine ⟨0, 0, s, rfl, Tidied.refl s, fun hI => absurd hI hnI, fun _ _ _ => Or.inl (hasLoop_of he (by rw [startN?_of he]; exact hst) hl), fun h => (by cases h)⟩
        · rw [if_pos (hiff.mpr hl)]
          obtain ⟨r, k, t, g1, -, g3, g4⟩ := degree2_merge h hs hnd hdeg he hl
          refine ⟨0, k, t, ?_, g3.tidied, fun hI => ?_, fun _ hh _ => Or.inr (g4 hh), fun h => (by cases h)⟩
          · rw [g1]; rfl
          · have hrt := g3.later.reach hs
            have := (isolated_iff_card hrt).mp hI
            rw [g3.degrees n hI.1] at this
            omega

theorem cleanNodes_spec (h : Hooks K) (merge2 : Bool) : ∀ (ns : List Nat) {s : GMap K} (_ : Reach s) (_ : ∀ n ∈ ns, n < s.nNodes),
    ∃ j k t, GMap.cleanNodes h merge2 ns s = .ok t ∧ Tidied s t j k ∧ (merge2 = false → k = 0) ∧
      ∀ n ∈ ns, (t.Isolated n → RefusedNode h s n) ∧ (merge2 = true → Settled h s t n) := by
  intro ns
  induction ns with
  | nil => intro s hs _; exact ⟨0, 0, s, rfl, Tidied.refl s, fun _ => rfl, by simp⟩
  | cons n ns ih =>
    intro s hs hlt
    obtain ⟨j, k, t, g1, g2, g3, g4, g5⟩ := cleanNode_spec h merge2 hs (hlt n (by simp))
    have hrt := g2.later.reach hs
    obtain ⟨j', k', u, i1, i2, i3, i4⟩ := ih hrt (fun m hm => by rw [g2.sizes.1]; exact hlt m (List.mem_cons_of_mem _ hm))
    have hru := i2.later.reach hrt
    refine ⟨j + j', k + k', u, ?_, g2.trans i2, fun hm => by rw [g5 hm, i3 hm], ?_⟩
    · unfold GMap.cleanNodes
      simp only [bind, g1, Outcome.bind_ok, i1]
    · intro m hm
      rcases List.mem_cons.mp hm with rfl | hm
      · refine ⟨fun hI => g3 ?_, fun hm2 hl hdeg => ?_⟩
        · have h1 := (isolated_iff_card hru).mp hI
          refine (isolated_iff_card hrt).mpr ⟨i2.live h1.1, ?_⟩
          rw [← i2.degrees m h1.1]; exact h1.2
        · rcases g4 hm2 (i2.live hl) (by rw [← i2.degrees m hl]; exact hdeg) with h1 | h1
          · exact Or.inl (i2.loops m hl h1)
          · exact Or.inr h1
      · obtain ⟨q1, q2⟩ := i4 m hm
        refine ⟨fun hI => ?_, fun hm2 hl hdeg => ?_⟩
        · obtain ⟨v, h1, h2⟩ := q1 hI
          exact ⟨v, g2.later.trans h1, h2⟩
        · rcases q2 hm2 hl hdeg with h1 | ⟨v, d, h1, h2⟩
          · exact Or.inl h1
          · exact Or.inr ⟨v, d, g2.later.trans h1, h2⟩

end Verif.GeoMap
