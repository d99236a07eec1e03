import Verif.Crack.Build

/-! # Following all edges -/

set_option linter.unusedSectionVars false

namespace Verif.Crack
open Verif Verif.GeoMap

/-- the directed cracks of all edges, in both directions -/
def allOf (es : List Path) : List Dart := es.flatMap Path.darts ++ (es.flatMap Path.darts).map al

/-- one edge of the result -/
structure PathOK (c0 : Pos → Conn) (ns : List Pos) (P : Path) : Prop where
  chain : List.IsChain (Next c0 P.first.1) P.darts
  start : ns[P.a]? = some P.first.1
  fin : ∃ z, P.darts.getLast? = some z ∧ ns[P.b]? = some (al z).1 ∧
    ((al z).1 = P.first.1 ∨ (c0 P.first.1).node = true ∧ (c0 (al z).1).node = true)

section
variable {K : Type} [Field K] [LinearOrder K]

/-- state between two calls of `followEdge`; `ex` holds for the current start -/
structure Inv (c0 : Pos → Conn) (g : Gen K) (ns : List Pos) (es : List Path) (V : Finset Dart) (ex : Pos → Prop) : Prop where
  built : Built g.map ns es
  nodup : ns.Nodup
  ni : ∀ p l u, g.ni p = some (l, u) → ns[l]? = some p
  ni' : ∀ p ∈ ns, (g.ni p).isSome = true
  cracks : ∀ ε ∈ V, IsD c0 ε
  closed : ∀ ε ∈ V, al ε ∈ V
  corner : ∀ p, ¬ ex p → CornerOK c0 (fun p => (g.ni p).isSome = true) V g.cc p
  unused : ∀ p, (c0 p).node = true → g.ni p = none → ∀ x, (p, x) ∉ V
  used : ∀ p, (c0 p).node = true → ∀ l u, g.ni p = some (l, u) → ∀ x, (c0 p).has x = true → (u x = true ↔ (p, x) ∈ V)
  mem : ∀ ε, ε ∈ V ↔ ε ∈ allOf es
  once : (allOf es).Nodup
  paths : ∀ P ∈ es, PathOK c0 ns P
  nodes : ∀ p ∈ ns, (∃ x, (c0 p).has x = true)
  starts : ∀ p ∈ ns, (c0 p).node = true ∨ ex p ∨ ∃ P ∈ es, P.first.1 = p

/-- the current start -/
structure Cur (c0 : Pos → Conn) (g : Gen K) (V : Finset Dart) (p : Pos) (lab : Nat) (used : Dir → Bool) : Prop where
  ni : g.ni p = some (lab, used)
  node : (c0 p).node = true → g.cc.get p = c0 p
  free : ∀ x, ((g.cc.get p).has x = true ∧ used x = false) ↔ ((c0 p).has x = true ∧ (p, x) ∉ V)

theorem chain_pos {c0 : Pos → Conn} {start : Pos} : ∀ (ds : List Dart) (δ z : Dart), List.IsChain (Next c0 start) (δ :: ds) →
    (δ :: ds).getLast? = some z → ∀ ε ∈ ds ++ (δ :: ds).map al, ε = al z ∨ ((c0 ε.1).node = false ∧ ε.1 ≠ start) := by
  intro ds
  induction ds with
  | nil =>
    intro δ z _ hz ε hε
    simp only [List.getLast?_singleton, Option.some.injEq] at hz
    subst hz
    simp only [List.nil_append, List.map_cons, List.map_nil, List.mem_singleton] at hε
    exact .inl hε
  | cons b ds ih =>
    intro δ z hc hz ε hε
    rw [List.isChain_cons_cons] at hc
    obtain ⟨⟨h1, h2, h3⟩, hc⟩ := hc
    rw [List.getLast?_cons_cons] at hz
    have : ε = b ∨ ε = al δ ∨ ε ∈ ds ++ (b :: ds).map al := by
      rw [List.map_cons] at hε
      simp only [List.mem_append, List.mem_cons] at hε ⊢
      rcases hε with (hε | hε) | hε | hε
      · exact .inl hε
      · exact .inr (.inr (.inl hε))
      · exact .inr (.inl hε)
      · exact .inr (.inr (.inr hε))
    rcases this with rfl | rfl | this
    · right
      rw [h1]
      exact ⟨h2, h3⟩
    · exact .inr ⟨h2, h3⟩
    · exact ih b z hc hz ε this

theorem use_iff (u : Dir → Bool) (d x : Dir) : use u d x = true ↔ u x = true ∨ x = d := by simp [use]

theorem allOf_concat (es : List Path) (P : Path) : (allOf (es ++ [P])).Perm (allOf es ++ (P.darts ++ P.darts.map al)) := by
  unfold allOf
  simp only [List.flatMap_append, List.flatMap_cons, List.flatMap_nil, List.append_nil, List.map_append]
  rw [List.append_assoc, List.append_assoc]
  refine List.Perm.append_left _ ?_
  rw [← List.append_assoc, ← List.append_assoc]
  exact List.Perm.append_right _ List.perm_append_comm

theorem PathOK.mono {c0 : Pos → Conn} {ns ns' : List Pos} {P : Path} (h : PathOK c0 ns P) (hp : ∀ (i : Nat) (q : Pos), ns[i]? = some q → ns'[i]? = some q) :
    PathOK c0 ns' P := by
  obtain ⟨z, h1, h2, h3⟩ := h.fin
  exact ⟨h.chain, hp _ _ h.start, z, h1, hp _ _ h2, h3⟩

theorem tryDir_spec {w h : Nat} {c0 : Pos → Conn} (G : CrackGraph w h c0) {g : Gen K} {ns : List Pos} {es : List Path} {V : Finset Dart} {p : Pos}
    {lab : Nat} {used : Dir → Bool} (I : Inv c0 g ns es V (· = p)) (C : Cur c0 g V p lab used)
    (hph : (c0 p).node = true ∨ ∀ q, (c0 q).node = true → ∀ x, (c0 q).has x = true → (q, x) ∈ V) (dir : Dir) :
    ∃ g' used' ns' es' V', tryDir w h p lab (g, used) dir = .ok (g', used') ∧ Inv c0 g' ns' es' V' (· = p) ∧ Cur c0 g' V' p lab used' ∧
      V ⊆ V' ∧ ((c0 p).has dir = true → (p, dir) ∈ V') ∧ (∀ q, (c0 q).node = false → q ≠ p → g'.ni q = g.ni q) ∧
      (V' = V ∨ ∃ P ∈ es', P.first.1 = p) ∧ ∀ P ∈ es, P ∈ es' := by
  unfold tryDir
  simp only
  by_cases hfree : (g.cc.get p).has dir = true ∧ used dir = false
  swap
  · rw [if_neg (by simpa using fun h1 => by simpa using fun h2 => hfree ⟨h1, h2⟩)]
    refine ⟨g, used, ns, es, V, rfl, I, C, subset_rfl, fun hh => ?_, fun _ _ _ => rfl, .inl rfl, fun _ h => h⟩
    by_contra hn
    exact hfree ((C.free dir).mpr ⟨hh, hn⟩)
  rw [if_pos (by simp [hfree])]
  obtain ⟨hD, hnV⟩ := (C.free dir).mp hfree
  obtain ⟨δ, hδ⟩ : ∃ δ : Dart, δ = (p, dir) := ⟨_, rfl⟩
  have hδ1 : δ.1 = p := by rw [hδ]
  have hδ2 : δ.2 = dir := by rw [hδ]
  have hDδ : IsD c0 δ := by rw [hδ]; exact hD
  rw [← hδ] at hnV
  have halV : al δ ∉ V := fun hc => hnV (by have := I.closed _ hc; rwa [al_al] at this)
  obtain ⟨ds, cc', fin, e, R⟩ := followLoop_spec (K := K) G (fun p => (g.ni p).isSome = true) p (fuel w h) g.cc (insert δ V) δ [vec p]
    (by
      intro q hq
      refine (I.corner q hq).congr id rfl fun x => ?_
      simp only [Finset.mem_insert]
      constructor
      · rintro (e | e)
        · rw [hδ] at e
          exact absurd (congrArg Prod.fst e) hq
        · exact e
      · exact .inr)
    (by
      intro ε hε
      rcases Finset.mem_insert.mp hε with rfl | hε
      · exact hDδ
      · exact I.cracks _ hε)
    (Finset.mem_insert_self _ _)
    (by
      simp only [Finset.mem_insert, not_or]
      exact ⟨al_ne δ, halV⟩)
    (by
      intro ε hε hne
      rcases Finset.mem_insert.mp hε with rfl | hε
      · exact absurd rfl hne
      · exact Finset.mem_insert_of_mem (I.closed _ hε))
    (by
      have := card_allDarts w h
      unfold fuel
      omega)
  rw [hδ1, hδ2] at e
  unfold followEdge
  rw [e, Outcome.bind_ok]
  simp only
  obtain ⟨z, hz, hzfin⟩ := R.last
  obtain ⟨V', hV'⟩ : ∃ V', V' = insert δ V ∪ (ds ++ (δ :: ds).map al).toFinset := ⟨_, rfl⟩
  have hcorner : ∀ q, q ≠ p → CornerOK c0 (fun p => (g.ni p).isSome = true) V' cc' q := by rw [hV']; exact R.corner
  have hmemV' : ∀ ε, ε ∈ V' ↔ ε ∈ V ∨ ε ∈ (δ :: ds) ++ (δ :: ds).map al := by
    intro ε
    rw [hV']
    simp only [Finset.mem_union, Finset.mem_insert, List.mem_toFinset, List.cons_append, List.mem_cons]
    tauto
  have hfinmem : fin ∈ (δ :: ds) ++ (δ :: ds).map al := by
    refine List.mem_append_right _ ?_
    rw [← hzfin]
    exact List.mem_map_of_mem (List.mem_of_getLast? hz)
  have hat : ∀ q x, (c0 q).node = true ∨ q = p → ((q, x) ∈ V' ↔ (q, x) ∈ V ∨ (q, x) = δ ∨ (q, x) = fin) := by
    intro q x hq
    rw [hmemV']
    constructor
    · rintro (hc | hc)
      · exact .inl hc
      · rw [List.cons_append] at hc
        rcases List.mem_cons.mp hc with hc | hc
        · exact .inr (.inl hc)
        · rcases chain_pos ds δ z R.chain hz _ hc with hc | ⟨h1, h2⟩
          · exact .inr (.inr (hc.trans hzfin))
          · rcases hq with hq | hq
            · rw [hq] at h1
              cases h1
            · exact absurd hq h2
    · rintro (hc | hc | hc)
      · exact .inl hc
      · exact .inr (by rw [hc]; exact List.mem_cons_self)
      · exact .inr (by rw [hc]; exact hfinmem)
  have hsub : V ⊆ V' := fun ε hε => (hmemV' ε).mpr (.inl hε)
  have hδV' : δ ∈ V' := (hmemV' δ).mpr (.inr List.mem_cons_self)
  have hnodup' : ((δ :: ds) ++ (δ :: ds).map al).Nodup := by
    rw [List.cons_append, List.nodup_cons]
    exact ⟨fun hc => R.fresh _ hc (Finset.mem_insert_self _ _), R.nodup⟩
  have hfresh' : ∀ ε ∈ (δ :: ds) ++ (δ :: ds).map al, ε ∉ V := by
    intro ε hε
    rw [List.cons_append] at hε
    rcases List.mem_cons.mp hε with rfl | hε
    · exact hnV
    · exact fun hc => R.fresh _ hε (Finset.mem_insert_of_mem hc)
  have hcr : ∀ ε ∈ V', IsD c0 ε := by
    intro ε hε
    rcases (hmemV' ε).mp hε with hε | hε
    · exact I.cracks _ hε
    · rw [List.cons_append] at hε
      rcases List.mem_cons.mp hε with rfl | hε
      · exact hDδ
      · exact R.cracks _ hε
  have hcl : ∀ ε ∈ V', al ε ∈ V' := by
    intro ε hε
    rw [hmemV'] at hε ⊢
    rcases hε with hε | hε
    · exact .inl (I.closed _ hε)
    · right
      rcases List.mem_append.mp hε with hε | hε
      · exact List.mem_append_right _ (List.mem_map_of_mem hε)
      · obtain ⟨η, h1, rfl⟩ := List.mem_map.mp hε
        rw [al_al]
        exact List.mem_append_left _ h1
  have hfin_ok : fin.1 = p ∨ (c0 p).node = true ∧ (c0 fin.1).node = true := by
    rcases R.stop with h1 | h1
    · exact .inl h1
    · rcases hph with h2 | h2
      · exact .inr ⟨h2, h1⟩
      · exfalso
        have hf : fin ∉ V := hfresh' _ hfinmem
        exact hf (h2 _ h1 fin.2 (hcr fin ((hmemV' fin).mpr (.inr hfinmem))))
  have hpts : [vec p] ++ (δ :: ds).map (fun ε => vec (al ε).1) = (Path.mk δ ds lab 0).pts (K := K) := by
    unfold Path.pts Path.darts
    rw [hδ1]
    rfl
  have hns : ns[lab]? = some p := I.ni p _ _ C.ni
  -- what does not depend on the end node
  have finish : ∀ (ns' : List Pos) (b : Nat) (m' : GMap K) (ni2 : Pos → Option (Nat × (Dir → Bool))) (used' : Dir → Bool),
      Built m' ns' (es ++ [⟨δ, ds, lab, b⟩]) → ns'.Nodup → (∀ (i : Nat) (q : Pos), ns[i]? = some q → ns'[i]? = some q) →
      (∀ q l u, ni2 q = some (l, u) → ns'[l]? = some q) → (∀ q ∈ ns', (ni2 q).isSome = true) → ns'[b]? = some fin.1 →
      (∀ q, (g.ni q).isSome = true → (ni2 q).isSome = true) → ni2 p = some (lab, used') →
      (∀ q, (c0 q).node = true → ni2 q = none → ∀ x, (q, x) ∉ V') →
      (∀ q, (c0 q).node = true → ∀ l u, ni2 q = some (l, u) → ∀ x, (c0 q).has x = true → (u x = true ↔ (q, x) ∈ V')) →
      (∀ q ∈ ns', ∃ x, (c0 q).has x = true) → (∀ q ∈ ns', q ∈ ns ∨ (c0 q).node = true) →
      (∀ x, used' x = true ↔ used x = true ∨ (p, x) = δ ∨ (p, x) = fin) →
      Inv c0 ⟨cc', ni2, m'⟩ ns' (es ++ [⟨δ, ds, lab, b⟩]) V' (· = p) ∧ Cur c0 (⟨cc', ni2, m'⟩ : Gen K) V' p lab used' := by
    intro ns' b m' ni2 used' k1 k2 k3 k4 k5 k6 k7 k8 k9 k10 k11 k13 k12
    have hperm := allOf_concat es ⟨δ, ds, lab, b⟩
    refine ⟨⟨k1, k2, k4, k5, hcr, hcl, ?_, k9, k10, ?_, ?_, ?_, k11, ?_⟩, ⟨k8, ?_, ?_⟩⟩
    · intro q hq
      exact (hcorner q hq).congr (k7 q) rfl fun _ => Iff.rfl
    · intro ε
      rw [hmemV', hperm.mem_iff, I.mem]
      exact List.mem_append.symm
    · rw [hperm.nodup_iff, List.nodup_append]
      refine ⟨I.once, hnodup', ?_⟩
      intro a ha b' hb hab
      subst hab
      exact hfresh' a hb ((I.mem a).mpr ha)
    · intro P hP
      rcases List.mem_append.mp hP with hP | hP
      · exact (I.paths P hP).mono k3
      · rw [List.mem_singleton] at hP
        subst hP
        refine ⟨?_, ?_, z, hz, ?_, ?_⟩
        · simp only [hδ1]
          exact R.chain
        · rw [hδ1]
          exact k3 _ _ hns
        · rw [hzfin]
          exact k6
        · rw [hzfin, hδ1]
          exact hfin_ok
    · intro q hq
      rcases k13 q hq with hq | hq
      · rcases I.starts q hq with h1 | h1 | ⟨P, h1, h2⟩
        · exact .inl h1
        · exact .inr (.inl h1)
        · exact .inr (.inr ⟨P, List.mem_append_left _ h1, h2⟩)
      · exact .inl hq
    · intro hn
      rw [show (⟨cc', ni2, m'⟩ : Gen K).cc.get p = cc'.get p from rfl, R.keep]
      exact C.node hn
    · intro x
      have := C.free x
      rw [show (⟨cc', ni2, m'⟩ : Gen K).cc.get p = cc'.get p from rfl, R.keep, hat p x (.inr rfl)]
      have h12 := k12 x
      rw [← Bool.not_eq_true, h12]
      rw [← Bool.not_eq_true] at this
      constructor
      · rintro ⟨a1, a2⟩
        rw [not_or] at a2
        obtain ⟨b1, b2⟩ := this.mp ⟨a1, a2.1⟩
        exact ⟨b1, not_or.mpr ⟨b2, a2.2⟩⟩
      · rintro ⟨a1, a2⟩
        rw [not_or] at a2
        obtain ⟨b1, b2⟩ := this.mpr ⟨a1, a2.1⟩
        exact ⟨b1, not_or.mpr ⟨b2, a2.2⟩⟩
  have hpδ : ∀ x, (p, x) = δ ↔ x = dir := fun x => by rw [hδ]; simp
  by_cases hfp : fin.1 = p
  · -- a loop
    have hnode : nodeAt { g with cc := cc' } fin.1 = ((lab, used), g.map) := by
      unfold nodeAt
      simp only [hfp, C.ni]
    obtain ⟨t, ht, B⟩ := I.built.addEdge ⟨δ, ds, lab, lab⟩ (z := z) (by rw [hδ1]; exact hns) hz (by rw [hzfin, hfp]; exact hns)
    rw [hnode]
    simp only
    rw [show [vec p] ++ (δ :: ds).map (fun ε => vec (al ε).1) = (Path.mk δ ds lab lab).pts (K := K) from hpts, ht, Outcome.bind_ok]
    rw [if_pos trivial]
    have hpf : ∀ x, (p, x) = fin ↔ x = fin.2 := fun x =>
      ⟨fun e => by rw [← e], fun e => by rw [e, ← hfp]⟩
    have hu' : ∀ x, use (use used dir) fin.2 x = true ↔ used x = true ∨ (p, x) = δ ∨ (p, x) = fin := by
      intro x
      rw [use_iff, use_iff, hpδ, hpf, or_assoc]
    obtain ⟨J1, J2⟩ := finish ns lab t (Function.update g.ni p (some (lab, use (use used dir) fin.2))) (use (use used dir) fin.2) B I.nodup
      (fun _ _ hq => hq)
      (by
        intro q l u hq
        by_cases hqp : q = p
        · subst hqp
          rw [Function.update_self] at hq
          cases hq
          exact hns
        · rw [Function.update_of_ne hqp] at hq
          exact I.ni q l u hq)
      (by
        intro q hq
        by_cases hqp : q = p
        · subst hqp
          rw [Function.update_self]
          rfl
        · rw [Function.update_of_ne hqp]
          exact I.ni' q hq)
      (by rw [hfp]; exact hns)
      (by
        intro q hq
        by_cases hqp : q = p
        · subst hqp
          rw [Function.update_self]
          rfl
        · rw [Function.update_of_ne hqp]
          exact hq)
      (Function.update_self _ _ _)
      (by
        intro q hq hq' x
        by_cases hqp : q = p
        · subst hqp
          rw [Function.update_self] at hq'
          cases hq'
        · rw [Function.update_of_ne hqp] at hq'
          rw [hat q x (.inl hq)]
          rintro (hc | hc | hc)
          · exact I.unused q hq hq' x hc
          · rw [hδ] at hc
            exact hqp (congrArg Prod.fst hc)
          · exact hqp ((congrArg Prod.fst hc).trans hfp))
      (by
        intro q hq l u hq' x hx
        rw [hat q x (.inl hq)]
        by_cases hqp : q = p
        · subst hqp
          rw [Function.update_self] at hq'
          cases hq'
          rw [hu', I.used q hq _ _ C.ni x hx]
        · rw [Function.update_of_ne hqp] at hq'
          rw [I.used q hq l u hq' x hx]
          constructor
          · exact .inl
          · rintro (hc | hc | hc)
            · exact hc
            · rw [hδ] at hc
              exact absurd (congrArg Prod.fst hc) hqp
            · exact absurd ((congrArg Prod.fst hc).trans hfp) hqp)
      I.nodes (fun q hq => .inl hq) hu'
    refine ⟨_, _, ns, _, V', rfl, J1, J2, hsub, fun _ => by rw [← hδ]; exact hδV', ?_, .inr ⟨_, List.mem_append_right _ List.mem_cons_self, hδ1⟩,
      fun P hP => List.mem_append_left _ hP⟩
    intro q _ hqp
    exact Function.update_of_ne hqp _ _
  · -- another node
    have hfn : (c0 fin.1).node = true := (hfin_ok.resolve_left hfp).2
    have hfinD : (c0 fin.1).has fin.2 = true := hcr fin ((hmemV' fin).mpr (.inr hfinmem))
    obtain ⟨ns', b, u, m', hnode, B', n1, n2, n3, n4, n5⟩ : ∃ ns' b u m', nodeAt { g with cc := cc' } fin.1 = ((b, u), m') ∧
        Built m' ns' es ∧ ns'.Nodup ∧ (∀ (i : Nat) (q : Pos), ns[i]? = some q → ns'[i]? = some q) ∧ ns'[b]? = some fin.1 ∧
        (∀ q ∈ ns', q ∈ ns ∨ q = fin.1) ∧ ∀ x, (c0 fin.1).has x = true → (u x = true ↔ (fin.1, x) ∈ V) := by
      unfold nodeAt
      simp only
      cases hnf : g.ni fin.1 with
      | some lu =>
        obtain ⟨l, u⟩ := lu
        exact ⟨ns, l, u, g.map, rfl, I.built, I.nodup, fun _ _ hq => hq, I.ni _ _ _ hnf, fun q hq => .inl hq, I.used _ hfn _ _ hnf⟩
      | none =>
        obtain ⟨e1, e2⟩ := I.built.addNode fin.1
        refine ⟨ns ++ [fin.1], ns.length, fun _ => false, _, by rw [← e1], e2, ?_, ?_, by simp, ?_, ?_⟩
        · rw [List.nodup_append]
          refine ⟨I.nodup, by simp, ?_⟩
          intro a ha b' hb hab
          rw [List.mem_singleton] at hb
          subst hab hb
          have := I.ni' _ ha
          rw [hnf] at this
          cases this
        · intro i q hq
          rw [List.getElem?_append_left (List.getElem?_eq_some_iff.mp hq).1]
          exact hq
        · intro q hq
          simpa using hq
        · intro x _
          simp [I.unused _ hfn hnf x]
    have hblab : lab ≠ b := by
      intro e
      have := n2 _ _ hns
      rw [e, n3] at this
      exact hfp (Option.some.inj this)
    obtain ⟨t, ht, B⟩ := B'.addEdge ⟨δ, ds, lab, b⟩ (z := z) (by rw [hδ1]; exact n2 _ _ hns) hz (by rw [hzfin]; exact n3)
    rw [hnode]
    simp only
    rw [show [vec p] ++ (δ :: ds).map (fun ε => vec (al ε).1) = (Path.mk δ ds lab b).pts (K := K) from hpts, ht, Outcome.bind_ok]
    rw [if_neg hblab]
    have hpf : ∀ x, ¬ (p, x) = fin := fun x e => hfp (by rw [← e])
    have hu' : ∀ x, use used dir x = true ↔ used x = true ∨ (p, x) = δ ∨ (p, x) = fin := by
      intro x
      rw [use_iff, hpδ]
      simp [hpf]
    have hniu : ∀ q, q ≠ p → q ≠ fin.1 → (Function.update (Function.update g.ni p (some (lab, use used dir))) fin.1 (some (b, use u fin.2))) q = g.ni q := by
      intro q h1 h2
      rw [Function.update_of_ne h2, Function.update_of_ne h1]
    have hnif : (Function.update (Function.update g.ni p (some (lab, use used dir))) fin.1 (some (b, use u fin.2))) fin.1 = some (b, use u fin.2) :=
      Function.update_self _ _ _
    have hnip : (Function.update (Function.update g.ni p (some (lab, use used dir))) fin.1 (some (b, use u fin.2))) p = some (lab, use used dir) := by
      rw [Function.update_of_ne (Ne.symm hfp), Function.update_self]
    obtain ⟨J1, J2⟩ := finish ns' b t (Function.update (Function.update g.ni p (some (lab, use used dir))) fin.1 (some (b, use u fin.2)))
      (use used dir) B n1 n2
      (by
        intro q l v hq
        by_cases hqf : q = fin.1
        · rw [hqf, hnif] at hq
          cases hq
          rw [hqf]
          exact n3
        · by_cases hqp : q = p
          · rw [hqp, hnip] at hq
            cases hq
            rw [hqp]
            exact n2 _ _ hns
          · rw [hniu q hqp hqf] at hq
            exact n2 _ _ (I.ni q l v hq))
      (by
        intro q hq
        by_cases hqf : q = fin.1
        · rw [hqf, hnif]
          rfl
        · by_cases hqp : q = p
          · rw [hqp, hnip]
            rfl
          · rw [hniu q hqp hqf]
            exact I.ni' q ((n4 q hq).resolve_right hqf))
      n3
      (by
        intro q hq
        by_cases hqf : q = fin.1
        · rw [hqf, hnif]
          rfl
        · by_cases hqp : q = p
          · rw [hqp, hnip]
            rfl
          · rw [hniu q hqp hqf]
            exact hq)
      hnip
      (by
        intro q hq hq' x
        by_cases hqf : q = fin.1
        · rw [hqf, hnif] at hq'
          cases hq'
        · by_cases hqp : q = p
          · rw [hqp, hnip] at hq'
            cases hq'
          · rw [hniu q hqp hqf] at hq'
            rw [hat q x (.inl hq)]
            rintro (hc | hc | hc)
            · exact I.unused q hq hq' x hc
            · rw [hδ] at hc
              exact hqp (congrArg Prod.fst hc)
            · exact hqf (congrArg Prod.fst hc))
      (by
        intro q hq l v hq' x hx
        rw [hat q x (.inl hq)]
        by_cases hqf : q = fin.1
        · rw [hqf, hnif] at hq'
          cases hq'
          subst hqf
          rw [use_iff, n5 x hx]
          have : ((fin.1, x) = fin) ↔ x = fin.2 := ⟨fun e => by rw [← e], fun e => by rw [e]⟩
          rw [this]
          constructor
          · rintro (hc | hc)
            · exact .inl hc
            · exact .inr (.inr hc)
          · rintro (hc | hc | hc)
            · exact .inl hc
            · rw [hδ] at hc
              exact absurd (congrArg Prod.fst hc) hfp
            · exact .inr hc
        · by_cases hqp : q = p
          · subst hqp
            rw [hnip] at hq'
            cases hq'
            rw [hu', I.used q hq _ _ C.ni x hx]
          · rw [hniu q hqp hqf] at hq'
            rw [I.used q hq l v hq' x hx]
            constructor
            · exact .inl
            · rintro (hc | hc | hc)
              · exact hc
              · rw [hδ] at hc
                exact absurd (congrArg Prod.fst hc) hqp
              · exact absurd (congrArg Prod.fst hc) hqf)
      (by
        intro q hq
        rcases n4 q hq with hq | rfl
        · exact I.nodes q hq
        · exact ⟨_, hfinD⟩)
      (by
        intro q hq
        rcases n4 q hq with hq | rfl
        · exact .inl hq
        · exact .inr hfn)
      hu'
    refine ⟨_, _, ns', _, V', rfl, J1, J2, hsub, fun _ => by rw [← hδ]; exact hδV', ?_, .inr ⟨_, List.mem_append_right _ List.mem_cons_self, hδ1⟩,
      fun P hP => List.mem_append_left _ hP⟩
    intro q hq hqp
    exact hniu q hqp fun e => by
      rw [e, hfn] at hq
      cases hq

/-- all four directions of a start -/
theorem fourDirs_spec {w h : Nat} {c0 : Pos → Conn} (G : CrackGraph w h c0) {g : Gen K} {ns : List Pos} {es : List Path} {V : Finset Dart} {p : Pos}
    {lab : Nat} {used : Dir → Bool} (I : Inv c0 g ns es V (· = p)) (C : Cur c0 g V p lab used)
    (hph : (c0 p).node = true ∨ ∀ q, (c0 q).node = true → ∀ x, (c0 q).has x = true → (q, x) ∈ V)
    (hsome : (c0 p).node = true ∨ ∃ x, (c0 p).has x = true ∧ (p, x) ∉ V) :
    ∃ g' ns' es' V', ((((tryDir w h p lab (g, used) .E).bind fun x => tryDir w h p lab x .N).bind fun x =>
      tryDir w h p lab x .W).bind fun x => (tryDir w h p lab x .S).bind fun x => .ok x.1) = .ok g' ∧
      Inv c0 g' ns' es' V' (fun _ => False) ∧ V ⊆ V' ∧ (∀ x, (c0 p).has x = true → (p, x) ∈ V') ∧
      ∀ q, (c0 q).node = false → q ≠ p → g'.ni q = g.ni q := by
  have mono : ∀ {V V' : Finset Dart}, V ⊆ V' → ((c0 p).node = true ∨ ∀ q, (c0 q).node = true → ∀ x, (c0 q).has x = true → (q, x) ∈ V) →
      ((c0 p).node = true ∨ ∀ q, (c0 q).node = true → ∀ x, (c0 q).has x = true → (q, x) ∈ V') :=
    fun hs => Or.imp id fun h q hq x hx => hs (h q hq x hx)
  obtain ⟨g1, u1, ns1, es1, V1, e1, I1, C1, s1, d1, k1, a1, b1⟩ := tryDir_spec (K := K) G I C hph .E
  have p1 := mono s1 hph
  obtain ⟨g2, u2, ns2, es2, V2, e2, I2, C2, s2, d2, k2, a2, b2⟩ := tryDir_spec (K := K) G I1 C1 p1 .N
  have p2 := mono s2 p1
  obtain ⟨g3, u3, ns3, es3, V3, e3, I3, C3, s3, d3, k3, a3, b3⟩ := tryDir_spec (K := K) G I2 C2 p2 .W
  have p3 := mono s3 p2
  obtain ⟨g4, u4, ns4, es4, V4, e4, I4, C4, s4, d4, k4, a4, b4⟩ := tryDir_spec (K := K) G I3 C3 p3 .S
  rw [e1, Outcome.bind_ok, e2, Outcome.bind_ok, e3, Outcome.bind_ok, e4, Outcome.bind_ok]
  have hall : ∀ x, (c0 p).has x = true → (p, x) ∈ V4 := by
    intro x hx
    cases x
    · exact s4 (s3 (s2 (d1 hx)))
    · exact s4 (s3 (d2 hx))
    · exact s4 (d3 hx)
    · exact d4 hx
  refine ⟨g4, ns4, es4, V4, rfl, ?_, fun a ha => s4 (s3 (s2 (s1 ha))), hall,
    fun q h1 h2 => by rw [k4 q h1 h2, k3 q h1 h2, k2 q h1 h2, k1 q h1 h2]⟩
  refine ⟨I4.built, I4.nodup, I4.ni, I4.ni', I4.cracks, I4.closed, ?_, I4.unused, I4.used, I4.mem, I4.once, I4.paths, I4.nodes, ?_⟩
  swap
  · intro q hq
    rcases I4.starts q hq with h1 | h1 | h1
    · exact .inl h1
    · rw [h1]
      rcases hsome with h2 | ⟨x, hx, hx'⟩
      · exact .inl h2
      · right
        right
        have hb : ∀ P ∈ es1, P ∈ es4 := fun P hP => b4 P (b3 P (b2 P hP))
        rcases a4 with a4 | a4
        · rcases a3 with a3 | ⟨P, h3, h4⟩
          · rcases a2 with a2 | ⟨P, h3, h4⟩
            · rcases a1 with a1 | ⟨P, h3, h4⟩
              · rw [a4, a3, a2, a1] at hall
                exact absurd (hall x hx) hx'
              · exact ⟨P, hb P h3, h4⟩
            · exact ⟨P, b4 P (b3 P h3), h4⟩
          · exact ⟨P, b4 P h3, h4⟩
        · exact a4
    · exact .inr (.inr h1)
  intro q _
  by_cases hq : q = p
  · subst hq
    exact ⟨C4.node, fun _ => .inl ⟨by simp only [C4.ni, Option.isSome_some], hall⟩⟩
  · exact I4.corner q hq

/-- starting edges at a position -/
theorem start_spec {w h : Nat} {c0 : Pos → Conn} (G : CrackGraph w h c0) {g : Gen K} {ns : List Pos} {es : List Path} {V : Finset Dart} {p : Pos}
    {flag : Conn → Bool} (I : Inv c0 g ns es V (fun _ => False)) (hf : flag (g.cc.get p) = true)
    (hni : (c0 p).node = false → g.ni p = none)
    (hfree : (c0 p).node = false → ∀ x, (g.cc.get p).has x = true ↔ ((c0 p).has x = true ∧ (p, x) ∉ V))
    (hhas : ∃ x, (c0 p).has x = true)
    (hsome : (c0 p).node = true ∨ ∃ x, (c0 p).has x = true ∧ (p, x) ∉ V)
    (hph : (c0 p).node = true ∨ ∀ q, (c0 q).node = true → ∀ x, (c0 q).has x = true → (q, x) ∈ V) :
    ∃ g' ns' es' V', startAt w h flag g p = .ok g' ∧
      Inv c0 g' ns' es' V' (fun _ => False) ∧ V ⊆ V' ∧ (∀ x, (c0 p).has x = true → (p, x) ∈ V') ∧
      ∀ q, (c0 q).node = false → q ≠ p → g'.ni q = g.ni q := by
  unfold startAt
  rw [if_pos hf]
  simp only
  obtain ⟨lab, used, ns', m', hnode, B, n1, n2, n3, n4, n5⟩ : ∃ lab used ns' m', nodeAt g p = ((lab, used), m') ∧ Built m' ns' es ∧ ns'.Nodup ∧
      (∀ (i : Nat) (q : Pos), ns[i]? = some q → ns'[i]? = some q) ∧ ns'[lab]? = some p ∧ (∀ q ∈ ns', q ∈ ns ∨ q = p) ∧
      ((g.ni p = none ∧ ∀ x, used x = false) ∨ g.ni p = some (lab, used)) := by
    unfold nodeAt
    cases hnf : g.ni p with
    | some lu =>
      obtain ⟨l, u⟩ := lu
      exact ⟨l, u, ns, g.map, rfl, I.built, I.nodup, fun _ _ hq => hq, I.ni _ _ _ hnf, fun q hq => .inl hq, .inr rfl⟩
    | none =>
      obtain ⟨e1, e2⟩ := I.built.addNode p
      refine ⟨ns.length, fun _ => false, ns ++ [p], _, by rw [← e1], e2, ?_, ?_, by simp, ?_, .inl ⟨rfl, fun _ => rfl⟩⟩
      · rw [List.nodup_append]
        refine ⟨I.nodup, by simp, ?_⟩
        intro a ha b' hb hab
        rw [List.mem_singleton] at hb
        subst hab hb
        have := I.ni' _ ha
        rw [hnf] at this
        cases this
      · intro i q hq
        rw [List.getElem?_append_left (List.getElem?_eq_some_iff.mp hq).1]
        exact hq
      · intro q hq
        simpa using hq
  rw [hnode]
  simp only
  have hused : (c0 p).node = true → ∀ x, (c0 p).has x = true → (used x = true ↔ (p, x) ∈ V) := by
    intro hn x hx
    rcases n5 with ⟨h1, h2⟩ | h1
    · simp [h2 x, I.unused p hn h1 x]
    · exact I.used p hn _ _ h1 x hx
  have I' : Inv c0 ({ g with ni := Function.update g.ni p (some (lab, used)), map := m' } : Gen K) ns' es V (· = p) := by
    refine ⟨B, n1, ?_, ?_, I.cracks, I.closed, ?_, ?_, ?_, I.mem, I.once, fun P hP => (I.paths P hP).mono n2, ?_, ?_⟩
    · intro q l u hq
      by_cases hqp : q = p
      · subst hqp
        simp only [Function.update_self] at hq
        cases hq
        exact n3
      · simp only [Function.update_of_ne hqp] at hq
        exact n2 _ _ (I.ni q l u hq)
    · intro q hq
      by_cases hqp : q = p
      · subst hqp
        simp only [Function.update_self]
        rfl
      · simp only [Function.update_of_ne hqp]
        exact I.ni' q ((n4 q hq).resolve_right hqp)
    · intro q hq
      refine (I.corner q (fun h => h)).congr ?_ rfl fun _ => Iff.rfl
      intro h1
      simp only [Function.update_of_ne hq]
      exact h1
    · intro q hq hq' x
      by_cases hqp : q = p
      · subst hqp
        simp only [Function.update_self] at hq'
        cases hq'
      · simp only [Function.update_of_ne hqp] at hq'
        exact I.unused q hq hq' x
    · intro q hq l u hq' x hx
      by_cases hqp : q = p
      · subst hqp
        simp only [Function.update_self] at hq'
        cases hq'
        exact hused hq x hx
      · simp only [Function.update_of_ne hqp] at hq'
        exact I.used q hq l u hq' x hx
    · intro q hq
      rcases n4 q hq with hq | rfl
      · exact I.nodes q hq
      · exact hhas
    · intro q hq
      rcases n4 q hq with hq | rfl
      · rcases I.starts q hq with h1 | h1 | h1
        · exact .inl h1
        · exact h1.elim
        · exact .inr (.inr h1)
      · exact .inr (.inl rfl)
  have C' : Cur c0 ({ g with ni := Function.update g.ni p (some (lab, used)), map := m' } : Gen K) V p lab used := by
    refine ⟨Function.update_self _ _ _, (I.corner p (fun h => h)).1, ?_⟩
    intro x
    by_cases hn : (c0 p).node = true
    · have hcp : g.cc.get p = c0 p := (I.corner p (fun h => h)).1 hn
      simp only [hcp]
      constructor
      · rintro ⟨h1, h2⟩
        refine ⟨h1, fun hc => ?_⟩
        rw [(hused hn x h1).mpr hc] at h2
        cases h2
      · rintro ⟨h1, h2⟩
        refine ⟨h1, ?_⟩
        by_contra hc
        exact h2 ((hused hn x h1).mp (by simpa using hc))
    · have hn' : (c0 p).node = false := by simpa using hn
      have hu : used x = false := by
        rcases n5 with ⟨_, h2⟩ | h1
        · exact h2 x
        · rw [hni hn'] at h1
          cases h1
      simp only [hu, and_true]
      exact hfree hn' x
  obtain ⟨g', ns2, es2, V2, e, J, s, d, k⟩ := fourDirs_spec (K := K) G I' C' hph hsome
  refine ⟨g', ns2, es2, V2, e, J, s, d, ?_⟩
  intro q h1 h2
  rw [k q h1 h2]
  exact Function.update_of_ne h2 _ _

theorem phase1 {w h : Nat} {c0 : Pos → Conn} (G : CrackGraph w h c0) : ∀ (L : List Pos) {g : Gen K} {ns : List Pos} {es : List Path} {V : Finset Dart},
    Inv c0 g ns es V (fun _ => False) → (∀ q, (c0 q).node = false → g.ni q = none) →
    ∃ g' ns' es' V', forAll (startAt w h Conn.node) L g = .ok g' ∧ Inv c0 g' ns' es' V' (fun _ => False) ∧ V ⊆ V' ∧
      (∀ q, (c0 q).node = false → g'.ni q = none) ∧ ∀ q ∈ L, (c0 q).node = true → ∀ x, (c0 q).has x = true → (q, x) ∈ V' := by
  intro L
  induction L with
  | nil =>
    intro g ns es V I hn
    exact ⟨g, ns, es, V, rfl, I, subset_rfl, hn, fun q hq => by simp at hq⟩
  | cons p L ih =>
    intro g ns es V I hn
    have hflag : (g.cc.get p).node = (c0 p).node := by
      by_cases hp : (c0 p).node = true
      · rw [(I.corner p (fun h => h)).1 hp]
      · have hp' : (c0 p).node = false := by simpa using hp
        rcases (I.corner p (fun h => h)).2 hp' with ⟨h1, -⟩ | h1
        · rw [hn p hp'] at h1
          cases h1
        · exact h1.node
    by_cases hp : (c0 p).node = true
    · have hval := G.valid p
      have hhas : ∃ x, (c0 p).has x = true := by
        have : ∀ c : Conn, c.valid = true → c.node = true → ∃ x, c.has x = true := by decide +kernel
        exact this _ hval hp
      obtain ⟨g1, ns1, es1, V1, e1, I1, s1, d1, k1⟩ := start_spec (K := K) G I (p := p) (flag := Conn.node) (hflag.trans hp)
        (fun hc => by rw [hp] at hc; cases hc) (fun hc => by rw [hp] at hc; cases hc) hhas (.inl hp) (.inl hp)
      obtain ⟨g2, ns2, es2, V2, e2, I2, s2, n2, d2⟩ := ih I1 fun q hq => by
        rw [k1 q hq (fun e => by rw [e, hp] at hq; cases hq)]
        exact hn q hq
      refine ⟨g2, ns2, es2, V2, ?_, I2, fun a ha => s2 (s1 ha), n2, ?_⟩
      · rw [forAll, e1, Outcome.bind_ok, e2]
      · intro q hq hqn x hx
        rcases List.mem_cons.mp hq with rfl | hq
        · exact s2 (d1 x hx)
        · exact d2 q hq hqn x hx
    · have hp' : (c0 p).node = false := by simpa using hp
      obtain ⟨g2, ns2, es2, V2, e2, I2, s2, n2, d2⟩ := ih I hn
      refine ⟨g2, ns2, es2, V2, ?_, I2, s2, n2, ?_⟩
      · rw [forAll, startAt, if_neg (by rw [hflag]; exact hp), Outcome.bind_ok, e2]
      · intro q hq hqn x hx
        rcases List.mem_cons.mp hq with rfl | hq
        · exact absurd hqn hp
        · exact d2 q hq hqn x hx

theorem phase2 {w h : Nat} {c0 : Pos → Conn} (G : CrackGraph w h c0) : ∀ (L : List Pos) {g : Gen K} {ns : List Pos} {es : List Path} {V : Finset Dart},
    L.Nodup → Inv c0 g ns es V (fun _ => False) → (∀ q ∈ L, (c0 q).node = false → g.ni q = none) →
    (∀ q, (c0 q).node = true → ∀ x, (c0 q).has x = true → (q, x) ∈ V) →
    ∃ g' ns' es' V', forAll (startAt w h Conn.maybe) L g = .ok g' ∧ Inv c0 g' ns' es' V' (fun _ => False) ∧ V ⊆ V' ∧
      ∀ q ∈ L, (c0 q).maybe = true → ∀ x, (c0 q).has x = true → (q, x) ∈ V' := by
  intro L
  induction L with
  | nil =>
    intro g ns es V _ I _ _
    exact ⟨g, ns, es, V, rfl, I, subset_rfl, fun q hq => by simp at hq⟩
  | cons p L ih =>
    intro g ns es V hL I hn hall
    obtain ⟨hpL, hL⟩ := List.nodup_cons.mp hL
    have hval := G.valid p
    by_cases hp : (g.cc.get p).maybe = true
    · have hpn : (c0 p).node = false := by
        by_contra hc
        have hc' : (c0 p).node = true := by simpa using hc
        rw [(I.corner p (fun h => h)).1 hc'] at hp
        rw [node_not_maybe _ hval hc'] at hp
        cases hp
      have hready : Ready (c0 p) V (g.cc.get p) p := by
        rcases (I.corner p (fun h => h)).2 hpn with ⟨h1, -⟩ | h1
        · rw [hn p List.mem_cons_self hpn] at h1
          cases h1
        · exact h1
      obtain ⟨hm, x0, hx0, hx0'⟩ := hready.maybe.mp hp
      have hfree : ∀ x, (g.cc.get p).has x = true ↔ ((c0 p).has x = true ∧ (p, x) ∉ V) := by
        intro x
        by_cases hd : (c0 p).diag = true
        · rw [hready.hasD hd x]
          simp [diag_has _ hval hd x]
        · have hd' : (c0 p).diag = false := by simpa using hd
          rw [hready.has hd' x]
          constructor
          · intro hx
            refine ⟨hx, ?_⟩
            rcases tau_two _ hval hpn hd' x0 hx0 x hx with rfl | rfl
            · exact hx0'
            · rw [← hready.closed _ hx0]
              exact hx0'
          · exact fun h => h.1
      obtain ⟨g1, ns1, es1, V1, e1, I1, s1, d1, k1⟩ := start_spec (K := K) G I (p := p) (flag := Conn.maybe) hp
        (fun _ => hn p List.mem_cons_self hpn) (fun _ => hfree) ⟨x0, hx0⟩ (.inr ⟨x0, hx0, hx0'⟩) (.inr hall)
      obtain ⟨g2, ns2, es2, V2, e2, I2, s2, d2⟩ := ih hL I1 (fun q hq hqn => by
        rw [k1 q hqn (fun e => hpL (by rw [← e]; exact hq))]
        exact hn q (List.mem_cons_of_mem _ hq) hqn) fun q hq x hx => s1 (hall q hq x hx)
      refine ⟨g2, ns2, es2, V2, ?_, I2, fun a ha => s2 (s1 ha), ?_⟩
      · rw [forAll, e1, Outcome.bind_ok, e2]
      · intro q hq hqn x hx
        rcases List.mem_cons.mp hq with rfl | hq
        · exact s2 (d1 x hx)
        · exact d2 q hq hqn x hx
    · obtain ⟨g2, ns2, es2, V2, e2, I2, s2, d2⟩ := ih hL I (fun q hq => hn q (List.mem_cons_of_mem _ hq)) hall
      refine ⟨g2, ns2, es2, V2, ?_, I2, s2, ?_⟩
      · rw [forAll, startAt, if_neg hp, Outcome.bind_ok, e2]
      · intro q hq hqm x hx
        rcases List.mem_cons.mp hq with rfl | hq
        · apply s2
          have hqn := maybe_not_node _ hval hqm
          have hready : Ready (c0 q) V (g.cc.get q) q := by
            rcases (I.corner q (fun h => h)).2 hqn with ⟨h1, -⟩ | h1
            · rw [hn q List.mem_cons_self hqn] at h1
              cases h1
            · exact h1
          by_contra hc
          exact hp (hready.maybe.mpr ⟨hqm, x, hx, hc⟩)
        · exact d2 q hq hqm x hx

/-- no crack is left over -/
theorem complete {w h : Nat} {c0 : Pos → Conn} (G : CrackGraph w h c0) {g : Gen K} {ns : List Pos} {es : List Path} {V : Finset Dart}
    (I : Inv c0 g ns es V (fun _ => False))
    (h1 : ∀ q, (c0 q).node = true → ∀ x, (c0 q).has x = true → (q, x) ∈ V)
    (h2 : ∀ q, (c0 q).maybe = true → ∀ x, (c0 q).has x = true → (q, x) ∈ V) :
    ∀ (n : Nat) (p : Pos), (p.1 + p.2).toNat = n → ∀ x, (c0 p).has x = true → (p, x) ∈ V := by
  intro n
  induction n using Nat.strong_induction_on with
  | _ n ih =>
    intro p hp x hx
    by_contra hc
    have hval := G.valid p
    have hnode : (c0 p).node = false := by
      by_contra hn
      exact hc (h1 p (by simpa using hn) x hx)
    have hmaybe : (c0 p).maybe = false := by
      by_contra hn
      exact hc (h2 p (by simpa using hn) x hx)
    have hdiag : (c0 p).diag = false := by
      by_contra hn
      rw [diag_maybe _ hval (by simpa using hn)] at hmaybe
      cases hmaybe
    have hclosed : ∀ y, (c0 p).has y = true → (p, y) ∉ V := by
      rcases (I.corner p (fun h => h)).2 hnode with ⟨-, h3⟩ | h3
      · exact absurd (h3 x hx) hc
      · intro y hy
        rcases tau_two _ hval hnode hdiag x hx y hy with rfl | rfl
        · exact hc
        · rw [← h3.closed _ hx]
          exact hc
    obtain ⟨y, hy, hdir⟩ := maybe_or _ hval hnode hmaybe x hx
    have hD : IsD c0 (al (p, y)) := G.al hy
    have hin := G.inside _ _ hD
    have hlt : ((al (p, y)).1.1 + (al (p, y)).1.2).toNat < n := by
      rw [← hp]
      have hin0 := G.inside _ _ hx
      unfold inside at hin hin0
      rcases hdir with rfl | rfl <;> simp [al, Dir.diff] at hin ⊢ <;> omega
    have := ih _ hlt (al (p, y)).1 rfl (al (p, y)).2 hD
    have h5 := I.closed _ this
    rw [show ((al (p, y)).1, (al (p, y)).2) = al (p, y) from rfl, al_al] at h5
    exact hclosed y hy h5

/-- both passes -/
theorem followAll_spec {w h : Nat} {c0 : Pos → Conn} (G : CrackGraph w h c0) {cc : CImg} (hcc : ∀ q, cc.get q = c0 q) :
    ∃ g ns es V, ((followAll w h Conn.node ({ cc := cc, ni := fun _ => none, map := GMap.empty } : Gen K)).bind fun g => followAll w h Conn.maybe g) = .ok g ∧
      Inv c0 g ns es V (fun _ => False) ∧ (∀ δ, IsD c0 δ ↔ δ ∈ V) ∧ ∀ q, (c0 q).node = true → q ∈ ns := by
  have I0 : Inv c0 ({ cc := cc, ni := fun _ => none, map := GMap.empty } : Gen K) [] [] ∅ (fun _ => False) := by
    refine ⟨built_empty, List.nodup_nil, fun _ _ _ h => (nomatch h), fun _ h => absurd h List.not_mem_nil, fun _ h => absurd h (Finset.notMem_empty _),
      fun _ h => absurd h (Finset.notMem_empty _), ?_, fun _ _ _ _ => Finset.notMem_empty _, fun _ _ _ _ h => (nomatch h), fun _ => ?_, List.nodup_nil,
      fun _ h => absurd h List.not_mem_nil, fun _ h => absurd h List.not_mem_nil, fun _ h => absurd h List.not_mem_nil⟩
    swap
    · exact ⟨fun h => absurd h (Finset.notMem_empty _), fun h => absurd h List.not_mem_nil⟩
    intro p _
    refine ⟨fun _ => hcc p, fun _ => .inr ?_⟩
    simp only [hcc]
    refine ⟨rfl, rfl, rfl, fun _ _ => by simp, fun _ _ => rfl, fun hd x => by simp [diag_has _ (G.valid p) hd x], ?_⟩
    constructor
    · intro hm
      obtain ⟨x, hx⟩ := maybe_has _ (G.valid p) hm
      exact ⟨hm, x, hx, by simp⟩
    · exact fun h => h.1
  obtain ⟨g1, ns1, es1, V1, e1, I1, -, n1, d1⟩ := phase1 (K := K) G (raster w h) I0 fun _ _ => rfl
  have d1' : ∀ q, (c0 q).node = true → ∀ x, (c0 q).has x = true → (q, x) ∈ V1 :=
    fun q hq x hx => d1 q (mem_raster.mpr (G.inside q x hx)) hq x hx
  obtain ⟨g2, ns2, es2, V2, e2, I2, s2, d2⟩ := phase2 (K := K) G (raster w h) (nodup_raster w h) I1 (fun q _ => n1 q) d1'
  have d2' : ∀ q, (c0 q).maybe = true → ∀ x, (c0 q).has x = true → (q, x) ∈ V2 :=
    fun q hq x hx => d2 q (mem_raster.mpr (G.inside q x hx)) hq x hx
  have hall := complete G I2 (fun q hq x hx => s2 (d1' q hq x hx)) d2'
  refine ⟨g2, ns2, es2, V2, ?_, I2, fun δ => ⟨fun hd => hall _ δ.1 rfl δ.2 hd, I2.cracks δ⟩, ?_⟩
  · unfold followAll
    rw [e1, Outcome.bind_ok, e2]
  · intro q hq
    have hv := G.valid q
    obtain ⟨x, hx⟩ : ∃ x, (c0 q).has x = true := by
      have : ∀ c : Conn, c.valid = true → c.node = true → ∃ x, c.has x = true := by decide +kernel
      exact this _ hv hq
    cases hni : g2.ni q with
    | none => exact absurd (s2 (d1' q hq x hx)) (I2.unused q hq hni x)
    | some lu =>
      obtain ⟨l, u⟩ := lu
      exact List.mem_of_getElem? (I2.ni q l u hni)

end
end Verif.Crack
