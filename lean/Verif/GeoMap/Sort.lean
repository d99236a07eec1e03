import Verif.GeoMap.Build

/-! # `sortEdgesDirectly` -/

namespace Verif.GeoMap
open Equiv Equiv.Perm Verif.PermLemmas

variable {K : Type}

/-! ## linking a list of darts into a cycle -/

theorem linkCycle_frame (first : Int) : ∀ (xs : List Int) (pred : Int) (s : GMap K),
    ∃ sg sgi, GMap.linkCycle first pred xs s = { s with sigma := sg, sigmaInv := sgi } := by
  intro xs
  induction xs with
  | nil => intro pred s; exact ⟨_, _, rfl⟩
  | cons x xs ih =>
    intro pred s
    obtain ⟨sg, sgi, h⟩ := ih x ((s.setSigma pred x).setSigmaInv x pred)
    exact ⟨sg, sgi, by rw [GMap.linkCycle, h]; rfl⟩

theorem linkCycle_sigma_other (first : Int) : ∀ (xs : List Int) (pred : Int) (s : GMap K) (d : Int), d ∉ pred :: xs →
    (GMap.linkCycle first pred xs s).sigma d = s.sigma d := by
  intro xs
  induction xs with
  | nil =>
    intro pred s d hd
    rw [List.mem_singleton] at hd
    show Function.update s.sigma pred first d = _
    rw [Function.update_of_ne hd]
  | cons x xs ih =>
    intro pred s d hd
    rw [List.mem_cons, not_or] at hd
    rw [GMap.linkCycle, ih _ _ _ hd.2]
    show Function.update s.sigma pred x d = _
    rw [Function.update_of_ne hd.1]

theorem linkCycle_sigmaInv_other (first : Int) : ∀ (xs : List Int) (pred : Int) (s : GMap K) (d : Int), d ∉ xs ++ [first] →
    (GMap.linkCycle first pred xs s).sigmaInv d = s.sigmaInv d := by
  intro xs
  induction xs with
  | nil =>
    intro pred s d hd
    simp only [List.nil_append, List.mem_singleton] at hd
    show Function.update s.sigmaInv first pred d = _
    rw [Function.update_of_ne hd]
  | cons x xs ih =>
    intro pred s d hd
    rw [List.cons_append, List.mem_cons, not_or] at hd
    rw [GMap.linkCycle, ih _ _ _ hd.2]
    show Function.update s.sigmaInv x pred d = _
    rw [Function.update_of_ne hd.1]

theorem linkCycle_sigma (first : Int) : ∀ (xs : List Int) (pred : Int) (s : GMap K), (pred :: xs).Nodup →
    ∀ i, (h : i < (pred :: xs).length) →
      (GMap.linkCycle first pred xs s).sigma (pred :: xs)[i] = (xs ++ [first])[i]'(by simpa using h) := by
  intro xs
  induction xs with
  | nil =>
    intro pred s _ i h
    have : i = 0 := by simp at h; omega
    subst this
    show Function.update s.sigma pred first pred = first
    rw [Function.update_self]
  | cons x xs ih =>
    intro pred s hn i h
    rw [List.nodup_cons] at hn
    rw [GMap.linkCycle]
    cases i with
    | zero =>
      show (GMap.linkCycle first x xs _).sigma pred = x
      rw [linkCycle_sigma_other _ _ _ _ _ hn.1]
      show Function.update s.sigma pred x pred = x
      rw [Function.update_self]
    | succ i => exact ih x _ hn.2 i (by simpa using h)

theorem linkCycle_sigmaInv (first : Int) : ∀ (xs : List Int) (pred : Int) (s : GMap K), (xs ++ [first]).Nodup →
    ∀ i, (h : i < (pred :: xs).length) →
      (GMap.linkCycle first pred xs s).sigmaInv ((xs ++ [first])[i]'(by simpa using h)) = (pred :: xs)[i] := by
  intro xs
  induction xs with
  | nil =>
    intro pred s _ i h
    have : i = 0 := by simp at h; omega
    subst this
    show Function.update s.sigmaInv first pred first = pred
    rw [Function.update_self]
  | cons x xs ih =>
    intro pred s hn i h
    rw [List.cons_append, List.nodup_cons] at hn
    rw [GMap.linkCycle]
    cases i with
    | zero =>
      show (GMap.linkCycle first x xs _).sigmaInv x = pred
      rw [linkCycle_sigmaInv_other _ _ _ _ _ hn.1]
      show Function.update s.sigmaInv x pred x = pred
      rw [Function.update_self]
    | succ i => exact ih x _ hn.2 i (by simpa using h)

/-- Relinking the darts of one node in another order keeps the graph consistent. -/
theorem linkCycle_graph {s : GMap K} {L : Finset Int} {π : Perm Int} (hg : GraphRep s L π) {n : Nat} {d : Int} {ds : List Int}
    (hn : (d :: ds).Nodup) (hc : ∀ x, x ∈ d :: ds ↔ (x ∈ L ∧ s.startN? x = some n)) :
    ∃ π', GraphRep (GMap.linkCycle d d ds s) L π' := by
  obtain ⟨sg, sgi, hf⟩ := linkCycle_frame d ds d s
  obtain ⟨t, ht⟩ : ∃ t, t = GMap.linkCycle d d ds s := ⟨_, rfl⟩
  rw [← ht] at hf ⊢
  have hst : t.startN? = s.startN? := by rw [hf]; rfl
  have hn2 : (ds ++ [d]).Nodup := by
    rw [List.nodup_append_comm]; exact hn
  have hsig : ∀ i (h : i < (d :: ds).length), t.sigma (d :: ds)[i] = (ds ++ [d])[i]'(by simpa using h) := by
    rw [ht]; exact linkCycle_sigma d ds d s hn
  have hsigi : ∀ i (h : i < (d :: ds).length), t.sigmaInv ((ds ++ [d])[i]'(by simpa using h)) = (d :: ds)[i] := by
    rw [ht]; exact linkCycle_sigmaInv d ds d s hn2
  have hmem : ∀ x, x ∈ ds ++ [d] ↔ x ∈ d :: ds := by intro x; simp; tauto
  have ho : ∀ x, x ∉ d :: ds → t.sigma x = s.sigma x := by rw [ht]; exact linkCycle_sigma_other d ds d s
  have hoi : ∀ x, x ∉ d :: ds → t.sigmaInv x = s.sigmaInv x := by
    intro x hx; rw [ht]; exact linkCycle_sigmaInv_other d ds d s x (by rw [hmem]; exact hx)
  have clos : ∀ x ∈ d :: ds, t.sigma x ∈ d :: ds ∧ t.sigmaInv (t.sigma x) = x := by
    intro x hx
    obtain ⟨i, h, rfl⟩ := List.mem_iff_getElem.mp hx
    rw [hsig i h, hsigi i h]
    exact ⟨(hmem _).mp (List.getElem_mem _), rfl⟩
  have closi : ∀ x ∈ d :: ds, t.sigmaInv x ∈ d :: ds ∧ t.sigma (t.sigmaInv x) = x := by
    intro x hx
    obtain ⟨i, h, rfl⟩ := List.mem_iff_getElem.mp ((hmem x).mpr hx)
    have h' : i < (d :: ds).length := by simpa using h
    rw [hsigi i h', hsig i h']
    exact ⟨List.getElem_mem _, rfl⟩
  have st_sigma : ∀ x ∈ L, s.startN? (s.sigma x) = s.startN? x := by
    intro x hx
    obtain ⟨m, g1, -, g3⟩ := hg.starts x hx
    rw [hg.rep.eq x hx, g3, g1]
  have st_sigmai : ∀ x ∈ L, s.startN? (s.sigmaInv x) = s.startN? x := by
    intro x hx
    have := st_sigma _ (hg.rep.finv_mem hx)
    rw [hg.rep.f_finv hx] at this; exact this.symm
  have clo : ∀ x ∈ L, x ∉ d :: ds → s.sigma x ∈ L ∧ s.sigma x ∉ d :: ds := by
    intro x hx hxc
    refine ⟨hg.rep.f_mem hx, fun h => hxc ?_⟩
    rw [hc] at h ⊢
    exact ⟨hx, by rw [← st_sigma x hx]; exact h.2⟩
  have cloi : ∀ x ∈ L, x ∉ d :: ds → s.sigmaInv x ∈ L ∧ s.sigmaInv x ∉ d :: ds := by
    intro x hx hxc
    refine ⟨hg.rep.finv_mem hx, fun h => hxc ?_⟩
    rw [hc] at h ⊢
    exact ⟨hx, by rw [← st_sigmai x hx]; exact h.2⟩
  obtain ⟨π', hπ'⟩ : ∃ π', Rep L t.sigma t.sigmaInv π' := by
    apply Rep.exists_of_closed
    · intro x hx
      by_cases hxc : x ∈ d :: ds
      · exact ⟨((hc _).mp (clos x hxc).1).1, (clos x hxc).2⟩
      · obtain ⟨g1, g2⟩ := clo x hx hxc
        rw [ho x hxc, hoi _ g2, hg.rep.finv_f hx]; exact ⟨g1, rfl⟩
    · intro x hx
      by_cases hxc : x ∈ d :: ds
      · exact ⟨((hc _).mp (closi x hxc).1).1, (closi x hxc).2⟩
      · obtain ⟨g1, g2⟩ := cloi x hx hxc
        rw [hoi x hxc, ho _ g2, hg.rep.f_finv hx]; exact ⟨g1, rfl⟩
  have hd : d ∈ L := ((hc d).mp (by simp)).1
  have reach : ∀ i (h : i < (d :: ds).length), SameCycle π' d (d :: ds)[i] := by
    intro i
    induction i with
    | zero => intro h; exact SameCycle.refl _ _
    | succ i ih =>
      intro h
      have h1 := ih (by omega)
      have h2 := hsig i (by omega)
      have h3 : (ds ++ [d])[i]'(by simp at h ⊢; omega) = (d :: ds)[i + 1] := by
        rw [List.getElem_append_left (by simpa using h)]; rfl
      rw [h3, hπ'.eq _ (((hc _).mp (List.getElem_mem _)).1)] at h2
      rw [← h2]
      exact h1.trans (sameCycle_apply_right.mpr (SameCycle.refl _ _))
  refine ⟨π', ⟨?_, ?_, hπ', ?_, ?_⟩⟩
  · rw [hf]; exact ⟨hg.labels.edges_pos, hg.labels.edge_zero, hg.labels.node_lt, hg.labels.edge_lt, hg.labels.face_lt,
      hg.labels.node_count, hg.labels.edge_count, hg.labels.face_count, hg.labels.pts_ne⟩
  · rw [hf]; exact hg.live
  · intro x hx
    obtain ⟨m, g1, g2, g3⟩ := hg.starts x hx
    refine ⟨m, by rw [hst]; exact g1, by rw [hf]; exact g2, ?_⟩
    rw [hst, ← hπ'.eq x hx]
    by_cases hxc : x ∈ d :: ds
    · rw [((hc _).mp (clos x hxc).1).2, ← g1, ((hc x).mp hxc).2]
    · rw [ho x hxc, st_sigma x hx, g1]
  · intro m md hmd
    have hmd' : s.node m = some md := by rw [hf] at hmd; exact hmd
    rcases hg.nodes m md hmd' with ⟨g1, g2⟩ | ⟨g1, g2, g3⟩
    · left; rw [hst]; exact ⟨g1, g2⟩
    · right
      rw [hst]
      refine ⟨g1, g2, fun x hx hxm => ?_⟩
      by_cases e : m = n
      · subst e
        have a1 := (hc _).mpr ⟨g1, g2⟩
        have a2 := (hc _).mpr ⟨hx, hxm⟩
        obtain ⟨i, hi, e1⟩ := List.mem_iff_getElem.mp a1
        obtain ⟨j, hj, e2⟩ := List.mem_iff_getElem.mp a2
        rw [← e1, ← e2]
        exact (reach i hi).symm.trans (reach j hj)
      · obtain ⟨k, hk⟩ := (hg.rep.sameCycle_iff g1).mp (g3 x hx hxm)
        rw [hπ'.sameCycle_iff g1]
        refine ⟨k, ?_⟩
        rw [← hk]
        have hmc : md.anchor ∉ d :: ds := by
          rw [hc]; rintro ⟨-, h⟩; rw [g2] at h; exact e (Option.some.inj h)
        have : ∀ j, t.sigma^[j] md.anchor = s.sigma^[j] md.anchor ∧ s.sigma^[j] md.anchor ∈ L ∧ s.sigma^[j] md.anchor ∉ d :: ds := by
          intro j
          induction j with
          | zero => exact ⟨rfl, g1, hmc⟩
          | succ j ih =>
            rw [Function.iterate_succ_apply', Function.iterate_succ_apply', ih.1, ho _ ih.2.2]
            exact ⟨rfl, clo _ ih.2.1 ih.2.2⟩
        exact (this k).1

/-! ## one node -/

section
variable [Field K] [LinearOrder K]

/-- angle of the first segment of a list of points -/
def firstAngle : List (Pt K) → Option K
  | p :: q :: _ => some (angleTheta (-q.2 + p.2) (q.1 - p.1))
  | _ => none

/-- the angle of a dart as computed by the code -/
def GMap.angle? (s : GMap K) (d : Int) : Option K :=
  (s.edge d.natAbs).bind fun e => firstAngle (e.dartPts d)

theorem theta_angle {s : GMap K} {d : Int} {e : Edge K} (he : s.edge d.natAbs = some e) :
    (∃ t, e.theta d = .ok t ∧ s.angle? d = some t) ∨ (e.theta d = .precond ∧ s.angle? d = none) := by
  have h : s.angle? d = firstAngle (e.dartPts d) := by simp [GMap.angle?, he]
  rw [h]
  unfold Edge.theta
  rcases e.dartPts d with _ | ⟨p, _ | ⟨q, l⟩⟩
  · right; exact ⟨rfl, rfl⟩
  · right; exact ⟨rfl, rfl⟩
  · left; exact ⟨_, rfl, rfl⟩

theorem dartAngles_eq {s : GMap K} {L : Finset Int} {π : Perm Int} (hr : Rep L s.sigma s.sigmaInv π)
    (hl : ∀ d ∈ L, s.liveD d) {a : Int} (ha : a ∈ L) (fuel k : Nat) (hk : k < Function.minimalPeriod s.sigma a)
    (hn : Function.minimalPeriod s.sigma a - k ≤ fuel) (acc : List (K × Int)) (hacc : ∀ p ∈ acc, s.angle? p.2 = some p.1) :
    (∃ as, s.dartAngles a fuel (s.sigma^[k] a) acc = .ok as ∧ (∀ p ∈ as, s.angle? p.2 = some p.1) ∧
      as.map (·.2) = acc.map (·.2) ++ (List.range' k (Function.minimalPeriod s.sigma a - k)).map (fun i => s.sigma^[i] a)) ∨
    (s.dartAngles a fuel (s.sigma^[k] a) acc = .precond ∧ ∃ i, s.angle? (s.sigma^[i] a) = none) := by
  induction fuel generalizing k acc with
  | zero => omega
  | succ n ih =>
    unfold GMap.dartAngles
    obtain ⟨e, he⟩ := liveD_exists (hl _ (hr.iterate_mem ha k).2)
    rw [guaranteedEdge_of he]
    simp only [bind, Outcome.bind_ok]
    rcases theta_angle he with ⟨t, h1, h2⟩ | ⟨h1, h2⟩
    · rw [h1]
      simp only [Outcome.bind_ok, ← Function.iterate_succ_apply' s.sigma k a]
      have hacc' : ∀ p ∈ acc ++ [(t, s.sigma^[k] a)], s.angle? p.2 = some p.1 := by
        intro p hp
        rw [List.mem_append, List.mem_singleton] at hp
        rcases hp with hp | rfl
        · exact hacc p hp
        · exact h2
      by_cases hk1 : k + 1 = Function.minimalPeriod s.sigma a
      · have : s.sigma^[k + 1] a = a := by rw [hk1]; exact Function.iterate_minimalPeriod
        rw [if_pos this]
        left
        refine ⟨_, rfl, hacc', ?_⟩
        rw [← hk1, show k + 1 - k = 1 by omega]
        simp
      · rw [if_neg (hr.iterate_ne (by omega) (by omega))]
        rcases ih (k + 1) (by omega) (by omega) _ hacc' with ⟨as, g1, g2, g3⟩ | g
        · left
          refine ⟨as, g1, g2, ?_⟩
          rw [g3, show Function.minimalPeriod s.sigma a - k = (Function.minimalPeriod s.sigma a - (k + 1)) + 1 by omega, List.range'_succ]
          simp
        · right; exact g
    · rw [h1]
      right
      exact ⟨rfl, k, h2⟩

omit [Field K] in
theorem angleLE_trans (a b c : K × Int) : angleLE a b = true → angleLE b c = true → angleLE a c = true := by
  simp only [angleLE, decide_eq_true_eq]
  rintro (h1 | ⟨h1, h1'⟩) (h2 | ⟨h2, h2'⟩)
  · exact Or.inl (h1.trans h2)
  · exact Or.inl (h2 ▸ h1)
  · exact Or.inl (h1 ▸ h2)
  · exact Or.inr ⟨h1.trans h2, h1'.trans h2'⟩

omit [Field K] in
theorem angleLE_total (a b : K × Int) : (angleLE a b || angleLE b a) = true := by
  simp only [angleLE, Bool.or_eq_true, decide_eq_true_eq]
  rcases lt_trichotomy a.1 b.1 with h | h | h
  · exact Or.inl (Or.inl h)
  · rcases le_total a.2 b.2 with h' | h'
    · exact Or.inl (Or.inr ⟨h, h'⟩)
    · exact Or.inr (Or.inr ⟨h.symm, h'⟩)
  · exact Or.inr (Or.inl h)

omit [Field K] in
/-- sorted and no equal neighbours: strictly increasing -/
theorem strict_of_sorted : ∀ (l : List (K × Int)), l.Pairwise (fun a b => angleLE a b = true) → hasEqualAngles l = false →
    l.Pairwise (fun a b => a.1 < b.1) := by
  intro l
  induction l with
  | nil => intros; exact List.Pairwise.nil
  | cons a l ih =>
    intro hs he
    rw [List.pairwise_cons] at hs
    cases l with
    | nil => exact List.pairwise_singleton _ _
    | cons b l =>
      simp only [hasEqualAngles, decide_eq_false_iff_not, not_or] at he
      have ih' := ih hs.2 (by simpa using he.2)
      have hab : a.1 < b.1 := by
        have := hs.1 b (by simp)
        simp only [angleLE, decide_eq_true_eq] at this
        exact this.resolve_right (fun h => he.1 h.1)
      rw [List.pairwise_cons]
      refine ⟨fun x hx => ?_, ih'⟩
      rw [List.mem_cons] at hx
      rcases hx with rfl | hx
      · exact hab
      · rw [List.pairwise_cons] at ih'
        exact hab.trans (ih'.1 x hx)

omit [Field K] in
theorem hasEqualAngles_exists : ∀ (l : List (K × Int)), hasEqualAngles l = true →
    ∃ i, ∃ h : i + 1 < l.length, l[i].1 = l[i + 1].1 := by
  intro l
  induction l with
  | nil => intro h; cases h
  | cons a l ih =>
    intro h
    cases l with
    | nil => cases h
    | cons b l =>
      simp only [hasEqualAngles, decide_eq_true_eq] at h
      rcases h with h | h
      · exact ⟨0, by simp, h⟩
      · obtain ⟨i, hi, e⟩ := ih h
        exact ⟨i + 1, by simpa using hi, by simpa using e⟩

/-- The darts around node `n` follow each other in the order of their angles: the successor of a
dart has the next larger angle, or the dart has the largest and its successor the smallest angle. -/
def GMap.SortedAt (s : GMap K) (n : Nat) : Prop :=
  ∀ d, s.startN? d = some n → ∃ a b, s.angle? d = some a ∧ s.angle? (s.nextSigma d) = some b ∧
    ((a < b ∧ ∀ d' c, s.startN? d' = some n → s.angle? d' = some c → c ≤ a ∨ b ≤ c) ∨
     (∀ d' c, s.startN? d' = some n → s.angle? d' = some c → b ≤ c ∧ c ≤ a))

/-- no two darts leave the node with the same angle -/
def GMap.DistinctAngles (s : GMap K) (n : Nat) : Prop :=
  ∀ d d' a, s.startN? d = some n → s.startN? d' = some n → s.angle? d = some a → s.angle? d' = some a → d = d'

theorem sortNode_spec {s : GMap K} {L : Finset Int} {π : Perm Int} (hg : GraphRep s L π) (n : Nat) :
    (s.sortNode n = .precond ∧ ((∃ d, s.startN? d = some n ∧ s.angle? d = none) ∨ ¬ s.DistinctAngles n)) ∨
    ∃ t π', s.sortNode n = .ok t ∧ GraphRep t L π' ∧ (∃ sg sgi, t = { s with sigma := sg, sigmaInv := sgi }) ∧
      (∀ d, s.startN? d ≠ some n → t.sigma d = s.sigma d) ∧ t.SortedAt n ∧ t.DistinctAngles n := by
  unfold GMap.sortNode
  cases hnd : s.node n with
  | none =>
    right
    have hno : ∀ d, s.startN? d ≠ some n := by
      intro d hd
      obtain ⟨m, g1, g2, -⟩ := hg.starts d ((hg.live d).mpr (liveD_of_start hd))
      rw [hd] at g1; cases g1
      rw [hnd] at g2; cases g2
    exact ⟨s, π, rfl, hg, ⟨_, _, rfl⟩, fun _ _ => rfl, fun d hd => absurd hd (hno d), fun d _ _ hd => absurd hd (hno d)⟩
  | some nd =>
    simp only
    by_cases h0 : nd.anchor = 0
    · rw [if_pos h0]
      right
      have hno : ∀ d, s.startN? d ≠ some n := by
        intro d hd
        rcases hg.nodes n nd hnd with ⟨-, g⟩ | ⟨g, -⟩
        · exact g d ((hg.live d).mpr (liveD_of_start hd)) hd
        · rw [h0] at g; exact hg.ne_zero g rfl
      exact ⟨s, π, rfl, hg, ⟨_, _, rfl⟩, fun _ _ => rfl, fun d hd => absurd hd (hno d), fun d _ _ hd => absurd hd (hno d)⟩
    · rw [if_neg h0]
      obtain ⟨haL, hast, hcov⟩ := (hg.nodes n nd hnd).resolve_left (fun h => h0 h.1)
      have hp := hg.rep.isPeriodicPt haL
      rcases dartAngles_eq hg.rep (fun d hd => (hg.live d).mp hd) haL s.fuel 0 hp.1
          (by unfold GMap.fuel; have := hg.card_le; omega) [] (by simp) with ⟨as, g1, g2, g3⟩ | ⟨g1, i, hi⟩
      · have g1' : s.dartAngles nd.anchor s.fuel nd.anchor [] = .ok as := g1
        simp only [bind, g1', Outcome.bind_ok]
        obtain ⟨so, hso⟩ : ∃ so, so = as.insertionSort (fun x y => angleLE x y = true) := ⟨_, rfl⟩
        rw [← hso]
        have hperm : so.Perm as := by rw [hso]; exact List.perm_insertionSort _ _
        have hsorted : so.Pairwise (fun a b => angleLE a b = true) := by
          have i1 : IsTrans (K × Int) (fun x y => angleLE x y = true) := ⟨angleLE_trans⟩
          have i2 : Std.Total (fun x y : K × Int => angleLE x y = true) := ⟨fun a b => by simpa using angleLE_total a b⟩
          rw [hso]; exact List.pairwise_insertionSort _ as
        cases he : hasEqualAngles so with
        | true =>
          left
          refine ⟨rfl, Or.inr fun hD => ?_⟩
          have hang : ∀ p ∈ so, s.angle? p.2 = some p.1 := fun p hp => g2 p (hperm.mem_iff.mp hp)
          have hst : ∀ p ∈ so, s.startN? p.2 = some n := by
            intro p hp
            have h1 : p.2 ∈ as.map (·.2) := List.mem_map_of_mem (hperm.mem_iff.mp hp)
            rw [g3] at h1
            simp only [List.map_nil, List.nil_append, List.mem_map] at h1
            obtain ⟨i, -, e⟩ := h1
            have hm := hg.rep.iterate_mem haL i
            have hc := (hg.rep.sameCycle_iff haL).mpr ⟨i, rfl⟩
            rw [← e, ← (same_start_iff hg.rep hg.starts hg.nodes haL hm.2).mpr hc]
            exact hast
          have hnodup : (so.map (·.2)).Nodup := by
            rw [(hperm.map _).nodup_iff, g3]
            simp only [List.map_nil, List.nil_append]
            rw [List.nodup_map_iff_inj_on (List.nodup_range' ..)]
            intro i hi j hj e
            rw [List.mem_range'_1] at hi hj
            exact Function.iterate_injOn_Iio_minimalPeriod (by simp; omega) (by simp; omega) e
          obtain ⟨i, hi, e⟩ := hasEqualAngles_exists so he
          have m1 : so[i] ∈ so := List.getElem_mem _
          have m2 : so[i + 1] ∈ so := List.getElem_mem _
          have hd := hD _ _ _ (hst _ m1) (hst _ m2) (hang _ m1) (by rw [hang _ m2, e])
          have hp := List.pairwise_iff_getElem.mp hnodup i (i + 1) (by simp; omega) (by simpa using hi) (by omega)
          simp only [List.getElem_map] at hp
          exact hp hd
        | false =>
          simp only [Bool.false_eq_true, if_false]
          right
          have hstrict := strict_of_sorted so hsorted he
          have hang : ∀ p ∈ so, s.angle? p.2 = some p.1 := fun p hp => g2 p (hperm.mem_iff.mp hp)
          have hmem : ∀ x, x ∈ so.map (·.2) ↔ (x ∈ L ∧ s.startN? x = some n) := by
            intro x
            rw [(hperm.map _).mem_iff, g3]
            simp only [List.map_nil, List.nil_append, List.mem_map, List.mem_range'_1]
            constructor
            · rintro ⟨i, -, rfl⟩
              have hm := hg.rep.iterate_mem haL i
              refine ⟨hm.2, ?_⟩
              have hc := (hg.rep.sameCycle_iff haL).mpr ⟨i, rfl⟩
              rw [(same_start_iff hg.rep hg.starts hg.nodes haL hm.2).mpr hc] at hast
              exact hast
            · rintro ⟨hx, hxn⟩
              obtain ⟨i, hi, e⟩ := hg.rep.iterate_lt haL (hcov x hx hxn)
              exact ⟨i, ⟨by omega, by omega⟩, e⟩
          have hnodup : (so.map (·.2)).Nodup := by
            rw [(hperm.map _).nodup_iff, g3]
            simp only [List.map_nil, List.nil_append]
            rw [List.nodup_map_iff_inj_on (List.nodup_range' ..)]
            intro i hi j hj e
            rw [List.mem_range'_1] at hi hj
            exact Function.iterate_injOn_Iio_minimalPeriod (by simp; omega) (by simp; omega) e
          obtain ⟨c, hcdef⟩ : ∃ c, c = so.map (·.2) := ⟨_, rfl⟩
          rw [← hcdef] at hmem hnodup ⊢
          cases c with
          | nil =>
            have := (hmem nd.anchor).mpr ⟨haL, hast⟩
            simp at this
          | cons d ds =>
            simp only
            obtain ⟨π', hπ'⟩ := linkCycle_graph hg hnodup hmem
            obtain ⟨sg, sgi, hfr⟩ := linkCycle_frame d ds d s
            have hst : (GMap.linkCycle d d ds s).startN? = s.startN? := by rw [hfr]; rfl
            have han : (GMap.linkCycle d d ds s).angle? = s.angle? := by rw [hfr]; rfl
            have hmem' : ∀ x, s.startN? x = some n → ∃ p ∈ so, p.2 = x := by
              intro x hx
              have := (hmem x).mpr ⟨(hg.live x).mpr (liveD_of_start hx), hx⟩
              rw [hcdef, List.mem_map] at this
              exact this
            refine ⟨_, π', rfl, hπ', ⟨sg, sgi, hfr⟩, fun x hx => ?_, ?_, ?_⟩
            · refine linkCycle_sigma_other d ds d s x ?_
              rw [hmem]; exact fun h => hx h.2
            · intro x hx
              rw [hst] at hx
              rw [han]
              have hxc := (hmem x).mpr ⟨(hg.live x).mpr (liveD_of_start hx), hx⟩
              obtain ⟨i, hi, rfl⟩ := List.mem_iff_getElem.mp hxc
              have hlen : so.length = (d :: ds).length := by rw [hcdef, List.length_map]
              have hso_i : ∀ j (hj : j < (d :: ds).length), (so[j]'(by omega)).2 = (d :: ds)[j] := by
                intro j hj
                have : (d :: ds)[j] = (so.map (·.2))[j]'(by rw [← hcdef]; exact hj) := by simp only [hcdef]
                rw [this, List.getElem_map]
              have hmono : ∀ j k (hj : j < so.length) (hk : k < so.length), j ≤ k → so[j].1 ≤ so[k].1 := by
                intro j k hj hk hjk
                rcases Nat.lt_or_eq_of_le hjk with h | h
                · exact (List.pairwise_iff_getElem.mp hstrict j k hj hk h).le
                · subst h; exact le_rfl
              have hsig := linkCycle_sigma d ds d s hnodup i hi
              have hany : ∀ d' c, s.startN? d' = some n → s.angle? d' = some c → ∃ k, ∃ hk : k < so.length, so[k].1 = c := by
                intro d' c hd' hc'
                obtain ⟨p, hp, rfl⟩ := hmem' d' hd'
                obtain ⟨k, hk, rfl⟩ := List.mem_iff_getElem.mp hp
                rw [hang _ hp] at hc'
                exact ⟨k, hk, Option.some.inj hc'⟩
              have hgoal : ∀ (y : Int) (b : K), (GMap.linkCycle d d ds s).nextSigma (d :: ds)[i] = y → s.angle? y = some b →
                  ((so[i]'(by omega)).1 < b ∧ ∀ k (hk : k < so.length), so[k].1 ≤ (so[i]'(by omega)).1 ∨ b ≤ so[k].1) ∨
                  (∀ k (hk : k < so.length), b ≤ so[k].1 ∧ so[k].1 ≤ (so[i]'(by omega)).1) →
                  ∃ a b, s.angle? (d :: ds)[i] = some a ∧ s.angle? ((GMap.linkCycle d d ds s).nextSigma (d :: ds)[i]) = some b ∧
                  ((a < b ∧ ∀ d' c, s.startN? d' = some n → s.angle? d' = some c → c ≤ a ∨ b ≤ c) ∨
                   (∀ d' c, s.startN? d' = some n → s.angle? d' = some c → b ≤ c ∧ c ≤ a)) := by
                intro y b hy hb hcase
                refine ⟨(so[i]'(by omega)).1, b, ?_, by rw [hy]; exact hb, ?_⟩
                · rw [← hso_i i hi]; exact hang _ (List.getElem_mem _)
                · rcases hcase with ⟨q1, q2⟩ | q
                  · left
                    refine ⟨q1, fun d' c hd' hc' => ?_⟩
                    obtain ⟨k, hk, rfl⟩ := hany d' c hd' hc'
                    exact q2 k hk
                  · right
                    intro d' c hd' hc'
                    obtain ⟨k, hk, rfl⟩ := hany d' c hd' hc'
                    exact q k hk
              rw [hst]
              by_cases hlast : i + 1 < (d :: ds).length
              · refine hgoal (d :: ds)[i + 1] (so[i + 1]'(by omega)).1 ?_ ?_ ?_
                · show (GMap.linkCycle d d ds s).sigma _ = _
                  rw [hsig, List.getElem_append_left (by simpa using hlast)]; rfl
                · rw [← hso_i (i + 1) hlast]; exact hang _ (List.getElem_mem _)
                · left
                  refine ⟨List.pairwise_iff_getElem.mp hstrict i (i + 1) (by omega) (by omega) (by omega), fun k hk => ?_⟩
                  rcases Nat.lt_or_ge i k with h | h
                  · right; exact hmono _ _ _ _ h
                  · left; exact hmono _ _ _ _ h
              · have hi' : i = ds.length := by simp at hi hlast; omega
                refine hgoal d (so[0]'(by rw [hlen]; simp)).1 ?_ ?_ ?_
                · show (GMap.linkCycle d d ds s).sigma _ = _
                  rw [hsig]
                  simp [hi']
                · have := hso_i 0 (by simp)
                  rw [show (d :: ds)[0] = d from rfl] at this
                  rw [← this]; exact hang _ (List.getElem_mem _)
                · right
                  intro k hk
                  refine ⟨hmono _ _ _ _ (Nat.zero_le _), hmono _ _ _ _ ?_⟩
                  rw [hlen] at hk; simp at hk; omega
            · intro x x' a hx hx' ha ha'
              rw [hst] at hx hx'
              rw [han] at ha ha'
              obtain ⟨p, hp, rfl⟩ := hmem' x hx
              obtain ⟨q, hq, rfl⟩ := hmem' x' hx'
              rw [hang p hp] at ha
              rw [hang q hq] at ha'
              obtain ⟨i, hi, rfl⟩ := List.mem_iff_getElem.mp hp
              obtain ⟨j, hj, rfl⟩ := List.mem_iff_getElem.mp hq
              have e : so[i].1 = so[j].1 := (Option.some.inj ha).trans (Option.some.inj ha').symm
              rcases lt_trichotomy i j with h | h | h
              · exact absurd e (List.pairwise_iff_getElem.mp hstrict i j hi hj h).ne
              · subst h; rfl
              · exact absurd e.symm (List.pairwise_iff_getElem.mp hstrict j i hj hi h).ne
      · left
        have g1' : s.dartAngles nd.anchor s.fuel nd.anchor [] = .precond := g1
        simp only [bind, g1', Outcome.bind_precond]
        refine ⟨trivial, Or.inl ⟨_, ?_, hi⟩⟩
        have hm := hg.rep.iterate_mem haL i
        have hc := (hg.rep.sameCycle_iff haL).mpr ⟨i, rfl⟩
        rw [← (same_start_iff hg.rep hg.starts hg.nodes haL hm.2).mpr hc]
        exact hast

theorem sortNodes_spec : ∀ (ns : List Nat) {s : GMap K} {L : Finset Int} {π : Perm Int}, GraphRep s L π → 
    (GMap.sortNodes ns s = .precond ∧ ∃ n ∈ ns, (∃ d, s.startN? d = some n ∧ s.angle? d = none) ∨ ¬ s.DistinctAngles n) ∨
    ∃ t π', GMap.sortNodes ns s = .ok t ∧ GraphRep t L π' ∧ (∃ sg sgi, t = { s with sigma := sg, sigmaInv := sgi }) ∧
      (∀ d, (∀ n ∈ ns, s.startN? d ≠ some n) → t.sigma d = s.sigma d) ∧
      (ns.Nodup → ∀ n ∈ ns, t.SortedAt n ∧ t.DistinctAngles n) := by
  intro ns
  induction ns with
  | nil =>
    intro s L π hg
    exact Or.inr ⟨s, π, rfl, hg, ⟨_, _, rfl⟩, fun _ _ => rfl, fun _ n hn => absurd hn (by simp)⟩
  | cons n ns ih =>
    intro s L π hg
    unfold GMap.sortNodes
    rcases sortNode_spec hg n with h | ⟨t, π', h1, h2, ⟨sg, sgi, h3⟩, h4, h5, h6⟩
    · left; simp only [bind, h.1, Outcome.bind_precond]
      exact ⟨trivial, n, by simp, h.2⟩
    · simp only [bind, h1, Outcome.bind_ok]
      rcases ih h2 with ⟨h, m, hm, hb⟩ | ⟨u, π'', g1, g2, ⟨sg', sgi', g3⟩, g4, g5⟩
      · refine Or.inl ⟨h, m, by simp [hm], ?_⟩
        have hst : t.startN? = s.startN? := by rw [h3]; rfl
        have han : t.angle? = s.angle? := by rw [h3]; rfl
        unfold GMap.DistinctAngles at hb ⊢
        rw [hst, han] at hb
        exact hb
      · have hst : t.startN? = s.startN? := by rw [h3]; rfl
        have hstu : u.startN? = s.startN? := by rw [g3, h3]; rfl
        have han : u.angle? = t.angle? := by rw [g3]; rfl
        refine Or.inr ⟨u, π'', g1, g2, ⟨sg', sgi', by rw [g3, h3]⟩, fun d hd => ?_, fun hnd => ?_⟩
        · rw [g4 d (fun m hm => by rw [hst]; exact hd m (by simp [hm])), h4 d (hd n (by simp))]
        · rw [List.nodup_cons] at hnd
          intro m hm
          rw [List.mem_cons] at hm
          rcases hm with rfl | hm
          · refine ⟨?_, ?_⟩
            · intro d hd
              rw [hstu] at hd ⊢
              have e : u.nextSigma d = t.nextSigma d := g4 d (fun k hk => by
                rw [hst, hd]; intro e; exact hnd.1 (by rw [Option.some.inj e]; exact hk))
              rw [e, han]
              have := h5 d (by rw [hst]; exact hd)
              rw [hst] at this
              exact this
            · intro d d' a
              rw [hstu, han, ← hst]
              exact h6 d d' a
          · exact g5 hnd.2 m hm

/-- `sortEdgesDirectly` on a consistent graph: either it fails, because some dart has no direction or
two darts leave a node with the same angle, or the graph stays consistent, nothing but the order of
the darts around the nodes changes, and that order is the order of the angles. -/
theorem sortEdgesDirectly_spec {s : GMap K} {L : Finset Int} {π : Perm Int} (hg : GraphRep s L π) (hi : ¬ s.initialized) :
    (s.sortEdgesDirectly = .precond ∧ ∃ n, (∃ d, s.startN? d = some n ∧ s.angle? d = none) ∨ ¬ s.DistinctAngles n) ∨
    ∃ t π', s.sortEdgesDirectly = .ok t ∧ GraphRep t L π' ∧
      (∃ sg sgi, t = { s with sigma := sg, sigmaInv := sgi, edgesSorted := true }) ∧
      ∀ n, t.SortedAt n ∧ t.DistinctAngles n := by
  unfold GMap.sortEdgesDirectly
  rw [if_neg hi]
  rcases sortNodes_spec (List.range s.nNodes) hg with ⟨h, n, -, hn⟩ | ⟨t, π', h1, h2, ⟨sg, sgi, h3⟩, -, h5⟩
  · left
    simp only [bind, h, Outcome.bind_precond]
    exact ⟨trivial, n, hn⟩
  · right
    simp only [bind, h1, Outcome.bind_ok]
    refine ⟨_, π', rfl, ?_, ⟨sg, sgi, by rw [h3]⟩, fun n => ?_⟩
    · exact ⟨⟨h2.labels.edges_pos, h2.labels.edge_zero, h2.labels.node_lt, h2.labels.edge_lt, h2.labels.face_lt,
        h2.labels.node_count, h2.labels.edge_count, h2.labels.face_count, h2.labels.pts_ne⟩, h2.live, h2.rep, h2.starts, h2.nodes⟩
    · by_cases hn : n < s.nNodes
      · exact h5 List.nodup_range n (List.mem_range.mpr hn)
      · have hno : ∀ d, t.startN? d ≠ some n := by
          intro d hd
          obtain ⟨m, g1, g2, -⟩ := h2.starts d ((h2.live d).mpr (liveD_of_start hd))
          rw [hd] at g1; cases g1
          have := h2.labels.node_lt n g2
          rw [h3] at this
          exact hn this
        exact ⟨fun d hd => absurd hd (hno d), fun d _ _ hd => absurd hd (hno d)⟩

end

end Verif.GeoMap
