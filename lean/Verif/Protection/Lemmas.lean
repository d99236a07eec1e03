import Verif.Protection.Spec

/-! # Lemmas: single calls with protection -/

namespace Verif.GeoMap
open Verif

variable {K : Type}

theorem Adjacent.reverse {L : List (Pt K)} {p q : Pt K} (h : Adjacent L p q) : Adjacent L.reverse q p := by
  obtain ⟨i, h1, h2⟩ := h
  have hl : i + 1 < L.length := by
    by_contra hc
    rw [List.getElem?_eq_none (by omega)] at h2; cases h2
  refine ⟨L.length - 1 - (i + 1), ?_, ?_⟩
  · rw [List.getElem?_reverse (by omega), show L.length - 1 - (L.length - 1 - (i + 1)) = i + 1 by omega]; exact h2
  · rw [List.getElem?_reverse (by omega), show L.length - 1 - (L.length - 1 - (i + 1) + 1) = i by omega]; exact h1

theorem Adjacent.dart {e : Edge K} {p q : Pt K} (h : Adjacent e.pts p q) (d : Int) : Adjacent (e.dartPts d) p q ∨ Adjacent (e.dartPts d) q p := by
  unfold Edge.dartPts
  split_ifs
  · exact Or.inl h
  · exact Or.inr h.reverse

theorem Adjacent.of_dart {e : Edge K} {p q : Pt K} {d : Int} (h : Adjacent (e.dartPts d) p q) : Adjacent e.pts p q ∨ Adjacent e.pts q p := by
  unfold Edge.dartPts at h
  split_ifs at h
  · exact Or.inl h
  · have := h.reverse
    rw [List.reverse_reverse] at this
    exact Or.inr this

theorem Adjacent.append_right {A B : List (Pt K)} {p q : Pt K} (h : Adjacent B p q) : Adjacent (A ++ B) p q := by
  obtain ⟨i, h1, h2⟩ := h
  refine ⟨A.length + i, ?_, ?_⟩
  · rw [List.getElem?_append_right (by omega)]; simpa using h1
  · rw [List.getElem?_append_right (by omega), show A.length + i + 1 - A.length = i + 1 by omega]; exact h2

theorem Adjacent.append_left {A B : List (Pt K)} {p q : Pt K} (h : Adjacent A p q) : Adjacent (A ++ B) p q := by
  obtain ⟨i, h1, h2⟩ := h
  have hl : i + 1 < A.length := by
    by_contra hc
    rw [List.getElem?_eq_none (by omega)] at h2; cases h2
  exact ⟨i, by rw [List.getElem?_append_left (by omega)]; exact h1, by rw [List.getElem?_append_left (by omega)]; exact h2⟩

theorem Adjacent.join {A B : List (Pt K)} (hj : A.getLast? = B.head?) {p q : Pt K} (h : Adjacent A p q) : Adjacent (A.dropLast ++ B) p q := by
  have hA : A ≠ [] := by rintro rfl; obtain ⟨i, h1, -⟩ := h; simp at h1
  rw [join_tail hj hA]
  exact h.append_left

/-- cutting a polygon at one of its points -/
theorem Adjacent.cut {L : List (Pt K)} {k : Nat} {p q : Pt K} (h : Adjacent L p q) : Adjacent (L.take (k + 1)) p q ∨ Adjacent (L.drop k) p q := by
  obtain ⟨i, h1, h2⟩ := h
  by_cases hi : i < k
  · exact Or.inl ⟨i, by rw [List.getElem?_take_of_lt (by omega)]; exact h1, by rw [List.getElem?_take_of_lt (by omega)]; exact h2⟩
  · refine Or.inr ⟨i - k, ?_, ?_⟩
    · rw [List.getElem?_drop, show k + (i - k) = i by omega]; exact h1
    · rw [List.getElem?_drop, show k + (i - k + 1) = i + 1 by omega]; exact h2

/-- inserting a point -/
theorem Adjacent.insert {L : List (Pt K)} {j : Nat} {x p q : Pt K} (hj : j + 1 < L.length) (h : Adjacent L p q) :
    Adjacent (L.insertIdx (j + 1) x) p q ∨
      (Adjacent (L.insertIdx (j + 1) x) p x ∧ Adjacent (L.insertIdx (j + 1) x) x q ∧ L[j]? = some p ∧ L[j + 1]? = some q) := by
  obtain ⟨i, h1, h2⟩ := h
  rcases Nat.lt_trichotomy i j with hlt | rfl | hgt
  · refine Or.inl ⟨i, ?_, ?_⟩
    · rw [List.getElem?_insertIdx_of_lt (by omega)]; exact h1
    · rw [List.getElem?_insertIdx_of_lt (by omega)]; exact h2
  · refine Or.inr ⟨⟨i, ?_, ?_⟩, ⟨i + 1, ?_, ?_⟩, h1, h2⟩
    · rw [List.getElem?_insertIdx_of_lt (by omega)]; exact h1
    · rw [List.getElem?_insertIdx_self]; simp; omega
    · rw [List.getElem?_insertIdx_self]; simp; omega
    · rw [List.getElem?_insertIdx_of_gt (by omega)]; exact h2
  · refine Or.inl ⟨i + 1, ?_, ?_⟩
    · rw [List.getElem?_insertIdx_of_gt (by omega)]; exact h1
    · rw [List.getElem?_insertIdx_of_gt (by omega)]; exact h2

section
variable [Field K]

/-- the same edge, seen through `v` -/
def KeptEdge (v : Nat → Nat) (s t : GMap K) (l : Nat) : Prop :=
  ∀ e, s.edge l = some e → ∃ e', t.edge l = some e' ∧ e'.pts = e.pts ∧ v e'.flags = v e.flags

theorem KeptEdge.drawn {v : Nat → Nat} {s t : GMap K} {l : Nat} (h : KeptEdge v s t l) {e : Edge K} (he : s.edge l = some e) {p q : Pt K}
    (ha : Adjacent e.pts p q) : Drawn v t (v e.flags) p q := by
  obtain ⟨e', h1, h2, h3⟩ := h e he
  exact .segment h1 h3 (by rw [h2]; exact ha)

omit [Field K] in
theorem KeptEdge.of_eq {v : Nat → Nat} {s t : GMap K} {l : Nat} (h : t.edge l = s.edge l) : KeptEdge v s t l :=
  fun e he => ⟨e, by rw [h]; exact he, rfl, rfl⟩

omit [Field K] in
theorem KeptEdge.of_map {v : Nat → Nat} {s t : GMap K} {l : Nat} (h : (t.edge l).map (fun e => (e.startN, e.endN, e.pts, e.flags)) =
    (s.edge l).map (fun e => (e.startN, e.endN, e.pts, e.flags))) : KeptEdge v s t l := by
  intro e he
  rw [he] at h
  cases ht : t.edge l with
  | none => rw [ht] at h; cases h
  | some e' =>
    rw [ht] at h
    simp only [Option.map_some, Option.some.injEq, Prod.mk.injEq] at h
    exact ⟨e', rfl, h.2.2.1, by rw [h.2.2.2]⟩

variable [LinearOrder K]

/-- callbacks that do what `EdgeProtection` does (and possibly more) -/
structure Protecting (h : Hooks K) : Prop where
  faces : ∀ s d, h.preMergeFaces s d = true → protPreRemoveEdge s d = true
  bridge : ∀ s d, h.preRemoveBridge s d = true → protPreRemoveEdge s d = true
  edges : ∀ s d, h.preMergeEdges s d = true → protPreMergeEdges s d = true

omit [Field K] [LinearOrder K] in
theorem accumulate_true {α : Type} {a : α} : ∀ {fs : List (α → Bool)}, accumulate fs a = true → ∀ f ∈ fs, f a = true
  | [], _, f, hf => by cases hf
  | g :: fs, h, f, hf => by
    unfold accumulate at h
    by_cases hg : g a = true
    · rw [if_pos hg] at h
      rcases List.mem_cons.mp hf with rfl | hf
      · exact hg
      · exact accumulate_true h f hf
    · rw [if_neg hg] at h; cases h

omit [Field K] [LinearOrder K] in
theorem attach_protecting (c : Slots K) : Protecting c.attachProtection.hooks where
  faces := fun s d h => accumulate_true h (fun x => protPreRemoveEdge x.1 x.2) (by simp [Slots.attachProtection])
  bridge := fun s d h => accumulate_true h (fun x => protPreRemoveEdge x.1 x.2) (by simp [Slots.attachProtection])
  edges := fun s d h => accumulate_true h (fun x => protPreMergeEdges x.1 x.2) (by simp [Slots.attachProtection])

/-- `removeBridge` with protection: a protected edge is not removed -/
theorem removeBridge_protected {s : GMap K} (hs : Good s) {h : Hooks K} (hp : Protecting h) {d : Int} {f : Nat} {t : GMap K}
    (e : s.removeBridge h d = .ok (some f, t)) {ed : Edge K} (he : s.edge d.natAbs = some ed) : ed.flag allProtection = false := by
  have hM := hs.map
  by_cases hpre : ¬ s.liveD d ∨ ¬ s.initialized ∨ s.left? d ≠ s.left? (-d) ∨ s.startN? d = s.startN? (-d)
  · rw [removeBridge_precond_all hM h d hpre] at e; cases e
  push Not at hpre
  obtain ⟨hd, hi, hb, hn⟩ := hpre
  obtain ⟨f, F, ed', s2, t', gl, hF, he', heq, hR⟩ := removeBridge_spec hM hi h hd hb hn ((hs.planar hi).bridges hM hi d hd hb)
  rw [heq] at e
  by_cases hv : h.preRemoveBridge s d = true
  · have := hp.bridge s d hv
    unfold protPreRemoveEdge at this
    rw [he] at this
    simpa using this
  · rw [if_neg hv] at e; cases e

theorem mergeFaces_protected {s : GMap K} (hs : Good s) {h : Hooks K} (hp : Protecting h) {d : Int} {f : Nat} {t : GMap K}
    (e : s.mergeFaces h d = .ok (some f, t)) {ed : Edge K} (he : s.edge d.natAbs = some ed) : ed.flag allProtection = false := by
  have hM := hs.map
  by_cases hpre : ¬ s.liveD d ∨ ¬ s.initialized ∨ s.left? d = s.left? (-d)
  · rw [mergeFaces_precond_all hM h d hpre] at e; cases e
  push Not at hpre
  obtain ⟨hd, hi, hb⟩ := hpre
  obtain ⟨r, sl, ml, S, M, a, b, ed', s0, s2, t', hr, gl, gr, hml, -, he', hS, hMf, hSa, hMa, hc0, hfr, heq, hR⟩ := mergeFaces_spec hM hi h hd hb
  rw [heq] at e
  by_cases hv : h.preMergeFaces s0 r = true
  · have := hp.faces s0 r hv
    unfold protPreRemoveEdge at this
    obtain ⟨fc, hfc⟩ := hc0.eq
    have hra : r.natAbs = d.natAbs := by rcases hr with rfl | rfl <;> simp
    rw [hfc, hra] at this
    simp only [he] at this
    simpa using this
  · rw [if_neg hv] at e; cases e

omit [Field K] [LinearOrder K] in
/-- `mergeEdges` with protection: the joined edges have equal flags -/
theorem mergeEdges_protected {s : GMap K} (hs : Good s) {h : Hooks K} (hp : Protecting h) {d : Int} {l : Nat} {t : GMap K}
    (e : s.mergeEdges h d = .ok (some l, t)) :
    ∃ e1 e2, s.edge d.natAbs = some e1 ∧ s.edge (s.nextSigma d).natAbs = some e2 ∧ e1.flags = e2.flags := by
  by_cases hpre : ¬ s.liveD d ∨ (s.sigma d).natAbs = d.natAbs ∨ s.sigma (s.sigma d) ≠ d
  · rw [mergeEdges_precond h s d hpre] at e; cases e
  push Not at hpre
  obtain ⟨d1, d2, e1, e2, m, n2, nd, s1, hor, hs1, hM1, hD, -, -, heq, hMt⟩ := mergeEdges_spec hs.map h hpre.1 hpre.2.1 hpre.2.2
  rw [heq] at e
  by_cases hv : h.preMergeEdges s1 d1 = true ∧ h.removeNode s1 m = true
  swap
  · rw [if_neg hv] at e; cases e
  have := hp.edges s1 d1 hv.1
  unfold protPreMergeEdges at this
  rw [hD.he1, hD.h12, hD.he2] at this
  simp only [Option.map_some, Option.some.injEq, decide_eq_true_eq] at this
  obtain ⟨fc, hfc⟩ := hs1.eq
  have q1 := hD.he1
  have q2 := hD.he2
  rw [hfc] at q1 q2
  rcases hor with ⟨h1, h2⟩ | ⟨h1, h2⟩
  · exact ⟨e1, e2, by rw [← h1]; exact q1, by unfold GMap.nextSigma; rw [← h2]; exact q2, this⟩
  · exact ⟨e2, e1, by rw [← h2]; exact q2, by unfold GMap.nextSigma; rw [← h1]; exact q1, this.symm⟩

/-- one call keeps every segment of every protected edge drawn -/
theorem call_drawn {v : Nat → Nat} {s t : GMap K} (hs : Good s) (hG : GoodGeom s) {h : Hooks K}
    (hp : Protecting h) (op : Op K) (hl : op.legal s) (hf : op.fits s) (hk : op.keeps v s) (e : op.run h s = .ok t)
    {l : Nat} {ed : Edge K} (he : s.edge l = some ed) (hpr : ed.flag allProtection = true) {p q : Pt K} (ha : Adjacent ed.pts p q) :
    Drawn v t (v ed.flags) p q := by
  have mp : ∀ {A : Type} {o : Outcome (A × GMap K)}, o.map (·.2) = .ok t → ∃ r, o = .ok (r, t) := by
    intro A o h
    cases o with
    | ok x => obtain ⟨r, x⟩ := x; cases h; exact ⟨r, rfl⟩
    | _ => cases h
  have hsort : ¬ s.initialized → ∀ {t}, s.sortEdgesDirectly = .ok t → t.edge = s.edge := by
    intro hi t e
    obtain ⟨π, hg⟩ := hs.map.graph.exists_rep
    rcases sortEdgesDirectly_spec hg hi with ⟨e', -⟩ | ⟨t', π', h1, h2, ⟨sg, sgi, h3⟩, -⟩
    · rw [e'] at e; cases e
    · rw [h1] at e; cases e
      rw [h3]
  have hbridge : ∀ {d r}, s.removeBridge h d = .ok (r, t) → Drawn v t (v ed.flags) p q := by
    intro d r e
    cases r with
    | none => rw [removeBridge_vetoed hs e]; exact .segment he rfl ha
    | some f =>
      have E := removeBridge_effect hs e
      refine (KeptEdge.of_eq (E.edges l ?_)).drawn he ha
      rintro rfl
      rw [removeBridge_protected hs hp e he] at hpr
      cases hpr
  have hmerge : ∀ {d r}, s.mergeFaces h d = .ok (r, t) → Drawn v t (v ed.flags) p q := by
    intro d r e
    cases r with
    | none =>
      obtain ⟨fc, hfc⟩ := (mergeFaces_vetoed hs.map e).eq
      rw [hfc]; exact .segment (l := l) he rfl ha
    | some f =>
      obtain ⟨ml, E⟩ := mergeFaces_effect hs e
      refine (KeptEdge.of_map (E.edges l ?_)).drawn he ha
      rintro rfl
      rw [mergeFaces_protected hs hp e he] at hpr
      cases hpr
  cases op with
  | addNode p' label => cases e; exact .segment (l := l) he rfl ha
  | addEdge a b pts label =>
    obtain ⟨r, e⟩ := mp e
    by_cases hi : s.initialized
    · unfold GMap.addEdge at e; rw [if_pos hi] at e; cases e
    obtain ⟨π, hg⟩ := hs.map.graph.exists_rep
    rcases sigmaAnchor_cases hg a (fun n h _ => hl.2.1 n h) with ⟨A, hA⟩ | hA
    swap
    · unfold GMap.addEdge at e; rw [if_neg hi] at e; simp only [bind, hA, Outcome.bind_precond] at e; cases e
    rcases sigmaAnchor_cases hg b (fun n h _ => hl.2.2 n h) with ⟨B, hB⟩ | hB
    swap
    · unfold GMap.addEdge at e; rw [if_neg hi] at e; simp only [bind, hA, hB, Outcome.bind_ok, Outcome.bind_precond] at e; cases e
    obtain ⟨t', π', h1, h2, ⟨sg, sgi, node', h3, h4⟩⟩ := addEdge_spec hg hi hA hB hl.1 label
    rw [h1] at e; cases e
    subst h3
    refine (KeptEdge.of_eq (l := l) ?_).drawn he ha
    have : l < s.nEdges := hs.map.graph.edge_lt l (by simp [he])
    simp only [Function.update_apply]
    rw [if_neg (by omega)]
  | sortEdgesDirectly =>
    have e : s.sortEdgesDirectly = .ok t := e
    by_cases hi : s.initialized
    · unfold GMap.sortEdgesDirectly at e; rw [if_pos hi] at e; cases e
    · exact (KeptEdge.of_eq (by rw [hsort hi e])).drawn he ha
  | initializeMap pick =>
    have e : s.initializeMap pick = .ok t := e
    by_cases hi : s.initialized
    · unfold GMap.initializeMap at e; rw [if_pos hi] at e; cases e
    · rcases initializeMap_spec pick hs.map hi hs.fresh with ⟨e', -⟩ | ⟨s1, t', h0, h1, h2, h3, h4, h5, -⟩
      · rw [e'] at e; cases e
      · rw [h1] at e; cases e
        have h01 : s1.edge = s.edge := by
          rcases h0 with ⟨-, h0⟩ | ⟨-, h0⟩
          · rw [h0]
          · exact hsort hi h0
        exact (KeptEdge.of_map (by rw [h4.edge, h01])).drawn he ha
  | removeIsolatedNode n =>
    obtain ⟨r, e⟩ := mp e
    obtain ⟨nd, hnd⟩ := Option.isSome_iff_exists.mp hl.1
    unfold GMap.removeIsolatedNode at e
    rw [derefNode_of hs.map.graph.labels hnd] at e
    simp only [bind, Outcome.bind_ok] at e
    split_ifs at e <;> cases e <;> exact .segment (l := l) he rfl ha
  | mergeEdges d =>
    obtain ⟨r, e⟩ := mp e
    cases r with
    | none =>
      obtain ⟨fc, hfc⟩ := (mergeEdges_vetoed hs.map e).1.eq
      rw [hfc]; exact .segment (l := l) he rfl ha
    | some k =>
      obtain ⟨d1, d2, m, hor, -, E⟩ := mergeEdges_effect hs.map e
      obtain ⟨x1, x2, g1, g2, g3⟩ := mergeEdges_protected hs hp e
      obtain ⟨e1, e2, e3, f1, f2, f3, f4, f5⟩ := E.survivor
      have hfl : e1.flags = e2.flags := by
        rcases hor with ⟨h1, h2⟩ | ⟨h1, h2⟩
        · rw [h1, g1] at f1; rw [h2, g2] at f2; cases f1; cases f2; exact g3
        · rw [h1, g2] at f1; rw [h2, g1] at f2; cases f1; cases f2; exact g3.symm
      have hjoin : (e2.dartPts (-d2)).getLast? = (e1.dartPts d1).head? := by
        have hne : e2.pts ≠ [] := hs.map.graph.labels.pts_ne _ _ f2
        have a1 := (hG.geom.dart f1).1
        have a2 := (hG.geom.dart (d := -d2) (by rw [Int.natAbs_neg]; exact f2)).2
        rw [a1, a2]
        have b1 : s.startN? d1 = some (e1.startOf d1) := startN?_of f1
        have b2 : s.startN? d2 = some (e2.startOf d2) := startN?_of f2
        have b3 := E.at_m.1
        have b4 := E.at_m.2.1
        rw [b1] at b3; rw [b2] at b4
        cases b3
        have b5 : e2.endOf (-d2) = e2.startOf d2 := by
          have h0 : d2 ≠ 0 := by
            rintro rfl
            rw [Int.natAbs_zero, hs.map.graph.edge_zero] at f2; cases f2
          unfold Edge.endOf Edge.startOf
          split_ifs <;> first | rfl | omega
        rw [b5]
        simp only [Option.some.injEq] at b4
        rw [b4]
      have out : ∀ {x y}, Adjacent (e3.dartPts d1) x y → Drawn v t (v e3.flags) x y := by
        intro x y hxy
        rcases hxy.of_dart with hxy | hxy
        · exact .segment f3 rfl hxy
        · exact .reverse (.segment f3 rfl hxy)
      by_cases h1 : l = d1.natAbs
      · subst h1
        rw [f1] at he; cases he
        rw [← f5]
        rcases ha.dart d1 with ha | ha
        · exact out (by rw [f4]; exact ha.append_right)
        · exact .reverse (out (by rw [f4]; exact ha.append_right))
      by_cases h2 : l = d2.natAbs
      · subst h2
        rw [f2] at he; cases he
        rw [← hfl, ← f5]
        rcases ha.dart (-d2) with ha | ha
        · exact out (by rw [f4]; exact ha.join hjoin)
        · exact .reverse (out (by rw [f4]; exact ha.join hjoin))
      exact (KeptEdge.of_eq (E.edges l h1 h2)).drawn he ha
  | splitEdge l' i np =>
    obtain ⟨r, e⟩ := mp e
    have E := splitEdge_effect hs.map e
    obtain ⟨e0, e1, e2, f0, f1, f2, f3, f4, f5, f6⟩ := E.halves
    by_cases hll : l = l'
    swap
    · have : l < s.nEdges := hs.map.graph.edge_lt l (by simp [he])
      exact (KeptEdge.of_eq (E.edges l hll (by have := E.fresh.2; omega))).drawn he ha
    subst hll
    rw [f0] at he; cases he
    have out : ∀ {x y}, Adjacent (splitPts ed.pts i np) x y → Drawn v t (v ed.flags) x y := by
      intro x y hxy
      rcases hxy.cut (k := splitIdx i np) with hxy | hxy
      · exact .segment f1 (by rw [f5]) (by rw [f3]; exact hxy)
      · exact .segment f2 (by rw [f6]) (by rw [f4]; exact hxy)
    cases np with
    | none => exact out ha
    | some x =>
      have hi : i + 1 < ed.pts.length := by
        by_contra hc
        unfold GMap.splitEdge at e
        simp only [bind] at e
        rw [guaranteedEdge_of (d := (l : Int)) (e := ed) (by simpa using f0), Outcome.bind_ok] at e
        rw [if_neg (hs.map.graph.labels.pts_ne _ _ f0), if_pos (by omega)] at e
        cases e
      rcases ha.insert (x := x) hi with h1 | ⟨h1, h2, h3, h4⟩
      · exact out h1
      · exact .compose (out h1) (out h2) (hf ed p q f0 h3 h4)
  | removeBridge d => obtain ⟨r, e⟩ := mp e; exact hbridge e
  | mergeFaces d => obtain ⟨r, e⟩ := mp e; exact hmerge e
  | removeEdge d =>
    obtain ⟨r, e⟩ := mp e
    have hi : s.initialized := hk
    have q : s.removeEdge h d = (s.guaranteedEdge d).bind fun e => if e.leftF = e.rightF then s.removeBridge h d else s.mergeFaces h d := by
      unfold GMap.removeEdge; rw [if_pos hi]; rfl
    rw [q] at e
    by_cases hd : s.liveD d
    swap
    · rw [guaranteedEdge_dead hd] at e; cases e
    obtain ⟨ed', he'⟩ := liveD_exists hd
    rw [guaranteedEdge_of he', Outcome.bind_ok] at e
    split_ifs at e
    · exact hbridge e
    · exact hmerge e
  | area f =>
    obtain ⟨r, e⟩ := mp e
    obtain ⟨x, t', h1, -, h2⟩ := area_step hs.map (f := f) hl
    rw [h1] at e; cases e
    obtain ⟨fc, hfc⟩ := h2.eq
    rw [hfc]; exact .segment (l := l) he rfl ha
  | setFlags l' flags =>
    have e : s.setFlags l' flags = .ok t := e
    unfold GMap.setFlags GMap.guaranteedEdge at e
    cases he' : s.edge l' with
    | none => simp [he', bind] at e
    | some ed' =>
      simp only [Int.natAbs_natCast, he', bind, Outcome.bind_ok] at e
      cases e
      by_cases hll : l = l'
      · subst hll
        rw [he] at he'; cases he'
        refine .segment (l := l) (e := { ed with flags := flags }) ?_ (hk ed he hpr) ha
        simp [GMap.setEdge]
      · refine (KeptEdge.of_eq (l := l) ?_).drawn he ha
        simp [GMap.setEdge, hll]

/-- drawn lines stay drawn -/
theorem Drawn.call {v : Nat → Nat} (hv : ∀ x y, v x = v y → protBits x = protBits y) {s t : GMap K} (hs : Good s) (hG : GoodGeom s) {h : Hooks K}
    (hp : Protecting h) (op : Op K) (hl : op.legal s) (hf : op.fits s) (hk : op.keeps v s) (e : op.run h s = .ok t)
    {x : Nat} (hx : protBits x ≠ 0) {p q : Pt K} (hd : Drawn v s (v x) p q) : Drawn v t (v x) p q := by
  generalize hy : v x = y at hd
  induction hd with
  | segment he hve ha =>
    rename_i l ed p q
    rw [← hve]
    refine call_drawn hs hG hp op hl hf hk e he ?_ ha
    have := hv x _ (hy.trans hve.symm)
    unfold Edge.flag
    rw [← show protBits ed.flags = ed.flags &&& allProtection from rfl, ← this]
    simpa using hx
  | reverse _ ih => exact .reverse ih
  | compose _ _ ho ih1 ih2 => exact .compose ih1 ih2 ho

theorem Hist.reachG {h : Hooks K} {ok : GMap K → Op K → Prop} {s t : GMap K} (hh : Hist h ok s t) (hs : ReachG s) : ReachG t := by
  induction hh with
  | refl => exact hs
  | call op _ hl hf hk hr hpl ih => exact .call h op ih hl hf hr hpl

theorem Hist.trans {h : Hooks K} {ok : GMap K → Op K → Prop} {s t u : GMap K} (h1 : Hist h ok s t) (h2 : Hist h ok t u) : Hist h ok s u := by
  induction h2 with
  | refl => exact h1
  | call op _ hl hf hk hr hpl ih => exact .call op ih hl hf hk hr hpl

theorem Drawn.hist {v : Nat → Nat} (hv : ∀ x y, v x = v y → protBits x = protBits y) {h : Hooks K} (hp : Protecting h) {s t : GMap K}
    (hh : Hist h (Op.keeps v) s t) (hs : ReachG s) {x : Nat} (hx : protBits x ≠ 0) {p q : Pt K} (hd : Drawn v s (v x) p q) : Drawn v t (v x) p q := by
  induction hh with
  | refl => exact hd
  | call op h0 hl hf hk hr hpl ih =>
    have hR := h0.reachG hs
    exact Drawn.call hv hR.reach.good hR.geom hp op hl hf hk hr hx ih

end
end Verif.GeoMap
