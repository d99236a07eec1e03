import Verif.Parallel.Spec

/-! # Merging the split nodes of a group -/

namespace Verif.Parallel
open Verif Verif.GeoMap Verif.Eventually Equiv Equiv.Perm Verif.PermLemmas

theorem Ready.dart {s : GMap ℝ} {e : Entry} (h : Ready s e) : e.m.dart s = e.a := by
  unfold MergeDart.dart
  rw [h.label]
  cases e.m.turnLater
  · simp
  · simp [h.two.ba]

/-! ## consequences of a merge step -/

section
variable {s t : GMap ℝ} {L : Finset Int} {π : Perm Int} {x : Int} {n : Nat} {p : Pt ℝ} {c : Int} {k : Nat} {a b : Int}

theorem Merged.sigma_eq (h : Merged s t L π x n p c k a b) {d : Int} (hd : d ∈ L) (h1 : d ≠ a) (h2 : d ≠ -a) :
    t.sigma d = skip (skip (ins (skip π b) b c) a) (-a) d :=
  h.graph.rep.eq d (mem_eraseEdge.2 ⟨h2, h1, hd⟩)

theorem Merged.sigma_other (hg : GraphRep s L π) (h : Merged s t L π x n p c k a b) (hT : Two s k a b) (hc : s.startN? c = some n)
    {d : Int} {j : Nat} (hd : s.startN? d = some j) (hjk : j ≠ k) (hjn : j ≠ n) (hja : s.startN? (-a) ≠ some j) : t.sigma d = s.sigma d := by
  have hdL := mem_of_start hg hd
  have hne : ∀ u, s.startN? u = some j → u ≠ a ∧ u ≠ b ∧ u ≠ -a ∧ u ≠ c := by
    intro u hu
    refine ⟨?_, ?_, ?_, ?_⟩ <;> rintro rfl
    · rw [hT.sa] at hu; exact hjk (Option.some.inj hu).symm
    · rw [hT.sb] at hu; exact hjk (Option.some.inj hu).symm
    · exact hja hu
    · rw [hc] at hu; exact hjn (Option.some.inj hu).symm
  obtain ⟨d1, d2, d3, d4⟩ := hne d hd
  have hu : s.startN? (π d) = some j := by
    obtain ⟨j', g1, -, g3⟩ := hg.starts d hdL
    rw [hd] at g1; cases g1; exact g3
  obtain ⟨u1, u2, u3, u4⟩ := hne _ hu
  have e1 : skip π b d = π d := skip_of_ne π u2 d2
  have e2 : ins (skip π b) b c d = π d := by rw [ins_of_ne _ (skip_self π b) d2 (by rw [e1]; exact u4), e1]
  have e3 : skip (ins (skip π b) b c) a d = π d := by rw [skip_of_ne _ (by rw [e2]; exact u1) d1, e2]
  rw [h.sigma_eq hdL d1 d3, skip_of_ne _ (by rw [e3]; exact u3) d3, e3, hg.rep.eq d hdL]

/-- around the surviving node: `b` is inserted before `c` -/
theorem Merged.sigma_node (hg : GraphRep s L π) (h : Merged s t L π x n p c k a b) (hT : Two s k a b) (hc : s.startN? c = some n) (hkn : k ≠ n)
    (hna : s.startN? (-a) ≠ some n) :
    t.sigma b = c ∧ ∀ d, s.startN? d = some n → t.sigma d = if s.sigma d = c then b else s.sigma d := by
  have hne : ∀ u, s.startN? u = some n → u ≠ a ∧ u ≠ b ∧ u ≠ -a := by
    intro u hu
    refine ⟨?_, ?_, ?_⟩ <;> rintro rfl
    · rw [hT.sa] at hu; exact hkn (Option.some.inj hu)
    · rw [hT.sb] at hu; exact hkn (Option.some.inj hu)
    · exact hna hu
  obtain ⟨c1, c2, c3⟩ := hne c hc
  have hbL := mem_of_start hg hT.sb
  refine ⟨?_, fun d hd => ?_⟩
  · have e1 : ins (skip π b) b c b = c := ins_self _ (skip_self π b)
    have e2 : skip (ins (skip π b) b c) a b = c := by rw [skip_of_ne _ (by rw [e1]; exact c1) (Ne.symm hT.ne), e1]
    rw [h.sigma_eq hbL (Ne.symm hT.ne) hT.ne', skip_of_ne _ (by rw [e2]; exact c3) hT.ne', e2]
  · have hdL := mem_of_start hg hd
    obtain ⟨d1, d2, d3⟩ := hne d hd
    have hu : s.startN? (π d) = some n := by
      obtain ⟨j', g1, -, g3⟩ := hg.starts d hdL
      rw [hd] at g1; cases g1; exact g3
    obtain ⟨u1, u2, u3⟩ := hne _ hu
    have e1 : skip π b d = π d := skip_of_ne π u2 d2
    rw [h.sigma_eq hdL d1 d3, hg.rep.eq d hdL]
    by_cases hcd : π d = c
    · rw [if_pos hcd]
      have e2 : ins (skip π b) b c d = b := by
        have := ins_pred (skip π b) b c
        rwa [← hcd, ← e1, show (skip π b)⁻¹ (skip π b d) = d by simp, e1, hcd] at this
      have e3 : skip (ins (skip π b) b c) a d = b := by rw [skip_of_ne _ (by rw [e2]; exact Ne.symm hT.ne) d1, e2]
      rw [skip_of_ne _ (by rw [e3]; exact hT.ne') d3, e3]
    · rw [if_neg hcd]
      have e2 : ins (skip π b) b c d = π d := by rw [ins_of_ne _ (skip_self π b) d2 (by rw [e1]; exact hcd), e1]
      have e3 : skip (ins (skip π b) b c) a d = π d := by rw [skip_of_ne _ (by rw [e2]; exact u1) d1, e2]
      rw [skip_of_ne _ (by rw [e3]; exact u3) d3, e3]

theorem Merged.two (hg : GraphRep s L π) (h : Merged s t L π x n p c k a b) (hT : Two s k a b) (hc : s.startN? c = some n)
    {j : Nat} {a' b' : Int} (h' : Two s j a' b') (hjk : j ≠ k) (hjn : j ≠ n) (h1 : a.natAbs ≠ a'.natAbs) (h2 : a.natAbs ≠ b'.natAbs) :
    Two t j a' b' := by
  have hna : s.startN? (-a) ≠ some j := by
    intro e
    rcases h'.only hg e with e | e <;> omega
  have hst : ∀ d, s.startN? d = some j → a.natAbs ≠ d.natAbs → t.startN? d = some j := by
    intro d hd hne
    rw [h.start, if_neg (by omega), if_neg, hd]
    rintro rfl
    rw [hT.sb] at hd; exact hjk (Option.some.inj hd).symm
  exact ⟨h'.ne, h'.ne', hst _ h'.sa h1, hst _ h'.sb h2,
    by rw [h.sigma_other hg hT hc h'.sa hjk hjn hna, h'.ab], by rw [h.sigma_other hg hT hc h'.sb hjk hjn hna, h'.ba]⟩

theorem edgesAfter_some (s : GMap ℝ) {x : Int} {n : Nat} {p : Pt ℝ} {a b : Int} {l : Nat} {e' : Edge ℝ} (h : edgesAfter s x n p a b l = some e') :
    l ≠ a.natAbs ∧ ∃ e, s.edge l = some e ∧ (e'.startN, e'.endN, e'.pts) =
      ((if l = b.natAbs then relocate e b n p else e).startN, (if l = b.natAbs then relocate e b n p else e).endN,
        (if l = b.natAbs then relocate e b n p else e).pts) := by
  unfold edgesAfter at h
  by_cases hl : l = a.natAbs
  · rw [if_pos hl] at h; cases h
  · rw [if_neg hl] at h
    cases he : s.edge l with
    | none => rw [he] at h; cases h
    | some e =>
      rw [he] at h
      refine ⟨hl, e, rfl, ?_⟩
      simp only [Option.map_some, Option.some.injEq] at h
      by_cases hx : l = x.natAbs
      · rw [if_pos hx] at h; rw [← h]
      · rw [if_neg hx] at h; rw [← h]

theorem Merged.long (h : Merged s t L π x n p c k a b) (hl : EdgesLong s) : EdgesLong t := by
  intro l e' he'
  rw [h.edge] at he'
  obtain ⟨-, e, he, hp⟩ := edgesAfter_some s he'
  have := (Prod.ext_iff.1 (Prod.ext_iff.1 hp).2).2
  simp only at this
  rw [this]
  split_ifs
  · rw [relocate_pts]; exact hl l e he
  · exact hl l e he

theorem Merged.geom (hg : GraphRep s L π) (h : Merged s t L π x n p c k a b) (hT : Two s k a b) (hkn : k ≠ n)
    (hn : (s.node n).map (·.pos) = some p) (hl : EdgesLong s) (hgeo : GeomOK s) : GeomOK t := by
  intro l e' he'
  rw [h.edge] at he'
  obtain ⟨hla, e, he, hp⟩ := edgesAfter_some s he'
  obtain ⟨p1, p2⟩ := Prod.ext_iff.1 hp
  obtain ⟨p2, p3⟩ := Prod.ext_iff.1 p2
  simp only at p1 p2 p3
  have h0 : l ≠ 0 := by rintro rfl; rw [hg.labels.edge_zero] at he; cases he
  obtain ⟨q1, q2⟩ := hgeo l e he
  have hlen := hl l e he
  have hS : s.startN? (l : Int) = some e.startN := by
    rw [startN?_of (s := s) (d := l) (e := e) (by simpa using he)]; unfold Edge.startOf; rw [if_pos (by omega)]
  have hE : s.startN? (-(l : Int)) = some e.endN := by
    rw [startN?_of (s := s) (d := -l) (e := e) (by simpa using he)]; unfold Edge.startOf; rw [if_neg (by omega)]
  have k1 : (l : Int) ≠ b → e.startN ≠ k := by
    intro hb hk
    rw [hk] at hS
    rcases hT.only hg hS with e1 | e1
    · omega
    · exact hb e1
  have k2 : -(l : Int) ≠ b → e.endN ≠ k := by
    intro hb hk
    rw [hk] at hE
    rcases hT.only hg hE with e1 | e1
    · omega
    · exact hb e1
  by_cases hb : l = b.natAbs
  · rw [if_pos hb] at p1 p2 p3
    rw [p1, p2, p3]
    unfold relocate
    by_cases hb0 : b < 0
    · rw [if_pos hb0]
      refine ⟨?_, ?_⟩
      · rw [h.pos _ (k1 (by omega)), ← q1]
        cases hpt : e.pts with
        | nil => simp
        | cons u us =>
          rw [hpt] at hlen
          simp only [List.length_cons] at hlen ⊢
          obtain ⟨i, hi⟩ : ∃ i, us.length + 1 - 1 = i + 1 := ⟨us.length - 1, by omega⟩
          rw [hi]; rfl
      · rw [h.pos _ (Ne.symm hkn), hn, List.getLast?_eq_getElem?]
        rw [List.length_set, List.getElem?_set_self (by omega)]
    · rw [if_neg hb0]
      refine ⟨?_, ?_⟩
      · rw [h.pos _ (Ne.symm hkn), hn, List.head?_eq_getElem?, List.getElem?_set_self (by omega)]
      · rw [h.pos _ (k2 (by omega)), ← q2, List.getLast?_eq_getElem?, List.getLast?_eq_getElem?, List.length_set,
          List.getElem?_set_ne (by omega)]
  · rw [if_neg hb] at p1 p2 p3
    rw [p1, p2, p3, h.pos _ (k1 (by omega)), h.pos _ (k2 (by omega))]
    exact ⟨q1, q2⟩

theorem relocate_inner (e : Edge ℝ) (b : Int) (n : Nat) (p : Pt ℝ) : inner (relocate e b n p) = inner e := by
  unfold inner relocate
  by_cases hb : b < 0
  · rw [if_pos hb]
    simp only
    cases e.pts with
    | nil => simp
    | cons u us =>
      cases us using List.reverseRecOn with
      | nil => simp
      | append_singleton us v => simp
  · rw [if_neg hb]
    simp only
    cases e.pts with
    | nil => simp
    | cons u us => simp

theorem relocate_flags (e : Edge ℝ) (b : Int) (n : Nat) (p : Pt ℝ) : (relocate e b n p).flags = e.flags := by
  unfold relocate; split_ifs <;> rfl

theorem Merged.sound (hg : GraphRep s L π) (h : Merged s t L π x n p c k a b) (hT : Two s k a b) (hkn : k ≠ n)
    (hn : (s.node n).map (·.pos) = some p) (hs : Sound s) : Sound t := by
  have hi : ¬ t.initialized := by unfold GMap.initialized; rw [h.nFaces]; exact hs.raw
  exact ⟨⟨h.graph.graphOK, fun hc => absurd hc hi⟩, hi, h.geom hg hT hkn hn hs.long hs.geom, h.long hs.long⟩

end

/-! ## lists of steps -/

theorem Done.refl (s : GMap ℝ) (x : Int) (n : Nat) : Done s s x n [] where
  start := by simp
  gone := by simp
  pos := by simp
  inner := by simp
  flagsX := by
    intro _ ex hex
    exact ⟨ex.flags, by rw [hex]; rfl, by simp⟩
  flags := by simp
  nNodes := rfl
  nEdges := rfl
  nFaces := rfl
  nodeCount := rfl
  edgeCount := rfl

theorem Merged.done {s t u : GMap ℝ} {L : Finset Int} {π : Perm Int} {x : Int} {n : Nat} {p : Pt ℝ} {c : Int} {e : Entry} {r : List Entry}
    (h : Merged s t L π x n p c e.k e.a e.b) (hr : ∀ e' ∈ r, Apart e e') (hd : Done t u x n r) : Done s u x n (e :: r) where
  start := by
    intro d
    rw [hd.start, h.start]
    by_cases h1 : ∃ e' ∈ r, d = e'.a ∨ d = -e'.a
    · rw [if_pos h1, if_pos]
      obtain ⟨e', he', hh⟩ := h1
      exact ⟨e', List.mem_cons_of_mem _ he', hh⟩
    · rw [if_neg h1]
      by_cases h2 : d = e.a ∨ d = -e.a
      · rw [if_pos (c := ∃ e_1 ∈ e :: r, d = e_1.a ∨ d = -e_1.a) ⟨e, List.mem_cons_self, h2⟩, if_neg, if_pos h2]
        rintro ⟨e', he', hh⟩
        have := (hr e' he').ab
        omega
      · rw [if_neg (c := ∃ e_1 ∈ e :: r, d = e_1.a ∨ d = -e_1.a), if_neg h2]
        · by_cases h3 : ∃ e' ∈ r, d = e'.b
          · rw [if_pos h3, if_pos]
            obtain ⟨e', he', hh⟩ := h3
            exact ⟨e', List.mem_cons_of_mem _ he', hh⟩
          · rw [if_neg h3]
            by_cases h4 : d = e.b
            · rw [if_pos h4, if_pos ⟨e, List.mem_cons_self, h4⟩]
            · rw [if_neg h4, if_neg]
              rintro ⟨e', he', hh⟩
              rcases List.mem_cons.1 he' with rfl | he'
              · exact h4 hh
              · exact h3 ⟨e', he', hh⟩
        · rintro ⟨e', he', hh⟩
          rcases List.mem_cons.1 he' with rfl | he'
          · exact h2 hh
          · exact h1 ⟨e', he', hh⟩
  gone := by
    intro e' he'
    rcases List.mem_cons.1 he' with rfl | he'
    · have := hd.pos e'.k (fun e'' he'' => (hr e'' he'').k)
      rw [h.gone] at this
      cases hu : u.node e'.k with
      | none => rfl
      | some _ => rw [hu] at this; simp at this
    · exact hd.gone e' he'
  pos := by
    intro j hj
    rw [hd.pos j (fun e' he' => hj e' (List.mem_cons_of_mem _ he')), h.pos j (hj e List.mem_cons_self)]
  inner := by
    intro l hl
    rw [hd.inner l (fun e' he' => hl e' (List.mem_cons_of_mem _ he')), h.edge]
    unfold edgesAfter
    rw [if_neg (hl e List.mem_cons_self)]
    cases s.edge l with
    | none => rfl
    | some q =>
      simp only [Option.map_some, Option.some.injEq]
      by_cases h1 : l = x.natAbs <;> by_cases h2 : l = e.b.natAbs
      · rw [if_pos h1, if_pos h2]; exact relocate_inner q e.b n p
      · rw [if_pos h1, if_neg h2]; rfl
      · rw [if_neg h1, if_pos h2]; exact relocate_inner q e.b n p
      · rw [if_neg h1, if_neg h2]
  flagsX := by
    intro hx ex hex
    have hxa : x.natAbs ≠ e.a.natAbs := hx e List.mem_cons_self
    have ht : ∃ q, t.edge x.natAbs = some q ∧ q.flags = ex.flags ||| ((s.edge e.a.natAbs).map (·.flags)).getD 0 := by
      rw [h.edge]; unfold edgesAfter
      rw [if_neg hxa, hex]
      simp only [Option.map_some, if_true]
      refine ⟨_, rfl, ?_⟩
      simp only
      congr 1
      by_cases h2 : x.natAbs = e.b.natAbs
      · rw [if_pos h2, relocate_flags]
      · rw [if_neg h2]
    obtain ⟨q, hq, hqf⟩ := ht
    obtain ⟨fx, f1, f2⟩ := hd.flagsX (fun e' he' => hx e' (List.mem_cons_of_mem _ he')) q hq
    refine ⟨fx, f1, fun i => ?_⟩
    rw [f2, hqf, Nat.testBit_or, Bool.or_eq_true]
    have hside : ∀ e' ∈ r, (t.edge e'.a.natAbs).map (·.flags) = (s.edge e'.a.natAbs).map (·.flags) := by
      intro e' he'
      rw [h.edge]; unfold edgesAfter
      rw [if_neg (Ne.symm (hr e' he').aa)]
      cases s.edge e'.a.natAbs with
      | none => rfl
      | some w =>
        simp only [Option.map_some, Option.some.injEq]
        rw [if_neg (Ne.symm (hx e' (List.mem_cons_of_mem _ he'))), if_neg (Ne.symm (hr e' he').ba)]
    constructor
    · rintro ((h1 | h1) | ⟨e', he', ea, hea, hi⟩)
      · exact Or.inl h1
      · right
        cases hs : s.edge e.a.natAbs with
        | none => rw [hs] at h1; simp at h1
        | some w => rw [hs] at h1; exact ⟨e, List.mem_cons_self, w, hs, h1⟩
      · right
        have := hside e' he'
        rw [hea] at this
        cases hs : s.edge e'.a.natAbs with
        | none => rw [hs] at this; simp at this
        | some w =>
          rw [hs] at this
          have hw : ea.flags = w.flags := Option.some.inj this
          exact ⟨e', List.mem_cons_of_mem _ he', w, hs, by rw [← hw]; exact hi⟩
    · rintro (h1 | ⟨e', he', ea, hea, hi⟩)
      · exact Or.inl (Or.inl h1)
      · rcases List.mem_cons.1 he' with rfl | he'
        · left; right; rw [hea]; exact hi
        · right
          have := hside e' he'
          rw [hea] at this
          cases hs : t.edge e'.a.natAbs with
          | none => rw [hs] at this; simp at this
          | some w =>
            rw [hs] at this
            have hw : w.flags = ea.flags := Option.some.inj this
            exact ⟨e', he', w, hs, by rw [hw]; exact hi⟩
  flags := by
    intro l hlx hl
    rw [hd.flags l hlx (fun e' he' => hl e' (List.mem_cons_of_mem _ he')), h.edge]
    unfold edgesAfter
    rw [if_neg (hl e List.mem_cons_self)]
    cases s.edge l with
    | none => rfl
    | some q =>
      simp only [Option.map_some, Option.some.injEq]
      rw [if_neg hlx]
      by_cases h2 : l = e.b.natAbs
      · rw [if_pos h2, relocate_flags]
      · rw [if_neg h2]
  nNodes := hd.nNodes.trans h.nNodes
  nEdges := hd.nEdges.trans h.nEdges
  nFaces := hd.nFaces.trans h.nFaces
  nodeCount := by rw [List.length_cons, ← h.nodeCount, ← hd.nodeCount]; omega
  edgeCount := by rw [List.length_cons, ← h.edgeCount, ← hd.edgeCount]; omega

end Verif.Parallel
