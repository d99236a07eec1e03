import Verif.FourEight.LabelTrace

/-!
# `labelEdges` reaches all edges at nodes
-/

namespace Verif.FourEight
open Verif Verif.CellImage

theorem foldO_prefix {α β : Type} {f : β → α → Outcome β} {l : List α} {P : List α → β → Prop}
    (step : ∀ pre a post b b', l = pre ++ a :: post → P pre b → f b a = .ok b' → P (pre ++ [a]) b') :
    ∀ (rest pre : List α) (b b' : β), l = pre ++ rest → P pre b → foldO f rest b = .ok b' → P l b' := by
  intro rest
  induction rest with
  | nil =>
    intro pre b b' hl hp h
    cases h
    rw [hl, List.append_nil]; exact hp
  | cons a rest ih =>
    intro pre b b' hl hp h
    rw [foldO] at h
    obtain ⟨b1, h1, h2⟩ := Outcome.bind_eq_ok.1 h
    exact ih (pre ++ [a]) b1 b' (by rw [hl]; simp) (step pre a rest b b1 hl hp h1) h2

/-- line by line -/
def Raster (p q : Int × Int) : Prop := p.2 < q.2 ∨ p.2 = q.2 ∧ p.1 < q.1

theorem innerPixels_sorted (w h : Nat) : (innerPixels w h).Pairwise Raster := by
  unfold innerPixels
  rw [List.pairwise_flatMap]
  constructor
  · intro j _
    rw [List.pairwise_map]
    refine List.pairwise_lt_range.imp ?_
    intro a b hab
    exact Or.inr ⟨rfl, by dsimp only; omega⟩
  · refine List.pairwise_lt_range.imp ?_
    intro a b hab p hp q hq
    rw [List.mem_map] at hp hq
    obtain ⟨i, -, rfl⟩ := hp
    obtain ⟨i', -, rfl⟩ := hq
    exact Or.inl (by dsimp only; omega)

theorem inner_mem {w h : Nat} {x y : Int} (hi : Inner w h x y) : (x, y) ∈ innerPixels w h := by
  unfold Inner at hi
  unfold innerPixels
  rw [List.mem_flatMap]
  refine ⟨(y + 1).toNat, List.mem_range.2 (by omega), ?_⟩
  rw [List.mem_map]
  exact ⟨(x + 1).toNat, List.mem_range.2 (by omega), Prod.ext (by dsimp only; omega) (by dsimp only; omega)⟩

theorem mem_inner {w h : Nat} {p : Int × Int} (hp : p ∈ innerPixels w h) : Inner w h p.1 p.2 := by
  unfold innerPixels at hp
  rw [List.mem_flatMap] at hp
  obtain ⟨j, hj, hp⟩ := hp
  rw [List.mem_map] at hp
  obtain ⟨i, hi, rfl⟩ := hp
  rw [List.mem_range] at hi hj
  unfold Inner
  dsimp only
  omega

section
variable {m : Map}

theorem sigmas_head (n : Nat) (d : Dart) : sigmas m (n + 1) d = (sigma m 1 d).bind (sigmas m n) := by
  induction n with
  | zero =>
    rw [sigmas, sigmas, Outcome.bind_ok]
    cases sigma m 1 d <;> rfl
  | succ n ih =>
    rw [sigmas, ih]
    cases sigma m 1 d <;> rfl

/-- progress of the labelling -/
structure Prog (a b : EdgeState) : Prop where
  kinds : SameKinds a.1 b.1
  rest : b.1 = { a.1 with px := b.1.px }
  others : ∀ q : Int × Int, (a.1.px q.1 q.2).1 ≠ .line → b.1.px q.1 q.2 = a.1.px q.1 q.2
  kept : ∀ q : Int × Int, a.1.label q ≠ 0 → b.1.px q.1 q.2 = a.1.px q.1 q.2
  marked : Marked b.1 b.2

theorem Prog.refl {a : EdgeState} (h : Marked a.1 a.2) : Prog a a := ⟨SameKinds.refl _, rfl, fun _ _ => rfl, fun _ _ => rfl, h⟩

theorem Prog.trans {a b c : EdgeState} (h : Prog a b) (h' : Prog b c) : Prog a c := by
  refine ⟨h.kinds.trans h'.kinds, ?_, fun q hq => ?_, fun q hq => ?_, h'.marked⟩
  · rw [h'.rest, h.rest]
  · rw [h'.others q (by rw [h.kinds.px]; exact hq), h.others q hq]
  · have e := h.kept q hq
    rw [h'.kept q (by unfold Map.label; rw [e]; exact hq), e]

theorem Prog.label {a b : EdgeState} (h : Prog a b) {q : Int × Int} (hq : a.1.label q ≠ 0) : b.1.label q ≠ 0 := by
  unfold Map.label; rw [h.kept q hq]; exact hq

theorem labelDart_ok {a b : EdgeState} (hc : Clean a.1) (ht : Traceable a.1) (hm : Marked a.1 a.2) {d : Dart} (hd : IsDart a.1 d)
    (h : labelDart a d = .ok b) : Prog a b ∧ b.1.label d.front ≠ 0 := by
  unfold labelDart edgeLabel at h
  rw [hc.nb hd.inside hd.rim.nonregion] at h
  simp only [Outcome.map, Outcome.bind, add_zero] at h
  split at h
  · rename_i hl
    cases h
    exact ⟨Prog.refl hm, hl⟩
  · rename_i hl
    rw [not_not] at hl
    obtain ⟨m', e1, e2, e3, e4, e5, e6, e7, e8⟩ := hm.step hc ht hd hl
    rw [e1] at h
    cases h
    exact ⟨⟨e3, e2, e5, e6, e4⟩, by dsimp only; rw [e7 _ .refl]; omega⟩

theorem dartEq_dart (hc : Clean m) {d e : Dart} (hd : IsDart m d) : dartEq m d e = .ok (decide (d = e)) := by
  unfold dartEq isSingular
  rw [hc.nb hd.inside hd.rim.nonregion, Outcome.bind_ok, Outcome.bind_ok, add_zero, if_neg (by rw [hd.edge]; simp)]

theorem labelDarts_ok (hc : Clean m) (ht : Traceable m) (hno : NoCorner m) (dend : Dart) (n : Nat) {a b : EdgeState}
    (hs : SameKinds m a.1) (hm : Marked a.1 a.2) {d : Dart} (hd : IsDart m d) (h : labelDarts dend n a d = .ok b) :
    Prog a b ∧ ∃ j, sigmas m (j + 1) d = .ok dend ∧ ∀ i, i ≤ j → ∃ e, sigmas m i d = .ok e ∧ b.1.label e.front ≠ 0 := by
  induction n generalizing a d with
  | zero => simp [labelDarts] at h
  | succ n ih =>
    rw [labelDarts] at h
    obtain ⟨st, h1, h⟩ := Outcome.bind_eq_ok.1 h
    obtain ⟨d', h2, h⟩ := Outcome.bind_eq_ok.1 h
    obtain ⟨t, h3, h⟩ := Outcome.bind_eq_ok.1 h
    obtain ⟨p1, p2⟩ := labelDart_ok (hs.clean hc) (hs.traceable ht) hm (hs.isDart hd) h1
    have hs' := hs.trans p1.kinds
    rw [hs'.sigma hc hno hd (Or.inl rfl)] at h2
    obtain ⟨e, g1, g2, -⟩ := Props.sigma_inverse hc hno hd (k := 1) (Or.inl rfl)
    rw [g1] at h2
    obtain rfl := Outcome.ok.inj h2
    rw [dartEq_dart (hs'.clean hc) (hs'.isDart g2)] at h3
    obtain rfl := Outcome.ok.inj h3
    split at h
    · rename_i hb
      rw [decide_eq_true_eq] at hb
      cases h
      refine ⟨p1, 0, ?_, fun i hi => ?_⟩
      · rw [sigmas_head, g1, Outcome.bind_ok]; exact congrArg _ hb
      · obtain rfl : i = 0 := by omega
        exact ⟨d, rfl, p2⟩
    · obtain ⟨q1, j, q2, q3⟩ := ih hs' p1.marked g2 h
      refine ⟨p1.trans q1, j + 1, ?_, fun i hi => ?_⟩
      · rw [sigmas_head, g1, Outcome.bind_ok]; exact q2
      · cases i with
        | zero => exact ⟨d, rfl, q1.label p2⟩
        | succ i =>
          rw [sigmas_head, g1, Outcome.bind_ok]
          exact q3 i (by omega)

/-- all darts around are labelled -/
theorem labelDarts_all (hc : Clean m) (ht : Traceable m) (hno : NoCorner m) (n : Nat) {a b : EdgeState}
    (hs : SameKinds m a.1) (hm : Marked a.1 a.2) {d : Dart} (hd : IsDart m d) (h : labelDarts d n a d = .ok b) :
    Prog a b ∧ ∀ i e, sigmas m i d = .ok e → b.1.label e.front ≠ 0 := by
  obtain ⟨h1, j, h2, h3⟩ := labelDarts_ok hc ht hno d n hs hm hd h
  refine ⟨h1, fun i e he => ?_⟩
  have hper : ∀ q r : Nat, sigmas m (q * (j + 1) + r) d = sigmas m r d := by
    intro q r
    induction q with
    | zero => rw [Nat.zero_mul, Nat.zero_add]
    | succ q ih =>
      have key : ∀ a b : Nat, sigmas m (a + b) d = (sigmas m b d).bind (sigmas m a) := by
        intro a b
        induction a with
        | zero => rw [Nat.zero_add]; cases sigmas m b d <;> rfl
        | succ a iha =>
          rw [Nat.add_right_comm, sigmas, iha]
          cases sigmas m b d <;> rfl
      rw [show (q + 1) * (j + 1) + r = (q * (j + 1) + r) + (j + 1) by ring, key, h2, Outcome.bind_ok]
      exact ih
  have hmod := hper (i / (j + 1)) (i % (j + 1))
  rw [Nat.div_add_mod' i (j + 1)] at hmod
  obtain ⟨e', g1, g2⟩ := h3 (i % (j + 1)) (by have := Nat.mod_lt i (show 0 < j + 1 by omega); omega)
  rw [hmod, g1] at he
  cases he
  exact g2

/-! ## the scan -/

/-- state of the scan after some pixels -/
structure Scanned (m : Map) (pre : List (Int × Int)) (st : EdgeState × List Bool) : Prop where
  prog : Prog (m, 0) st.1
  seen : ∀ p ∈ pre, (m.px p.1 p.2).1 = .vertex → st.2[(m.px p.1 p.2).2]? = some true
  done : ∀ l : Nat, st.2[l]? = some true → ∃ p : Int × Int, p ∈ pre ∧ FirstOf m p.1 p.2 ∧ (m.px p.1 p.2).2 = l ∧
    ∃ a, mkDart m ⟨p.1, p.2, 4⟩ = .ok a ∧ (IsDart m a → ∀ i d, sigmas m i a = .ok d → st.1.1.label d.front ≠ 0)

theorem scan_step (hc : Clean m) (ht : Traceable m) (hno : NoCorner m) {pre post : List (Int × Int)} {p : Int × Int}
    (hl : innerPixels m.w m.h = pre ++ p :: post) {st st' : EdgeState × List Bool} (hst : Scanned m pre st)
    (h : labelNode st p = .ok st') : Scanned m (pre ++ [p]) st' := by
  unfold labelNode at h
  have hk : SameKinds m st.1.1 := hst.prog.kinds
  by_cases hv : (m.px p.1 p.2).1 = .vertex
  swap
  · rw [if_pos (by rw [hk.px]; exact hv)] at h
    cases h
    refine ⟨hst.prog, ?_, ?_⟩
    · intro q hq hqv
      rcases List.mem_append.1 hq with h1 | h1
      · exact hst.seen q h1 hqv
      · rw [List.mem_singleton] at h1
        subst h1
        exact absurd hqv hv
    · intro l hl'
      obtain ⟨q, h1, h2⟩ := hst.done l hl'
      exact ⟨q, List.mem_append_left _ h1, h2⟩
  have hpx : st.1.1.px p.1 p.2 = m.px p.1 p.2 := hst.prog.others p (by dsimp only; rw [hv]; decide)
  rw [hpx, if_neg (by rw [hv]; decide)] at h
  split at h
  · cases h
  · rename_i hpr
    cases h
    refine ⟨hst.prog, ?_, ?_⟩
    · intro q hq hqv
      rcases List.mem_append.1 hq with h1 | h1
      · exact hst.seen q h1 hqv
      · rw [List.mem_singleton] at h1
        subst h1
        exact hpr
    · intro l hl'
      obtain ⟨q, h1, h2⟩ := hst.done l hl'
      exact ⟨q, List.mem_append_left _ h1, h2⟩
  rename_i hpr
  obtain ⟨a, h1, h⟩ := Outcome.bind_eq_ok.1 h
  obtain ⟨s, h2, h⟩ := Outcome.bind_eq_ok.1 h
  obtain ⟨st1, h3, h⟩ := Outcome.bind_eq_ok.1 h
  cases h
  rw [hk.mkDart] at h1
  obtain ⟨ai, av, ad⟩ := mkDart_west hc h1
  have hfirst : FirstOf m p.1 p.2 := by
    have hpin : m.inside p.1 p.2 := by
      have := mem_inner (w := m.w) (h := m.h) (p := p) (by rw [hl]; simp)
      unfold Inner at this
      unfold Map.inside
      omega
    refine ⟨hpin, hv, fun x' y' hi' hv' hlab => ?_⟩
    have hmem : (x', y') ∈ innerPixels m.w m.h := inner_mem (hc.frame x' y' hi' (by rw [hv']; decide))
    rw [hl] at hmem
    rcases List.mem_append.1 hmem with hm | hm
    · exfalso
      have := hst.seen _ hm hv'
      dsimp only at this
      rw [hlab, hpr] at this
      cases this
    · rcases List.mem_cons.1 hm with hm | hm
      · rw [← hm]; exact Or.inr ⟨rfl, le_refl _⟩
      · have hsorted := innerPixels_sorted m.w m.h
        rw [hl, List.pairwise_append] at hsorted
        have := (List.pairwise_cons.1 hsorted.2.1).1 _ hm
        rcases this with hh | hh
        · exact Or.inl hh
        · exact Or.inr ⟨hh.1, le_of_lt hh.2⟩
  have key : Prog st.1 st1 ∧ (IsDart m a → ∀ i d, sigmas m i a = .ok d → st1.1.label d.front ≠ 0) := by
    cases s with
    | true =>
      rw [if_pos rfl] at h3
      cases h3
      refine ⟨Prog.refl hst.prog.marked, fun had => ?_⟩
      exfalso
      unfold isSingular at h2
      rw [(hk.clean hc).nb (hk.isDart had).inside (hk.isDart had).rim.nonregion, Outcome.bind_ok, add_zero] at h2
      have := Outcome.ok.inj h2
      rw [decide_eq_true_eq] at this
      exact this (hk.isDart had).edge
    | false =>
      rw [if_neg (by decide)] at h3
      have hline := isSingular_false (hk.clean hc) ((hk.inside _ _).2 ai) (by rw [hk.px]; exact av) h2
      rw [hk.look] at hline
      obtain ⟨g1, g2⟩ := labelDarts_all hc ht hno _ hk hst.prog.marked (ad hline) h3
      exact ⟨g1, fun _ => g2⟩
  refine ⟨hst.prog.trans key.1, ?_, ?_⟩
  · intro q hq hqv
    have hlen : (m.px p.1 p.2).2 < st.2.length := by
      by_contra hh
      rw [List.getElem?_eq_none (by omega)] at hpr
      cases hpr
    rw [List.getElem?_set]
    split
    · rfl
    · rename_i he
      rcases List.mem_append.1 hq with h1 | h1
      · exact hst.seen q h1 hqv
      · rw [List.mem_singleton] at h1
        subst h1
        exact absurd rfl he
  · intro l hl'
    rw [List.getElem?_set] at hl'
    split at hl'
    · rename_i he
      exact ⟨p, by simp, hfirst, he, a, h1, key.2⟩
    · obtain ⟨q, g1, g2, g3, b, g4, g5⟩ := hst.done l hl'
      exact ⟨q, List.mem_append_left _ g1, g2, g3, b, g4, fun hb i d hd => key.1.label (g5 hb i d hd)⟩

/-- `labelEdges`: all edges that are reached from nodes have labels -/
theorem labelEdges_scan (hc : Clean m) (ht : Traceable m) (hno : NoCorner m) (hz : ∀ p, m.isLine p → m.label p = 0) {N : Nat}
    {r : EdgeState} (h : labelEdges m N = .ok r) :
    Prog (m, 0) r ∧ (OneRim m → ∀ d, IsDart m d → r.1.label d.front ≠ 0) := by
  unfold labelEdges at h
  cases hf : foldO labelNode (innerPixels m.w m.h) ((m, 0), List.replicate (N + 1) false) with
  | ok st =>
    rw [hf] at h
    cases h
    have hm0 : Marked m 0 := by
      refine ⟨fun p hp => ?_, fun l h1 h2 => by omega, fun p q hp hpq => ?_, fun p q hp _ h0 => absurd (hz p hp) h0, fun p hp h0 => absurd (hz p hp) h0⟩
      · rw [hz p hp]
      · rw [hz p hp, hz q (SameEdge.isLine hc hp hpq)]
    have hS := foldO_prefix (P := Scanned m) (fun pre a post b b' hl hb hs => scan_step hc ht hno hl hb hs) _ [] _ _ rfl
      ⟨Prog.refl hm0, by simp, by
        intro l hl
        rw [List.getElem?_replicate] at hl
        split at hl <;> cases hl⟩ hf
    refine ⟨hS.prog, fun hone d hd => ?_⟩
    have hmem : (d.x, d.y) ∈ innerPixels m.w m.h := inner_mem (hc.frame _ _ hd.inside hd.rim.nonregion)
    obtain ⟨p, -, hfi, hlab, a, ha, hall⟩ := hS.done _ (hS.seen _ hmem hd.node)
    obtain ⟨a', n, ha', hn⟩ := hone p.1 p.2 d hfi hd hlab.symm
    rw [ha] at ha'
    obtain rfl := Outcome.ok.inj ha'
    obtain ⟨ai, av, ad⟩ := mkDart_west hc ha
    by_cases hline : (m.look a.x a.y a.dir).1 = .line
    · exact hall (ad hline) n d hn
    · exfalso
      have hstay : ∀ n, sigmas m n a = .ok a := by
        intro n
        induction n with
        | zero => rfl
        | succ n ih =>
          rw [sigmas, ih, Outcome.bind_ok]
          unfold sigma
          rw [hc.nb ai (by rw [av]; decide), Outcome.bind_ok, add_zero, if_pos hline]
      rw [hstay] at hn
      cases hn
      exact hline hd.edge
  | _ => rw [hf] at h; cases h

end

end Verif.FourEight
