import Verif.FourEight.LabelLemmas

/-!
# `labelEdge` reaches all pixels of one edge
-/

namespace Verif.FourEight
open Verif Verif.CellImage

section
variable {m : Map}

/-- a pixel of an edge has no third way out -/
theorem table_two : ∀ n : Fin 8 → Bool, cellConf .line n = .line → ∀ b c e, good n b = true → good n c = true → exit n b = some e →
    c = b ∨ c = e := by
  apply ring8_all
  decide +kernel

/-- the pixel in front of a position -/
def Dart.front (d : Dart) : Int × Int := (d.x + dx d.dir, d.y + dy d.dir)

theorem front_nextD (d : Dart) : ((nextD m d).x, (nextD m d).y) = d.front := rfl

/-- what `labelEdge` does -/
theorem labelEdge_eq (hc : Clean m) (ht : Traceable m) (l n : Nat) {d : Dart} (h : Link m d)
    (hv : (m.look ((nextD m)^[n + 1] d).x ((nextD m)^[n + 1] d).y ((nextD m)^[n + 1] d).dir).1 = .vertex)
    (hl : ∀ i < n + 1, (m.look ((nextD m)^[i] d).x ((nextD m)^[i] d).y ((nextD m)^[i] d).dir).1 = .line) (k : Nat) (hk : n < k)
    {m1 : Map} (hs : SameKinds m m1) :
    ∃ px, labelEdge l k m1 d = .ok { m1 with px := px } ∧ ∀ p : Int × Int,
      ((∃ i, i ≤ n ∧ p = ((nextD m)^[i] d).front) → px p.1 p.2 = (.line, l)) ∧
      ((¬∃ i, i ≤ n ∧ p = ((nextD m)^[i] d).front) → px p.1 p.2 = m1.px p.1 p.2) := by
  induction n generalizing d k m1 with
  | zero =>
    obtain ⟨k, rfl⟩ : ∃ k', k = k' + 1 := ⟨k - 1, by omega⟩
    have hl0 := hl 0 (by omega)
    rw [labelEdge, (hs.clean hc).nb (hs.link h).inside (hs.link h).here, Outcome.bind_ok]
    dsimp only
    have hs' : SameKinds m { m1 with px := paint m1.px [(d.x + dx d.dir, d.y + dy d.dir)] (.line, l) } := by
      refine ⟨hs.w, hs.h, fun x y => ?_⟩
      dsimp only [paint]
      split
      · rename_i hp
        rw [List.mem_singleton] at hp
        cases hp
        exact hl0.symm
      · exact hs.px x y
    obtain ⟨h1, h2, -⟩ := nextD_spec (hs'.clean hc) (hs'.traceable ht) (hs'.link h) (by rw [hs'.look]; exact hl0)
    rw [h1, Outcome.bind_ok, (hs'.clean hc).nb h2.inside h2.here, Outcome.bind_ok, add_zero, if_pos (by
      rw [hs'.look, hs'.nextD]; exact hv)]
    refine ⟨_, rfl, fun p => ⟨?_, fun hp => ?_⟩⟩
    · rintro ⟨i, hi, rfl⟩
      obtain rfl : i = 0 := by omega
      exact if_pos (by simp [Dart.front])
    · refine if_neg fun hh => hp ⟨0, le_refl _, ?_⟩
      rw [List.mem_singleton] at hh
      exact hh
  | succ n ih =>
    obtain ⟨k, rfl⟩ : ∃ k', k = k' + 1 := ⟨k - 1, by omega⟩
    have hl0 := hl 0 (by omega)
    rw [labelEdge, (hs.clean hc).nb (hs.link h).inside (hs.link h).here, Outcome.bind_ok]
    dsimp only
    have hs' : SameKinds m { m1 with px := paint m1.px [(d.x + dx d.dir, d.y + dy d.dir)] (.line, l) } := by
      refine ⟨hs.w, hs.h, fun x y => ?_⟩
      dsimp only [paint]
      split
      · rename_i hp
        rw [List.mem_singleton] at hp
        cases hp
        exact hl0.symm
      · exact hs.px x y
    obtain ⟨h1, h2, -⟩ := nextD_spec (hs'.clean hc) (hs'.traceable ht) (hs'.link h) (by rw [hs'.look]; exact hl0)
    have hl1 := hl 1 (by omega)
    rw [h1, Outcome.bind_ok, (hs'.clean hc).nb h2.inside h2.here, Outcome.bind_ok, add_zero, if_neg (by
      rw [hs'.look, hs'.nextD]
      intro hh
      exact absurd (hh.symm.trans hl1) (by decide))]
    rw [hs'.nextD]
    obtain ⟨px, e1, e2⟩ := ih (d := nextD m d) (nextD_spec hc ht h hl0).2.1 hv (fun i hi => hl (i + 1) (by omega)) k (by omega) hs'
    refine ⟨px, e1, fun p => ⟨?_, fun hp => ?_⟩⟩
    · rintro ⟨i, hi, rfl⟩
      by_cases hex : ∃ i', i' ≤ n ∧ ((nextD m)^[i] d).front = ((nextD m)^[i'] (nextD m d)).front
      · exact (e2 _).1 hex
      · rw [(e2 _).2 hex]
        cases i with
        | zero => exact if_pos (by simp [Dart.front])
        | succ i => exact absurd ⟨i, by omega, rfl⟩ hex
    · rw [(e2 p).2 fun ⟨i, hi, e⟩ => hp ⟨i + 1, by omega, e⟩]
      refine if_neg fun hh => hp ⟨0, by omega, ?_⟩
      rw [List.mem_singleton] at hh
      exact hh

/-- steps along an edge are links -/
theorem EdgeNext.link {p q : Int × Int} (hi : m.inside p.1 p.2) (h : EdgeNext m p q) :
    ∃ k, q = (p.1 + dx k, p.2 + dy k) ∧ Link m ⟨p.1, p.2, k⟩ := by
  obtain ⟨h1, h2, k, h3, h4⟩ := h
  refine ⟨k, h3, hi, by rw [h1]; decide, ?_, h4⟩
  subst h3
  show (m.px _ _).1 ≠ _
  rw [h2]; decide

theorem EdgeNext.inside (hc : Clean m) {p q : Int × Int} (hi : m.inside p.1 p.2) (h : EdgeNext m p q) : m.inside q.1 q.2 := by
  obtain ⟨k, rfl, hk⟩ := h.link hi
  exact hc.near hi hk.here k

theorem EdgeNext.symm (hc : Clean m) {p q : Int × Int} (hi : m.inside p.1 p.2) (h : EdgeNext m p q) : EdgeNext m q p := by
  obtain ⟨k, hk, hl⟩ := h.link hi
  have hs := hl.swap hc
  subst hk
  refine ⟨h.2.1, h.1, k + 4, ?_, hs.between⟩
  obtain ⟨e1, e2⟩ := dir_opp k
  refine Prod.ext ?_ ?_
  · show p.1 = p.1 + dx k + dx (k + 4); omega
  · show p.2 = p.2 + dy k + dy (k + 4); omega

theorem SameEdge.inside (hc : Clean m) {p q : Int × Int} (hi : m.inside p.1 p.2) (h : SameEdge m p q) : m.inside q.1 q.2 := by
  induction h with
  | refl => exact hi
  | tail _ h ih => exact h.inside hc ih

theorem SameEdge.symm (hc : Clean m) {p q : Int × Int} (hi : m.inside p.1 p.2) (h : SameEdge m p q) : SameEdge m q p := by
  induction h with
  | refl => exact .refl
  | tail h1 h2 ih =>
    exact Relation.ReflTransGen.head (h2.symm hc (SameEdge.inside hc hi h1)) ih

theorem SameEdge.isLine (hc : Clean m) {p q : Int × Int} (hp : m.isLine p) (h : SameEdge m p q) : m.isLine q := by
  refine ⟨SameEdge.inside hc hp.1 h, ?_⟩
  cases h with
  | refl => exact hp.2
  | tail _ h => exact h.2.1

/-- the pixels met on the way are the pixels of the edge -/
theorem trace_edge (hc : Clean m) (ht : Traceable m) {d : Dart} (h : Link m d) (hvs : (m.px d.x d.y).1 = .vertex) (n : Nat)
    (hv : (m.look ((nextD m)^[n + 1] d).x ((nextD m)^[n + 1] d).y ((nextD m)^[n + 1] d).dir).1 = .vertex)
    (hl : ∀ i < n + 1, (m.look ((nextD m)^[i] d).x ((nextD m)^[i] d).y ((nextD m)^[i] d).dir).1 = .line) (q : Int × Int) :
    SameEdge m d.front q ↔ ∃ i, i ≤ n ∧ q = ((nextD m)^[i] d).front := by
  constructor
  · intro hq
    induction hq with
    | refl => exact ⟨0, by omega, rfl⟩
    | @tail p q _ hpq ih =>
      obtain ⟨i, hi, rfl⟩ := ih
      have hlk := iter_link hc ht h i fun a ha => hl a (by omega)
      have hli := hl i (by omega)
      obtain ⟨-, g2, -, g4⟩ := nextD_spec hc ht hlk hli
      have hs := hlk.swap hc
      obtain ⟨k, hk, hlk2⟩ := hpq.link hs.inside
      have hcl : cellConf .line (ringOf m ((nextD m)^[i] d).swap.x ((nextD m)^[i] d).swap.y) = .line := ht _ _ hs.inside hli
      rcases table_two _ hcl _ k _ ((link_iff hs.inside hs.here).1 hs) ((link_iff hs.inside hs.here).1 hlk2) g4 with e | e
      · -- back
        have hq : q = (((nextD m)^[i] d).x, ((nextD m)^[i] d).y) := by
          rw [hk, e]
          obtain ⟨e1, e2⟩ := dir_opp ((nextD m)^[i] d).dir
          refine Prod.ext ?_ ?_
          · show _ + dx _ + dx (_ + 4) = _
            dsimp only; omega
          · show _ + dy _ + dy (_ + 4) = _
            dsimp only; omega
        cases i with
        | zero =>
          exfalso
          have := hpq.2.1
          rw [hq] at this
          exact absurd (hvs.symm.trans this) (by decide)
        | succ i =>
          refine ⟨i, by omega, hq.trans ?_⟩
          rw [Function.iterate_succ_apply']
          rfl
      · have hq : q = ((nextD m)^[i + 1] d).front := by
          rw [hk, e, Function.iterate_succ_apply']
          rfl
        by_cases hin : i + 1 ≤ n
        · exact ⟨i + 1, hin, hq⟩
        · exfalso
          obtain rfl : i = n := by omega
          have := hpq.2.1
          rw [hq] at this
          exact absurd (hv.symm.trans this) (by decide)
  · rintro ⟨i, hi, rfl⟩
    induction i with
    | zero => exact .refl
    | succ i ih =>
      refine (ih (by omega)).tail ⟨hl i (by omega), hl (i + 1) (by omega), ((nextD m)^[i + 1] d).dir, ?_, ?_⟩
      · rw [Function.iterate_succ_apply']; rfl
      · have := (iter_link hc ht h (i + 1) fun a ha => hl a (by omega)).between
        intro ho
        have hb := this ho
        rw [Function.iterate_succ_apply'] at hb ⊢
        exact hb

/-- `labelEdge` at a dart gives the label to all pixels of the edge of the dart, and changes nothing else -/
theorem labelEdge_marks (hc : Clean m) (ht : Traceable m) (l : Nat) {d : Dart} (h : IsDart m d) :
    ∃ m', labelEdge l m.fuel m d = .ok m' ∧ m' = { m with px := m'.px } ∧ SameKinds m m' ∧
      (∀ q, SameEdge m d.front q → m'.px q.1 q.2 = (.line, l)) ∧ (∀ q, ¬SameEdge m d.front q → m'.px q.1 q.2 = m.px q.1 q.2) := by
  obtain ⟨n, hf, hv, hl⟩ := edge_ends hc ht h
  obtain ⟨px, e1, e2⟩ := labelEdge_eq hc ht l n h.link hv hl m.fuel hf (SameKinds.refl m)
  have htr := trace_edge hc ht h.link h.node n hv hl
  have a1 : ∀ q, SameEdge m d.front q → px q.1 q.2 = (.line, l) := fun q hq => (e2 q).1 ((htr q).1 hq)
  have a2 : ∀ q, ¬SameEdge m d.front q → px q.1 q.2 = m.px q.1 q.2 := fun q hq => (e2 q).2 fun hh => hq ((htr q).2 hh)
  refine ⟨_, e1, rfl, ⟨rfl, rfl, fun x y => ?_⟩, a1, a2⟩
  dsimp only
  by_cases hq : SameEdge m d.front (x, y)
  · rw [a1 _ hq]
    have : m.isLine d.front := ⟨(h.link.swap hc).inside, h.edge⟩
    exact (SameEdge.isLine hc this hq).2.symm
  · rw [a2 _ hq]

/-! ## the marks of the edges -/

/-- some edges have labels -/
structure Marked (m : Map) (n : Nat) : Prop where
  le : ∀ p, m.isLine p → m.label p ≤ n
  used : ∀ l, 1 ≤ l → l ≤ n → ∃ p, m.isLine p ∧ m.label p = l
  closed : ∀ p q, m.isLine p → SameEdge m p q → m.label p = m.label q
  apart : ∀ p q, m.isLine p → m.isLine q → m.label p ≠ 0 → m.label p = m.label q → SameEdge m p q
  anchored : ∀ p, m.isLine p → m.label p ≠ 0 → ∃ d, IsDart m d ∧ SameEdge m d.front p

/-- a step of the labelling -/
theorem Marked.step (hc : Clean m) (ht : Traceable m) {n : Nat} (hm : Marked m n) {d : Dart} (h : IsDart m d)
    (h0 : m.label d.front = 0) :
    ∃ m', labelEdge (n + 1) m.fuel m d = .ok m' ∧ m' = { m with px := m'.px } ∧ SameKinds m m' ∧ Marked m' (n + 1) ∧
      (∀ q : Int × Int, (m.px q.1 q.2).1 ≠ .line → m'.px q.1 q.2 = m.px q.1 q.2) ∧ (∀ q, m.label q ≠ 0 → m'.px q.1 q.2 = m.px q.1 q.2) ∧
      (∀ q, SameEdge m d.front q → m'.label q = n + 1) ∧ (∀ q, ¬SameEdge m d.front q → m'.px q.1 q.2 = m.px q.1 q.2) := by
  obtain ⟨m', e1, e2, e3, e4, e5⟩ := labelEdge_marks hc ht (n + 1) h
  have hf : m.isLine d.front := ⟨(h.link.swap hc).inside, h.edge⟩
  have hlab : ∀ q, SameEdge m d.front q → m'.label q = n + 1 := fun q hq => by unfold Map.label; rw [e4 q hq]
  have hold : ∀ q, ¬SameEdge m d.front q → m'.label q = m.label q := fun q hq => by unfold Map.label; rw [e5 q hq]
  refine ⟨m', e1, e2, e3, ⟨?_, ?_, ?_, ?_, ?_⟩, ?_, ?_, hlab, e5⟩
  · intro p hp
    rw [e3.isLine] at hp
    by_cases hq : SameEdge m d.front p
    · rw [hlab p hq]
    · rw [hold p hq]; exact (hm.le p hp).trans (by omega)
  · intro l h1 h2
    by_cases hl : l = n + 1
    · exact ⟨d.front, e3.isLine.2 hf, by rw [hlab _ .refl, hl]⟩
    · obtain ⟨p, g1, g2⟩ := hm.used l h1 (by omega)
      refine ⟨p, e3.isLine.2 g1, ?_⟩
      rw [hold p fun hq => ?_]
      · exact g2
      · have := hm.closed _ _ hf hq
        omega
  · intro p q hp hpq
    rw [e3.sameEdge] at hpq
    rw [e3.isLine] at hp
    by_cases hq : SameEdge m d.front p
    · rw [hlab p hq, hlab q (hq.trans hpq)]
    · have hq' : ¬SameEdge m d.front q := fun hh => hq (hh.trans (SameEdge.symm hc hp.1 hpq))
      rw [hold p hq, hold q hq']
      exact hm.closed p q hp hpq
  · intro p q hp hq h1 h2
    rw [e3.sameEdge]
    rw [e3.isLine] at hp hq
    by_cases hp' : SameEdge m d.front p <;> by_cases hq' : SameEdge m d.front q
    · exact (SameEdge.symm hc hf.1 hp').trans hq'
    · exfalso
      rw [hlab p hp', hold q hq'] at h2
      have := hm.le q hq
      omega
    · exfalso
      rw [hold p hp', hlab q hq'] at h2
      have := hm.le p hp
      omega
    · rw [hold p hp', hold q hq'] at h2
      rw [hold p hp'] at h1
      exact hm.apart p q hp hq h1 h2
  · intro p hp h1
    rw [e3.isLine] at hp
    by_cases hq : SameEdge m d.front p
    · exact ⟨d, e3.isDart h, by rw [e3.sameEdge]; exact hq⟩
    · rw [hold p hq] at h1
      obtain ⟨e, g1, g2⟩ := hm.anchored p hp h1
      exact ⟨e, e3.isDart g1, by rw [e3.sameEdge]; exact g2⟩
  · intro q hq
    exact e5 q fun hh => hq (SameEdge.isLine hc hf hh).2
  · intro q hq
    refine e5 q fun hh => hq ?_
    rw [← hm.closed _ _ hf hh, h0]

end

end Verif.FourEight
