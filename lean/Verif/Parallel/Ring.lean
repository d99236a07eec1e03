import Verif.Parallel.Group

/-! # The darts around the surviving node while a group is merged -/

namespace Verif.Parallel
open Verif Verif.GeoMap Verif.Eventually Equiv Equiv.Perm Verif.PermLemmas

theorem chain_imp {R S : Int → Int → Prop} : ∀ l : List Int, l.IsChain R → (∀ u v, u ∈ l → v ∈ l.tail → R u v → S u v) → l.IsChain S
  | [], _, _ => List.IsChain.nil
  | [_], _, _ => List.IsChain.singleton _
  | u :: v :: l, h, hi => by
    rw [List.isChain_cons_cons] at h ⊢
    refine ⟨hi u v (by simp) (by simp) h.1, chain_imp (v :: l) h.2 fun p q hp hq => hi p q (List.mem_cons_of_mem _ hp) ?_⟩
    exact List.mem_cons_of_mem _ (by simpa using hq)

/-- `SigmaList` with a closed chain -/
structure Ring (s : GMap ℝ) (n : Nat) (x : Int) (l : List Int) : Prop where
  nodup : (x :: l).Nodup
  mem : ∀ d, d ∈ x :: l ↔ s.startN? d = some n
  chain : (x :: l ++ [x]).IsChain (fun u v => s.sigma u = v)

theorem Ring.sigmaList {s : GMap ℝ} {n : Nat} {x : Int} {l : List Int} (h : Ring s n x l) : SigmaList s n (x :: l) := by
  refine ⟨h.nodup, h.mem, fun i hi => ?_⟩
  have hc := List.isChain_iff_getElem.1 h.chain i (by simp at hi ⊢; omega)
  rw [List.getElem_append_left hi] at hc
  rw [hc]
  by_cases he : i + 1 < (x :: l).length
  · rw [List.getElem_append_left he]
    congr 1
    rw [Nat.mod_eq_of_lt he]
  · have : i + 1 = (x :: l).length := by omega
    rw [List.getElem_append_right (by omega)]
    simp only [this, Nat.mod_self, Nat.sub_self, List.getElem_singleton]
    rfl

theorem Ring.of_two {s : GMap ℝ} {L : Finset Int} {π : Perm Int} (hg : GraphRep s L π) {k : Nat} {a b : Int} (h : Two s k a b) : Ring s k a [b] := by
  refine ⟨by simp [h.ne], fun d => ?_, ?_⟩
  · simp only [List.mem_cons, List.not_mem_nil, or_false]
    constructor
    · rintro (rfl | rfl)
      · exact h.sa
      · exact h.sb
    · exact h.only hg
  · simp [h.ab, h.ba]

section
variable {s t : GMap ℝ} {L : Finset Int} {π : Perm Int} {x' : Int} {n : Nat} {p : Pt ℝ} {c : Int} {k : Nat} {a b : Int}

theorem Merged.memRing (h : Merged s t L π x' n p c k a b) (hT : Two s k a b) {x : Int} {l : List Int} (hr : Ring s n x l)
    (hab : ∀ d ∈ x :: l, a.natAbs ≠ d.natAbs) (d : Int) : t.startN? d = some n ↔ d = b ∨ d ∈ x :: l := by
  rw [h.start, hr.mem]
  by_cases h1 : d = a ∨ d = -a
  · rw [if_pos h1]
    refine ⟨fun e => (by cases e), ?_⟩
    rintro (e | e)
    · rcases h1 with h1 | h1
      · exact absurd (h1.symm.trans e) hT.ne
      · exact absurd (e.symm.trans h1) hT.ne'
    · have := hab d ((hr.mem d).2 e); omega
  · rw [if_neg h1]
    by_cases h2 : d = b
    · rw [if_pos h2]; simp [h2]
    · rw [if_neg h2]; simp [h2]

theorem Merged.notMem (hT : Two s k a b) (hkn : k ≠ n) {x : Int} {l : List Int} (hr : Ring s n x l) : b ∉ x :: l := by
  intro e
  rw [hr.mem, hT.sb] at e
  exact hkn (Option.some.inj e)

theorem Merged.ring_down (hg : GraphRep s L π) {post : List Int} {x : Int} (h : Merged s t L π x' n p c k a b) (hT : Two s k a b) (hkn : k ≠ n)
    (hr : Ring s n x (c :: post)) (hab : ∀ d ∈ x :: c :: post, a.natAbs ≠ d.natAbs) : Ring t n x (b :: c :: post) := by
  have hnb := Merged.notMem hT hkn hr
  have hc : s.startN? c = some n := (hr.mem c).1 (by simp)
  have hna : s.startN? (-a) ≠ some n := by
    intro e
    have := hab _ ((hr.mem _).2 e)
    omega
  obtain ⟨s1, s2⟩ := h.sigma_node hg hT hc hkn hna
  have hch := hr.chain
  have hnd := hr.nodup
  refine ⟨?_, fun d => ?_, ?_⟩
  · simp only [List.nodup_cons, List.mem_cons, not_or] at hnd hnb ⊢
    exact ⟨⟨Ne.symm hnb.1, hnd.1.1, hnd.1.2⟩, ⟨hnb.2.1, hnb.2.2⟩, hnd.2⟩
  · rw [h.memRing hT hr hab]; simp only [List.mem_cons]; tauto
  · simp only [List.cons_append] at hch ⊢
    rw [List.isChain_cons_cons] at hch
    rw [List.isChain_cons_cons, List.isChain_cons_cons]
    refine ⟨?_, s1, ?_⟩
    · rw [s2 x ((hr.mem x).1 (by simp)), if_pos hch.1]
    · refine chain_imp _ hch.2 fun u v hu hv huv => ?_
      have hun : s.startN? u = some n := by
        refine (hr.mem u).1 ?_
        simp only [List.mem_cons, List.mem_append, List.not_mem_nil, or_false] at hu ⊢
        tauto
      rw [s2 u hun, if_neg, huv]
      rw [huv]
      simp only [List.tail_cons, List.mem_append, List.mem_cons, List.not_mem_nil, or_false] at hv
      simp only [List.nodup_cons, List.mem_cons, not_or] at hnd
      rintro rfl
      rcases hv with hv | hv
      · exact hnd.2.1 hv
      · exact hnd.1.1 hv.symm

theorem Merged.ring_up (hg : GraphRep s L π) {l : List Int} (h : Merged s t L π x' n p c k a b) (hT : Two s k a b) (hkn : k ≠ n)
    (hr : Ring s n c l) (hab : ∀ d ∈ c :: l, a.natAbs ≠ d.natAbs) : Ring t n c (l ++ [b]) := by
  have hnb := Merged.notMem hT hkn hr
  have hc : s.startN? c = some n := (hr.mem c).1 (by simp)
  have hna : s.startN? (-a) ≠ some n := by
    intro e
    have := hab _ ((hr.mem _).2 e)
    omega
  obtain ⟨s1, s2⟩ := h.sigma_node hg hT hc hkn hna
  have hch := hr.chain
  have hnd := hr.nodup
  refine ⟨?_, fun d => ?_, ?_⟩
  · have : (c :: l ++ [b]).Nodup := by
      rw [List.nodup_append]
      refine ⟨hnd, by simp, ?_⟩
      intro u hu v hv
      simp only [List.mem_singleton] at hv
      rintro rfl
      rw [hv] at hu
      exact hnb hu
    simpa using this
  · rw [h.memRing hT hr hab]; simp only [List.mem_cons, List.mem_append, List.not_mem_nil, or_false]; tauto
  · have e : c :: (l ++ [b]) ++ [c] = (c :: l) ++ ([b] ++ [c]) := by simp
    rw [e]
    rw [List.isChain_append] at hch ⊢
    obtain ⟨h1, -, h3⟩ := hch
    refine ⟨?_, ?_, ?_⟩
    · refine chain_imp _ h1 fun u v hu hv huv => ?_
      rw [s2 u ((hr.mem u).1 hu), if_neg, huv]
      rw [huv]
      rintro rfl
      simp only [List.tail_cons] at hv
      simp only [List.nodup_cons] at hnd
      exact hnd.1 hv
    · simp [s1]
    · intro u hu v hv
      have := h3 u hu c (by simp)
      have hun : u ∈ c :: l := List.mem_of_getLast? hu
      simp only [List.cons_append, List.head?_cons, Option.mem_some_iff] at hv
      rw [s2 u ((hr.mem u).1 hun), if_pos this, hv]

end

/-- the entries waiting to be merged stay ready -/
theorem Merged.ready {s t : GMap ℝ} {L : Finset Int} {π : Perm Int} {x' : Int} {n : Nat} {p : Pt ℝ} {c : Int} {e e' : Entry}
    (hg : GraphRep s L π) (h : Merged s t L π x' n p c e.k e.a e.b) (hT : Two s e.k e.a e.b) (hc : s.startN? c = some n) (hr : Ready s e')
    (hk : e'.k ≠ e.k) (hn : e'.k ≠ n) (h1 : e.a.natAbs ≠ e'.a.natAbs) (h2 : e.a.natAbs ≠ e'.b.natAbs) : Ready t e' :=
  ⟨h.two hg hT hc hr.two hk hn h1 h2, hr.label⟩

/-- `e'` is not touched when `e` is merged into another node -/
def Unaffected (e e' : Entry) : Prop := e'.k ≠ e.k ∧ e.a.natAbs ≠ e'.a.natAbs ∧ e.a.natAbs ≠ e'.b.natAbs

theorem Apart.unaffected {e e' : Entry} (h : Apart e e') : Unaffected e e' := ⟨Ne.symm h.k, h.aa, h.ab⟩

theorem Apart.symm {e e' : Entry} (h : Apart e e') : Apart e' e := ⟨Ne.symm h.k, Ne.symm h.aa, Ne.symm h.ba, Ne.symm h.ab⟩

theorem mergeDown_spec {h : Hooks ℝ} (hh : ∀ s n, h.removeNode s n = true) {x : Int} {n : Nat} {p : Pt ℝ} :
    ∀ (r : List Entry) (s : GMap ℝ) (L : Finset Int) (π : Perm Int) (c : Int) (post : List Int), GraphRep s L π → Sound s →
      (s.node n).map (·.pos) = some p → (∀ e ∈ r, Ready s e) → r.Pairwise Apart → (∀ e ∈ r, e.k ≠ n) → Ring s n x (c :: post) →
      (∀ e ∈ r, ∀ d ∈ x :: c :: post, e.a.natAbs ≠ d.natAbs) →
      ∃ t L' π', mergeDown h x n p (r.map Entry.m) c s = .ok t ∧ GraphRep t L' π' ∧ Sound t ∧ (t.node n).map (·.pos) = some p ∧
        (∀ u r', (∀ e ∈ r, ∀ e' ∈ r', Apart e e') → Done t u x n r' → Done s u x n (r ++ r')) ∧
        Ring t n x ((r.map Entry.b).reverse ++ c :: post) ∧
        ∀ e', Ready s e' → e'.k ≠ n → (∀ e ∈ r, Unaffected e e') → Ready t e'
  | [], s, L, π, c, post, hg, hs, hp, _, _, _, hr, _ =>
    ⟨s, L, π, rfl, hg, hs, hp, fun _ _ _ h => h, by simpa using hr, fun _ hr _ _ => hr⟩
  | e :: r, s, L, π, c, post, hg, hs, hp, hrd, hpw, hk, hr, hab => by
    rw [List.pairwise_cons] at hpw
    have hR := hrd e List.mem_cons_self
    have hkn := hk e List.mem_cons_self
    have hc : s.startN? c = some n := (hr.mem c).1 (by simp)
    have hx : s.liveD x := liveD_of_start ((hr.mem x).1 (by simp))
    obtain ⟨t, ht, hm⟩ := mergeStep_spec (p := p) hg hs.raw hh hR.two hR.dart hkn hc hx
    have hr' := hm.ring_down hg hR.two hkn hr (hab e List.mem_cons_self)
    have hp' : (t.node n).map (·.pos) = some p := by rw [hm.pos n (Ne.symm hkn), hp]
    obtain ⟨u, L', π', h1, h2, h3, hq, h4, h5, h6⟩ := mergeDown_spec hh r t _ _ e.b (c :: post) hm.graph (hm.sound hg hR.two hkn hp hs) hp'
      (fun e' he' => hm.ready hg hR.two hc (hrd e' (List.mem_cons_of_mem _ he')) (Ne.symm (hpw.1 e' he').k)
        (hk e' (List.mem_cons_of_mem _ he')) (hpw.1 e' he').aa (hpw.1 e' he').ab) hpw.2
      (fun e' he' => hk e' (List.mem_cons_of_mem _ he')) hr' (fun e' he' d hd => by
        simp only [List.mem_cons] at hd
        rcases hd with rfl | rfl | hd
        · exact hab e' (List.mem_cons_of_mem _ he') _ (by simp)
        · exact Ne.symm (hpw.1 e' he').ba
        · exact hab e' (List.mem_cons_of_mem _ he') _ (by simp only [List.mem_cons]; tauto))
    refine ⟨u, L', π', ?_, h2, h3, hq, fun w r' hw hdw => hm.done (fun e' he' => ?_) (h4 w r' (fun e'' he'' => hw e'' (List.mem_cons_of_mem _ he'')) hdw), ?_, fun e' he' hn ha => ?_⟩
    · rw [List.map_cons, mergeDown, ht]; exact h1
    · rcases List.mem_append.1 he' with he' | he'
      · exact hpw.1 e' he'
      · exact hw e List.mem_cons_self e' he'
    · simpa using h5
    · have hu := ha e List.mem_cons_self
      exact h6 e' (hm.ready hg hR.two hc he' hu.1 hn hu.2.1 hu.2.2) hn (fun e'' he'' => ha e'' (List.mem_cons_of_mem _ he''))

theorem mergeUp_spec {h : Hooks ℝ} (hh : ∀ s n, h.removeNode s n = true) {x : Int} {n : Nat} {p : Pt ℝ} :
    ∀ (r : List Entry) (s : GMap ℝ) (L : Finset Int) (π : Perm Int) (l : List Int), GraphRep s L π → Sound s →
      (s.node n).map (·.pos) = some p → (∀ e ∈ r, Ready s e) → r.Pairwise Apart → (∀ e ∈ r, e.k ≠ n) → Ring s n x l →
      (∀ e ∈ r, ∀ d ∈ x :: l, e.a.natAbs ≠ d.natAbs) →
      ∃ t L' π', mergeUp h x n p x (r.map Entry.m) s = .ok t ∧ GraphRep t L' π' ∧ Sound t ∧ Done s t x n r ∧
        Ring t n x (l ++ r.map Entry.b) ∧
        ∀ e', Ready s e' → e'.k ≠ n → (∀ e ∈ r, Unaffected e e') → Ready t e'
  | [], s, L, π, l, hg, hs, _, _, _, _, hr, _ =>
    ⟨s, L, π, rfl, hg, hs, Done.refl s x n, by simpa using hr, fun _ hr _ _ => hr⟩
  | e :: r, s, L, π, l, hg, hs, hp, hrd, hpw, hk, hr, hab => by
    rw [List.pairwise_cons] at hpw
    have hR := hrd e List.mem_cons_self
    have hkn := hk e List.mem_cons_self
    have hc : s.startN? x = some n := (hr.mem x).1 (by simp)
    obtain ⟨t, ht, hm⟩ := mergeStep_spec (p := p) hg hs.raw hh hR.two hR.dart hkn hc (liveD_of_start hc)
    have hr' := hm.ring_up hg hR.two hkn hr (hab e List.mem_cons_self)
    have hp' : (t.node n).map (·.pos) = some p := by rw [hm.pos n (Ne.symm hkn), hp]
    obtain ⟨u, L', π', h1, h2, h3, h4, h5, h6⟩ := mergeUp_spec hh r t _ _ (l ++ [e.b]) hm.graph (hm.sound hg hR.two hkn hp hs) hp'
      (fun e' he' => hm.ready hg hR.two hc (hrd e' (List.mem_cons_of_mem _ he')) (Ne.symm (hpw.1 e' he').k)
        (hk e' (List.mem_cons_of_mem _ he')) (hpw.1 e' he').aa (hpw.1 e' he').ab) hpw.2
      (fun e' he' => hk e' (List.mem_cons_of_mem _ he')) hr' (fun e' he' d hd => by
        simp only [List.mem_cons, List.mem_append, List.not_mem_nil, or_false] at hd
        rcases hd with rfl | hd | rfl
        · exact hab e' (List.mem_cons_of_mem _ he') _ (by simp)
        · exact hab e' (List.mem_cons_of_mem _ he') _ (by simp only [List.mem_cons]; tauto)
        · exact Ne.symm (hpw.1 e' he').ba)
    refine ⟨u, L', π', ?_, h2, h3, hm.done hpw.1 h4, ?_, fun e' he' hn ha => ?_⟩
    · rw [List.map_cons, mergeUp, ht]; exact h1
    · simpa using h5
    · have hu := ha e List.mem_cons_self
      exact h6 e' (hm.ready hg hR.two hc he' hu.1 hn hu.2.1 hu.2.2) hn (fun e'' he'' => ha e'' (List.mem_cons_of_mem _ he''))

theorem Done.congr {s t : GMap ℝ} {x : Int} {n : Nat} {r r' : List Entry} (h : Done s t x n r) (hp : r.Perm r') : Done s t x n r' where
  start := by
    intro d; rw [h.start]; simp only [hp.mem_iff]
  gone := fun e he => h.gone e (hp.mem_iff.2 he)
  pos := fun j hj => h.pos j fun e he => hj e (hp.mem_iff.1 he)
  inner := fun j hj => h.inner j fun e he => hj e (hp.mem_iff.1 he)
  flagsX := by
    intro hx ex hex
    obtain ⟨fx, h1, h2⟩ := h.flagsX (fun e he => hx e (hp.mem_iff.1 he)) ex hex
    refine ⟨fx, h1, fun i => ?_⟩
    rw [h2]; simp only [hp.mem_iff]
  flags := fun l h1 h2 => h.flags l h1 fun e he => h2 e (hp.mem_iff.1 he)
  nNodes := h.nNodes
  nEdges := h.nEdges
  nFaces := h.nFaces
  nodeCount := by rw [← hp.length_eq]; exact h.nodeCount
  edgeCount := by rw [← hp.length_eq]; exact h.edgeCount

/-! ## the best continuation -/

theorem bestLoop_spec (pref : Nat → ℝ) : ∀ (l pre : List MergeDart) (v : ℝ) (best : Nat), 0 ≤ v →
    (∀ m ∈ pre, pref m.label ≤ v) → (0 < v → ∃ m, pre[best]? = some m ∧ pref m.label = v ∧ ∀ j m', j < best → pre[j]? = some m' → pref m'.label < v) →
    (v = 0 → best = 0) →
    ∃ w, 0 ≤ w ∧ (∀ m ∈ pre ++ l, pref m.label ≤ w) ∧
      (0 < w → ∃ m, (pre ++ l)[bestLoop pref l pre.length v best]? = some m ∧ pref m.label = w ∧
        ∀ j m', j < bestLoop pref l pre.length v best → (pre ++ l)[j]? = some m' → pref m'.label < w) ∧
      (w = 0 → bestLoop pref l pre.length v best = 0)
  | [], pre, v, best, h0, h1, h2, h3 => ⟨v, h0, by simpa using h1, by simpa [bestLoop] using h2, by simpa [bestLoop] using h3⟩
  | m :: l, pre, v, best, h0, h1, h2, h3 => by
    have e : pre ++ m :: l = (pre ++ [m]) ++ l := by simp
    have el : pre.length + 1 = (pre ++ [m]).length := by simp
    rw [bestLoop]
    by_cases hv : v < pref m.label
    · rw [if_pos hv, e, el]
      refine bestLoop_spec pref l (pre ++ [m]) _ _ (h0.trans hv.le) ?_ (fun _ => ⟨m, by simp, rfl, ?_⟩) (fun hz => absurd (hz ▸ hv) (not_lt.2 h0))
      · intro m' hm'
        simp only [List.mem_append, List.mem_singleton] at hm'
        rcases hm' with hm' | rfl
        · exact (h1 m' hm').trans hv.le
        · exact le_rfl
      · intro j m' hj hm'
        rw [List.getElem?_append_left hj] at hm'
        exact (h1 m' (List.mem_of_getElem? hm')).trans_lt hv
    · rw [if_neg hv, e, el]
      refine bestLoop_spec pref l (pre ++ [m]) _ _ h0 ?_ (fun hp => ?_) h3
      · intro m' hm'
        simp only [List.mem_append, List.mem_singleton] at hm'
        rcases hm' with hm' | rfl
        · exact h1 m' hm'
        · exact not_lt.1 hv
      · obtain ⟨m1, g1, g2, g3⟩ := h2 hp
        have hb : best < pre.length := (List.getElem?_eq_some_iff.1 g1).1
        refine ⟨m1, by rw [List.getElem?_append_left hb]; exact g1, g2, fun j m' hj hm' => g3 j m' hj ?_⟩
        rwa [List.getElem?_append_left (by omega)] at hm'

/-- the best continuation: the first entry with the largest preference, if that is positive, and the first entry otherwise -/
theorem bestContinuation_spec (pref : Nat → ℝ) {g : List MergeDart} (hg : g ≠ []) :
    ∃ m, g[bestContinuation pref g]? = some m ∧
      ((∃ m' ∈ g, 0 < pref m'.label) → ∀ m' ∈ g, pref m'.label ≤ pref m.label) ∧
      ((∃ m' ∈ g, 0 < pref m'.label) → ∀ j m', j < bestContinuation pref g → g[j]? = some m' → pref m'.label < pref m.label) ∧
      ((∀ m' ∈ g, pref m'.label ≤ 0) → bestContinuation pref g = 0) := by
  obtain ⟨w, w0, w1, w2, w3⟩ := bestLoop_spec pref g [] 0 0 le_rfl (by simp) (by simp) (by simp)
  simp only [List.nil_append, List.length_nil] at w1 w2 w3
  by_cases hw : 0 < w
  · obtain ⟨m, m1, m2, m3⟩ := w2 hw
    refine ⟨m, m1, fun _ m' hm' => m2 ▸ w1 m' hm', fun _ j m' hj hm' => m2 ▸ m3 j m' hj hm', fun h => ?_⟩
    have := h m (List.mem_of_getElem? m1)
    exact absurd (m2 ▸ this) (not_le.2 hw)
  · have hw : w = 0 := le_antisymm (not_lt.1 hw) w0
    have h0 : bestContinuation pref g = 0 := w3 hw
    rw [h0]
    cases g with
    | nil => exact absurd rfl hg
    | cons m l =>
      refine ⟨m, rfl, ?_, by simp, fun _ => rfl⟩
      rintro ⟨m', hm', h⟩
      have := w1 m' hm'
      rw [hw] at this
      exact absurd h (not_lt.2 this)

theorem startLabel_of {s : GMap ℝ} {d : Int} {n : Nat} (h : s.startN? d = some n) : s.startLabel d = .ok n := by
  unfold GMap.startN? at h
  cases he : s.edge d.natAbs with
  | none => rw [he] at h; cases h
  | some e =>
    rw [he] at h
    unfold GMap.startLabel
    rw [guaranteedEdge_of he]
    have : e.startOf d = n := Option.some.inj h
    simp [Outcome.map, this]

theorem eraseIdx_perm : ∀ (l : List Entry) (i : Nat), i < l.length → ((l.take i).reverse ++ l.drop (i + 1)).Perm (l.eraseIdx i) := by
  intro l i _
  rw [List.eraseIdx_eq_take_drop_succ]
  exact (List.reverse_perm _).append_right _

/-- Merging the split nodes of a group. -/
theorem mergeGroup_spec {h : Hooks ℝ} (hh : ∀ s n, h.removeNode s n = true) (pref : Nat → ℝ) {s : GMap ℝ} (hs : Sound s) {G : List Entry}
    (hr : ∀ e ∈ G, Ready s e) (hpw : G.Pairwise Apart) {e0 : Entry} (hb : G[bestContinuation pref (G.map Entry.m)]? = some e0) :
    ∃ t, mergeGroup h pref (G.map Entry.m) s = .ok t ∧ Sound t ∧ SigmaList t e0.k (e0.a :: G.map Entry.b) ∧
      Done s t e0.a e0.k (G.eraseIdx (bestContinuation pref (G.map Entry.m))) ∧
      ∀ e', Ready s e' → e'.k ≠ e0.k → (∀ e ∈ G.eraseIdx (bestContinuation pref (G.map Entry.m)), Unaffected e e') → Ready t e' := by
  generalize hidx : bestContinuation pref (G.map Entry.m) = i at hb ⊢
  obtain ⟨hi, hie⟩ := List.getElem?_eq_some_iff.1 hb
  have hR := hr e0 (List.mem_of_getElem? hb)
  obtain ⟨π, hg⟩ := hs.ok.1.exists_rep
  have hsplit : G = G.take i ++ e0 :: G.drop (i + 1) := by
    rw [← hie, List.getElem_cons_drop, List.take_append_drop]
  have hpw' := hpw
  rw [hsplit, List.pairwise_append, List.pairwise_cons] at hpw'
  obtain ⟨p1, ⟨p2, p3⟩, p4⟩ := hpw'
  obtain ⟨nd, hnd⟩ := node_of_start hg hR.two.sa
  have hp : (s.node e0.k).map (·.pos) = some nd.pos := by rw [hnd]; rfl
  have hm1 : ∀ e ∈ (G.take i).reverse, e ∈ G := fun e he => List.mem_of_mem_take (List.mem_reverse.1 he)
  have hm2 : ∀ e ∈ G.drop (i + 1), e ∈ G := fun e he => List.mem_of_mem_drop he
  have a1 : ∀ e ∈ (G.take i).reverse, Apart e e0 := fun e he => p4 e (List.mem_reverse.1 he) e0 List.mem_cons_self
  have a2 : ∀ e ∈ G.drop (i + 1), Apart e0 e := p2
  have a3 : ∀ e ∈ (G.take i).reverse, ∀ e' ∈ G.drop (i + 1), Apart e e' :=
    fun e he e' he' => p4 e (List.mem_reverse.1 he) e' (List.mem_cons_of_mem _ he')
  obtain ⟨s1, L1, π1, d1, d2, d3, dp, d4, d5, d6⟩ := mergeDown_spec hh (G.take i).reverse s _ π e0.b [] hg hs hp
    (fun e he => hr e (hm1 e he)) (List.pairwise_reverse.2 (p1.imp fun hq => hq.symm)) (fun e he => (a1 e he).k)
    (Ring.of_two hg hR.two) (fun e he d hd => by
      simp only [List.mem_cons, List.not_mem_nil, or_false] at hd
      rcases hd with rfl | rfl
      · exact (a1 e he).aa
      · exact (a1 e he).ab)
  have hy : s1.sigma e0.b = e0.a := by
    have := d5.chain
    have e : e0.a :: (List.map Entry.b (G.take i).reverse).reverse.append [e0.b] ++ [e0.a] =
      (e0.a :: (List.map Entry.b (G.take i).reverse).reverse) ++ [e0.b, e0.a] := by simp
    change (e0.a :: (List.map Entry.b (G.take i).reverse).reverse.append [e0.b] ++ [e0.a]).IsChain _ at this
    rw [e, List.isChain_append] at this
    simpa using this.2.1
  obtain ⟨t, L2, π2, u1, u2, u3, u4, u5, u6⟩ := mergeUp_spec hh (G.drop (i + 1)) s1 L1 π1 _ d2 d3 dp
    (fun e he => d6 e (hr e (hm2 e he)) (Ne.symm (a2 e he).k) (fun e' he' => (a3 e' he' e he).unaffected)) p3
    (fun e he => Ne.symm (a2 e he).k) d5 (fun e he d hd => by
      simp only [List.mem_cons, List.mem_append, List.mem_reverse, List.mem_map, List.not_mem_nil, or_false] at hd
      rcases hd with rfl | ⟨e', he', rfl⟩ | rfl
      · exact Ne.symm (a2 e he).aa
      · exact Ne.symm (a3 e' (List.mem_reverse.2 he') e he).ba
      · exact Ne.symm (a2 e he).ba)
  have hperm := eraseIdx_perm G i hi
  refine ⟨t, ?_, u3, ?_, (d4 t _ a3 u4).congr hperm, fun e' he' hn hu => ?_⟩
  · unfold mergeGroup
    rw [hidx, List.getElem?_map, hb]
    simp only [Option.map_some, hR.dart]
    rw [startLabel_of hR.two.sa, Outcome.bind_ok, derefNode_of hg.labels hnd, Outcome.bind_ok, hR.two.ab, ← List.map_take, ← List.map_reverse, d1,
      Outcome.bind_ok, hy, ← List.map_drop, u1]
  · have := u5.sigmaList
    have e : e0.a :: ((List.map Entry.b (G.take i).reverse).reverse ++ [e0.b] ++ List.map Entry.b (G.drop (i + 1))) =
        e0.a :: G.map Entry.b := by
      conv_rhs => rw [hsplit]
      simp
    rwa [e] at this
  · exact u6 e' (d6 e' he' hn fun e he => hu e (hperm.mem_iff.1 (List.mem_append_left _ he))) hn
      fun e he => hu e (hperm.mem_iff.1 (List.mem_append_right _ he))

end Verif.Parallel
