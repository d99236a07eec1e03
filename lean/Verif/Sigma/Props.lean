import Verif.Sigma.Trace
import Verif.Sigma.SetMapping
import Verif.GeoMap.Props

/-!
# C24: the sigma storage is memory safe; C51: `sigmaMapping()` / `setSigmaMapping()` round trip

`runCalls` is the storage model with checked accesses (an access outside the vectors is `ub`);
`applyCalls` says what the calls mean for two plain functions on the integers; `Call.valid` is what the
callers must guarantee.
-/

namespace Verif.Sigma
open Verif Verif.GeoMap

/-- no edges, both mappings 0 -/
def Fn.start : Fn := ⟨1, fun _ => 0, fun _ => 0⟩

/-! ## C24 -/

/-- Any history of legal calls on the storage of a new map runs without an access outside the vectors
and without an endless loop, and afterwards the entry of every dart label below `edges_.size()` can be
read and has the value it would have without any reallocation. -/
theorem storage_safe (cs : List Call) (h : validCalls cs 1) :
    ∃ a, runCalls cs 1 Arrays.init = .ok a ∧
      ∀ d : Int, d.natAbs < (applyCalls cs Fn.start).n →
        a.getS d = .ok ((applyCalls cs Fn.start).sigma d) ∧ a.getI d = .ok ((applyCalls cs Fn.start).inv d) := by
  obtain ⟨a, e, hr⟩ := Rep.calls cs Rep.init h
  refine ⟨a, e, fun d hd => ?_⟩
  have := hr.fits
  exact ⟨hr.agree.getS (by show d.natAbs ≤ a.centre; simp only [Fn.start] at hd; omega), hr.agree.getI (by simp only [Fn.start] at hd; omega)⟩

/-- a history that makes the vectors grow: label 60 does not fit into 101 entries -/
example : validCalls [.addEdge 1 0 1, .addEdge 60 1 (-1), .splitEdge 60, .detach 1, .detach (-1)] 1 := by
  simp [validCalls, Call.valid, Call.size]
example : (runCalls [.addEdge 1 0 1, .addEdge 60 1 (-1), .splitEdge 60, .detach 1, .detach (-1)] 1 Arrays.init).bind
    (fun a => (a.getS (-61)).bind fun x => (a.getS 61).bind fun y => .ok (a.sig.length, x, y)) = .ok (201, 60, -60) := by decide +kernel

/-- Growing the vectors keeps the entries of all existing darts: after `addEdge` with any new label
the storage still gives the old value for every dart except the two new ones and the darts before
which they were inserted. -/
theorem growth_preserves (cs : List Call) (h : validCalls cs 1) (l : Nat) (s1 s2 : Int)
    (hv : (Call.addEdge l s1 s2).valid (applyCalls cs Fn.start).n) {a : Arrays} (ha : runCalls cs 1 Arrays.init = .ok a) :
    ∃ b, a.addEdge l s1 s2 = .ok b ∧ ∀ d : Int, d.natAbs < (applyCalls cs Fn.start).n →
      d ≠ (applyCalls cs Fn.start).inv s1 → d ≠ ((applyCalls cs Fn.start).insert s1 l).inv s2 → b.getS d = a.getS d := by
  obtain ⟨a', e, hr⟩ := Rep.calls cs Rep.init h
  rw [e] at ha
  cases ha
  obtain ⟨b, e1, hb, hn⟩ := hr.call (.addEdge l s1 s2) hv
  refine ⟨b, e1, fun d hd h1 h2 => ?_⟩
  have f1 := hr.fits
  have f2 := hb.fits
  rw [hn] at f2
  simp only [Call.size] at f2
  obtain ⟨hl, -, -⟩ := hv
  have hd' : d.natAbs < (applyCalls cs ⟨1, fun _ => 0, fun _ => 0⟩).n := hd
  rw [hr.agree.getS (by omega), hb.agree.getS (by omega)]
  congr 1
  have hdl : d ≠ (l : Int) := by rintro rfl; have : (l : Int).natAbs < l := lt_of_lt_of_le hd' hl; omega
  have hdl' : d ≠ -(l : Int) := by rintro rfl; have : (-(l : Int)).natAbs < l := lt_of_lt_of_le hd' hl; omega
  have key : ∀ (f : Fn) (s x d : Int), d ≠ x → d ≠ f.inv s → (f.insert s x).sigma d = f.sigma d := by
    intro f s x d q1 q2
    unfold Fn.insert
    split_ifs <;> simp [Fn.setS, Fn.setI, q1, q2]
  show (((applyCalls cs Fn.start).insert s1 l).insert s2 (-(l : Int))).sigma d = _
  rw [key _ _ _ _ hdl' h2, key _ _ _ _ hdl h1]
  rfl

variable {K : Type}

/-- the storage `a` holds the mappings of the map `s`: they can be read for every label in use -/
def Holds (a : Arrays) (s : GMap K) : Prop := Rep a (Fn.of s)

/-- reading the storage gives `nextSigma` / `prevSigma` of the map -/
theorem Holds.reads {a : Arrays} {s : GMap K} (h : Holds a s) {d : Int} (hd : d.natAbs < s.nEdges) :
    a.getS d = .ok (s.nextSigma d) ∧ a.getI d = .ok (s.prevSigma d) := by
  have hf : s.nEdges ≤ a.centre + 1 := h.fits
  exact ⟨h.agree.getS (by omega), h.agree.getI (by omega)⟩

variable [Field K] [LinearOrder K]

/-- Every operation of the map makes only legal calls on the storage (and only the calls of its kind,
`opCall`), they do not access anything outside the vectors, and afterwards the storage holds the
mappings of the new map. -/
theorem storage_step {h : Hooks K} {s t : GMap K} (hs : Reach s) {op : Op K} (hr : op.run h s = .ok t) {a : Arrays} (ha : Holds a s) :
    ∃ cs b, (∀ c ∈ cs, opCall op c) ∧ runCalls cs s.nEdges a = .ok b ∧ Holds b t := by
  obtain ⟨cs, hv, hk, he⟩ := op_traces hs.good.map.graph op hr
  obtain ⟨b, e, hb⟩ := Rep.calls cs (f := Fn.of s) ha hv
  rw [he] at hb
  exact ⟨cs, b, hk, e, hb⟩

/-- For every history of API calls: the calls it makes on the storage succeed, and the resulting
storage gives `nextSigma` and `prevSigma` for every dart of the map. -/
theorem map_storage {s : GMap K} (hs : Reach s) :
    ∃ cs a, runCalls cs 1 Arrays.init = .ok a ∧ Holds a s ∧
      ∀ d, s.liveD d → a.getS d = .ok (s.nextSigma d) ∧ a.getI d = .ok (s.prevSigma d) := by
  have key : ∃ cs a, validCalls cs 1 ∧ applyCalls cs Fn.start = Fn.of s ∧ runCalls cs 1 Arrays.init = .ok a ∧ Holds a s := by
    induction hs with
    | empty => exact ⟨[], _, trivial, rfl, rfl, Rep.init⟩
    | @call s t h op h0 hl hr hp ih =>
      obtain ⟨cs, a, v1, e1, r1, ha⟩ := ih
      obtain ⟨ds, v2, -, e2⟩ := op_traces h0.good.map.graph op hr
      have hv : validCalls (cs ++ ds) 1 := validCalls_append (f := Fn.start) v1 (by rw [e1]; exact v2)
      have he : applyCalls (cs ++ ds) Fn.start = Fn.of t := by rw [applyCalls_append, e1, e2]
      obtain ⟨b, r2, hb⟩ := Rep.calls (cs ++ ds) Rep.init hv
      refine ⟨cs ++ ds, b, hv, he, r2, ?_⟩
      show Rep b (Fn.of t)
      rw [← he]; exact hb
    | @rename s t lab new size h0 hz e ih =>
      have hq := (rename_good h0.good hz e).2.1.sigma
      have : Fn.of t = Fn.of s := by unfold Fn.of; rw [hq.1, hq.2.1, hq.2.2.2.2.1]
      unfold Holds
      rw [this]; exact ih
  obtain ⟨cs, a, -, -, e, ha⟩ := key
  exact ⟨cs, a, e, ha, fun d hd => ha.reads (hs.good.map.graph.edge_lt _ hd)⟩

example : ∃ a, Holds a Example.map ∧ a.getS 1 = .ok (Example.map.nextSigma 1) := by
  obtain ⟨cs, a, -, ha, h⟩ := map_storage Props.ex_reach
  exact ⟨a, ha, (h 1 (by decide +kernel)).1⟩

/-- `setSigmaMapping` on a map (`edges`: its existing edges): if the given list has at least
`2 * edges_.size() - 1` entries (otherwise the precondition fails) and holds labels of this map, the
call is memory safe, never has to enlarge the vectors, and afterwards `nextSigma` of every label is
the entry of the list counted from its middle; `prevSigma` is its inverse on the existing darts if no
two existing darts are mapped to the same dart. -/
theorem setMapping_effect_partial {a : Arrays} {f : Fn} (ha : Rep a f) (edges : List Nat) (given : List Int)
    (hv : (Call.setMapping edges given).valid f.n) :
    ∃ b, a.setMapping f.n edges given = .ok b ∧ b.sig.length = a.sig.length ∧
      (∀ d : Int, d.natAbs < f.n → b.getS d = .ok (given[((given.length / 2 : Nat) + d).toNat]?.getD 0)) ∧
      ((∀ d e : Int, d.natAbs ∈ edges → e.natAbs ∈ edges →
          given[((given.length / 2 : Nat) + d).toNat]?.getD 0 = given[((given.length / 2 : Nat) + e).toNat]?.getD 0 → d = e) →
        ∀ d : Int, d.natAbs ∈ edges → b.getI (given[((given.length / 2 : Nat) + d).toNat]?.getD 0) = .ok d) := by
  obtain ⟨b, e, hb, hn⟩ := ha.call (.setMapping edges given) hv
  have hfit := hb.fits
  rw [hn] at hfit
  have hfa := ha.fits
  have hpos := ha.bounded.pos
  simp only [Call.size] at hfit
  obtain ⟨v1, v2, v3⟩ := hv
  have hs : ∀ d : Int, d.natAbs < f.n → ((Call.setMapping edges given).apply f).sigma d = given[((given.length / 2 : Nat) + d).toNat]?.getD 0 := by
    intro d hd
    show (Fn.invertEdges _ _).sigma d = _
    rw [invertEdges_sigma, copyEntries_sigma, if_pos (by omega)]
  have hlen : b.sig.length = a.sig.length := by
    obtain ⟨x, e1, hx, c1⟩ := Agree.copyEntries given (2 * f.n - 1) (-((f.n : Int) - 1)) a f ha.agree (by omega) (by omega) (by omega) (by omega)
    have hBb : Bounded (Fn.copyEntries given (2 * f.n - 1) (-((f.n : Int) - 1)) f) f.n :=
      Bounded.copyEntries _ _ _ ha.bounded fun j j1 j2 => v3 j (by omega)
    obtain ⟨y, e2, hy, c2⟩ := Agree.invertEdges edges x _ hx (fun l hl => by have := v2 l hl; omega)
      (fun l hl => ⟨by have := hBb.s l; omega, by have := hBb.s (-(l : Int)); omega⟩)
    have e3 : a.setMapping f.n edges given = .ok y := by
      unfold Arrays.setMapping Arrays.growTo
      have := ha.agree.slen
      rw [if_neg (by omega), if_neg (by omega)]
      exact bindOk rfl (bindOk e1 e2)
    have e' : a.setMapping f.n edges given = .ok b := e
    rw [e3] at e'
    cases e'
    rw [hy.slen, ha.agree.slen, c2, c1]
  refine ⟨b, e, hlen, fun d hd => ?_, fun hinj d hd => ?_⟩
  · rw [hb.agree.getS (by omega), hs d hd]
  · have hdn : d.natAbs < f.n := v2 _ hd
    have hvd := v3 d hdn
    rw [hb.agree.getI (by omega)]
    congr 1
    show (Fn.invertEdges _ _).inv _ = d
    have hc : ∀ x : Int, x.natAbs < f.n → (Fn.copyEntries given (2 * f.n - 1) (-((f.n : Int) - 1)) f).sigma x = given[((given.length / 2 : Nat) + x).toNat]?.getD 0 := by
      intro x hx
      rw [copyEntries_sigma, if_pos (by omega)]
    rw [← hc d hdn]
    refine invertEdges_inv edges _ (fun x y hx hy h => hinj x y hx hy ?_) d hd
    rw [← hc x (v2 _ hx), ← hc y (v2 _ hy)]; exact h

/-- one edge as a loop: dart 1 and -1 point to each other -/
example : ∃ b, (Arrays.setMapping Arrays.init 2 [1] [1, 0, -1]) = .ok b ∧ b.getS 1 = .ok (-1) ∧ b.getI 1 = .ok (-1) :=
  ⟨_, rfl, by decide +kernel, by decide +kernel⟩

/-- `setSigmaMapping` does not check the entries it is given: an entry that is no label of the map
(here 60, with one edge) makes the code write outside the inverse mapping. -/
theorem setMapping_unchecked_violated :
    ∃ (cs : List Call) (a : Arrays), validCalls cs 1 ∧ runCalls cs 1 Arrays.init = .ok a ∧ a.setMapping 2 [1] [60, 0, 60] = .ub :=
  ⟨[.addEdge 1 0 1], _, by simp [validCalls, Call.valid], rfl, by decide +kernel⟩

/-- `resizeSigmaMapping` is right only for the growth step `2 * size - 1` all callers but
`setSigmaMapping` use; asked for a size below `size + size / 2` it writes outside the new vector.
(`setSigmaMapping` never gets there: `setMapping_effect_partial`.) -/
theorem resize_other_sizes_violated : Arrays.init.resize 121 = .ub := by decide +kernel

/-! ## C51 -/

/-- The list `sigmaMapping()` gives to Python, passed to `setSigmaMapping` of a map with the same
existing edges and enough room, restores `nextSigma` and `prevSigma` of every dart.  `t` is the new map
(its mappings are arbitrary), `n` its `edges_.size()`: trailing removed labels need not be there. -/
theorem sigmaMapping_roundtrip {s : GMap K} (hs : Reach s) {a : Arrays} (ha : Holds a s) {b : Arrays} {f : Fn} (hb : Rep b f)
    {edges : List Nat} (hedges : ∀ l, l ∈ edges ↔ (s.edge l).isSome = true)
    (hlast : f.n = 1 ∨ (s.edge (f.n - 1)).isSome = true) (hlt : ∀ l, (s.edge l).isSome = true → l < f.n) :
    ∃ c, b.setMapping f.n edges (a.pyExport fun l => (s.edge l).isSome) = .ok c ∧
      ∀ d, s.liveD d → c.getS d = .ok (s.nextSigma d) ∧ c.getI d = .ok (s.prevSigma d) := by
  have hg := hs.good.map.graph
  obtain ⟨k, hk, e1, e2, e3⟩ := pyExport_spec ha.agree (fun l => (s.edge l).isSome)
  set given := a.pyExport fun l => (s.edge l).isSome with hgiven
  have hmid : given.length / 2 = k := by omega
  have hpos := hb.bounded.pos
  have hn : f.n - 1 ≤ k := by
    rcases hlast with h | h
    · omega
    · by_contra hlt'
      have hl : s.liveD ((f.n - 1 : Nat) : Int) := by unfold GMap.liveD; simpa using h
      have h1 : s.sigma ((f.n - 1 : Nat) : Int) = 0 := e3 _ (by omega)
      have h2 : s.liveD (s.sigma ((f.n - 1 : Nat) : Int)) := (hg.sigma_live _ hl).1
      rw [h1] at h2
      unfold GMap.liveD at h2
      simp [hg.edge_zero] at h2
  have hentry : ∀ d : Int, d.natAbs < f.n → given[((given.length / 2 : Nat) + d).toNat]?.getD 0 =
      if (s.edge (s.sigma d).natAbs).isSome then s.sigma d else 0 := by
    intro d hd
    rw [hmid, e2 d (by omega)]; rfl
  have hlive : ∀ d : Int, s.liveD d → given[((given.length / 2 : Nat) + d).toNat]?.getD 0 = s.sigma d := by
    intro d hd
    have h1 : (s.edge (s.sigma d).natAbs).isSome = true := (hg.sigma_live d hd).1
    rw [hentry d (hlt _ hd), if_pos h1]
  have hv : (Call.setMapping edges given).valid f.n := by
    refine ⟨by omega, fun l hl => hlt l ((hedges l).mp hl), fun i hi => ?_⟩
    rw [hentry i hi]
    split_ifs with h
    · exact hlt _ h
    · simpa using hpos
  obtain ⟨c, ec, -, h1, h2⟩ := setMapping_effect_partial hb edges given hv
  refine ⟨c, ec, fun d hd => ⟨?_, ?_⟩⟩
  · rw [h1 d (hlt _ hd), hlive d hd]; rfl
  · have hinv := hg.sigmaInv_live d hd
    have hinj : ∀ x y : Int, x.natAbs ∈ edges → y.natAbs ∈ edges →
        given[((given.length / 2 : Nat) + x).toNat]?.getD 0 = given[((given.length / 2 : Nat) + y).toNat]?.getD 0 → x = y := by
      intro x y hx hy h
      have hx' : s.liveD x := (hedges _).mp hx
      have hy' : s.liveD y := (hedges _).mp hy
      rw [hlive x hx', hlive y hy'] at h
      rw [← (hg.sigma_live x hx').2, ← (hg.sigma_live y hy').2]
      show s.sigmaInv (s.sigma x) = s.sigmaInv (s.sigma y)
      rw [h]
    have := h2 hinj (s.prevSigma d) ((hedges _).mpr hinv.1)
    rw [hlive _ hinv.1] at this
    rw [show s.sigma (s.prevSigma d) = d from hinv.2] at this
    exact this

/-- the map of the example has the edges 1, 2, 3, 4; a new map with these edges takes its mapping -/
example : ∃ (a b : Arrays) (f : Fn), Holds a Example.map ∧ Rep b f ∧ f.n = 5 ∧ (∀ l, l ∈ [1, 2, 3, 4] ↔ (Example.map.edge l).isSome = true) ∧
    (Example.map.edge (f.n - 1)).isSome = true := by
  obtain ⟨cs, a, -, ha, -⟩ := map_storage Props.ex_reach
  refine ⟨a, a, Fn.of Example.map, ha, ha, by decide +kernel, fun l => ⟨fun h => ?_, fun h => ?_⟩, by decide +kernel⟩
  · simp only [List.mem_cons, List.not_mem_nil, or_false] at h
    rcases h with rfl | rfl | rfl | rfl <;> decide +kernel
  · have h1 := Props.ex_reach.good.map.graph.edge_lt l h
    have h2 : Example.map.nEdges = 5 := by decide +kernel
    have h3 : l ≠ 0 := by rintro rfl; rw [Props.ex_reach.good.map.graph.edge_zero] at h; cases h
    simp only [List.mem_cons, List.not_mem_nil, or_false]; omega

end Verif.Sigma
