import Verif.Protection.Composed
import Verif.Utils.Props

/-! # Properties of `EdgeProtection` (C20)

`Protection/Spec.lean` contains the notions used in the statements. -/

namespace Verif.GeoMap.Props
open Verif Verif.GeoMap

variable {K : Type} [Field K] [LinearOrder K]

/-- **C20 (a)** With an `EdgeProtection` attached (beside any other callbacks `c`), after any sequence of calls that
does not change flags of protected edges, every segment of an edge that was protected before is drawn by
edges with exactly the same flags. -/
theorem protected_stays_drawn (c : Slots K) {s t : GMap K} (hs : ReachG s) (hh : Hist c.attachProtection.hooks (Op.keeps id) s t)
    {l : Nat} {e : Edge K} (he : s.edge l = some e) (hp : e.flags &&& 0xff ≠ 0) {p q : Pt K} (ha : Adjacent e.pts p q) :
    Drawn id t e.flags p q :=
  Drawn.hist (v := id) (fun _ _ h => congrArg protBits h) (attach_protecting c) hh hs (x := e.flags) hp (.segment he rfl ha)

/-- **C20 (b)** The same for the protection bits, if also other bits of the flags may change. -/
theorem protected_bits_stay_drawn (c : Slots K) {s t : GMap K} (hs : ReachG s) (hh : Hist c.attachProtection.hooks (Op.keeps protBits) s t)
    {l : Nat} {e : Edge K} (he : s.edge l = some e) (hp : e.flags &&& 0xff ≠ 0) {p q : Pt K} (ha : Adjacent e.pts p q) :
    Drawn protBits t (e.flags &&& 0xff) p q :=
  Drawn.hist (v := protBits) (fun _ _ h => h) (attach_protecting c) hh hs (x := e.flags) hp (.segment he rfl ha)

/-- **C20 (c)** `removeEdges`, `removeBridges`, `removeIsolatedNodes`, `mergeDegree2Nodes` and `mergeFacesCompletely`
are such sequences. -/
theorem composed_hist (h : Hooks K) {s t : GMap K} (hs : ReachG s) :
    (∀ labels r, s.removeEdges h labels = .ok (r, t) → Hist h (Op.keeps protBits) s t) ∧
    (∀ bs r, s.removeBridges h bs = .ok (r, t) → Hist h (Op.keeps protBits) s t) ∧
    (∀ r, s.removeAllBridges h = .ok (r, t) → Hist h (Op.keeps protBits) s t) ∧
    (∀ r, s.removeIsolatedNodes h = .ok (r, t) → Hist h (Op.keeps protBits) s t) ∧
    (∀ r, s.mergeDegree2Nodes h = .ok (r, t) → Hist h (Op.keeps protBits) s t) ∧
    (∀ d m r, s.mergeFacesCompletely h d m = .ok (r, t) → Hist h (Op.keeps protBits) s t) := by
  refine ⟨fun labels r e => ?_, fun bs r e => removeBridgesLoop_hist _ _ hs e, fun r e => ?_, fun r e => isolatedLoop_hist _ hs e,
    fun r e => degree2Loop_hist _ hs e, fun d m r e => ?_⟩
  · unfold GMap.removeEdges at e
    obtain ⟨⟨c, bs, u1⟩, e1, e⟩ := Outcome.bind_eq_ok.mp e
    obtain ⟨⟨c1, u2⟩, e2, e⟩ := Outcome.bind_eq_ok.mp e
    obtain ⟨⟨c2, u3⟩, e3, e⟩ := Outcome.bind_eq_ok.mp e
    obtain ⟨⟨c3, u4⟩, e4, e⟩ := Outcome.bind_eq_ok.mp e
    cases e
    have h1 : PHist h s u1 := removeEdgesLoop_hist _ hs e1
    have h2 : PHist h s u2 := h1.trans (removeBridgesLoop_hist _ _ (h1.reachG hs) e2)
    have h3 : PHist h s u3 := h2.trans (isolatedLoop_hist _ (h2.reachG hs) e3)
    exact h3.trans (degree2Loop_hist _ (h3.reachG hs) e4)
  · unfold GMap.removeAllBridges at e
    have h1 : PHist h s _ := markBridges_hist (List.range s.nEdges) s
    exact h1.trans (removeBridgesLoop_hist _ _ (h1.reachG hs) e)
  · unfold GMap.mergeFacesCompletely at e
    obtain ⟨ed, -, e⟩ := Outcome.bind_eq_ok.mp e
    by_cases hb : ed.leftF = ed.rightF
    · rw [if_pos hb] at e; cases e
    rw [if_neg hb] at e
    obtain ⟨ds, -, e⟩ := Outcome.bind_eq_ok.mp e
    cases ds with
    | none => cases e; exact .refl s
    | some ds =>
      obtain ⟨⟨r', ns, u⟩, e1, e⟩ := Outcome.bind_eq_ok.mp e
      obtain ⟨w, e2, e⟩ := Outcome.bind_eq_ok.mp e
      cases e
      have h1 : PHist h s u := mergeCommon_hist _ hs e1
      exact h1.trans (cleanNodes_hist _ (h1.reachG hs) e2)

/-- **C20 (d)** `mergeFaces` and `removeBridge` of a protected edge have no result and remove nothing. -/
theorem protected_not_removed (c : Slots K) {s t : GMap K} (hs : Reach s) {d : Int} {e : Edge K} (he : s.edge d.natAbs = some e) (hp : e.flags &&& 0xff ≠ 0)
    {r : Option Nat} (hr : s.mergeFaces c.attachProtection.hooks d = .ok (r, t) ∨ s.removeBridge c.attachProtection.hooks d = .ok (r, t)) :
    r = none ∧ t.edge = s.edge ∧ t.node = s.node := by
  have hf : e.flag allProtection = true := by unfold Edge.flag allProtection; simpa using hp
  cases r with
  | some f =>
    exfalso
    rcases hr with hr | hr
    · rw [mergeFaces_protected hs.good (attach_protecting c) hr he] at hf; cases hf
    · rw [removeBridge_protected hs.good (attach_protecting c) hr he] at hf; cases hf
  | none =>
    refine ⟨rfl, ?_⟩
    rcases hr with hr | hr
    · obtain ⟨fc, hfc⟩ := (mergeFaces_vetoed hs.good.map hr).eq
      rw [hfc]; exact ⟨rfl, rfl⟩
    · rw [removeBridge_vetoed hs.good hr]; exact ⟨rfl, rfl⟩

/-- **C20 (e)** Edges with different flags are not joined by `mergeEdges`: the map stays as it is. -/
theorem different_flags_not_joined (c : Slots K) {s t : GMap K} (hs : Reach s) {d : Int} {e1 e2 : Edge K} (h1 : s.edge d.natAbs = some e1)
    (h2 : s.edge (s.nextSigma d).natAbs = some e2) (hne : e1.flags ≠ e2.flags) {r : Option Nat} (hr : s.mergeEdges c.attachProtection.hooks d = .ok (r, t)) :
    r = none ∧ t.edge = s.edge ∧ t.node = s.node := by
  cases r with
  | some f =>
    exfalso
    obtain ⟨x1, x2, g1, g2, g3⟩ := mergeEdges_protected hs.good (attach_protecting c) hr
    rw [h1] at g1; rw [h2] at g2; cases g1; cases g2
    exact hne g3
  | none =>
    refine ⟨rfl, ?_⟩
    obtain ⟨fc, hfc⟩ := (mergeEdges_vetoed hs.good.map hr).1.eq
    rw [hfc]; exact ⟨rfl, rfl⟩

/-! ## examples -/

/-- no other callbacks -/
def noSlots : Slots ℚ := ⟨[], [], [], []⟩
/-- the example map with the two parts of the bridge and edge 2 protected -/
def exProt : GMap ℚ := Example.next (Example.next (Example.next exSplit (.setFlags 4 1)) (.setFlags 5 1)) (.setFlags 2 3)

theorem exProt_reach : ReachG exProt := by
  refine Example.reach_next (op := .setFlags 2 3) (Example.reach_next (op := .setFlags 5 1) (Example.reach_next (op := .setFlags 4 1) exSplit_reach
    trivial trivial ?_ ?_) trivial trivial ?_ ?_) trivial trivial ?_ ?_
  all_goals first | (intro h; exact absurd (by decide +kernel) h) | decide +kernel

/-- `removeEdges([1, 2, 4])`: edge 1 is removed, edge 2 stays; the two parts of the bridge (4, 5) stay and carry
different flags now, so they are not joined -/
def exAfter : GMap ℚ := (Example.val (0, exProt) (exProt.removeEdges noSlots.attachProtection.hooks [1, 2, 4])).2

example : exProt.removeEdges noSlots.attachProtection.hooks [1, 2, 4] = .ok (1, exAfter) ∧
    (List.range 6).map (fun l => (exAfter.edge l).map (·.flags)) = [none, none, some 3, some 0, some 0x80000001, some 1] := by
  refine ⟨?_, by decide +kernel⟩
  rw [Example.ok_val (a := (0, exProt)) (o := exProt.removeEdges noSlots.attachProtection.hooks [1, 2, 4]) (by decide +kernel)]
  congr 1
  refine Prod.ext ?_ rfl
  decide +kernel

/-- the hypotheses of C20 (b) hold in this case -/
example : Drawn protBits exAfter (3 &&& 0xff) (0, 0) (1, 0) := by
  have h2 : (exProt.edge 2).map (fun e => (e.flags, e.pts)) = some (3, [(0, 0), (1, 0), (2, 0)]) := by decide +kernel
  cases he : exProt.edge 2 with
  | none => rw [he] at h2; cases h2
  | some e =>
    rw [he] at h2
    simp only [Option.map_some, Option.some.injEq, Prod.mk.injEq] at h2
    have := protected_bits_stay_drawn noSlots exProt_reach ((composed_hist noSlots.attachProtection.hooks exProt_reach).1 [1, 2, 4] _
      (Example.ok_val (a := (0, exProt)) (o := exProt.removeEdges noSlots.attachProtection.hooks [1, 2, 4]) (by decide +kernel)))
      he (by rw [h2.1]; decide) (p := (0, 0)) (q := (1, 0)) ⟨0, by rw [h2.2]; rfl, by rw [h2.2]; rfl⟩
    rw [h2.1] at this
    exact this

/-- Finding: `removeEdges` changes the flags of a protected bridge it is asked to remove (the flag `REMOVE_BRIDGE` stays
set), so C20 (a) does not extend to it; afterwards the bridge can not be joined with its (equally protected)
continuation any more. -/
theorem removeEdges_protected_flags_violated : ∃ (s t : GMap ℚ) (r : Nat), ReachG s ∧ s.removeEdges noSlots.attachProtection.hooks [1, 2, 4] = .ok (r, t) ∧
    (s.edge 4).map (·.flags) = some 1 ∧ (s.edge 5).map (·.flags) = some 1 ∧ (t.edge 4).map (·.flags) = some 0x80000001 ∧ (t.edge 5).map (·.flags) = some 1 := by
  refine ⟨exProt, _, _, exProt_reach, Example.ok_val (a := (0, exProt)) (by decide +kernel), ?_, ?_, ?_, ?_⟩ <;> decide +kernel

omit [LinearOrder K] in
theorem Drawn.exists {v : Nat → Nat} {t : GMap K} {f : Nat} {p q : Pt K} (h : Drawn v t f p q) : ∃ l e, t.edge l = some e ∧ v e.flags = f := by
  induction h with
  | segment he hv _ => exact ⟨_, _, he, hv⟩
  | reverse _ ih => exact ih
  | compose _ _ _ ih _ => exact ih

/-- the graph before initialization, edge 1 protected -/
def exGraphProt : GMap ℚ := Example.next Example.graph (.setFlags 1 1)

/-- Finding: before the map is initialized, `removeEdge` does not ask the callbacks: it removes a protected edge. -/
theorem removeEdge_uninitialized_violated : ∃ (s t : GMap ℚ) (e : Edge ℚ), ReachG s ∧ (Op.removeEdge 1).run noSlots.attachProtection.hooks s = .ok t ∧
    s.edge 1 = some e ∧ e.flags &&& 0xff ≠ 0 ∧ ∀ p q, ¬ Drawn protBits t (e.flags &&& 0xff) p q := by
  have hR : ReachG exGraphProt := Example.reach_next (op := .setFlags 1 1) Example.reach_graph trivial trivial (by decide +kernel)
    (fun _ h => absurd h (by decide +kernel))
  have hr := Example.ok_val (a := GMap.empty) (o := (Op.removeEdge 1).run noSlots.attachProtection.hooks exGraphProt) (by decide +kernel)
  obtain ⟨t, ht⟩ : ∃ t, t = Example.val GMap.empty ((Op.removeEdge 1).run noSlots.attachProtection.hooks exGraphProt) := ⟨_, rfl⟩
  rw [← ht] at hr
  have hRt : ReachG t := .call noSlots.attachProtection.hooks (.removeEdge 1) hR trivial trivial hr (fun _ h => absurd h (by rw [ht]; decide +kernel))
  have he : (exGraphProt.edge 1).map (·.flags) = some 1 := by decide +kernel
  cases h1 : exGraphProt.edge 1 with
  | none => rw [h1] at he; cases he
  | some e =>
    rw [h1] at he
    simp only [Option.map_some, Option.some.injEq] at he
    refine ⟨exGraphProt, t, e, hR, hr, h1, by rw [he]; decide, fun p q hd => ?_⟩
    obtain ⟨l, e', h2, h3⟩ := Drawn.exists hd
    have hlt := hRt.reach.good.map.graph.edge_lt l (by simp [h2])
    have hall : ∀ l < t.nEdges, (t.edge l).all (fun e => decide (e.flags = 0)) = true := by rw [ht]; decide +kernel
    have := hall l hlt
    rw [h2] at this
    simp only [Option.all_some, decide_eq_true_eq] at this
    rw [this, he] at h3
    revert h3
    decide

end Verif.GeoMap.Props
