import Verif.Hooks.Model
import Verif.GeoMap.Props
import Verif.GeoMap.PropLemmas2

/-!
# C10: the protocol of the callbacks
-/

namespace Verif.GeoMap.Props
open Verif Verif.GeoMap

variable {K : Type}

/-! ## Specification -/

/-- `calls` is what asking the slots `fs` of signal `sig` about `cell` does: they are called in order, each
at most once, with this cell; all but the last called slot agreed; `answer` is true iff all slots agree, then all
were called; if not, the last one called is the first that disagrees. -/
structure Asked {α : Type} (sig : Sig) (cell : Int) (fs : List (α → Bool)) (a : α) (answer : Bool) (calls : List Ev) : Prop where
  order : calls = (List.range calls.length).map fun i => ⟨sig, i, cell⟩
  bound : calls.length ≤ fs.length
  prefix_agrees : ∀ i f, i + 1 < calls.length → fs[i]? = some f → f a = true
  yes : answer = true ↔ ∀ f ∈ fs, f a = true
  all_called : answer = true → calls.length = fs.length
  stop : answer = false → ∃ i f, calls.length = i + 1 ∧ fs[i]? = some f ∧ f a = false

/-! ## Proofs -/

theorem ask_gen {α : Type} (sig : Sig) (cell : Int) (a : α) : ∀ (fs : List (α → Bool)) (j : Nat),
    (ask sig cell j fs a).2 = (List.range (ask sig cell j fs a).2.length).map (fun i => ⟨sig, j + i, cell⟩) ∧
    (ask sig cell j fs a).2.length ≤ fs.length ∧
    (∀ i f, i + 1 < (ask sig cell j fs a).2.length → fs[i]? = some f → f a = true) ∧
    ((ask sig cell j fs a).1 = true ↔ ∀ f ∈ fs, f a = true) ∧
    ((ask sig cell j fs a).1 = true → (ask sig cell j fs a).2.length = fs.length) ∧
    ((ask sig cell j fs a).1 = false → ∃ i f, (ask sig cell j fs a).2.length = i + 1 ∧ fs[i]? = some f ∧ f a = false)
  | [], j => by simp [ask]
  | f :: fs, j => by
    obtain ⟨h1, h2, h3, h4, h5, h6⟩ := ask_gen sig cell a fs (j + 1)
    by_cases hf : f a = true
    · simp only [ask, hf, if_true, List.length_cons]
      refine ⟨?_, by omega, ?_, ?_, fun h => by rw [h5 h], ?_⟩
      · rw [List.range_succ_eq_map, List.map_cons, List.map_map]
        conv_lhs => rw [h1]
        simp only [Nat.add_zero, List.cons.injEq, true_and]
        apply List.map_congr_left
        intro i _
        simp only [Function.comp_apply, Ev.mk.injEq, true_and, and_true]
        omega
      · intro i g hi hg
        cases i with
        | zero => simp only [List.getElem?_cons_zero, Option.some.injEq] at hg; rw [← hg]; exact hf
        | succ i => exact h3 i g (by omega) (by simpa using hg)
      · rw [h4]; simp [hf]
      · intro h
        obtain ⟨i, g, q1, q2, q3⟩ := h6 h
        exact ⟨i + 1, g, by omega, by simpa using q2, q3⟩
    · have hf' : f a = false := by simpa using hf
      have e : ask sig cell j (f :: fs) a = (false, [⟨sig, j, cell⟩]) := by simp [ask, hf']
      rw [e]
      refine ⟨by simp, by simp, fun i _ hi => by simp at hi, ?_, fun h => (by cases h), fun _ => ⟨0, f, rfl, rfl, hf'⟩⟩
      constructor
      · intro h; cases h
      · intro h; rw [h f (by simp)] at hf'; cases hf'

/-- **C10 (a)** Asking the connected slots follows the protocol. -/
theorem ask_protocol {α : Type} (sig : Sig) (cell : Int) (fs : List (α → Bool)) (a : α) :
    Asked sig cell fs a (ask sig cell 0 fs a).1 (ask sig cell 0 fs a).2 := by
  obtain ⟨h1, h2, h3, h4, h5, h6⟩ := ask_gen sig cell a fs 0
  simp only [Nat.zero_add] at h1
  exact ⟨h1, h2, h3, h4, h5, h6⟩

/-- **C10 (a)** A signal without answer calls every connected slot exactly once, in the order in which they were connected. -/
theorem notify_protocol (sig : Sig) (cell : Int) (n : Nat) :
    (notify sig cell n).length = n ∧ ∀ i < n, (notify sig cell n)[i]? = some ⟨sig, i, cell⟩ := by
  unfold notify
  refine ⟨by simp, fun i hi => ?_⟩
  rw [List.getElem?_map, List.getElem?_range hi]
  rfl

example : ask .removeNode 7 0 [fun n : Nat => n = 3, fun n => n = 4, fun n => n = 3] 3 = (false, [⟨.removeNode, 0, 7⟩, ⟨.removeNode, 1, 7⟩]) := by decide

theorem ask_accumulate {α : Type} (sig : Sig) (cell : Int) (a : α) : ∀ (fs : List (α → Bool)) (j : Nat), (ask sig cell j fs a).1 = accumulate fs a
  | [], _ => rfl
  | f :: fs, j => by
    unfold ask accumulate
    split_ifs
    · exact ask_accumulate sig cell a fs (j + 1)
    · rfl

theorem map_bind {α β γ : Type} (g : β → γ) (o : Outcome α) (f : α → Outcome β) : (o.bind f).map g = o.bind fun x => (f x).map g := by
  cases o <;> rfl

theorem bind_map {α β γ : Type} (g : α → β) (o : Outcome α) (f : β → Outcome γ) : (o.map g).bind f = o.bind fun x => f (g x) := by
  cases o <;> rfl

/-- forgets the calls -/
def dropLog {α β γ : Type} (x : α × β × γ) : α × β := (x.1, x.2.1)

theorem removeIsolatedNodeL_erase (c : Listeners K) (s : GMap K) (n : Nat) :
    (s.removeIsolatedNodeL c n).map dropLog = s.removeIsolatedNode c.slots.hooks n := by
  unfold GMap.removeIsolatedNodeL GMap.removeIsolatedNode
  simp only [bind, map_bind]
  refine congrArg _ (funext fun _ => ?_)
  have : (c.askNode s n).1 = c.slots.hooks.removeNode s n := ask_accumulate _ _ _ _ _
  rw [← this]
  split_ifs <;> rfl

theorem mergeEdgesL_erase (c : Listeners K) (s : GMap K) (d : Int) :
    (s.mergeEdgesL c d).map dropLog = s.mergeEdges c.slots.hooks d := by
  unfold GMap.mergeEdgesL GMap.mergeEdges
  simp only [bind, map_bind]
  refine congrArg _ (funext fun _ => ?_)
  split_ifs <;> try rfl
  all_goals
    simp only [map_bind]
    refine congrArg _ (funext fun m => congrArg _ (funext fun _ => congrArg _ (funext fun e2 => congrArg _ (funext fun u => ?_))))
    unfold GMap.mergeEdgesHooked
    have h1 : ∀ d, (c.askMergeEdges u d).1 = c.slots.hooks.preMergeEdges u d := fun d => ask_accumulate _ _ _ _ _
    have h2 : (c.askNode u m).1 = c.slots.hooks.removeNode u m := ask_accumulate _ _ _ _ _
    simp only [← h1, ← h2]
    split_ifs <;> try rfl
    all_goals
      simp only [bind, map_bind]
      unfold GMap.mergeEdgesApply
      simp only [bind]
      cases u.guaranteedEdge _ <;> try rfl
      all_goals
        simp only [Outcome.bind_ok]
        split_ifs
        all_goals first | rfl | (cases GMap.derefNode _ _ <;> rfl)

theorem splitEdgeL_erase (c : Listeners K) (s : GMap K) (l i : Nat) (p : Option (Pt K)) :
    (s.splitEdgeL c l i p).map dropLog = s.splitEdge l i p := by
  unfold GMap.splitEdgeL
  simp only [bind, map_bind]
  cases s.splitEdge l i p <;> rfl

variable [Field K] [LinearOrder K]

theorem bridgeUpdateL_erase (c : Listeners K) (s : GMap K) (e : Edge K) (f : Nat) (F : Face K) (i : Nat) (dart a1 a2 : Int) :
    (s.bridgeUpdateL c e f F i dart a1 a2).map Prod.fst = s.bridgeUpdate c.slots.hooks e f F i dart a1 a2 := by
  unfold GMap.bridgeUpdateL GMap.bridgeUpdate
  have hR : ∀ (u : GMap K) n, u.removeIsolatedNode c.slots.hooks n = (u.removeIsolatedNodeL c n).map dropLog := fun u n => (removeIsolatedNodeL_erase c u n).symm
  simp only [hR]
  split_ifs
  · simp only [bind, map_bind, bind_map]; rfl
  · simp only [bind, map_bind, bind_map]; rfl
  · simp only [bind, map_bind, bind_map]; rfl
  · simp only [bind, map_bind]; rfl

theorem removeBridgeL_erase (c : Listeners K) (s : GMap K) (d : Int) :
    (s.removeBridgeL c d).map dropLog = s.removeBridge c.slots.hooks d := by
  unfold GMap.removeBridgeL GMap.removeBridge
  simp only [bind, map_bind]
  refine congrArg _ (funext fun e => congrArg _ (funext fun F => congrArg _ (funext fun _ => ?_)))
  by_cases hlr : e.leftOf d ≠ e.rightOf d
  · rw [if_pos hlr, if_pos hlr]; rfl
  rw [if_neg hlr, if_neg hlr]
  cases e.leftOf d with
  | none => rfl
  | some f =>
    simp only [map_bind]
    refine congrArg _ (funext fun _ => congrArg _ (funext fun _ => ?_))
    by_cases hn : e.startOf d = e.endOf d
    · rw [if_pos hn, if_pos hn]; rfl
    · rw [if_neg hn, if_neg hn]
      unfold GMap.removeBridgeHooked
      have h1 : (c.askRemoveBridge s d).1 = c.slots.hooks.preRemoveBridge s d := ask_accumulate _ _ _ _ _
      simp only [← h1]
      by_cases hq : (c.askRemoveBridge s d).1 = true
      · rw [if_neg (by simpa using hq), if_neg (by simpa using hq)]
        simp only [bind, map_bind]
        refine congrArg _ (funext fun _ => congrArg _ (funext fun _ => congrArg _ (funext fun _ => ?_)))
        rw [← bridgeUpdateL_erase, bind_map]
        rfl
      · rw [if_pos (by simpa using hq), if_pos (by simpa using hq)]
        rfl

omit [Field K] [LinearOrder K] in
theorem removeIfIsolatedL_erase (c : Listeners K) (s : GMap K) (n : Nat) :
    (s.removeIfIsolatedL c n).map Prod.fst = s.removeIfIsolated c.slots.hooks n := by
  unfold GMap.removeIfIsolatedL GMap.removeIfIsolated
  simp only [bind, map_bind]
  refine congrArg _ (funext fun nd => ?_)
  split_ifs
  · rw [← removeIsolatedNodeL_erase, map_bind, bind_map]; rfl
  · rfl

omit [LinearOrder K] in
theorem mergeFacesApplyL_erase (c : Listeners K) (s : GMap K) (r : Int) (S M : Face K) (n1 sl ml : Nat) :
    (s.mergeFacesApplyL c r S M n1 sl ml).map Prod.fst = s.mergeFacesApply c.slots.hooks r S M n1 sl ml := by
  unfold GMap.mergeFacesApplyL GMap.mergeFacesApply
  simp only [bind, map_bind]
  refine congrArg _ (funext fun _ => congrArg _ (funext fun _ => congrArg _ (funext fun _ => congrArg _ (funext fun _ => congrArg _ (funext fun _ => congrArg _ (funext fun _ => ?_))))))
  rw [← removeIfIsolatedL_erase, bind_map]
  rfl

theorem mergeFacesL_erase (c : Listeners K) (s : GMap K) (d : Int) :
    (s.mergeFacesL c d).map dropLog = s.mergeFaces c.slots.hooks d := by
  unfold GMap.mergeFacesL GMap.mergeFaces
  simp only [bind, map_bind]
  refine congrArg _ (funext fun e => congrArg _ (funext fun x => congrArg _ (funext fun y => congrArg _ (funext fun S => congrArg _ (funext fun M => congrArg _ (funext fun _ => ?_))))))
  generalize GMap.chooseDart d (e.leftOf d) (e.rightOf d) x.1 y.1 = r
  cases e.leftOf r with
  | none => rfl
  | some sl =>
    cases e.rightOf r with
    | none => rfl
    | some ml =>
      dsimp only
      by_cases hne : sl = ml
      · rw [if_pos hne, if_pos hne]; rfl
      · rw [if_neg hne, if_neg hne]
        unfold GMap.mergeFacesHooked
        have h1 : (c.askMergeFaces y.2 r).1 = c.slots.hooks.preMergeFaces y.2 r := ask_accumulate _ _ _ _ _
        simp only [← h1]
        by_cases hq : (c.askMergeFaces y.2 r).1 = true
        · rw [if_neg (by simpa using hq), if_neg (by simpa using hq)]
          simp only [bind, map_bind]
          rw [← mergeFacesApplyL_erase]
          cases GMap.mergeFacesApplyL c _ _ _ _ _ _ _ <;> rfl
        · rw [if_pos (by simpa using hq), if_pos (by simpa using hq)]
          rfl

/-! ## the operations -/

/-- a slot of a signal as a function of the pair of its arguments -/
abbrev pairs {α β : Type} (fs : List (α → β → Bool)) : List (α × β → Bool) := fs.map fun f x => f x.1 x.2

omit [Field K] [LinearOrder K] in
/-- **C10 (b)** `removeIsolatedNode`: the slots of `removeNodeHook` are asked about the node, once; the result is
true iff all agree; if not, the map is unchanged. -/
theorem removeIsolatedNode_protocol {c : Listeners K} {s t : GMap K} {n : Nat} {b : Bool} {log : List Ev} (h : s.removeIsolatedNodeL c n = .ok (b, t, log)) :
    Asked .removeNode n (pairs c.slots.removeNode) (s, n) b log ∧ (b = false → t = s) := by
  unfold GMap.removeIsolatedNodeL at h
  obtain ⟨nd, -, h⟩ := Outcome.bind_eq_ok.mp h
  have hA := ask_protocol .removeNode (n : Int) (pairs c.slots.removeNode) (s, n)
  by_cases hq : (c.askNode s n).1 = true
  · rw [if_pos hq] at h; cases h
    exact ⟨by rw [← hq]; exact hA, fun hh => by cases hh⟩
  · rw [if_neg hq] at h; cases h
    have : (c.askNode s n).1 = false := by simpa using hq
    exact ⟨by rw [← this]; exact hA, fun _ => rfl⟩

/-- the state shown to the callbacks is that before the call, except for the cached areas and the anchors
of the contours -/
def SameDrawing (s u : GMap K) : Prop := u.node = s.node ∧ u.edge = s.edge ∧ u.sigma = s.sigma ∧ u.sigmaInv = s.sigmaInv

omit [Field K] [LinearOrder K] in
/-- **C10 (c)** `mergeEdges`: first the slots of `preMergeEdgesHook` are asked, then, if these agreed, those of
`removeNodeHook`; iff both agreed the operation is executed, and then each slot of `postMergeEdgesHook` is called
exactly once, at the end, with the surviving edge. -/
theorem mergeEdges_protocol {c : Listeners K} {s t : GMap K} {d : Int} {r : Option Nat} {log : List Ev} (h : s.mergeEdgesL c d = .ok (r, t, log)) :
    ∃ (u : GMap K) (d1 : Int) (m : Nat) (b1 b2 : Bool) (q1 q2 q3 : List Ev), log = q1 ++ q2 ++ q3 ∧ SameDrawing s u ∧ (d1 = d ∨ d1 = s.nextSigma d) ∧
      Asked .preMergeEdges d1 (pairs c.slots.preMergeEdges) (u, d1) b1 q1 ∧
      (if b1 then Asked .removeNode m (pairs c.slots.removeNode) (u, m) b2 q2 else q2 = []) ∧
      (if b1 ∧ b2 then r = some d1.natAbs ∧ q3 = notify .postMergeEdges d1.natAbs c.postMergeEdges else r = none ∧ t = u ∧ q3 = []) := by
  unfold GMap.mergeEdgesL at h
  obtain ⟨_, -, h⟩ := Outcome.bind_eq_ok.mp h
  dsimp only at h
  by_cases c1 : (s.sigma d).natAbs = d.natAbs
  · rw [if_pos c1] at h; cases h
  rw [if_neg c1] at h
  by_cases c2 : s.sigma (s.sigma d) ≠ d
  · rw [if_pos c2] at h; cases h
  rw [if_neg c2] at h
  push Not at c2
  rw [c2] at h
  obtain ⟨m, -, h⟩ := Outcome.bind_eq_ok.mp h
  obtain ⟨_, -, h⟩ := Outcome.bind_eq_ok.mp h
  obtain ⟨e2, -, h⟩ := Outcome.bind_eq_ok.mp h
  obtain ⟨u, hu, h⟩ := Outcome.bind_eq_ok.mp h
  have hS : SameDrawing s u := by
    obtain ⟨⟨f', rfl⟩, -⟩ := moveAnchors_same hu
    exact ⟨rfl, rfl, rfl, rfl⟩
  have hd1 : (if 0 < d ∧ s.sigma d < 0 then s.sigma d else d) = d ∨ (if 0 < d ∧ s.sigma d < 0 then s.sigma d else d) = s.nextSigma d := by
    unfold GMap.nextSigma
    split_ifs
    · exact Or.inr rfl
    · exact Or.inl rfl
  generalize (if 0 < d ∧ s.sigma d < 0 then s.sigma d else d) = d1 at h hd1
  generalize (if 0 < d ∧ s.sigma d < 0 then d else s.sigma d) = d2 at h
  unfold GMap.mergeEdgesHooked at h
  have hA1 := ask_protocol .preMergeEdges d1 (pairs c.slots.preMergeEdges) (u, d1)
  have hA2 := ask_protocol .removeNode (m : Int) (pairs c.slots.removeNode) (u, m)
  dsimp only at h
  by_cases h1 : (c.askMergeEdges u d1).1 = true
  swap
  · rw [if_pos (by simpa using h1)] at h
    cases h
    have h1' : (c.askMergeEdges t d1).1 = false := by simpa using h1
    refine ⟨t, d1, m, false, false, _, [], [], (by simp; rfl), hS, hd1, (by rw [← h1']; exact hA1), by simp, by simp⟩
  rw [if_neg (by simpa using h1)] at h
  by_cases h2 : (c.askNode u m).1 = true
  swap
  · rw [if_pos (by simpa using h2)] at h
    cases h
    have h2' : (c.askNode t m).1 = false := by simpa using h2
    refine ⟨t, d1, m, true, false, (c.askMergeEdges t d1).2, (c.askNode t m).2, [], (by simp), hS, hd1, (by rw [← h1]; exact hA1), ?_, by simp⟩
    rw [if_pos rfl, ← h2']; exact hA2
  rw [if_neg (by simpa using h2)] at h
  obtain ⟨x, hx, h⟩ := Outcome.bind_eq_ok.mp h
  cases h
  refine ⟨u, d1, m, true, true, (c.askMergeEdges u d1).2, (c.askNode u m).2, _, rfl, hS, hd1, (by rw [← h1]; exact hA1), ?_, ?_⟩
  · rw [if_pos rfl, ← h2]; exact hA2
  · rw [if_pos ⟨rfl, rfl⟩]
    refine ⟨?_, rfl⟩
    unfold GMap.mergeEdgesApply at hx
    obtain ⟨e1, -, hx⟩ := Outcome.bind_eq_ok.mp hx
    dsimp only at hx
    by_cases c3 : e2.pts = []
    · rw [if_pos c3] at hx; cases hx
    rw [if_neg c3] at hx
    obtain ⟨nd, -, hx⟩ := Outcome.bind_eq_ok.mp hx
    cases hx
    rfl

/-- **C10 (d)** `removeBridge`: the slots of `preRemoveBridgeHook` are asked; iff all agree the operation is executed;
during it only slots of `removeNodeHook` are called, and at the end each slot of `postRemoveBridgeHook` exactly
once with the face.  Otherwise the map is unchanged and no other slot is called. -/
theorem removeBridge_protocol {c : Listeners K} {s t : GMap K} {d : Int} {r : Option Nat} {log : List Ev} (h : s.removeBridgeL c d = .ok (r, t, log)) :
    ∃ b q1 q2 q3, log = q1 ++ q2 ++ q3 ∧ Asked .preRemoveBridge d (pairs c.slots.preRemoveBridge) (s, d) b q1 ∧
      (b = false → r = none ∧ t = s ∧ q2 = [] ∧ q3 = []) ∧
      (b = true → (∀ e ∈ q2, e.sig = .removeNode) ∧ ∃ f, r = some f ∧ s.left? d = some f ∧ q3 = notify .postRemoveBridge f c.postRemoveBridge) := by
  unfold GMap.removeBridgeL at h
  obtain ⟨e, he, h⟩ := Outcome.bind_eq_ok.mp h
  have he' : s.edge d.natAbs = some e := by
    unfold GMap.guaranteedEdge at he
    cases h2 : s.edge d.natAbs <;> rw [h2] at he <;> cases he
    rfl
  obtain ⟨F, -, h⟩ := Outcome.bind_eq_ok.mp h
  obtain ⟨_, -, h⟩ := Outcome.bind_eq_ok.mp h
  by_cases hlr : e.leftOf d ≠ e.rightOf d
  · rw [if_pos hlr] at h; cases h
  rw [if_neg hlr] at h
  cases hf : e.leftOf d with
  | none => rw [hf] at h; cases h
  | some f =>
    rw [hf] at h
    obtain ⟨_, -, h⟩ := Outcome.bind_eq_ok.mp h
    obtain ⟨_, -, h⟩ := Outcome.bind_eq_ok.mp h
    by_cases hn : e.startOf d = e.endOf d
    · rw [if_pos hn] at h; cases h
    rw [if_neg hn] at h
    unfold GMap.removeBridgeHooked at h
    have hA := ask_protocol .preRemoveBridge d (pairs c.slots.preRemoveBridge) (s, d)
    dsimp only at h
    by_cases hq : (c.askRemoveBridge s d).1 = true
    swap
    · rw [if_pos (by simpa using hq)] at h
      cases h
      have hq' : (c.askRemoveBridge s d).1 = false := by simpa using hq
      exact ⟨false, _, [], [], (by simp; rfl), by rw [← hq']; exact hA, fun _ => ⟨rfl, rfl, rfl, rfl⟩, fun hh => by cases hh⟩
    rw [if_neg (by simpa using hq)] at h
    obtain ⟨i, -, h⟩ := Outcome.bind_eq_ok.mp h
    obtain ⟨s1, -, h⟩ := Outcome.bind_eq_ok.mp h
    obtain ⟨s2, -, h⟩ := Outcome.bind_eq_ok.mp h
    obtain ⟨⟨s3, q'⟩, h3, h⟩ := Outcome.bind_eq_ok.mp h
    cases h
    refine ⟨true, _, q', _, rfl, by rw [← hq]; exact hA, fun hh => (by cases hh), fun _ => ⟨?_, f, rfl, by rw [left?_of he']; exact hf, rfl⟩⟩
    have hsig : ∀ {v w : GMap K} {n : Nat} {b : Bool} {l : List Ev}, v.removeIsolatedNodeL c n = .ok (b, w, l) → ∀ e ∈ l, e.sig = .removeNode := by
      intro v w n b l hv x hx
      rw [(removeIsolatedNode_protocol hv).1.order] at hx
      obtain ⟨j, -, rfl⟩ := List.mem_map.mp hx
      rfl
    unfold GMap.bridgeUpdateL at h3
    split_ifs at h3
    · obtain ⟨⟨b1, w1, l1⟩, g1, h3⟩ := Outcome.bind_eq_ok.mp h3
      obtain ⟨⟨b2, w2, l2⟩, g2, h3⟩ := Outcome.bind_eq_ok.mp h3
      cases h3
      intro x hx
      rcases List.mem_append.mp hx with hx | hx
      · exact hsig g1 x hx
      · exact hsig g2 x hx
    · obtain ⟨⟨b1, w1, l1⟩, g1, h3⟩ := Outcome.bind_eq_ok.mp h3
      cases h3
      exact hsig g1
    · obtain ⟨⟨b1, w1, l1⟩, g1, h3⟩ := Outcome.bind_eq_ok.mp h3
      cases h3
      exact hsig g1
    · obtain ⟨as, -, h3⟩ := Outcome.bind_eq_ok.mp h3
      cases h3
      intro x hx; cases hx

omit [LinearOrder K] in
theorem faceArea_sameDrawing {s t : GMap K} {f : Option Nat} {a : K} (h : s.faceArea f = .ok (a, t)) : SameDrawing s t := by
  unfold GMap.faceArea at h
  obtain ⟨F, -, h⟩ := Outcome.bind_eq_ok.mp h
  cases hF : F.area with
  | some x => rw [hF] at h; cases h; exact ⟨rfl, rfl, rfl, rfl⟩
  | none =>
    cases f with
    | none => rw [hF] at h; cases h
    | some l =>
      rw [hF] at h
      obtain ⟨y, -, h⟩ := Outcome.bind_eq_ok.mp h
      cases h
      exact ⟨rfl, rfl, rfl, rfl⟩

/-- **C10 (e)** `mergeFaces`: the slots of `preMergeFacesHook` are asked; iff all agree the operation is executed;
during it only slots of `removeNodeHook` are called, and at the end each slot of `postMergeFacesHook` exactly
once with the surviving face.  Otherwise nothing is changed (but areas may have been cached) and no other slot is
called. -/
theorem mergeFaces_protocol {c : Listeners K} {s t : GMap K} {d : Int} {r : Option Nat} {log : List Ev} (h : s.mergeFacesL c d = .ok (r, t, log)) :
    ∃ u d' b q1 q2 q3, log = q1 ++ q2 ++ q3 ∧ SameDrawing s u ∧ (d' = d ∨ d' = -d) ∧ Asked .preMergeFaces d' (pairs c.slots.preMergeFaces) (u, d') b q1 ∧
      (b = false → r = none ∧ t = u ∧ q2 = [] ∧ q3 = []) ∧
      (b = true → (∀ e ∈ q2, e.sig = .removeNode) ∧ ∃ f, r = some f ∧ q3 = notify .postMergeFaces f c.postMergeFaces) := by
  unfold GMap.mergeFacesL at h
  obtain ⟨e, he, h⟩ := Outcome.bind_eq_ok.mp h
  obtain ⟨⟨a, s1⟩, h1, h⟩ := Outcome.bind_eq_ok.mp h
  obtain ⟨⟨b, s2⟩, h2, h⟩ := Outcome.bind_eq_ok.mp h
  dsimp only at h
  have g1 := faceArea_sameDrawing h1
  have g2 := faceArea_sameDrawing h2
  have hS : SameDrawing s s2 := ⟨g2.1.trans g1.1, g2.2.1.trans g1.2.1, g2.2.2.1.trans g1.2.2.1, g2.2.2.2.trans g1.2.2.2⟩
  have hr : GMap.chooseDart d (e.leftOf d) (e.rightOf d) a b = d ∨ GMap.chooseDart d (e.leftOf d) (e.rightOf d) a b = -d := by
    unfold GMap.chooseDart
    dsimp only
    split_ifs <;> simp
  generalize GMap.chooseDart d (e.leftOf d) (e.rightOf d) a b = d' at h hr
  obtain ⟨S, -, h⟩ := Outcome.bind_eq_ok.mp h
  obtain ⟨M, -, h⟩ := Outcome.bind_eq_ok.mp h
  obtain ⟨nd, -, h⟩ := Outcome.bind_eq_ok.mp h
  cases hl : e.leftOf d' with
  | none => rw [hl] at h; cases h
  | some sl =>
    cases hrr : e.rightOf d' with
    | none => rw [hl, hrr] at h; cases h
    | some ml =>
      rw [hl, hrr] at h
      dsimp only at h
      by_cases hne : sl = ml
      · rw [if_pos hne] at h; cases h
      rw [if_neg hne] at h
      unfold GMap.mergeFacesHooked at h
      have hA := ask_protocol .preMergeFaces d' (pairs c.slots.preMergeFaces) (s2, d')
      dsimp only at h
      by_cases hq : (c.askMergeFaces s2 d').1 = true
      swap
      · rw [if_pos (by simpa using hq)] at h
        cases h
        have hq' : (c.askMergeFaces t d').1 = false := by simpa using hq
        exact ⟨t, d', false, _, [], [], (by simp; rfl), hS, hr, by rw [← hq']; exact hA, fun _ => ⟨rfl, rfl, rfl, rfl⟩, fun hh => by cases hh⟩
      rw [if_neg (by simpa using hq)] at h
      obtain ⟨⟨s3, q'⟩, h3, h⟩ := Outcome.bind_eq_ok.mp h
      cases h
      refine ⟨s2, d', true, _, q', _, rfl, hS, hr, by rw [← hq]; exact hA, fun hh => (by cases hh), fun _ => ⟨?_, sl, rfl, rfl⟩⟩
      unfold GMap.mergeFacesApplyL at h3
      obtain ⟨_, -, h3⟩ := Outcome.bind_eq_ok.mp h3
      obtain ⟨_, -, h3⟩ := Outcome.bind_eq_ok.mp h3
      obtain ⟨_, -, h3⟩ := Outcome.bind_eq_ok.mp h3
      obtain ⟨_, -, h3⟩ := Outcome.bind_eq_ok.mp h3
      obtain ⟨_, -, h3⟩ := Outcome.bind_eq_ok.mp h3
      obtain ⟨_, -, h3⟩ := Outcome.bind_eq_ok.mp h3
      obtain ⟨⟨s4, q⟩, h4, h3⟩ := Outcome.bind_eq_ok.mp h3
      obtain ⟨_, -, h3⟩ := Outcome.bind_eq_ok.mp h3
      obtain ⟨_, -, h3⟩ := Outcome.bind_eq_ok.mp h3
      obtain ⟨_, -, h3⟩ := Outcome.bind_eq_ok.mp h3
      cases h3
      unfold GMap.removeIfIsolatedL at h4
      obtain ⟨nd', -, h4⟩ := Outcome.bind_eq_ok.mp h4
      by_cases ha : nd'.anchor = 0
      · rw [if_pos ha] at h4
        obtain ⟨⟨b1, w1, l1⟩, g1, h4⟩ := Outcome.bind_eq_ok.mp h4
        cases h4
        intro x hx
        rw [(removeIsolatedNode_protocol g1).1.order] at hx
        obtain ⟨j, -, rfl⟩ := List.mem_map.mp hx
        rfl
      · rw [if_neg ha] at h4
        cases h4
        intro x hx; cases hx

omit [Field K] [LinearOrder K] in
/-- **C10 (f)** `splitEdge` cannot be cancelled: each slot of the two signals is called exactly once, in order. -/
theorem splitEdge_protocol {c : Listeners K} {s t : GMap K} {l i r : Nat} {p : Option (Pt K)} {log : List Ev} (h : s.splitEdgeL c l i p = .ok (r, t, log)) :
    log = notify .preSplitEdge l c.preSplitEdge ++ notify .postSplitEdge l c.postSplitEdge := by
  unfold GMap.splitEdgeL at h
  obtain ⟨x, -, h⟩ := Outcome.bind_eq_ok.mp h
  cases h
  rfl

/-- **C10 (g)** The logged functions are the operations of the map: without the list of calls they are equal. -/
theorem logged_operations (c : Listeners K) (s : GMap K) :
    (∀ n, (s.removeIsolatedNodeL c n).map dropLog = s.removeIsolatedNode c.slots.hooks n) ∧
    (∀ d, (s.mergeEdgesL c d).map dropLog = s.mergeEdges c.slots.hooks d) ∧
    (∀ l i p, (s.splitEdgeL c l i p).map dropLog = s.splitEdge l i p) ∧
    (∀ d, (s.removeBridgeL c d).map dropLog = s.removeBridge c.slots.hooks d) ∧
    (∀ d, (s.mergeFacesL c d).map dropLog = s.mergeFaces c.slots.hooks d) :=
  ⟨removeIsolatedNodeL_erase c s, mergeEdgesL_erase c s, splitEdgeL_erase c s, removeBridgeL_erase c s, mergeFacesL_erase c s⟩

omit [Field K] [LinearOrder K] in
/-- **C10 (h)** With no slots connected to the four asking signals the operations proceed. -/
theorem no_slots_proceed (c : Listeners K) (h1 : c.slots.removeNode = []) (h2 : c.slots.preMergeEdges = []) (h3 : c.slots.preRemoveBridge = [])
    (h4 : c.slots.preMergeFaces = []) : c.slots.hooks = Hooks.none := by
  unfold Slots.hooks Hooks.none
  rw [h1, h2, h3, h4]
  rfl

/-- two slots of which the second objects to edge 2; one slot to be notified -/
def exListeners : Listeners ℚ where
  slots := { removeNode := [], preMergeEdges := [], preRemoveBridge := [],
             preMergeFaces := [fun _ _ => true, fun _ d => decide (d.natAbs ≠ 2), fun _ _ => true] }
  postMergeEdges := 0
  preSplitEdge := 0
  postSplitEdge := 0
  postRemoveBridge := 0
  postMergeFaces := 1

example : (Example.val (none, Example.map, []) (Example.map.mergeFacesL exListeners 2)).2.2 = [⟨.preMergeFaces, 0, 2⟩, ⟨.preMergeFaces, 1, 2⟩] := by decide +kernel
example : (Example.val (none, Example.map, []) (Example.map.mergeFacesL exListeners 1)).2.2 =
    [⟨.preMergeFaces, 0, -1⟩, ⟨.preMergeFaces, 1, -1⟩, ⟨.preMergeFaces, 2, -1⟩, ⟨.postMergeFaces, 0, 0⟩] := by decide +kernel

end Verif.GeoMap.Props
