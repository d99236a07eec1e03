import Verif.Protection.Lemmas

/-! # The composed operations are sequences of basic calls

Whenever one of them returns normally, its effect is that of a sequence of basic operations with the same callbacks,
where flags of edges are changed outside the protection bits only. -/

namespace Verif.GeoMap
open Verif

variable {K : Type} [Field K] [LinearOrder K] {h : Hooks K}

abbrev PHist (h : Hooks K) := Hist h (Op.keeps (K := K) protBits)

theorem Hist.one {ok : GMap K → Op K → Prop} {s t : GMap K} (op : Op K) (hl : op.legal s) (hf : op.fits s) (hk : ok s op) (hr : op.run h s = .ok t)
    (hn : t.nFaces = s.nFaces) : Hist h ok s t :=
  .call op (.refl s) hl hf hk hr (fun h1 h2 => absurd (by unfold GMap.initialized at h2 ⊢; omega) h1)

omit [Field K] [LinearOrder K] in
theorem run_of {A : Type} {o : Outcome (A × GMap K)} {r : A} {t : GMap K} (e : o = .ok (r, t)) : o.map (·.2) = .ok t := by rw [e]; rfl

theorem removeIsolatedNode_hist {s t : GMap K} (hs : ReachG s) {n : Nat} {nd : Node K} {b : Bool} (hn : s.node n = some nd) (ha : nd.anchor = 0)
    (e : s.removeIsolatedNode h n = .ok (b, t)) : PHist h s t := by
  have hI := (isolated_iff_anchor hs.reach hn).mpr ha
  refine Hist.one (.removeIsolatedNode n) hI trivial trivial (run_of e) ?_
  unfold GMap.removeIsolatedNode at e
  obtain ⟨_, -, e⟩ := Outcome.bind_eq_ok.mp e
  split_ifs at e <;> cases e <;> rfl

theorem mergeEdges_hist {s t : GMap K} (hs : ReachG s) {d : Int} {r : Option Nat} (e : s.mergeEdges h d = .ok (r, t)) : PHist h s t := by
  refine Hist.one (.mergeEdges d) trivial trivial trivial (run_of e) ?_
  cases r with
  | none => obtain ⟨f, hf⟩ := (mergeEdges_vetoed hs.reach.good.map e).1.eq; rw [hf]
  | some l => obtain ⟨_, _, _, -, -, E⟩ := mergeEdges_effect hs.reach.good.map e; exact E.sizes.2.2

theorem removeBridge_hist {s t : GMap K} (hs : ReachG s) {d : Int} {r : Option Nat} (e : s.removeBridge h d = .ok (r, t)) : PHist h s t := by
  refine Hist.one (.removeBridge d) trivial trivial trivial (run_of e) ?_
  cases r with
  | none => rw [removeBridge_vetoed hs.reach.good e]
  | some l => exact (removeBridge_effect hs.reach.good e).sizes.2.2

theorem mergeFaces_hist {s t : GMap K} (hs : ReachG s) {d : Int} {r : Option Nat} (e : s.mergeFaces h d = .ok (r, t)) : PHist h s t := by
  refine Hist.one (.mergeFaces d) trivial trivial trivial (run_of e) ?_
  cases r with
  | none => obtain ⟨f, hf⟩ := (mergeFaces_vetoed hs.reach.good.map e).eq; rw [hf]
  | some l => obtain ⟨_, E⟩ := mergeFaces_effect hs.reach.good e; exact E.sizes.2.2

omit [Field K] [LinearOrder K] in
theorem protBits_setFlag (e : Edge K) {i : Nat} (hi : 8 ≤ i) (b : Bool) : protBits (e.setFlag (2 ^ i) b).flags = protBits e.flags := by
  unfold protBits allProtection
  apply Nat.eq_of_testBit_eq
  intro j
  rw [Nat.testBit_and, Nat.testBit_and, setFlag_testBit]
  by_cases hj : j = i
  · have : (255 : Nat).testBit j = false := by
      apply Nat.testBit_lt_two_pow
      calc 255 < 2 ^ 8 := by decide
        _ ≤ 2 ^ j := Nat.pow_le_pow_right (by decide) (by omega)
    rw [this]; simp
  · rw [if_neg hj]

theorem setFlag_hist {s : GMap K} {l : Nat} {e : Edge K} (he : s.edge l = some e) {i : Nat} (hi : 8 ≤ i) (b : Bool) :
    PHist h s (s.setEdge l (some (e.setFlag (2 ^ i) b))) := by
  refine Hist.one (.setFlags l (e.setFlag (2 ^ i) b).flags) trivial trivial ?_ ?_ rfl
  · intro e' he' _
    rw [he] at he'; cases he'
    exact protBits_setFlag e hi b
  · show s.setFlags l _ = _
    unfold GMap.setFlags
    rw [guaranteedEdge_of (d := (l : Int)) (e := e) (by simpa using he)]
    rfl

omit [Field K] [LinearOrder K] in
theorem derefEdge_some {s : GMap K} {l : Nat} {e : Edge K} (h : s.derefEdge l = .ok e) : s.edge l = some e := by
  unfold GMap.derefEdge at h
  split_ifs at h
  cases he : s.edge l with
  | none => rw [he] at h; cases h
  | some e' => rw [he] at h; cases h; rfl

/-! ## nodes -/

theorem isolatedLoop_hist : ∀ (ns : List Nat) {c : Nat} {s : GMap K} {r : Nat} {t : GMap K}, ReachG s → GMap.isolatedLoop h ns c s = .ok (r, t) → PHist h s t
  | [], c, s, r, t, hs, e => by unfold GMap.isolatedLoop at e; cases e; exact .refl s
  | n :: ns, c, s, r, t, hs, e => by
    unfold GMap.isolatedLoop at e
    obtain ⟨⟨c', u⟩, e1, e2⟩ := Outcome.bind_eq_ok.mp e
    have h1 : PHist h s u := by
      unfold GMap.isolatedStep at e1
      cases hn : s.node n with
      | none => rw [hn] at e1; cases e1; exact .refl s
      | some nd =>
        rw [hn] at e1
        dsimp only at e1
        by_cases ha : nd.anchor = 0
        · rw [if_pos ha] at e1
          obtain ⟨⟨b, v⟩, e3, e4⟩ := Outcome.bind_eq_ok.mp e1
          cases e4
          exact removeIsolatedNode_hist hs hn ha e3
        · rw [if_neg ha] at e1; cases e1; exact .refl s
    exact h1.trans (isolatedLoop_hist ns (h1.reachG hs) e2)

theorem mergeAtAnchor_hist {s t : GMap K} (hs : ReachG s) {a : Int} {c r : Nat} (e : GMap.mergeAtAnchor h a c s = .ok (r, t)) : PHist h s t := by
  unfold GMap.mergeAtAnchor at e
  obtain ⟨ed, -, e⟩ := Outcome.bind_eq_ok.mp e
  by_cases hl : ed.startN = ed.endN
  · rw [if_pos hl] at e; cases e; exact .refl s
  · rw [if_neg hl] at e
    obtain ⟨⟨r', u⟩, e1, e2⟩ := Outcome.bind_eq_ok.mp e
    cases e2
    exact mergeEdges_hist hs e1

theorem degree2Loop_hist : ∀ (ns : List Nat) {c : Nat} {s : GMap K} {r : Nat} {t : GMap K}, ReachG s → GMap.degree2Loop h ns c s = .ok (r, t) → PHist h s t
  | [], c, s, r, t, hs, e => by unfold GMap.degree2Loop at e; cases e; exact .refl s
  | n :: ns, c, s, r, t, hs, e => by
    unfold GMap.degree2Loop at e
    obtain ⟨⟨c', u⟩, e1, e2⟩ := Outcome.bind_eq_ok.mp e
    have h1 : PHist h s u := by
      unfold GMap.degree2Step at e1
      cases hn : s.node n with
      | none => rw [hn] at e1; cases e1; exact .refl s
      | some nd =>
        rw [hn] at e1
        obtain ⟨b, -, e1⟩ := Outcome.bind_eq_ok.mp e1
        cases b with
        | true => exact mergeAtAnchor_hist hs e1
        | false => cases e1; exact .refl s
    exact h1.trans (degree2Loop_hist ns (h1.reachG hs) e2)

/-! ## bridges -/

theorem noteRemoved_hist {s t : GMap K} {d : Int} {r : Option Nat} {c k : Nat} (e : GMap.noteRemoved s d r c = .ok (k, t)) : PHist h s t := by
  unfold GMap.noteRemoved at e
  cases r with
  | some f => cases e; exact .refl s
  | none =>
    obtain ⟨u, e1, e2⟩ := Outcome.bind_eq_ok.mp e
    cases e2
    unfold GMap.setEdgeFlag at e1
    obtain ⟨ed, e3, e4⟩ := Outcome.bind_eq_ok.mp e1
    cases e4
    rw [unremovable_eq]
    exact setFlag_hist (derefEdge_some e3) (by omega) true

theorem chainLoop_hist : ∀ (fuel : Nat) {s t : GMap K} {d : Int} {c k : Nat}, ReachG s → GMap.chainLoop h fuel s d c = .ok (k, t) → PHist h s t
  | 0, s, t, d, c, k, hs, e => by unfold GMap.chainLoop at e; cases e
  | fuel + 1, s, t, d, c, k, hs, e => by
    unfold GMap.chainLoop at e
    dsimp only at e
    obtain ⟨⟨r, u⟩, e1, e⟩ := Outcome.bind_eq_ok.mp e
    obtain ⟨⟨c', w⟩, e2, e⟩ := Outcome.bind_eq_ok.mp e
    have h1 : PHist h s u := removeBridge_hist hs e1
    have h2 : PHist h s w := h1.trans (noteRemoved_hist e2)
    dsimp only at e
    by_cases c1 : (s.phi d).natAbs = d.natAbs
    · rw [if_pos c1] at e; cases e; exact h2
    rw [if_neg c1] at e
    by_cases c2 : w.sigma (s.phi d) ≠ s.phi d
    · rw [if_pos c2] at e; cases e; exact h2
    rw [if_neg c2] at e
    obtain ⟨ed, -, e⟩ := Outcome.bind_eq_ok.mp e
    by_cases c3 : ed.flag removeBridgeFlag = true
    · rw [if_pos c3] at e
      exact h2.trans (chainLoop_hist fuel (h2.reachG hs) e)
    · rw [if_neg c3] at e; cases e; exact h2

theorem roundLoop_hist : ∀ (ls : List Nat) {s t : GMap K} {c k : Nat} {b b' : Bool}, ReachG s → GMap.roundLoop h ls c s b = .ok (k, t, b') → PHist h s t
  | [], s, t, c, k, b, b', hs, e => by unfold GMap.roundLoop at e; cases e; exact .refl s
  | l :: ls, s, t, c, k, b, b', hs, e => by
    unfold GMap.roundLoop at e
    by_cases c1 : l < s.nEdges
    swap
    · rw [if_neg c1] at e; cases e
    rw [if_pos c1] at e
    by_cases c2 : (s.edge l).isSome = true
    swap
    · rw [if_neg c2] at e; exact roundLoop_hist ls hs e
    rw [if_pos c2] at e
    obtain ⟨⟨c', u, b''⟩, e1, e⟩ := Outcome.bind_eq_ok.mp e
    have h1 : PHist h s u := by
      unfold GMap.roundStep at e1
      cases hd : s.degreeOneDart l with
      | none => rw [hd] at e1; cases e1; exact .refl s
      | some d =>
        rw [hd] at e1
        obtain ⟨⟨c'', w⟩, e2, e1⟩ := Outcome.bind_eq_ok.mp e1
        cases e1
        exact chainLoop_hist _ hs e2
    exact h1.trans (roundLoop_hist ls (h1.reachG hs) e)

theorem cleanBridges_hist : ∀ (ls : List Nat) {s t : GMap K} {bs : List Nat}, GMap.cleanBridges ls s = .ok (bs, t) → PHist h s t
  | [], s, t, bs, e => by unfold GMap.cleanBridges at e; cases e; exact .refl s
  | l :: ls, s, t, bs, e => by
    unfold GMap.cleanBridges at e
    by_cases c1 : l < s.nEdges
    swap
    · rw [if_neg c1] at e; cases e
    rw [if_pos c1] at e
    cases he : s.edge l with
    | none => rw [he] at e; exact cleanBridges_hist ls e
    | some ed =>
      rw [he] at e
      dsimp only at e
      by_cases c2 : ed.flag unremovable = true
      · rw [if_pos c2] at e
        rw [unremovable_eq] at e
        exact (setFlag_hist he (by omega) false).trans (cleanBridges_hist ls e)
      · rw [if_neg c2] at e
        obtain ⟨⟨bs', u⟩, e1, e⟩ := Outcome.bind_eq_ok.mp e
        cases e
        exact cleanBridges_hist ls e1

theorem removeBridgesLoop_hist : ∀ (fuel : Nat) (ls : List Nat) {s t : GMap K} {c k : Nat}, ReachG s →
    GMap.removeBridgesLoop h fuel ls c s = .ok (k, t) → PHist h s t
  | 0, [], s, t, c, k, hs, e => by unfold GMap.removeBridgesLoop at e; cases e; exact .refl s
  | _ + 1, [], s, t, c, k, hs, e => by unfold GMap.removeBridgesLoop at e; cases e; exact .refl s
  | 0, _ :: _, s, t, c, k, hs, e => by unfold GMap.removeBridgesLoop at e; cases e
  | fuel + 1, l :: ls, s, t, c, k, hs, e => by
    unfold GMap.removeBridgesLoop at e
    obtain ⟨⟨c', u, found⟩, e1, e⟩ := Outcome.bind_eq_ok.mp e
    obtain ⟨⟨bs, w⟩, e2, e⟩ := Outcome.bind_eq_ok.mp e
    have h1 : PHist h s w := (roundLoop_hist _ hs e1).trans (cleanBridges_hist _ e2)
    cases found with
    | true => exact h1.trans (removeBridgesLoop_hist fuel bs (h1.reachG hs) e)
    | false =>
      cases bs with
      | nil => cases e
      | cons b bs =>
        obtain ⟨⟨r, x⟩, e3, e⟩ := Outcome.bind_eq_ok.mp e
        have h2 : PHist h s x := h1.trans (removeBridge_hist (h1.reachG hs) e3)
        exact h2.trans (removeBridgesLoop_hist fuel bs (h2.reachG hs) e)

theorem markBridges_hist : ∀ (ls : List Nat) (s : GMap K), PHist h s (GMap.markBridges ls s).2
  | [], s => .refl s
  | l :: ls, s => by
    unfold GMap.markBridges
    cases he : s.edge l with
    | none => exact markBridges_hist ls s
    | some ed =>
      dsimp only
      by_cases hb : ed.leftF = ed.rightF
      · rw [if_pos hb, removeBridgeFlag_eq]
        exact (setFlag_hist he (by omega) true).trans (markBridges_hist ls _)
      · rw [if_neg hb]
        exact markBridges_hist ls s

theorem removeEdgesLoop_hist : ∀ (ls : List Nat) {s t : GMap K} {c k : Nat} {bs bs' : List Nat}, ReachG s →
    GMap.removeEdgesLoop h ls c bs s = .ok (k, bs', t) → PHist h s t
  | [], s, t, c, k, bs, bs', hs, e => by unfold GMap.removeEdgesLoop at e; cases e; exact .refl s
  | l :: ls, s, t, c, k, bs, bs', hs, e => by
    unfold GMap.removeEdgesLoop at e
    by_cases c1 : l < s.nEdges
    swap
    · rw [if_neg c1] at e; cases e
    rw [if_pos c1] at e
    cases he : s.edge l with
    | none => rw [he] at e; cases e
    | some ed =>
      rw [he] at e
      dsimp only at e
      by_cases c2 : ed.leftF = ed.rightF
      · rw [if_pos c2, removeBridgeFlag_eq] at e
        have h1 : PHist h s _ := setFlag_hist he (i := 31) (by omega) true
        exact h1.trans (removeEdgesLoop_hist ls (h1.reachG hs) e)
      · rw [if_neg c2] at e
        obtain ⟨⟨r, u⟩, e1, e⟩ := Outcome.bind_eq_ok.mp e
        have h1 : PHist h s u := mergeFaces_hist hs e1
        exact h1.trans (removeEdgesLoop_hist ls (h1.reachG hs) e)

/-! ## faces -/

theorem mergeCommon_hist : ∀ (ds : List Int) {s t : GMap K} {sv r : Option Nat} {ns ns' : List Nat}, ReachG s →
    GMap.mergeCommon h ds sv ns s = .ok (r, ns', t) → PHist h s t
  | [], s, t, sv, r, ns, ns', hs, e => by unfold GMap.mergeCommon at e; cases e; exact .refl s
  | d :: ds, s, t, sv, r, ns, ns', hs, e => by
    unfold GMap.mergeCommon at e
    obtain ⟨ed, -, e⟩ := Outcome.bind_eq_ok.mp e
    cases sv with
    | none =>
      obtain ⟨⟨r', u⟩, e1, e⟩ := Outcome.bind_eq_ok.mp e
      have h1 : PHist h s u := mergeFaces_hist hs e1
      exact h1.trans (mergeCommon_hist ds (h1.reachG hs) e)
    | some f =>
      obtain ⟨⟨r', u⟩, e1, e⟩ := Outcome.bind_eq_ok.mp e
      have h1 : PHist h s u := removeBridge_hist hs e1
      exact h1.trans (mergeCommon_hist ds (h1.reachG hs) e)

theorem cleanNode_hist {merge2 : Bool} {n : Nat} {s t : GMap K} (hs : ReachG s) (e : GMap.cleanNode h merge2 n s = .ok t) : PHist h s t := by
  unfold GMap.cleanNode at e
  by_cases c1 : n < s.nNodes
  swap
  · rw [if_neg c1] at e; cases e
  rw [if_pos c1] at e
  cases hn : s.node n with
  | none => rw [hn] at e; cases e; exact .refl s
  | some nd =>
    rw [hn] at e
    dsimp only at e
    by_cases ha : nd.anchor = 0
    · rw [if_pos ha] at e
      obtain ⟨⟨b, v⟩, e3, e4⟩ := Outcome.bind_eq_ok.mp e
      cases e4
      exact removeIsolatedNode_hist hs hn ha e3
    rw [if_neg ha] at e
    cases merge2 with
    | false => cases e; exact .refl s
    | true =>
      obtain ⟨b, -, e⟩ := Outcome.bind_eq_ok.mp e
      cases b with
      | false => cases e; exact .refl s
      | true =>
        obtain ⟨m, -, e⟩ := Outcome.bind_eq_ok.mp e
        by_cases hm : m ≠ n
        · rw [if_pos hm] at e
          obtain ⟨⟨r, v⟩, e3, e4⟩ := Outcome.bind_eq_ok.mp e
          cases e4
          exact mergeEdges_hist hs e3
        · rw [if_neg hm] at e; cases e; exact .refl s

theorem cleanNodes_hist {merge2 : Bool} : ∀ (ns : List Nat) {s t : GMap K}, ReachG s → GMap.cleanNodes h merge2 ns s = .ok t → PHist h s t
  | [], s, t, hs, e => by unfold GMap.cleanNodes at e; cases e; exact .refl s
  | n :: ns, s, t, hs, e => by
    unfold GMap.cleanNodes at e
    obtain ⟨u, e1, e⟩ := Outcome.bind_eq_ok.mp e
    have h1 := cleanNode_hist hs e1
    exact h1.trans (cleanNodes_hist ns (h1.reachG hs) e)

end Verif.GeoMap
