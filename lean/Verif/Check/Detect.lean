import Verif.Check.Props

/-! # What `checkConsistency` detects (C59)

`check_detects` is about every stored state, also states that no history of calls can produce (a corrupted map): if the check returns
`true`, the listed facts hold. -/

namespace Verif.Check
open Verif Verif.GeoMap Verif.Sigma Verif.Outcome

variable {K : Type} [Field K] [LinearOrder K]

/-- The darts from `d` on under `f` come back to `d`, and all of them have property `P`. -/
def Closed (f : Int → Int) (P : Int → Prop) (d : Int) : Prop := ∃ k, f^[k + 1] d = d ∧ ∀ i ≤ k, P (f^[i] d)

/-- dart `d` belongs to an existing edge that starts at node `n` -/
def StartsAt (s : GMap K) (n : Nat) (d : Int) : Prop := ∃ e, s.edge d.natAbs = some e ∧ e.startOf d = n
/-- dart `d` belongs to an existing edge with face `f` on its left -/
def LeftIs (s : GMap K) (f : Nat) (d : Int) : Prop := ∃ e, s.edge d.natAbs = some e ∧ e.leftOf d = some f

/-- what a positive answer means -/
structure Detected (a : Arrays) (s : GMap K) : Prop where
  inverse : ∀ label : Int, label.natAbs ≤ a.sig.length / 2 → ∃ v, a.getS label = .ok v ∧
    (v ≠ 0 → label.natAbs < s.nEdges → (s.edge label.natAbs).isSome → a.getI v = .ok label)
  nodeCount : s.nodeCount = (List.range s.nNodes).countP fun n => (s.node n).isSome
  edgeCount : s.edgeCount = (List.range s.nEdges).countP fun n => (s.edge n).isSome
  nodes : ∀ n < s.nNodes, ∀ nd, s.node n = some nd → nd.anchor ≠ 0 → Closed s.sigma (StartsAt s n) nd.anchor
  edges : ∀ l < s.nEdges, ∀ e, s.edge l = some e → 2 ≤ e.pts.length ∧
    ∃ x y, s.node e.startN = some x ∧ s.node e.endN = some y ∧ e.pts.head? = some x.pos ∧ e.pts.getLast? = some y.pos
  sides : s.initialized → ∀ l < s.nEdges, ∀ e, s.edge l = some e →
    (∃ f F, e.leftF = some f ∧ s.face f = some F) ∧ (∃ f F, e.rightF = some f ∧ s.face f = some F) ∧
    ¬ (e.leftF = e.rightF ∧ e.startN = e.endN)
  faceCount : s.initialized → s.faceCount = (List.range s.nFaces).countP fun n => (s.face n).isSome
  contours : s.initialized → ∀ f < s.nFaces, ∀ F, s.face f = some F → F.anchors.Nodup ∧ ∀ d ∈ F.anchors, Closed s.phi (LeftIs s f) d

theorem closed_iterate {f : Int → Int} {P : Int → Prop} {anchor d : Int} (j : Nat) (hj : f^[j] anchor = d) (hP : ∀ i < j, P (f^[i] anchor))
    (h : ∃ k, f^[k + 1] d = anchor ∧ ∀ i ≤ k, P (f^[i] d)) : Closed f P anchor := by
  obtain ⟨k, h1, h2⟩ := h
  refine ⟨j + k, ?_, fun i hi => ?_⟩
  · rw [show j + k + 1 = (k + 1) + j by omega, Function.iterate_add_apply, hj, h1]
  · by_cases hij : i < j
    · exact hP i hij
    · obtain ⟨i', rfl⟩ : ∃ i', i = i' + j := ⟨i - j, by omega⟩
      rw [Function.iterate_add_apply, hj]
      exact h2 i' (by omega)

theorem sigmaOrbit_true {s : GMap K} {n : Nat} {anchor : Int} : ∀ {fuel : Nat} {d : Int}, sigmaOrbit s n anchor fuel d = .ok true →
    ∃ k, s.sigma^[k + 1] d = anchor ∧ ∀ i ≤ k, StartsAt s n (s.sigma^[i] d)
  | 0, d, h => by simp only [sigmaOrbit] at h; cases h
  | fuel + 1, d, h => by
    rw [sigmaOrbit] at h
    obtain ⟨e, he, h⟩ := bind_eq_ok.1 h
    cases e with
    | none => cases h
    | some e =>
      dsimp only at h
      have hed : s.edge d.natAbs = some e := by
        unfold edgePtr at he
        by_cases hlt : d.natAbs < s.nEdges
        · rw [if_pos hlt] at he; exact Outcome.ok.inj he
        · rw [if_neg hlt] at he; cases he
      by_cases hst : e.startOf d ≠ n
      · rw [if_pos hst] at h; cases h
      · rw [if_neg hst] at h
        have hd : StartsAt s n d := ⟨e, hed, not_not.1 hst⟩
        by_cases hs : s.sigma d = anchor
        · refine ⟨0, by simpa using hs, fun i hi => ?_⟩
          obtain rfl : i = 0 := by omega
          simpa using hd
        · rw [if_neg hs] at h
          obtain ⟨k, h1, h2⟩ := sigmaOrbit_true h
          refine ⟨k + 1, by rw [Function.iterate_succ_apply]; exact h1, fun i hi => ?_⟩
          cases i with
          | zero => simpa using hd
          | succ i => rw [Function.iterate_succ_apply]; exact h2 i (by omega)

theorem nodesLoop_true {s : GMap K} : ∀ {l : List Nat} {cnt iso : Nat} {r : Bool} {x : Nat × Nat × Bool}, nodesLoop s l cnt iso r = .ok x →
    x.1 = cnt + l.countP (fun n => (s.node n).isSome) ∧ (x.2.2 = true → r = true ∧
      ∀ n ∈ l, ∀ nd, s.node n = some nd → nd.anchor ≠ 0 → Closed s.sigma (StartsAt s n) nd.anchor)
  | [], cnt, iso, r, x, h => by simp only [nodesLoop] at h; cases h; simp
  | n :: l, cnt, iso, r, x, h => by
    rw [nodesLoop] at h
    cases hn : s.node n with
    | none =>
      simp only [hn] at h
      obtain ⟨h1, h2⟩ := nodesLoop_true h
      refine ⟨by simp [h1, hn], fun hx => ⟨(h2 hx).1, fun m hm nd hnd ha => ?_⟩⟩
      rcases List.mem_cons.1 hm with rfl | hm
      · rw [hn] at hnd; cases hnd
      · exact (h2 hx).2 m hm nd hnd ha
    | some nd =>
      simp only [hn] at h
      by_cases ha : nd.anchor = 0
      · rw [if_pos ha] at h
        obtain ⟨h1, h2⟩ := nodesLoop_true h
        refine ⟨by simp only [h1, List.countP_cons, hn, Option.isSome_some, if_true]; omega, fun hx => ⟨(h2 hx).1, fun m hm nd' hnd ha' => ?_⟩⟩
        rcases List.mem_cons.1 hm with rfl | hm
        · rw [hn] at hnd; cases hnd; exact absurd ha ha'
        · exact (h2 hx).2 m hm nd' hnd ha'
      · rw [if_neg ha] at h
        obtain ⟨b, hb, h⟩ := bind_eq_ok.1 h
        obtain ⟨h1, h2⟩ := nodesLoop_true h
        refine ⟨by simp only [h1, List.countP_cons, hn, Option.isSome_some, if_true]; omega, fun hx => ?_⟩
        obtain ⟨h3, h4⟩ := h2 hx
        simp only [Bool.and_eq_true] at h3
        refine ⟨h3.1, fun m hm nd' hnd ha' => ?_⟩
        rcases List.mem_cons.1 hm with rfl | hm
        · rw [hn] at hnd; cases hnd
          rw [h3.2] at hb
          exact sigmaOrbit_true hb
        · exact h4 m hm nd' hnd ha'

theorem derefNode_inv {s : GMap K} {n : Nat} {x : Node K} (h : s.derefNode n = .ok x) : s.node n = some x := by
  unfold GMap.derefNode at h
  by_cases hn : n < s.nNodes
  · rw [if_pos hn] at h
    cases hx : s.node n with
    | none => rw [hx] at h; cases h
    | some y => rw [hx] at h; cases h; rfl
  · rw [if_neg hn] at h; cases h

theorem facePtr_inv {s : GMap K} {f : Option Nat} {x : Option (Face K)} (h : facePtr s f = .ok x) (hx : ¬ x.isNone = true) :
    ∃ g F, f = some g ∧ s.face g = some F := by
  cases f with
  | none => cases h
  | some g =>
    unfold facePtr at h
    dsimp only at h
    by_cases hg : g < s.nFaces
    · rw [if_pos hg] at h; cases h
      cases hF : s.face g with
      | none => rw [hF] at hx; simp at hx
      | some F => exact ⟨g, F, rfl, hF⟩
    · rw [if_neg hg] at h; cases h

theorem edgeGeometry_true {s : GMap K} {e : Edge K} (h : edgeGeometry s e = .ok true) : 2 ≤ e.pts.length ∧
    ∃ x y, s.node e.startN = some x ∧ s.node e.endN = some y ∧ e.pts.head? = some x.pos ∧ e.pts.getLast? = some y.pos := by
  unfold edgeGeometry at h
  by_cases hl : e.pts.length < 2
  · rw [if_pos hl] at h; cases h
  · rw [if_neg hl] at h
    obtain ⟨x, hx, h⟩ := bind_eq_ok.1 h
    obtain ⟨y, hy, h⟩ := bind_eq_ok.1 h
    have := Outcome.ok.inj h
    simp only [Bool.and_eq_true, decide_eq_true_eq] at this
    exact ⟨by omega, x, y, derefNode_inv hx, derefNode_inv hy, this.1, this.2⟩

/-- what is tested for one edge -/
def EdgeFine (s : GMap K) (e : Edge K) : Prop :=
  (2 ≤ e.pts.length ∧ ∃ x y, s.node e.startN = some x ∧ s.node e.endN = some y ∧ e.pts.head? = some x.pos ∧ e.pts.getLast? = some y.pos) ∧
  (s.initialized → (∃ f F, e.leftF = some f ∧ s.face f = some F) ∧ (∃ f F, e.rightF = some f ∧ s.face f = some F) ∧
    ¬ (e.leftF = e.rightF ∧ e.startN = e.endN))

theorem edgeCheck_true {s : GMap K} {e : Edge K} (h : edgeCheck s e = .ok true) : EdgeFine s e := by
  unfold edgeCheck at h
  by_cases hi : s.initialized
  · rw [if_pos hi] at h
    obtain ⟨l, hl, h⟩ := bind_eq_ok.1 h
    obtain ⟨r, hr, h⟩ := bind_eq_ok.1 h
    by_cases hn : (l.isNone || r.isNone) = true
    · rw [if_pos hn] at h; cases h
    · rw [if_neg hn] at h
      obtain ⟨g, hg, h⟩ := bind_eq_ok.1 h
      have h1 := Outcome.ok.inj h
      simp only [Bool.and_eq_true, Bool.not_eq_true', Bool.and_eq_false_iff, decide_eq_false_iff_not] at h1
      rw [h1.2] at hg
      simp only [Bool.or_eq_true, not_or] at hn
      refine ⟨edgeGeometry_true hg, fun _ => ⟨facePtr_inv hl hn.1, facePtr_inv hr hn.2, ?_⟩⟩
      rintro ⟨h2, h3⟩
      rcases h1.1 with h | h
      · exact h h2
      · exact h h3
  · rw [if_neg hi] at h
    exact ⟨edgeGeometry_true h, fun h => absurd h hi⟩

theorem edgesLoop_true {s : GMap K} : ∀ {l : List Nat} {cnt : Nat} {r : Bool} {x : Nat × Bool}, edgesLoop s l cnt r = .ok x →
    x.1 = cnt + l.countP (fun n => (s.edge n).isSome) ∧ (x.2 = true → r = true ∧ ∀ n ∈ l, ∀ e, s.edge n = some e → EdgeFine s e)
  | [], cnt, r, x, h => by simp only [edgesLoop] at h; cases h; simp
  | n :: l, cnt, r, x, h => by
    rw [edgesLoop] at h
    cases hn : s.edge n with
    | none =>
      simp only [hn] at h
      obtain ⟨h1, h2⟩ := edgesLoop_true h
      refine ⟨by simp [h1, hn], fun hx => ⟨(h2 hx).1, fun m hm e he => ?_⟩⟩
      rcases List.mem_cons.1 hm with rfl | hm
      · rw [hn] at he; cases he
      · exact (h2 hx).2 m hm e he
    | some e =>
      simp only [hn] at h
      obtain ⟨b, hb, h⟩ := bind_eq_ok.1 h
      obtain ⟨h1, h2⟩ := edgesLoop_true h
      refine ⟨by simp only [h1, List.countP_cons, hn, Option.isSome_some, if_true]; omega, fun hx => ?_⟩
      obtain ⟨h3, h4⟩ := h2 hx
      simp only [Bool.and_eq_true] at h3
      refine ⟨h3.1, fun m hm e' he => ?_⟩
      rcases List.mem_cons.1 hm with rfl | hm
      · rw [hn] at he; cases he
        rw [h3.2] at hb
        exact edgeCheck_true hb
      · exact h4 m hm e' he

theorem contourLoop_true {s : GMap K} {f : Nat} {anchor : Int} : ∀ {fuel : Nat} {d : Int} {acc : K} {x : Int × K × Bool},
    contourLoop s f anchor fuel d acc = .ok x → x.2.2 = true → ∃ k, s.phi^[k + 1] d = anchor ∧ ∀ i ≤ k, LeftIs s f (s.phi^[i] d)
  | 0, d, acc, x, h, _ => by simp only [contourLoop] at h; cases h
  | fuel + 1, d, acc, x, h, hx => by
    rw [contourLoop] at h
    obtain ⟨e, he, h⟩ := bind_eq_ok.1 h
    have hed : s.edge d.natAbs = some e := by
      unfold GMap.guaranteedEdge at he
      cases hn : s.edge d.natAbs with
      | none => rw [hn] at he; cases he
      | some e' => rw [hn] at he; cases he; rfl
    by_cases hl : e.leftOf d ≠ some f
    · rw [if_pos hl] at h; cases h; cases hx
    · rw [if_neg hl] at h
      have hd : LeftIs s f d := ⟨e, hed, not_not.1 hl⟩
      by_cases hp : s.phi d = anchor
      · refine ⟨0, by simpa using hp, fun i hi => ?_⟩
        obtain rfl : i = 0 := by omega
        simpa using hd
      · simp only [if_neg hp] at h
        obtain ⟨k, h1, h2⟩ := contourLoop_true h hx
        refine ⟨k + 1, by rw [Function.iterate_succ_apply]; exact h1, fun i hi => ?_⟩
        cases i with
        | zero => simpa using hd
        | succ i => rw [Function.iterate_succ_apply]; exact h2 i (by omega)

theorem contoursLoop_true {s : GMap K} {f : Nat} : ∀ {as : List Int} {outer : Bool} {seen : List Int} {r x : Bool},
    contoursLoop s f as outer seen r = .ok x → x = true → r = true ∧ as.Nodup ∧ ∀ d ∈ as, d ∉ seen ∧ Closed s.phi (LeftIs s f) d
  | [], outer, seen, r, x, h, hx => by simp only [contoursLoop] at h; cases h; exact ⟨hx, List.nodup_nil, by simp⟩
  | a :: as, outer, seen, r, x, h, hx => by
    rw [contoursLoop] at h
    obtain ⟨e, he, h⟩ := bind_eq_ok.1 h
    by_cases hn : e.isNone = true
    · rw [if_pos hn] at h
      have := (contoursLoop_true h hx).1
      cases this
    · rw [if_neg hn] at h
      obtain ⟨y, hy, h⟩ := bind_eq_ok.1 h
      by_cases hya : y.1 ≠ a
      · rw [if_pos hya] at h
        have h1 := (contoursLoop_true h hx).1
        simp only [Bool.and_eq_true] at h1
        -- the walk ended somewhere else although no label was wrong: it ends at the anchor only
        exact absurd (contourLoop_end hy h1.2) hya
      · rw [if_neg hya] at h
        obtain ⟨h1, h2, h3⟩ := contoursLoop_true h hx
        simp only [Bool.and_eq_true, Bool.not_eq_true', List.contains_eq_mem, decide_eq_false_iff_not] at h1
        refine ⟨h1.1.1.1, List.nodup_cons.2 ⟨fun hm => (h3 a hm).1 List.mem_cons_self, h2⟩, fun d hd => ?_⟩
        rcases List.mem_cons.1 hd with rfl | hd
        · exact ⟨h1.2, contourLoop_true hy h1.1.1.2⟩
        · exact ⟨fun hm => (h3 d hd).1 (List.mem_cons_of_mem _ hm), (h3 d hd).2⟩
where
  contourLoop_end {s : GMap K} {f : Nat} {anchor : Int} : ∀ {fuel : Nat} {d : Int} {acc : K} {x : Int × K × Bool},
      contourLoop s f anchor fuel d acc = .ok x → x.2.2 = true → x.1 = anchor
    | 0, d, acc, x, h, _ => by simp only [contourLoop] at h; cases h
    | fuel + 1, d, acc, x, h, hx => by
      rw [contourLoop] at h
      obtain ⟨e, he, h⟩ := bind_eq_ok.1 h
      by_cases hl : e.leftOf d ≠ some f
      · rw [if_pos hl] at h; cases h; cases hx
      · rw [if_neg hl] at h
        by_cases hp : s.phi d = anchor
        · simp only [if_pos hp] at h; cases h; rfl
        · simp only [if_neg hp] at h
          exact contourLoop_end h hx

theorem facesLoop_true {s : GMap K} : ∀ {l : List Nat} {cnt : Nat} {ho co : Int} {r : Bool} {x : Nat × Int × Int × Bool},
    facesLoop s l cnt ho co r = .ok x → x.1 = cnt + l.countP (fun n => (s.face n).isSome) ∧ (x.2.2.2 = true → r = true ∧
      ∀ f ∈ l, ∀ F, s.face f = some F → F.anchors.Nodup ∧ ∀ d ∈ F.anchors, Closed s.phi (LeftIs s f) d)
  | [], cnt, ho, co, r, x, h => by simp only [facesLoop] at h; cases h; simp
  | n :: l, cnt, ho, co, r, x, h => by
    rw [facesLoop] at h
    cases hn : s.face n with
    | none =>
      simp only [hn] at h
      obtain ⟨h1, h2⟩ := facesLoop_true h
      refine ⟨by simp [h1, hn], fun hx => ⟨(h2 hx).1, fun m hm e he => ?_⟩⟩
      rcases List.mem_cons.1 hm with rfl | hm
      · rw [hn] at he; cases he
      · exact (h2 hx).2 m hm e he
    | some F =>
      simp only [hn] at h
      obtain ⟨b, hb, h⟩ := bind_eq_ok.1 h
      obtain ⟨h1, h2⟩ := facesLoop_true h
      refine ⟨by simp only [h1, List.countP_cons, hn, Option.isSome_some, if_true]; omega, fun hx => ?_⟩
      obtain ⟨h3, h4⟩ := h2 hx
      obtain ⟨h5, h6, h7⟩ := contoursLoop_true hb h3
      refine ⟨h5, fun m hm e' he => ?_⟩
      rcases List.mem_cons.1 hm with rfl | hm
      · rw [hn] at he; cases he
        exact ⟨h6, fun d hd => (h7 d hd).2⟩
      · exact h4 m hm e' he

theorem sigmaLoop_true {a : Arrays} {s : GMap K} : ∀ {k : Nat} {label : Int} {r x : Bool}, sigmaLoop a s k label r = .ok x → x = true →
    r = true ∧ ∀ i : Int, label ≤ i → i < label + k → sigmaLabel a s i = .ok true
  | 0, label, r, x, h, hx => by
    simp only [sigmaLoop] at h; cases h
    exact ⟨hx, fun i h1 h2 => by simp only [Nat.cast_zero, add_zero] at h2; omega⟩
  | k + 1, label, r, x, h, hx => by
    rw [sigmaLoop] at h
    obtain ⟨b, hb, h⟩ := bind_eq_ok.1 h
    obtain ⟨h1, h2⟩ := sigmaLoop_true h hx
    simp only [Bool.and_eq_true] at h1
    refine ⟨h1.1, fun i hi1 hi2 => ?_⟩
    by_cases hi : i = label
    · rw [hi, hb, h1.2]
    · exact h2 i (by omega) (by push_cast at hi2; omega)

theorem checkCells_true {s : GMap K} {r : Bool} (h : checkCells s r = .ok true) : r = true ∧
    s.nodeCount = ((List.range s.nNodes).countP fun n => (s.node n).isSome) ∧
    s.edgeCount = ((List.range s.nEdges).countP fun n => (s.edge n).isSome) ∧
    (∀ n < s.nNodes, ∀ nd, s.node n = some nd → nd.anchor ≠ 0 → Closed s.sigma (StartsAt s n) nd.anchor) ∧
    (∀ l < s.nEdges, ∀ e, s.edge l = some e → EdgeFine s e) ∧
    (s.initialized → s.faceCount = ((List.range s.nFaces).countP fun n => (s.face n).isSome)) ∧
    (s.initialized → ∀ f < s.nFaces, ∀ F, s.face f = some F → F.anchors.Nodup ∧ ∀ d ∈ F.anchors, Closed s.phi (LeftIs s f) d) := by
  unfold checkCells at h
  obtain ⟨x, hx, h⟩ := bind_eq_ok.1 h
  obtain ⟨n, iso, r1⟩ := x
  dsimp only at h
  obtain ⟨y, hy, h⟩ := bind_eq_ok.1 h
  obtain ⟨e, r2⟩ := y
  dsimp only at h
  obtain ⟨n1, n2⟩ := nodesLoop_true hx
  obtain ⟨e1, e2⟩ := edgesLoop_true hy
  dsimp only at n1 n2 e1 e2
  have fin : (r2 && decide (e = s.edgeCount)) = true → r = true ∧
      s.nodeCount = ((List.range s.nNodes).countP fun n => (s.node n).isSome) ∧
      s.edgeCount = ((List.range s.nEdges).countP fun n => (s.edge n).isSome) ∧
      (∀ n < s.nNodes, ∀ nd, s.node n = some nd → nd.anchor ≠ 0 → Closed s.sigma (StartsAt s n) nd.anchor) ∧
      (∀ l < s.nEdges, ∀ e, s.edge l = some e → EdgeFine s e) := by
    intro hr
    simp only [Bool.and_eq_true, decide_eq_true_eq] at hr
    obtain ⟨h3, h4⟩ := e2 hr.1
    simp only [Bool.and_eq_true, decide_eq_true_eq] at h3
    obtain ⟨h5, h6⟩ := n2 h3.1
    exact ⟨h5, by omega, by omega, fun n hn => h6 n (List.mem_range.2 hn), fun l hl => h4 l (List.mem_range.2 hl)⟩
  by_cases hi : s.initialized
  · rw [if_neg (not_not.2 hi)] at h
    obtain ⟨z, hz, h⟩ := bind_eq_ok.1 h
    obtain ⟨f, c, b, r3⟩ := z
    dsimp only at h
    have h1 := Outcome.ok.inj h
    simp only [Bool.and_eq_true, decide_eq_true_eq] at h1
    obtain ⟨f1, f2⟩ := facesLoop_true hz
    dsimp only at f1 f2
    obtain ⟨f3, f4⟩ := f2 h1.1.1.1
    obtain ⟨a1, a2, a3, a4, a5⟩ := fin f3
    exact ⟨a1, a2, a3, a4, a5, fun _ => by omega, fun _ f hf => f4 f (List.mem_range.2 hf)⟩
  · rw [if_pos hi] at h
    obtain ⟨a1, a2, a3, a4, a5⟩ := fin (Outcome.ok.inj h)
    exact ⟨a1, a2, a3, a4, a5, fun h => absurd h hi, fun h => absurd h hi⟩

namespace Props

/-- **C59.** For every state whatsoever, a positive answer of `checkConsistency` means that the arrays are inverse to each other at all
existing darts, the counts are exact, the darts around every node start there, edges have two points or more and end at their nodes,
and, once the map is initialized, both faces of every edge exist, no edge is a loop with the same face on both sides, and no contour
is stored twice and every contour runs around its face. -/
theorem check_detects {a : Arrays} {s : GMap K} (h : checkConsistency a s = .ok true) : Detected a s := by
  unfold checkConsistency at h
  by_cases hw : setupWrong a = true
  · rw [if_pos hw] at h
    have := (checkCells_true h).1
    cases this
  · rw [if_neg hw] at h
    obtain ⟨r, hr, h⟩ := bind_eq_ok.1 h
    by_cases hr' : r = true
    · rw [if_pos hr'] at h
      obtain ⟨-, a2, a3, a4, a5, a6, a7⟩ := checkCells_true h
      have hs := (sigmaLoop_true hr hr').2
      refine ⟨?_, a2, a3, a4, fun l hl e he => (a5 l hl e he).1, fun hi l hl e he => (a5 l hl e he).2 hi, a6, a7⟩
      intro label hl
      have h1 := hs label (by omega) (by push_cast; omega)
      unfold sigmaLabel at h1
      obtain ⟨v, hv, h1⟩ := bind_eq_ok.1 h1
      refine ⟨v, hv, fun h2 h3 h4 => ?_⟩
      rw [if_pos ⟨h2, h3, h4⟩] at h1
      obtain ⟨w, hw, h1⟩ := bind_eq_ok.1 h1
      have := Outcome.ok.inj h1
      simp only [decide_eq_true_eq] at this
      rw [hw, this]
    · rw [if_neg hr'] at h; cases h

/-- the hypothesis is met, for example by `nested` -/
example : ∃ a, checkConsistency a GeoMap.Props.nested = .ok true ∧ Detected a GeoMap.Props.nested := by
  obtain ⟨cs, a, b, -, h2, h3, h4⟩ := check_map GeoMap.Props.nested_reach.reach
  have := check_true GeoMap.Props.nested_reach.reach nested_passes h2
  exact ⟨a, this, check_detects this⟩

end Props
end Verif.Check
