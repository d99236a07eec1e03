import Verif.Pickle.Rebuild

/-!
# `setstate` restores flags and labels
-/

namespace Verif.Pickle
open Equiv Equiv.Perm Verif Verif.GeoMap Verif.PermLemmas

variable {K : Type}

/-! ## flags of the edges -/

/-- only flags of edges differ -/
structure Flagged (s t : GMap K) (x : Nat → Nat) : Prop where
  eq : ∃ edge', t = { s with edge := edge' }
  edges : ∀ l, t.edge l = (s.edge l).map fun e => { e with
    flags := x l }

theorem restoreEdgeFlags_spec (o : Nat → Option Nat) : ∀ (ls : List Nat) (s : GMap K) (rest : List Nat), ls.Nodup →
    (∀ l ∈ ls, (s.edge l).isSome = (o l).isSome) →
    restoreEdgeFlags ls (ls.filterMap o ++ rest) s = .ok { s with
      edge := fun l => if l ∈ ls then (s.edge l).map fun e => { e with flags := e.flags ||| (o l).getD 0 } else s.edge l } := by
  intro ls
  induction ls with
  | nil => intro s rest _ _; simp [restoreEdgeFlags]
  | cons l ls ih =>
    intro s rest hn ho
    have hl := ho l (by simp)
    have hnl : l ∉ ls := (List.nodup_cons.mp hn).1
    cases he : s.edge l with
    | none =>
      have h0 : o l = none := by rw [he] at hl; cases h : o l with
        | none => rfl
        | some x => rw [h] at hl; cases hl
      rw [List.filterMap_cons_none h0]
      simp only [restoreEdgeFlags, he]
      rw [ih s rest (List.nodup_cons.mp hn).2 fun x hx => ho x (by simp [hx])]
      congr 2
      funext x
      by_cases hx : x = l
      · subst hx; simp [hnl, he]
      · simp [hx]
    | some e =>
      obtain ⟨y, hy⟩ : ∃ y, o l = some y := by
        rw [he] at hl
        exact Option.isSome_iff_exists.mp hl.symm
      rw [List.filterMap_cons_some hy, List.cons_append]
      simp only [restoreEdgeFlags, he]
      rw [ih _ rest (List.nodup_cons.mp hn).2 fun x hx => ?_]
      · congr 2
        funext x
        by_cases hx : x = l
        · subst hx; simp [hnl, he, hy, GMap.setEdge]
        · simp [hx, GMap.setEdge]
      · rw [← ho x (by simp [hx])]
        simp only [GMap.setEdge, Function.update_apply]
        by_cases hxl : x = l
        · subst hxl; simp [he]
        · simp [hxl]

section
variable {s t : GMap K} {x : Nat → Nat}

theorem Flagged.liveD (h : Flagged s t x) (d : Int) : t.liveD d ↔ s.liveD d := by
  unfold GMap.liveD; rw [h.edges]; simp

theorem Flagged.start (h : Flagged s t x) : t.startN? = s.startN? := by
  funext d
  unfold GMap.startN?; rw [h.edges]
  cases s.edge d.natAbs <;> rfl

theorem Flagged.left (h : Flagged s t x) : t.left? = s.left? := by
  funext d
  unfold GMap.left?; rw [h.edges]
  cases s.edge d.natAbs <;> rfl

theorem Flagged.frame (h : Flagged s t x) : t.node = s.node ∧ t.face = s.face ∧ t.sigma = s.sigma ∧ t.sigmaInv = s.sigmaInv ∧ t.nNodes = s.nNodes ∧
    t.nEdges = s.nEdges ∧ t.nFaces = s.nFaces ∧ t.nodeCount = s.nodeCount ∧ t.edgeCount = s.edgeCount ∧ t.faceCount = s.faceCount ∧
    t.edgesSorted = s.edgesSorted := by
  obtain ⟨e, he⟩ := h.eq
  subst he
  exact ⟨rfl, rfl, rfl, rfl, rfl, rfl, rfl, rfl, rfl, rfl, rfl⟩

theorem Flagged.phi (h : Flagged s t x) : t.phi = s.phi ∧ t.phiInv = s.phiInv := by
  obtain ⟨e, he⟩ := h.eq
  subst he
  exact ⟨rfl, rfl⟩

theorem Flagged.graph (h : Flagged s t x) {L : Finset Int} {π : Perm Int} (hg : GraphRep s L π) : GraphRep t L π := by
  obtain ⟨q1, q2, q3, q4, q5, q6, q7, q8, q9, q10, -⟩ := h.frame
  have hes : ∀ l, (t.edge l).isSome = (s.edge l).isSome := fun l => by rw [h.edges]; simp
  have l := hg.labels
  refine ⟨⟨by rw [q6]; exact l.edges_pos, by rw [h.edges, l.edge_zero]; rfl, by rw [q1, q5]; exact l.node_lt, fun n hn => by rw [q6]; rw [hes] at hn; exact l.edge_lt n hn,
    by rw [q2, q7]; exact l.face_lt, ?_, ?_, ?_, fun n e he => ?_⟩, fun d => by rw [h.liveD]; exact hg.live d, by rw [q3, q4]; exact hg.rep,
    by rw [h.start, q1]; exact hg.starts, by rw [h.start, q1]; exact hg.nodes⟩
  · rw [q8, l.node_count]; unfold GMap.liveNodes; rw [q1, q5]
  · rw [q9, l.edge_count]; unfold GMap.liveEdges; rw [q6]
    congr 1
    refine Finset.filter_congr fun n _ => by rw [hes]
  · rw [q10, l.face_count]; unfold GMap.liveFaces; rw [q2, q7]
  · rw [h.edges] at he
    cases hs : s.edge n with
    | none => rw [hs] at he; cases he
    | some e' => rw [hs] at he; cases he; exact l.pts_ne n e' hs

theorem Flagged.contours (h : Flagged s t x) {L : Finset Int} {ψ : Perm Int} (hc : ContoursRep s L ψ) : ContoursRep t L ψ := by
  obtain ⟨q1, q2, -⟩ := h.frame
  obtain ⟨p1, p2⟩ := h.phi
  exact ⟨by rw [p1, p2]; exact hc.rep, by rw [h.left, q2]; exact hc.lefts, by rw [h.left, q2]; exact hc.faces, by rw [q2]; exact hc.face_zero⟩

end

/-! ## faces -/

theorem faceStates_spec (s : PMap K) (hne : ∀ f F, s.map.face f = some F → F.anchors ≠ []) : ∀ fs : List Nat,
    faceStates s fs = .ok (fs.filterMap fun f => (s.map.face f).map fun F => (s.faceFlags f % 2 ^ 28, F.anchors.headD 0, f)) := by
  intro fs
  induction fs with
  | nil => rfl
  | cons f fs ih =>
    cases hF : s.map.face f with
    | none =>
      simp only [faceStates, hF, ih]
      rw [List.filterMap_cons_none (by simp [hF])]
    | some F =>
      have := hne f F hF
      cases hA : F.anchors with
      | nil => exact absurd hA this
      | cons a as =>
        simp only [faceStates, hF, hA, ih, bind, Outcome.bind_ok]
        rw [List.filterMap_cons_some (by rw [hF]; rfl)]
        simp only [hA]; rfl

/-- the labels and flags of the faces of the first darts are recorded -/
theorem restoreFaces_spec {t : GMap K} (hl : LabelsOK t) (G : Nat → Nat) : ∀ (xs : List (Nat × Int × Nat)) (fl : Nat → Nat) (new : List Nat),
    new.length = t.nFaces →
    (∀ x ∈ xs, t.left? x.2.1 = some (G x.2.2) ∧ (t.face (G x.2.2)).isSome = true) →
    xs.Pairwise (fun x y => G x.2.2 ≠ G y.2.2) →
    ∃ fl' new', restoreFaces t xs.length xs fl new = .ok (fl', new') ∧ new'.length = t.nFaces ∧
      (∀ x ∈ xs, new'[G x.2.2]? = some x.2.2 ∧ fl' (G x.2.2) = fl (G x.2.2) ||| x.1 % 2 ^ 28) ∧
      ∀ g, (∀ x ∈ xs, g ≠ G x.2.2) → new'[g]? = new[g]? ∧ fl' g = fl g := by
  intro xs
  induction xs with
  | nil => intro fl new hn _ _; exact ⟨fl, new, rfl, hn, by simp, fun g _ => ⟨rfl, rfl⟩⟩
  | cons x xs ih =>
    intro fl new hn h1 h2
    obtain ⟨hx1, hx2⟩ := h1 x (by simp)
    obtain ⟨F, hF⟩ := Option.isSome_iff_exists.mp hx2
    have hlt : G x.2.2 < new.length := by rw [hn]; exact hl.face_lt _ hx2
    obtain ⟨p1, p2⟩ := List.pairwise_cons.mp h2
    obtain ⟨fl', new', e, e1, e2, e3⟩ := ih (Function.update fl (G x.2.2) (fl (G x.2.2) ||| x.1 % 2 ^ 28)) (new.set (G x.2.2) x.2.2)
      (by rw [List.length_set]; exact hn) (fun y hy => h1 y (by simp [hy])) p2
    obtain ⟨a, b, c⟩ := x
    refine ⟨fl', new', ?_, e1, ?_, ?_⟩
    · simp only [List.length_cons, restoreFaces, bind, leftLabel_eq (liveD_of_left hx1), Outcome.bind_ok]
      simp only at hx1 hF
      rw [hx1, derefFace_of hl hF]
      simp only [Outcome.bind_ok]
      rw [if_pos hlt]
      exact e
    · intro y hy
      rcases List.mem_cons.mp hy with rfl | hy
      · obtain ⟨q1, q2⟩ := e3 (G c) (fun y hy => p1 y hy)
        rw [q1, q2]
        simp only at hlt
        simp [hlt]
      · obtain ⟨q1, q2⟩ := e2 y hy
        refine ⟨q1, ?_⟩
        rw [q2, Function.update_of_ne (fun h => p1 y hy h.symm)]
    · intro g hg
      obtain ⟨q1, q2⟩ := e3 g (fun y hy => hg y (by simp [hy]))
      have hgc : g ≠ G c := hg (a, b, c) (by simp)
      rw [q1, q2, Function.update_of_ne hgc, List.getElem?_set_ne (fun h => hgc h.symm)]
      exact ⟨rfl, rfl⟩

theorem moveFlags_eq {s : GMap K} {new : List Nat} {fl : Nat → Nat} (hinj : ∀ l k f : Nat, (s.face l).isSome = true → (s.face k).isSome = true → new[l]? = some f → new[k]? = some f → l = k)
    {l f : Nat} (hl : (s.face l).isSome = true) (hf : new[l]? = some f) : moveFlags s new fl f = fl l := by
  unfold moveFlags
  cases h : (List.range new.length).find? fun l => (s.face l).isSome && new[l]? == some f with
  | none =>
    rw [List.find?_eq_none] at h
    have := h l (by rw [List.mem_range]; exact (List.getElem?_eq_some_iff.mp hf).1)
    simp [hl, hf] at this
  | some k =>
    have := List.find?_some h
    simp only [Bool.and_eq_true, beq_iff_eq] at this
    simp only
    rw [hinj l k f hl this.1 hf this.2]

end Verif.Pickle
