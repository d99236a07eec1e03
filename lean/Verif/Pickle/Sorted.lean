import Verif.GeoMap.Machine

/-!
# The edges of an initialised map are sorted

`keep`: what no operation but `sortEdgesDirectly` and `initializeMap` changes.
-/

namespace Verif.Pickle.Sorted
open Verif Verif.GeoMap

variable {K : Type}

def keep (s : GMap K) : Bool × Nat := (s.edgesSorted, s.nFaces)
def srt (s : GMap K) : Bool := s.edgesSorted

theorem keep_setSigma (s : GMap K) (a b : Int) : keep (s.setSigma a b) = keep s := rfl
theorem keep_setSigmaInv (s : GMap K) (a b : Int) : keep (s.setSigmaInv a b) = keep s := rfl
theorem keep_setNode (s : GMap K) (n : Nat) (x : Option (Node K)) : keep (s.setNode n x) = keep s := rfl

theorem keep_replaceInOrbit (s : GMap K) (a b : Int) : keep (s.replaceInOrbit a b) = keep s := by
  unfold GMap.replaceInOrbit
  simp only
  split_ifs <;> simp only [keep_setSigma, keep_setSigmaInv]

theorem setLeft_of {s t : GMap K} {d : Int} {f : Nat} (h : s.setLeft d f = .ok t) : keep t = keep s := by
  obtain ⟨e, -, h⟩ := Outcome.bind_eq_ok.mp h
  cases h; rfl

theorem relabelLoop_of {survivor fuel : Nat} : ∀ {s t : GMap K} {d : Int}, GMap.relabelLoop survivor fuel s d = .ok t → keep t = keep s := by
  induction fuel with
  | zero => intro s t d h; cases h
  | succ fuel ih =>
    intro s t d h
    obtain ⟨l, -, h⟩ := Outcome.bind_eq_ok.mp h
    split_ifs at h with h0
    · cases h; rfl
    · obtain ⟨u, hu, h⟩ := Outcome.bind_eq_ok.mp h
      rw [ih h, setLeft_of hu]

theorem relabelContours_of {survivor : Nat} : ∀ {as : List Int} {s t : GMap K}, GMap.relabelContours survivor as s = .ok t → keep t = keep s := by
  intro as
  induction as with
  | nil => intro s t h; cases h; rfl
  | cons a as ih =>
    intro s t h
    obtain ⟨u, hu, h⟩ := Outcome.bind_eq_ok.mp h
    rw [ih h, relabelLoop_of hu]

theorem removeIsolatedNode_of {h : Hooks K} {s : GMap K} {n : Nat} {r : Bool × GMap K} (hr : s.removeIsolatedNode h n = .ok r) : keep r.2 = keep s := by
  obtain ⟨x, -, hr⟩ := Outcome.bind_eq_ok.mp hr
  split_ifs at hr
  · cases hr; rfl
  · cases hr; rfl

theorem moveFaceAnchor_of {s t : GMap K} {l : Nat} {f : Option Nat} (h : s.moveFaceAnchor l f = .ok t) : keep t = keep s := by
  obtain ⟨F, -, h⟩ := Outcome.bind_eq_ok.mp h
  cases f with
  | none => cases h
  | some f => cases h; rfl

theorem moveAnchors_of {s t : GMap K} {d2 : Int} {e2 : Edge K} (h : s.moveAnchors d2 e2 = .ok t) : keep t = keep s := by
  unfold GMap.moveAnchors at h
  split_ifs at h
  · obtain ⟨u, hu, h⟩ := Outcome.bind_eq_ok.mp h
    rw [moveFaceAnchor_of h, moveFaceAnchor_of hu]
  · cases h; rfl

theorem markLoop_of {lbl fuel : Nat} {stop : Option Nat → Bool} : ∀ {s t : GMap K} {d : Int}, GMap.markLoop lbl stop fuel s d = .ok t → keep t = keep s := by
  induction fuel with
  | zero => intro s t d h; cases h
  | succ fuel ih =>
    intro s t d h
    obtain ⟨l, -, h⟩ := Outcome.bind_eq_ok.mp h
    split_ifs at h with h0
    · cases h; rfl
    · obtain ⟨u, hu, h⟩ := Outcome.bind_eq_ok.mp h
      rw [ih h, setLeft_of hu]

theorem newFace_of {s t : GMap K} {a : Int} (h : s.newFace a = .ok t) : srt t = srt s := by
  unfold GMap.newFace at h
  simp only at h
  split_ifs at h
  · cases h; rfl
  · exact (congrArg Prod.fst (markLoop_of h)).trans rfl

theorem initDart_of {s t : GMap K} {d : Int} (h : s.initDart d = .ok t) : srt t = srt s := by
  unfold GMap.initDart at h
  split at h
  · cases h; rfl
  · split_ifs at h
    · exact newFace_of h
    · cases h; rfl

theorem initContoursLoop_of : ∀ {ls : List Nat} {s t : GMap K}, GMap.initContoursLoop ls s = .ok t → srt t = srt s := by
  intro ls
  induction ls with
  | nil => intro s t h; cases h; rfl
  | cons l ls ih =>
    intro s t h
    obtain ⟨u, hu, h⟩ := Outcome.bind_eq_ok.mp h
    obtain ⟨v, hv, h⟩ := Outcome.bind_eq_ok.mp h
    rw [ih h, initDart_of hv, initDart_of hu]

theorem initContours_of {s t : GMap K} (h : s.initContours = .ok t) : srt t = srt s := by
  obtain ⟨u, hu, h⟩ := Outcome.bind_eq_ok.mp h
  rw [initContoursLoop_of h, newFace_of hu]

variable [Field K]

theorem faceArea_of {s : GMap K} {f : Option Nat} {r : K × GMap K} (h : s.faceArea f = .ok r) : keep r.2 = keep s := by
  obtain ⟨F, -, h⟩ := Outcome.bind_eq_ok.mp h
  split at h
  · cases h; rfl
  · obtain ⟨a, -, h⟩ := Outcome.bind_eq_ok.mp h
    cases h; rfl
  · cases h

variable [LinearOrder K]

omit [LinearOrder K] in
theorem embedContour_of {s t : GMap K} {p : Nat} {a : Int} (h : s.embedContour p a = .ok t) : srt t = srt s := by
  obtain ⟨P, -, h⟩ := Outcome.bind_eq_ok.mp h
  obtain ⟨u, hu, h⟩ := Outcome.bind_eq_ok.mp h
  have := congrArg Prod.fst (markLoop_of hu)
  split at h
  · cases h; exact this
  · obtain ⟨x, -, h⟩ := Outcome.bind_eq_ok.mp h
    cases h; exact this

theorem embedLoop_of {pick : GMap K → Int → Option Nat} : ∀ {cs : List (Nat × Face K × K)} {s t : GMap K}, GMap.embedLoop pick cs s = .ok t → srt t = srt s := by
  intro cs
  induction cs with
  | nil => intro s t h; cases h; rfl
  | cons c cs ih =>
    obtain ⟨f, F, a⟩ := c
    intro s t h
    unfold GMap.embedLoop at h
    split at h
    · cases h
    · split_ifs at h
      · rw [ih h]; rfl
      · obtain ⟨u, hu, h⟩ := Outcome.bind_eq_ok.mp h
        rw [ih h]
        exact (show srt (u.uninitFace f) = srt u from rfl).trans (embedContour_of hu)

theorem embedFaces_of {s t : GMap K} {pick : GMap K → Int → Option Nat} (h : s.embedFaces pick = .ok t) : srt t = srt s := by
  obtain ⟨cs, -, h⟩ := Outcome.bind_eq_ok.mp h
  rw [embedLoop_of h]; rfl

theorem bridgeUpdate_of {h : Hooks K} {s t : GMap K} {e : Edge K} {f i : Nat} {F : Face K} {d a1 a2 : Int}
    (hu : s.bridgeUpdate h e f F i d a1 a2 = .ok t) : keep t = keep s := by
  unfold GMap.bridgeUpdate at hu
  split_ifs at hu
  · obtain ⟨⟨b, u⟩, h1, hu⟩ := Outcome.bind_eq_ok.mp hu
    obtain ⟨⟨b', v⟩, h2, hu⟩ := Outcome.bind_eq_ok.mp hu
    cases hu
    have e2 := removeIsolatedNode_of h2
    have e1 := removeIsolatedNode_of h1
    exact (show keep (v.setFace _ _) = keep v from rfl).trans (e2.trans e1)
  · obtain ⟨⟨b, u⟩, h1, hu⟩ := Outcome.bind_eq_ok.mp hu
    cases hu
    have := removeIsolatedNode_of h1
    simp_all [keep, GMap.setFace]
  · obtain ⟨⟨b, u⟩, h1, hu⟩ := Outcome.bind_eq_ok.mp hu
    cases hu
    have := removeIsolatedNode_of h1
    simp_all [keep, GMap.setFace]
  · obtain ⟨as, h1, hu⟩ := Outcome.bind_eq_ok.mp hu
    cases hu; rfl

omit [Field K] [LinearOrder K] in
theorem removeIfIsolated_of {h : Hooks K} {s t : GMap K} {n : Nat} (hu : s.removeIfIsolated h n = .ok t) : keep t = keep s := by
  obtain ⟨nd, -, hu⟩ := Outcome.bind_eq_ok.mp hu
  split_ifs at hu
  · obtain ⟨⟨b, u⟩, h1, hu⟩ := Outcome.bind_eq_ok.mp hu
    cases hu
    exact removeIsolatedNode_of h1
  · cases hu; rfl

/-! ## functions that change the mappings -/
/-! ## functions that change the mappings -/

omit [Field K] [LinearOrder K] in
theorem detachDart_of {s t : GMap K} {d : Int} (h : s.detachDart d = .ok t) : keep t = keep s := by
  obtain ⟨n, -, h⟩ := Outcome.bind_eq_ok.mp h
  obtain ⟨nd, -, h⟩ := Outcome.bind_eq_ok.mp h
  simp only at h
  split_ifs at h <;> cases h <;> rfl

theorem removeBridge_of {h : Hooks K} {s : GMap K} {d : Int} {r : Option Nat × GMap K} (hr : s.removeBridge h d = .ok r) : keep r.2 = keep s := by
  obtain ⟨e, he, hr⟩ := Outcome.bind_eq_ok.mp hr
  obtain ⟨F, -, hr⟩ := Outcome.bind_eq_ok.mp hr
  obtain ⟨F', -, hr⟩ := Outcome.bind_eq_ok.mp hr
  by_cases h1 : e.leftOf d ≠ e.rightOf d
  · rw [if_pos h1] at hr; cases hr
  rw [if_neg h1] at hr
  split at hr
  · cases hr
  obtain ⟨x1, -, hr⟩ := Outcome.bind_eq_ok.mp hr
  obtain ⟨x2, -, hr⟩ := Outcome.bind_eq_ok.mp hr
  by_cases h2 : e.startOf d = e.endOf d
  · rw [if_pos h2] at hr; cases hr
  rw [if_neg h2] at hr
  by_cases h3 : ¬ h.preRemoveBridge s d
  · rw [if_pos h3] at hr; cases hr; rfl
  rw [if_neg h3] at hr
  obtain ⟨i, -, hr⟩ := Outcome.bind_eq_ok.mp hr
  obtain ⟨t, ht, hr⟩ := Outcome.bind_eq_ok.mp hr
  obtain ⟨u, hu, hr⟩ := Outcome.bind_eq_ok.mp hr
  obtain ⟨v, hv, hr⟩ := Outcome.bind_eq_ok.mp hr
  cases hr
  rw [← detachDart_of ht, ← detachDart_of hu, ← bridgeUpdate_of hv]; rfl

omit [LinearOrder K] in
theorem mergeFacesApply_of {h : Hooks K} {s t : GMap K} {r : Int} {S M : Face K} {n1 sl ml : Nat}
    (ha : s.mergeFacesApply h r S M n1 sl ml = .ok t) : keep t = keep s := by
  obtain ⟨s1, h1, ha⟩ := Outcome.bind_eq_ok.mp ha
  obtain ⟨i1, -, ha⟩ := Outcome.bind_eq_ok.mp ha
  obtain ⟨i2, -, ha⟩ := Outcome.bind_eq_ok.mp ha
  obtain ⟨as, -, ha⟩ := Outcome.bind_eq_ok.mp ha
  obtain ⟨s2, h2, ha⟩ := Outcome.bind_eq_ok.mp ha
  obtain ⟨s3, h3, ha⟩ := Outcome.bind_eq_ok.mp ha
  obtain ⟨s4, h4, ha⟩ := Outcome.bind_eq_ok.mp ha
  obtain ⟨S', -, ha⟩ := Outcome.bind_eq_ok.mp ha
  obtain ⟨⟨x, s5⟩, h5, ha⟩ := Outcome.bind_eq_ok.mp ha
  obtain ⟨M', -, ha⟩ := Outcome.bind_eq_ok.mp ha
  cases ha
  have e1 : keep (s1.setFace sl (some { S with anchors := as })) = keep s :=
    (show _ = keep s1 from rfl).trans (relabelContours_of h1)
  have := faceArea_of h5
  rw [removeIfIsolated_of h4] at this
  rw [← e1, ← detachDart_of h2, ← detachDart_of h3]
  exact this

theorem mergeFaces_of {h : Hooks K} {s : GMap K} {d : Int} {r : Option Nat × GMap K} (hr : s.mergeFaces h d = .ok r) : keep r.2 = keep s := by
  obtain ⟨e, he, hr⟩ := Outcome.bind_eq_ok.mp hr
  obtain ⟨⟨a, s1⟩, h1, hr⟩ := Outcome.bind_eq_ok.mp hr
  obtain ⟨⟨b, s2⟩, h2, hr⟩ := Outcome.bind_eq_ok.mp hr
  obtain ⟨S, -, hr⟩ := Outcome.bind_eq_ok.mp hr
  obtain ⟨M, -, hr⟩ := Outcome.bind_eq_ok.mp hr
  obtain ⟨nd, -, hr⟩ := Outcome.bind_eq_ok.mp hr
  have e2 : keep s2 = keep s := (faceArea_of h2).trans (faceArea_of h1)
  split at hr
  · split_ifs at hr with h3 h4
    rotate_left
    · cases hr; exact e2
    · obtain ⟨t, ht, hr⟩ := Outcome.bind_eq_ok.mp hr
      cases hr
      exact (mergeFacesApply_of ht).trans e2
  · cases hr

theorem removeEdge_of {h : Hooks K} {s : GMap K} {d : Int} {r : Option Nat × GMap K} (hr : s.removeEdge h d = .ok r) : keep r.2 = keep s := by
  unfold GMap.removeEdge at hr
  split_ifs at hr with hi
  · obtain ⟨e, he, hr⟩ := Outcome.bind_eq_ok.mp hr
    split_ifs at hr
    · exact removeBridge_of hr
    · exact mergeFaces_of hr
  · obtain ⟨t, ht, hr⟩ := Outcome.bind_eq_ok.mp hr
    obtain ⟨u, hu, hr⟩ := Outcome.bind_eq_ok.mp hr
    obtain ⟨e, he, hr⟩ := Outcome.bind_eq_ok.mp hr
    cases hr
    rw [← detachDart_of ht, ← detachDart_of hu]; rfl

omit [Field K] [LinearOrder K] in
theorem mergeEdges_of {h : Hooks K} {s : GMap K} {d : Int} {r : Option Nat × GMap K} (hr : s.mergeEdges h d = .ok r) : keep r.2 = keep s := by
  obtain ⟨e, he, hr⟩ := Outcome.bind_eq_ok.mp hr
  simp only at hr
  by_cases h1 : (s.sigma d).natAbs = d.natAbs
  · rw [if_pos h1] at hr; cases hr
  rw [if_neg h1] at hr
  by_cases h2 : s.sigma (s.sigma d) ≠ d
  · rw [if_pos h2] at hr; cases hr
  rw [if_neg h2] at hr
  generalize (if 0 < s.sigma (s.sigma d) ∧ s.sigma d < 0 then s.sigma d else s.sigma (s.sigma d)) = d1 at hr
  generalize (if 0 < s.sigma (s.sigma d) ∧ s.sigma d < 0 then s.sigma (s.sigma d) else s.sigma d) = d2 at hr
  obtain ⟨m, -, hr⟩ := Outcome.bind_eq_ok.mp hr
  obtain ⟨nd, -, hr⟩ := Outcome.bind_eq_ok.mp hr
  obtain ⟨e2, -, hr⟩ := Outcome.bind_eq_ok.mp hr
  obtain ⟨s1, hs1, hr⟩ := Outcome.bind_eq_ok.mp hr
  have e1 := moveAnchors_of hs1
  by_cases h3 : ¬ h.preMergeEdges s1 d1
  · rw [if_pos h3] at hr; cases hr; exact e1
  rw [if_neg h3] at hr
  by_cases h4 : ¬ h.removeNode s1 m
  · rw [if_pos h4] at hr; cases hr; exact e1
  rw [if_neg h4] at hr
  obtain ⟨e1', -, hr⟩ := Outcome.bind_eq_ok.mp hr
  by_cases h5 : e2.pts = []
  · rw [if_pos h5] at hr; cases hr
  rw [if_neg h5] at hr
  obtain ⟨nd', -, hr⟩ := Outcome.bind_eq_ok.mp hr
  cases hr
  rw [← e1]
  exact (keep_replaceInOrbit (s1.setEdge _ _) d1 d2).trans rfl

omit [Field K] [LinearOrder K] in
theorem splitOrbits_of {s t : GMap K} {l r nn cn : Nat} (h : s.splitOrbits l r nn cn = .ok t) : keep t = keep s := by
  obtain ⟨nd, -, h⟩ := Outcome.bind_eq_ok.mp h
  obtain ⟨nd', -, h⟩ := Outcome.bind_eq_ok.mp h
  by_cases h1 : s.sigma (-(l : Int)) = -(l : Int)
  · rw [if_pos h1] at h
    rw [← Outcome.ok.inj h]
    simp only [keep_setSigma, keep_setSigmaInv, keep_setNode]
  · rw [if_neg h1] at h
    simp only at h
    split_ifs at h <;> rw [← Outcome.ok.inj h] <;> simp only [keep_setSigma, keep_setSigmaInv, keep_setNode]

omit [Field K] [LinearOrder K] in
theorem splitEdge_of {s : GMap K} {l i : Nat} {np : Option (Pt K)} {r : Nat × GMap K} (hr : s.splitEdge l i np = .ok r) : keep r.2 = keep s := by
  obtain ⟨e, he, hr⟩ := Outcome.bind_eq_ok.mp hr
  by_cases h1 : e.pts = []
  · rw [if_pos h1] at hr; cases hr
  rw [if_neg h1] at hr
  by_cases h2 : ¬ i < e.pts.length - 1
  · rw [if_pos h2] at hr; cases hr
  rw [if_neg h2] at hr
  split at hr
  · cases hr
  obtain ⟨nd, -, hr⟩ := Outcome.bind_eq_ok.mp hr
  obtain ⟨t, ht, hr⟩ := Outcome.bind_eq_ok.mp hr
  cases hr
  exact (splitOrbits_of ht).trans rfl

omit [Field K] [LinearOrder K] in
theorem attach_of {s t : GMap K} {A : GMap.SigmaAnchor} {n : Nat} {x : Int} (h : s.attach A n x = .ok t) : keep t = keep s := by
  unfold GMap.attach at h
  split_ifs at h with h0
  · obtain ⟨nd, hnd, h⟩ := Outcome.bind_eq_ok.mp h
    cases h
    unfold keep GMap.insertSigmaPredecessor GMap.setNode; split_ifs <;> rfl
  · cases h
    unfold keep GMap.insertSigmaPredecessor; split_ifs <;> rfl

theorem addEdge_of {s : GMap K} {p q : GMap.SigmaPos} {pts : List (Pt K)} {label : Nat} {r : Nat × GMap K}
    (hr : s.addEdge p q pts label = .ok r) : keep r.2 = keep s := by
  unfold GMap.addEdge at hr
  split_ifs at hr with hi
  obtain ⟨A, hA, hr⟩ := Outcome.bind_eq_ok.mp hr
  obtain ⟨B, hB, hr⟩ := Outcome.bind_eq_ok.mp hr
  obtain ⟨t, ht, hr⟩ := Outcome.bind_eq_ok.mp hr
  obtain ⟨u, hu, hr⟩ := Outcome.bind_eq_ok.mp hr
  cases hr
  have h1 : keep u = keep t := by
    unfold GMap.attachEnd at hu
    split_ifs at hu with h1
    · cases hu
      unfold keep GMap.insertSigmaPredecessor; split_ifs <;> rfl
    · exact attach_of hu
  exact h1.trans ((attach_of ht).trans rfl)

/-! ### sorting -/

omit [Field K] [LinearOrder K] in
theorem linkCycle_of (first : Int) : ∀ (xs : List Int) (p : Int) (s : GMap K), keep (GMap.linkCycle first p xs s) = keep s := by
  intro xs
  induction xs with
  | nil => intro p s; rfl
  | cons x xs ih => intro p s; exact ih x _

theorem sortNode_of {s t : GMap K} {n : Nat} (h : s.sortNode n = .ok t) : keep t = keep s := by
  unfold GMap.sortNode at h
  split at h
  · cases h; rfl
  · split_ifs at h with h0
    · cases h; rfl
    · obtain ⟨as, has, h⟩ := Outcome.bind_eq_ok.mp h
      simp only at h
      split_ifs at h
      split at h
      · cases h
      · cases h
        exact linkCycle_of _ _ _ _

theorem sortNodes_of : ∀ {ns : List Nat} {s t : GMap K}, GMap.sortNodes ns s = .ok t → keep t = keep s := by
  intro ns
  induction ns with
  | nil => intro s t h; cases h; rfl
  | cons n ns ih =>
    intro s t h
    obtain ⟨u, hu, h⟩ := Outcome.bind_eq_ok.mp h
    exact (ih h).trans (sortNode_of hu)

theorem sortEdges_of {s t : GMap K} (h : s.sortEdgesDirectly = .ok t) : t.edgesSorted = true ∧ t.nFaces = s.nFaces := by
  unfold GMap.sortEdgesDirectly at h
  split_ifs at h
  obtain ⟨u, hu, h⟩ := Outcome.bind_eq_ok.mp h
  cases h
  exact ⟨rfl, congrArg Prod.snd (sortNodes_of hu)⟩

theorem initializeMap_of {s t : GMap K} {pick : GMap K → Int → Option Nat} (h : s.initializeMap pick = .ok t) : t.edgesSorted = true := by
  unfold GMap.initializeMap at h
  split_ifs at h
  obtain ⟨u, hu, h⟩ := Outcome.bind_eq_ok.mp h
  obtain ⟨v, hv, h⟩ := Outcome.bind_eq_ok.mp h
  have h1 : u.edgesSorted = true := by
    unfold GMap.ensureSorted at hu
    split_ifs at hu with h0
    · cases hu; exact h0
    · exact (sortEdges_of hu).1
  exact ((embedFaces_of h).trans (initContours_of hv)).trans h1

/-- every call keeps whether the edges are sorted and whether the map is initialised, or sorts the edges -/
theorem op_of {h : Hooks K} {s t : GMap K} (op : Op K) (hr : op.run h s = .ok t) : keep t = keep s ∨ t.edgesSorted = true := by
  cases op with
  | addNode p label => cases hr; exact Or.inl rfl
  | addEdge a b pts label =>
    obtain ⟨r, h1, h2⟩ := Outcome.bind_eq_ok.mp hr
    cases h2; exact Or.inl (addEdge_of h1)
  | sortEdgesDirectly => exact Or.inr (sortEdges_of hr).1
  | initializeMap pick => exact Or.inr (initializeMap_of hr)
  | removeIsolatedNode n =>
    obtain ⟨r, h1, h2⟩ := Outcome.bind_eq_ok.mp hr
    cases h2; exact Or.inl (removeIsolatedNode_of h1)
  | mergeEdges d =>
    obtain ⟨r, h1, h2⟩ := Outcome.bind_eq_ok.mp hr
    cases h2; exact Or.inl (mergeEdges_of h1)
  | splitEdge l i np =>
    obtain ⟨r, h1, h2⟩ := Outcome.bind_eq_ok.mp hr
    cases h2; exact Or.inl (splitEdge_of h1)
  | removeBridge d =>
    obtain ⟨r, h1, h2⟩ := Outcome.bind_eq_ok.mp hr
    cases h2; exact Or.inl (removeBridge_of h1)
  | mergeFaces d =>
    obtain ⟨r, h1, h2⟩ := Outcome.bind_eq_ok.mp hr
    cases h2; exact Or.inl (mergeFaces_of h1)
  | removeEdge d =>
    obtain ⟨r, h1, h2⟩ := Outcome.bind_eq_ok.mp hr
    cases h2; exact Or.inl (removeEdge_of h1)
  | area f =>
    obtain ⟨r, h1, h2⟩ := Outcome.bind_eq_ok.mp hr
    cases h2; exact Or.inl (faceArea_of h1)
  | setFlags l flags =>
    obtain ⟨e, h1, h2⟩ := Outcome.bind_eq_ok.mp hr
    cases h2; exact Or.inl rfl

/-- the edges of a reachable initialised map are sorted -/
theorem sorted_of_reach {K : Type} [Field K] [LinearOrder K] [IsStrictOrderedRing K] {s : GMap K} (h : Reach s) : s.initialized → s.edgesSorted = true := by
  induction h with
  | empty => intro h; exact absurd h (Nat.lt_irrefl 0)
  | @call s t hk op _ hl hrun hP ih =>
    intro hi
    rcases op_of op hrun with h | h
    · have h1 : t.edgesSorted = s.edgesSorted := congrArg Prod.fst h
      have h2 : t.nFaces = s.nFaces := congrArg Prod.snd h
      rw [h1]
      exact ih (by unfold GMap.initialized at hi ⊢; rw [← h2]; exact hi)
    · exact h
  | @rename s t lab new size hs h0 e ih =>
    intro _
    obtain ⟨-, hR, hi, -⟩ := rename_good hs.good h0 e
    obtain ⟨x, y, ht⟩ := hR.eq
    rw [ht]; exact ih hi

end Verif.Pickle.Sorted
