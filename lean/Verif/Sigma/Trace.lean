import Verif.Sigma.Lemmas
import Verif.GeoMap.Machine2

/-!
# The calls on the sigma storage made by the operations of a `GeoMap`

Every operation changes `edges_.size()` and the two mappings by a list of legal `Call`s.
-/

namespace Verif.Sigma
open Verif Verif.GeoMap

variable {K : Type}

/-- `edges_.size()` and the mappings of a map -/
def Fn.of (s : GMap K) : Fn := ⟨s.nEdges, s.sigma, s.sigmaInv⟩

/-- `t` arises from `s` by legal calls that satisfy `k` -/
def Traces (k : Call → Prop) (s t : GMap K) : Prop :=
  ∃ cs, validCalls cs s.nEdges ∧ (∀ c ∈ cs, k c) ∧ applyCalls cs (Fn.of s) = Fn.of t

theorem Traces.of_eq {k : Call → Prop} {s t : GMap K} (h : Fn.of t = Fn.of s) : Traces k s t := ⟨[], trivial, by simp, h.symm⟩

theorem Traces.trans {k : Call → Prop} {s t u : GMap K} (h1 : Traces k s t) (h2 : Traces k t u) : Traces k s u := by
  obtain ⟨cs, v1, k1, e1⟩ := h1
  obtain ⟨ds, v2, k2, e2⟩ := h2
  have : (Fn.of t).n = t.nEdges := rfl
  refine ⟨cs ++ ds, validCalls_append (f := Fn.of s) v1 (by rw [e1]; exact v2), ?_, ?_⟩
  · intro c hc
    rcases List.mem_append.mp hc with h | h
    · exact k1 c h
    · exact k2 c h
  · rw [applyCalls_append, e1, e2]

theorem Traces.call {k : Call → Prop} {s t : GMap K} (c : Call) (hk : k c) (hv : c.valid s.nEdges) (h : c.apply (Fn.of s) = Fn.of t) : Traces k s t :=
  ⟨[c], ⟨hv, trivial⟩, by simpa using hk, h⟩

/-- the calls that remove edge `l` -/
def isDetach (l : Nat) (c : Call) : Prop := ∃ d : Int, d.natAbs = l ∧ c = .detach d
/-- the call of `mergeEdges` -/
def isReplace (c : Call) : Prop := ∃ d1 d2, c = .replaceDart d1 d2
/-- the call of `addEdge` -/
def isAdd (c : Call) : Prop := ∃ l s1 s2, c = .addEdge l s1 s2
/-- the calls of `sortEdgesDirectly` -/
def isSort (c : Call) : Prop := ∃ d ds, c = .sortNode d ds

/-- which calls an operation of the map makes -/
def opCall : Op K → Call → Prop
  | .addEdge _ _ _ _ => isAdd
  | .sortEdgesDirectly => isSort
  | .initializeMap _ => isSort
  | .mergeEdges _ => isReplace
  | .splitEdge l _ _ => fun c => c = .splitEdge l
  | .removeBridge d => isDetach d.natAbs
  | .mergeFaces d => isDetach d.natAbs
  | .removeEdge d => isDetach d.natAbs
  | _ => fun _ => False

/-! ## functions that leave the mappings alone -/

theorem setLeft_of {s t : GMap K} {d : Int} {f : Nat} (h : s.setLeft d f = .ok t) : Fn.of t = Fn.of s := by
  obtain ⟨e, -, h⟩ := Outcome.bind_eq_ok.mp h
  cases h; rfl

theorem relabelLoop_of {survivor fuel : Nat} : ∀ {s t : GMap K} {d : Int}, GMap.relabelLoop survivor fuel s d = .ok t → Fn.of t = Fn.of s := by
  induction fuel with
  | zero => intro s t d h; cases h
  | succ fuel ih =>
    intro s t d h
    obtain ⟨l, -, h⟩ := Outcome.bind_eq_ok.mp h
    split_ifs at h with h0
    · cases h; rfl
    · obtain ⟨u, hu, h⟩ := Outcome.bind_eq_ok.mp h
      rw [ih h, setLeft_of hu]

theorem relabelContours_of {survivor : Nat} : ∀ {as : List Int} {s t : GMap K}, GMap.relabelContours survivor as s = .ok t → Fn.of t = Fn.of s := by
  intro as
  induction as with
  | nil => intro s t h; cases h; rfl
  | cons a as ih =>
    intro s t h
    obtain ⟨u, hu, h⟩ := Outcome.bind_eq_ok.mp h
    rw [ih h, relabelLoop_of hu]

theorem removeIsolatedNode_of {h : Hooks K} {s : GMap K} {n : Nat} {r : Bool × GMap K} (hr : s.removeIsolatedNode h n = .ok r) : Fn.of r.2 = Fn.of s := by
  obtain ⟨x, -, hr⟩ := Outcome.bind_eq_ok.mp hr
  split_ifs at hr
  · cases hr; rfl
  · cases hr; rfl

theorem moveFaceAnchor_of {s t : GMap K} {l : Nat} {f : Option Nat} (h : s.moveFaceAnchor l f = .ok t) : Fn.of t = Fn.of s := by
  obtain ⟨F, -, h⟩ := Outcome.bind_eq_ok.mp h
  cases f with
  | none => cases h
  | some f => cases h; rfl

theorem moveAnchors_of {s t : GMap K} {d2 : Int} {e2 : Edge K} (h : s.moveAnchors d2 e2 = .ok t) : Fn.of t = Fn.of s := by
  unfold GMap.moveAnchors at h
  split_ifs at h
  · obtain ⟨u, hu, h⟩ := Outcome.bind_eq_ok.mp h
    rw [moveFaceAnchor_of h, moveFaceAnchor_of hu]
  · cases h; rfl

theorem markLoop_of {lbl fuel : Nat} {stop : Option Nat → Bool} : ∀ {s t : GMap K} {d : Int}, GMap.markLoop lbl stop fuel s d = .ok t → Fn.of t = Fn.of s := by
  induction fuel with
  | zero => intro s t d h; cases h
  | succ fuel ih =>
    intro s t d h
    obtain ⟨l, -, h⟩ := Outcome.bind_eq_ok.mp h
    split_ifs at h with h0
    · cases h; rfl
    · obtain ⟨u, hu, h⟩ := Outcome.bind_eq_ok.mp h
      rw [ih h, setLeft_of hu]

theorem newFace_of {s t : GMap K} {a : Int} (h : s.newFace a = .ok t) : Fn.of t = Fn.of s := by
  unfold GMap.newFace at h
  simp only at h
  split_ifs at h
  · cases h; rfl
  · rw [markLoop_of h]; rfl

theorem initDart_of {s t : GMap K} {d : Int} (h : s.initDart d = .ok t) : Fn.of t = Fn.of s := by
  unfold GMap.initDart at h
  split at h
  · cases h; rfl
  · split_ifs at h
    · exact newFace_of h
    · cases h; rfl

theorem initContoursLoop_of : ∀ {ls : List Nat} {s t : GMap K}, GMap.initContoursLoop ls s = .ok t → Fn.of t = Fn.of s := by
  intro ls
  induction ls with
  | nil => intro s t h; cases h; rfl
  | cons l ls ih =>
    intro s t h
    obtain ⟨u, hu, h⟩ := Outcome.bind_eq_ok.mp h
    obtain ⟨v, hv, h⟩ := Outcome.bind_eq_ok.mp h
    rw [ih h, initDart_of hv, initDart_of hu]

theorem initContours_of {s t : GMap K} (h : s.initContours = .ok t) : Fn.of t = Fn.of s := by
  obtain ⟨u, hu, h⟩ := Outcome.bind_eq_ok.mp h
  rw [initContoursLoop_of h, newFace_of hu]

variable [Field K]

theorem faceArea_of {s : GMap K} {f : Option Nat} {r : K × GMap K} (h : s.faceArea f = .ok r) : Fn.of r.2 = Fn.of s := by
  obtain ⟨F, -, h⟩ := Outcome.bind_eq_ok.mp h
  split at h
  · cases h; rfl
  · obtain ⟨a, -, h⟩ := Outcome.bind_eq_ok.mp h
    cases h; rfl
  · cases h

variable [LinearOrder K]

omit [LinearOrder K] in
theorem embedContour_of {s t : GMap K} {p : Nat} {a : Int} (h : s.embedContour p a = .ok t) : Fn.of t = Fn.of s := by
  obtain ⟨P, -, h⟩ := Outcome.bind_eq_ok.mp h
  obtain ⟨u, hu, h⟩ := Outcome.bind_eq_ok.mp h
  have := markLoop_of hu
  split at h
  · cases h; exact this
  · obtain ⟨x, -, h⟩ := Outcome.bind_eq_ok.mp h
    cases h; exact this

theorem embedLoop_of {pick : GMap K → Int → Option Nat} : ∀ {cs : List (Nat × Face K × K)} {s t : GMap K}, GMap.embedLoop pick cs s = .ok t → Fn.of t = Fn.of s := by
  intro cs
  induction cs with
  | nil => intro s t h; cases h; rfl
  | cons c cs ih =>
    obtain ⟨f, F, a⟩ := c
    intro s t h
    unfold GMap.embedLoop at h
    split at h
    · cases h
    · split_ifs at h
      · rw [ih h]; rfl
      · obtain ⟨u, hu, h⟩ := Outcome.bind_eq_ok.mp h
        rw [ih h]
        exact (show Fn.of (u.uninitFace f) = Fn.of u from rfl).trans (embedContour_of hu)

theorem embedFaces_of {s t : GMap K} {pick : GMap K → Int → Option Nat} (h : s.embedFaces pick = .ok t) : Fn.of t = Fn.of s := by
  obtain ⟨cs, -, h⟩ := Outcome.bind_eq_ok.mp h
  rw [embedLoop_of h]; rfl

theorem bridgeUpdate_of {h : Hooks K} {s t : GMap K} {e : Edge K} {f i : Nat} {F : Face K} {d a1 a2 : Int}
    (hu : s.bridgeUpdate h e f F i d a1 a2 = .ok t) : Fn.of t = Fn.of s := by
  unfold GMap.bridgeUpdate at hu
  split_ifs at hu
  · obtain ⟨⟨b, u⟩, h1, hu⟩ := Outcome.bind_eq_ok.mp hu
    obtain ⟨⟨b', v⟩, h2, hu⟩ := Outcome.bind_eq_ok.mp hu
    cases hu
    have e2 := removeIsolatedNode_of h2
    have e1 := removeIsolatedNode_of h1
    exact (show Fn.of (v.setFace _ _) = Fn.of v from rfl).trans (e2.trans e1)
  · obtain ⟨⟨b, u⟩, h1, hu⟩ := Outcome.bind_eq_ok.mp hu
    cases hu
    have := removeIsolatedNode_of h1
    simp_all [Fn.of, GMap.setFace]
  · obtain ⟨⟨b, u⟩, h1, hu⟩ := Outcome.bind_eq_ok.mp hu
    cases hu
    have := removeIsolatedNode_of h1
    simp_all [Fn.of, GMap.setFace]
  · obtain ⟨as, h1, hu⟩ := Outcome.bind_eq_ok.mp hu
    cases hu; rfl

omit [Field K] [LinearOrder K] in
theorem removeIfIsolated_of {h : Hooks K} {s t : GMap K} {n : Nat} (hu : s.removeIfIsolated h n = .ok t) : Fn.of t = Fn.of s := by
  obtain ⟨nd, -, hu⟩ := Outcome.bind_eq_ok.mp hu
  split_ifs at hu
  · obtain ⟨⟨b, u⟩, h1, hu⟩ := Outcome.bind_eq_ok.mp hu
    cases hu
    exact removeIsolatedNode_of h1
  · cases hu; rfl

/-! ## functions that change the mappings -/

omit [Field K] [LinearOrder K] in
theorem detachDart_of {s t : GMap K} {d : Int} (h : s.detachDart d = .ok t) : Fn.of t = (Fn.of s).detach d ∧ t.edge = s.edge ∧ t.nEdges = s.nEdges := by
  obtain ⟨n, -, h⟩ := Outcome.bind_eq_ok.mp h
  obtain ⟨nd, -, h⟩ := Outcome.bind_eq_ok.mp h
  simp only at h
  split_ifs at h <;> cases h <;> exact ⟨rfl, rfl, rfl⟩

omit [Field K] [LinearOrder K] in
theorem detach_traces {s t : GMap K} {d : Int} (hd : d.natAbs < s.nEdges) (h : s.detachDart d = .ok t) : Traces (isDetach d.natAbs) s t :=
  Traces.call (.detach d) ⟨d, rfl, rfl⟩ hd (detachDart_of h).1.symm

omit [Field K] [LinearOrder K] in
theorem detach2_traces {s t u : GMap K} {d : Int} (hd : d.natAbs < s.nEdges) (h : s.detachDart d = .ok t) (h' : t.detachDart (-d) = .ok u) : Traces (isDetach d.natAbs) s u :=
  (detach_traces hd h).trans (Int.natAbs_neg d ▸ detach_traces (by rw [(detachDart_of h).2.2, Int.natAbs_neg]; exact hd) h')

omit [Field K] [LinearOrder K] in
theorem guaranteed_lt {s : GMap K} (hs : GraphOK s) {d : Int} {e : Edge K} (h : s.guaranteedEdge d = .ok e) : d.natAbs < s.nEdges := by
  apply hs.edge_lt
  unfold GMap.guaranteedEdge at h
  split at h
  · next h1 => rw [h1]; rfl
  · cases h

theorem removeBridge_traces {h : Hooks K} {s : GMap K} (hs : GraphOK s) {d : Int} {r : Option Nat × GMap K} (hr : s.removeBridge h d = .ok r) : Traces (isDetach d.natAbs) s r.2 := by
  obtain ⟨e, he, hr⟩ := Outcome.bind_eq_ok.mp hr
  obtain ⟨F, -, hr⟩ := Outcome.bind_eq_ok.mp hr
  obtain ⟨F', -, hr⟩ := Outcome.bind_eq_ok.mp hr
  have hd := guaranteed_lt hs he
  by_cases h1 : e.leftOf d ≠ e.rightOf d
  · rw [if_pos h1] at hr; cases hr
  rw [if_neg h1] at hr
  split at hr
  · cases hr
  obtain ⟨x1, -, hr⟩ := Outcome.bind_eq_ok.mp hr
  obtain ⟨x2, -, hr⟩ := Outcome.bind_eq_ok.mp hr
  by_cases h2 : e.startOf d = e.endOf d
  · rw [if_pos h2] at hr; cases hr
  rw [if_neg h2] at hr
  by_cases h3 : ¬ h.preRemoveBridge s d
  · rw [if_pos h3] at hr; cases hr; exact Traces.of_eq rfl
  rw [if_neg h3] at hr
  obtain ⟨i, -, hr⟩ := Outcome.bind_eq_ok.mp hr
  obtain ⟨t, ht, hr⟩ := Outcome.bind_eq_ok.mp hr
  obtain ⟨u, hu, hr⟩ := Outcome.bind_eq_ok.mp hr
  obtain ⟨v, hv, hr⟩ := Outcome.bind_eq_ok.mp hr
  cases hr
  refine (detach2_traces hd ht hu).trans (Traces.of_eq ?_)
  rw [← bridgeUpdate_of hv]; rfl

omit [LinearOrder K] in
theorem mergeFacesApply_traces {h : Hooks K} {s t : GMap K} {r : Int} {S M : Face K} {n1 sl ml : Nat} (hr : r.natAbs < s.nEdges)
    (ha : s.mergeFacesApply h r S M n1 sl ml = .ok t) : Traces (isDetach r.natAbs) s t := by
  obtain ⟨s1, h1, ha⟩ := Outcome.bind_eq_ok.mp ha
  obtain ⟨i1, -, ha⟩ := Outcome.bind_eq_ok.mp ha
  obtain ⟨i2, -, ha⟩ := Outcome.bind_eq_ok.mp ha
  obtain ⟨as, -, ha⟩ := Outcome.bind_eq_ok.mp ha
  obtain ⟨s2, h2, ha⟩ := Outcome.bind_eq_ok.mp ha
  obtain ⟨s3, h3, ha⟩ := Outcome.bind_eq_ok.mp ha
  obtain ⟨s4, h4, ha⟩ := Outcome.bind_eq_ok.mp ha
  obtain ⟨S', -, ha⟩ := Outcome.bind_eq_ok.mp ha
  obtain ⟨⟨x, s5⟩, h5, ha⟩ := Outcome.bind_eq_ok.mp ha
  obtain ⟨M', -, ha⟩ := Outcome.bind_eq_ok.mp ha
  cases ha
  have e1 := relabelContours_of h1
  have hn : s1.nEdges = s.nEdges := congrArg Fn.n e1
  have t1 : Traces (isDetach r.natAbs) s (s1.setFace sl (some { S with anchors := as })) := Traces.of_eq e1
  refine t1.trans ((detach2_traces (by show _ < s1.nEdges; rw [hn]; exact hr) h2 h3).trans (Traces.of_eq ?_))
  have := faceArea_of h5
  rw [removeIfIsolated_of h4] at this
  rw [← this]; rfl

theorem mergeFaces_traces {h : Hooks K} {s : GMap K} (hs : GraphOK s) {d : Int} {r : Option Nat × GMap K} (hr : s.mergeFaces h d = .ok r) : Traces (isDetach d.natAbs) s r.2 := by
  obtain ⟨e, he, hr⟩ := Outcome.bind_eq_ok.mp hr
  obtain ⟨⟨a, s1⟩, h1, hr⟩ := Outcome.bind_eq_ok.mp hr
  obtain ⟨⟨b, s2⟩, h2, hr⟩ := Outcome.bind_eq_ok.mp hr
  obtain ⟨S, -, hr⟩ := Outcome.bind_eq_ok.mp hr
  obtain ⟨M, -, hr⟩ := Outcome.bind_eq_ok.mp hr
  obtain ⟨nd, -, hr⟩ := Outcome.bind_eq_ok.mp hr
  have hd := guaranteed_lt hs he
  have e2 : Fn.of s2 = Fn.of s := (faceArea_of h2).trans (faceArea_of h1)
  have hn : s2.nEdges = s.nEdges := congrArg Fn.n e2
  split at hr
  · split_ifs at hr with h3 h4
    rotate_left
    · cases hr; exact Traces.of_eq e2
    · obtain ⟨t, ht, hr⟩ := Outcome.bind_eq_ok.mp hr
      cases hr
      have hc : (GMap.chooseDart d (e.leftOf d) (e.rightOf d) a b).natAbs = d.natAbs := by
        unfold GMap.chooseDart; simp only; split_ifs <;> simp
      have := mergeFacesApply_traces (by rw [hn, hc]; exact hd) ht
      rw [hc] at this
      exact (Traces.of_eq e2).trans this
  · cases hr

theorem removeEdge_traces {h : Hooks K} {s : GMap K} (hs : GraphOK s) {d : Int} {r : Option Nat × GMap K} (hr : s.removeEdge h d = .ok r) : Traces (isDetach d.natAbs) s r.2 := by
  unfold GMap.removeEdge at hr
  split_ifs at hr with hi
  · obtain ⟨e, he, hr⟩ := Outcome.bind_eq_ok.mp hr
    split_ifs at hr
    · exact removeBridge_traces hs hr
    · exact mergeFaces_traces hs hr
  · obtain ⟨t, ht, hr⟩ := Outcome.bind_eq_ok.mp hr
    obtain ⟨u, hu, hr⟩ := Outcome.bind_eq_ok.mp hr
    obtain ⟨e, he, hr⟩ := Outcome.bind_eq_ok.mp hr
    cases hr
    have hd : d.natAbs < s.nEdges := by
      obtain ⟨n, hn, -⟩ := Outcome.bind_eq_ok.mp ht
      obtain ⟨e, he, -⟩ := Outcome.bind_eq_ok.mp hn
      exact guaranteed_lt hs he
    exact (detach2_traces hd ht hu).trans (Traces.of_eq rfl)

omit [Field K] [LinearOrder K] in
theorem mergeEdges_traces {h : Hooks K} {s : GMap K} (hs : GraphOK s) {d : Int} {r : Option Nat × GMap K} (hr : s.mergeEdges h d = .ok r) : Traces isReplace s r.2 := by
  obtain ⟨e, he, hr⟩ := Outcome.bind_eq_ok.mp hr
  have hd := guaranteed_lt hs he
  simp only at hr
  by_cases h1 : (s.sigma d).natAbs = d.natAbs
  · rw [if_pos h1] at hr; cases hr
  rw [if_neg h1] at hr
  by_cases h2 : s.sigma (s.sigma d) ≠ d
  · rw [if_pos h2] at hr; cases hr
  rw [if_neg h2] at hr
  have hld : s.liveD d := by
    unfold GMap.liveD
    unfold GMap.guaranteedEdge at he
    split at he
    · next h1 => rw [h1]; rfl
    · cases he
  have hx : (s.sigma d).natAbs < s.nEdges := hs.edge_lt _ (hs.sigma_live d hld).1
  have hxx : (s.sigma (s.sigma d)).natAbs < s.nEdges := by push Not at h2; rw [h2]; exact hd
  generalize hd1 : (if 0 < s.sigma (s.sigma d) ∧ s.sigma d < 0 then s.sigma d else s.sigma (s.sigma d)) = d1 at hr
  generalize hd2 : (if 0 < s.sigma (s.sigma d) ∧ s.sigma d < 0 then s.sigma (s.sigma d) else s.sigma d) = d2 at hr
  have b1 : d1.natAbs < s.nEdges := by rw [← hd1]; split_ifs <;> assumption
  have b2 : d2.natAbs < s.nEdges := by rw [← hd2]; split_ifs <;> assumption
  obtain ⟨m, -, hr⟩ := Outcome.bind_eq_ok.mp hr
  obtain ⟨nd, -, hr⟩ := Outcome.bind_eq_ok.mp hr
  obtain ⟨e2, -, hr⟩ := Outcome.bind_eq_ok.mp hr
  obtain ⟨s1, hs1, hr⟩ := Outcome.bind_eq_ok.mp hr
  have e1 := moveAnchors_of hs1
  have hn : s1.nEdges = s.nEdges := congrArg Fn.n e1
  by_cases h3 : ¬ h.preMergeEdges s1 d1
  · rw [if_pos h3] at hr; cases hr; exact Traces.of_eq e1
  rw [if_neg h3] at hr
  by_cases h4 : ¬ h.removeNode s1 m
  · rw [if_pos h4] at hr; cases hr; exact Traces.of_eq e1
  rw [if_neg h4] at hr
  obtain ⟨e1', -, hr⟩ := Outcome.bind_eq_ok.mp hr
  by_cases h5 : e2.pts = []
  · rw [if_pos h5] at hr; cases hr
  rw [if_neg h5] at hr
  obtain ⟨nd', -, hr⟩ := Outcome.bind_eq_ok.mp hr
  cases hr
  refine (Traces.of_eq e1).trans (Traces.call (.replaceDart d1 d2) ⟨d1, d2, rfl⟩ ⟨by omega, by omega⟩ ?_)
  show Fn.replaceDart _ d1 d2 = _
  unfold Fn.replaceDart GMap.replaceInOrbit
  by_cases h6 : s1.sigma (-d2) = -d2
  · rw [if_pos (show (Fn.of s1).sigma (-d2) = -d2 from h6), if_pos (by exact h6)]
    rfl
  · rw [if_neg (show ¬ (Fn.of s1).sigma (-d2) = -d2 from h6), if_neg (by exact h6)]
    rfl

omit [Field K] [LinearOrder K] in
theorem splitOrbits_of {s t : GMap K} {l r nn cn : Nat} (h : s.splitOrbits l r nn cn = .ok t) : Fn.of t = (Fn.of s).splitEdge l r := by
  obtain ⟨nd, -, h⟩ := Outcome.bind_eq_ok.mp h
  obtain ⟨nd', -, h⟩ := Outcome.bind_eq_ok.mp h
  unfold Fn.splitEdge
  by_cases h1 : s.sigma (-(l : Int)) = -(l : Int)
  · rw [if_pos h1] at h
    cases h
    rw [if_pos (show (Fn.of s).sigma (-(l : Int)) = -(l : Int) from h1)]; rfl
  · rw [if_neg h1] at h
    rw [if_neg (show ¬ (Fn.of s).sigma (-(l : Int)) = -(l : Int) from h1)]
    simp only at h
    split_ifs at h <;> cases h <;> rfl

omit [Field K] [LinearOrder K] in
theorem splitEdge_traces {s : GMap K} (hs : GraphOK s) {l i : Nat} {np : Option (Pt K)} {r : Nat × GMap K} (hr : s.splitEdge l i np = .ok r) : Traces (fun c => c = .splitEdge l) s r.2 := by
  obtain ⟨e, he, hr⟩ := Outcome.bind_eq_ok.mp hr
  have hd := guaranteed_lt hs he
  by_cases h1 : e.pts = []
  · rw [if_pos h1] at hr; cases hr
  rw [if_neg h1] at hr
  by_cases h2 : ¬ i < e.pts.length - 1
  · rw [if_pos h2] at hr; cases hr
  rw [if_neg h2] at hr
  split at hr
  · cases hr
  obtain ⟨nd, -, hr⟩ := Outcome.bind_eq_ok.mp hr
  obtain ⟨t, ht, hr⟩ := Outcome.bind_eq_ok.mp hr
  cases hr
  refine Traces.call (.splitEdge l) rfl (by show l < s.nEdges; simpa using hd) ?_
  rw [splitOrbits_of ht]
  show ({ (Fn.of s).splitEdge l s.nEdges with n := s.nEdges + 1 } : Fn) = _
  unfold Fn.splitEdge
  by_cases h3 : s.sigma (-(l : Int)) = -(l : Int)
  · rw [if_pos (show (Fn.of s).sigma (-(l : Int)) = -(l : Int) from h3), if_pos (by exact h3)]; rfl
  · rw [if_neg (show ¬ (Fn.of s).sigma (-(l : Int)) = -(l : Int) from h3), if_neg (by exact h3)]; rfl

omit [Field K] [LinearOrder K] in
theorem insert_of (s : GMap K) (x y : Int) : Fn.of (s.insertSigmaPredecessor x y) = (Fn.of s).insert x y := by
  unfold GMap.insertSigmaPredecessor Fn.insert
  split_ifs <;> rfl

omit [Field K] [LinearOrder K] in
/-- what a `SigmaAnchor` knows -/
theorem sigmaAnchor_dart {s : GMap K} (hs : GraphOK s) {p : GMap.SigmaPos} {A : GMap.SigmaAnchor} (h : s.sigmaAnchor p = .ok A) :
    A.singular = false → A.dart.natAbs < s.nEdges := by
  intro hA
  cases p with
  | node n =>
    obtain ⟨nd, hnd, h⟩ := Outcome.bind_eq_ok.mp h
    split_ifs at h with h0 h1
    · cases h; cases hA
    · cases h
      have hn : s.node n = some nd := by
        unfold GMap.derefNode at hnd
        split_ifs at hnd
        split at hnd
        · cases hnd; assumption
        · cases hnd
      exact hs.edge_lt _ (liveD_of_start (hs.anchor_start n nd hn h0))
  | dart d =>
    obtain ⟨n, hn, h⟩ := Outcome.bind_eq_ok.mp h
    cases h
    obtain ⟨e, he, -⟩ := Outcome.bind_eq_ok.mp hn
    exact guaranteed_lt hs he

omit [Field K] [LinearOrder K] in
/-- inserting a dart: the anchor it is inserted before, and the anchors of the nodes afterwards -/
theorem attach_of {s t : GMap K} {A : GMap.SigmaAnchor} {n : Nat} {x : Int} {m : Nat} (h : s.attach A n x = .ok t)
    (ha : A.singular = false → A.dart.natAbs < m) (hnodes : ∀ n nd, s.node n = some nd → nd.anchor.natAbs < m) :
    ∃ y : Int, y.natAbs < m ∧ Fn.of t = (Fn.of s).insert y x ∧ t.nEdges = s.nEdges ∧
      ∀ k, m ≤ k → x.natAbs < k → ∀ n nd, t.node n = some nd → nd.anchor.natAbs < k := by
  unfold GMap.attach at h
  split_ifs at h with h0
  · obtain ⟨nd, hnd, h⟩ := Outcome.bind_eq_ok.mp h
    have hn : s.node n = some nd := by
      unfold GMap.derefNode at hnd
      split_ifs at hnd
      split at hnd
      · cases hnd; assumption
      · cases hnd
    cases h
    refine ⟨nd.anchor, hnodes n nd hn, insert_of _ _ _, ?_, ?_⟩
    · exact congrArg Fn.n (insert_of s nd.anchor x) |>.trans (by unfold Fn.insert; split_ifs <;> rfl)
    · intro k hk hx n' nd' h'
      have hnode : (s.insertSigmaPredecessor nd.anchor x).node = s.node := by
        unfold GMap.insertSigmaPredecessor; split_ifs <;> rfl
      unfold GMap.setNode at h'
      simp only [hnode] at h'
      by_cases e : n' = n
      · subst e; simp at h'; rw [← h']; exact hx
      · rw [Function.update_of_ne e] at h'
        exact lt_of_lt_of_le (hnodes n' nd' h') hk
  · cases h
    refine ⟨A.dart, ha (by simpa using h0), insert_of _ _ _, ?_, ?_⟩
    · exact congrArg Fn.n (insert_of s A.dart x) |>.trans (by unfold Fn.insert; split_ifs <;> rfl)
    · intro k hk hx n' nd' h'
      have hnode : (s.insertSigmaPredecessor A.dart x).node = s.node := by
        unfold GMap.insertSigmaPredecessor; split_ifs <;> rfl
      rw [hnode] at h'
      exact lt_of_lt_of_le (hnodes n' nd' h') hk

theorem addEdge_traces {s : GMap K} (hs : GraphOK s) {p q : GMap.SigmaPos} {pts : List (Pt K)} {label : Nat} {r : Nat × GMap K}
    (hr : s.addEdge p q pts label = .ok r) : Traces isAdd s r.2 := by
  unfold GMap.addEdge at hr
  split_ifs at hr with hi
  obtain ⟨A, hA, hr⟩ := Outcome.bind_eq_ok.mp hr
  obtain ⟨B, hB, hr⟩ := Outcome.bind_eq_ok.mp hr
  obtain ⟨t, ht, hr⟩ := Outcome.bind_eq_ok.mp hr
  obtain ⟨u, hu, hr⟩ := Outcome.bind_eq_ok.mp hr
  cases hr
  have hA' := sigmaAnchor_dart hs hA
  have hB' := sigmaAnchor_dart hs hB
  have hnodes : ∀ n nd, s.node n = some nd → nd.anchor.natAbs < s.nEdges := by
    intro n nd hn
    by_cases h0 : nd.anchor = 0
    · rw [h0]; exact hs.edges_pos
    · exact hs.edge_lt _ (liveD_of_start (hs.anchor_start n nd hn h0))
  set l : Nat := max s.nEdges label with hl
  obtain ⟨y, hy, ey, en, hnt⟩ := attach_of ht hA' hnodes
  have hl1 : s.nEdges ≤ l := le_max_left _ _
  have key : ∃ z : Int, z.natAbs ≤ l ∧ Fn.of u = (Fn.of t).insert z (-(l : Int)) := by
    unfold GMap.attachEnd at hu
    split_ifs at hu with h1
    · cases hu
      exact ⟨(l : Int), by omega, insert_of _ _ _⟩
    · obtain ⟨z, hz, ez, -, -⟩ := attach_of (m := l + 1) hu (fun h => by have := hB' h; omega) (fun n nd h => by
        exact hnt (l + 1) (by omega) (by show (l : Int).natAbs < l + 1; omega) n nd h)
      exact ⟨z, by omega, ez⟩
  obtain ⟨z, hz, ez⟩ := key
  refine Traces.call (.addEdge l y z) ⟨l, y, z, rfl⟩ ⟨hl1, hy, hz⟩ ?_
  have e3 : u.nEdges = l + 1 := by
    have h1 : u.nEdges = t.nEdges := (congrArg Fn.n ez).trans (by unfold Fn.insert; split_ifs <;> rfl)
    rw [h1, en]; rfl
  show ({ Fn.insert _ _ _ with n := l + 1 } : Fn) = _
  rw [show Fn.of u = { Fn.of u with n := l + 1 } by rw [← e3]; rfl, ez, ey]
  unfold Fn.insert Fn.of
  split_ifs <;> rfl

/-! ### sorting -/

omit [Field K] [LinearOrder K] in
theorem linkCycle_of (first : Int) : ∀ (xs : List Int) (p : Int) (s : GMap K),
    Fn.of (GMap.linkCycle first p xs s) = Fn.linkCycle first p xs (Fn.of s) ∧ (GMap.linkCycle first p xs s).nEdges = s.nEdges ∧
      (GMap.linkCycle first p xs s).edge = s.edge := by
  intro xs
  induction xs with
  | nil => intro p s; exact ⟨rfl, rfl, rfl⟩
  | cons x xs ih => intro p s; exact ih x _

theorem dartAngles_lt {s : GMap K} (hlt : ∀ n, (s.edge n).isSome = true → n < s.nEdges) {anchor : Int} : ∀ {fuel : Nat} {d : Int} {acc r : List (K × Int)},
    s.dartAngles anchor fuel d acc = .ok r → (∀ x ∈ acc, x.2.natAbs < s.nEdges) → ∀ x ∈ r, x.2.natAbs < s.nEdges := by
  intro fuel
  induction fuel with
  | zero => intro d acc r h; cases h
  | succ fuel ih =>
    intro d acc r h hacc
    obtain ⟨e, he, h⟩ := Outcome.bind_eq_ok.mp h
    obtain ⟨t, -, h⟩ := Outcome.bind_eq_ok.mp h
    have hd : d.natAbs < s.nEdges := by
      apply hlt
      unfold GMap.guaranteedEdge at he
      split at he
      · next h1 => rw [h1]; rfl
      · cases he
    have hacc' : ∀ x ∈ acc ++ [(t, d)], x.2.natAbs < s.nEdges := by
      intro x hx
      rcases List.mem_append.mp hx with h1 | h1
      · exact hacc x h1
      · simp at h1; rw [h1]; exact hd
    simp only at h
    split_ifs at h
    · cases h; exact hacc'
    · exact ih h hacc'

theorem sortNode_traces {s t : GMap K} (hlt : ∀ n, (s.edge n).isSome = true → n < s.nEdges) {n : Nat} (h : s.sortNode n = .ok t) :
    Traces isSort s t ∧ t.edge = s.edge ∧ t.nEdges = s.nEdges := by
  unfold GMap.sortNode at h
  split at h
  · cases h; exact ⟨Traces.of_eq rfl, rfl, rfl⟩
  · split_ifs at h with h0
    · cases h; exact ⟨Traces.of_eq rfl, rfl, rfl⟩
    · obtain ⟨as, has, h⟩ := Outcome.bind_eq_ok.mp h
      have hall := dartAngles_lt hlt has (by simp)
      simp only at h
      split_ifs at h
      split at h
      · cases h
      · next d ds hd =>
        cases h
        obtain ⟨e1, e2, e3⟩ := linkCycle_of d ds d s
        have hmem : ∀ x ∈ d :: ds, x.natAbs < s.nEdges := by
          intro x hx
          rw [← hd] at hx
          obtain ⟨y, hy, rfl⟩ := List.mem_map.mp hx
          exact hall y ((List.perm_insertionSort _ _).mem_iff.mp hy)
        exact ⟨Traces.call (.sortNode d ds) ⟨d, ds, rfl⟩ ⟨hmem d (by simp), fun x hx => hmem x (by simp [hx])⟩ e1.symm, e3, e2⟩

theorem sortNodes_traces : ∀ {ns : List Nat} {s t : GMap K}, (∀ n, (s.edge n).isSome = true → n < s.nEdges) → GMap.sortNodes ns s = .ok t → Traces isSort s t := by
  intro ns
  induction ns with
  | nil => intro s t _ h; cases h; exact Traces.of_eq rfl
  | cons n ns ih =>
    intro s t hlt h
    obtain ⟨u, hu, h⟩ := Outcome.bind_eq_ok.mp h
    obtain ⟨h1, h2, h3⟩ := sortNode_traces hlt hu
    exact h1.trans (ih (by rw [h2, h3]; exact hlt) h)

theorem sortEdges_traces {s t : GMap K} (hs : GraphOK s) (h : s.sortEdgesDirectly = .ok t) : Traces isSort s t := by
  unfold GMap.sortEdgesDirectly at h
  split_ifs at h
  obtain ⟨u, hu, h⟩ := Outcome.bind_eq_ok.mp h
  cases h
  exact (sortNodes_traces hs.edge_lt hu).trans (Traces.of_eq rfl)

theorem initializeMap_traces {s t : GMap K} (hs : GraphOK s) {pick : GMap K → Int → Option Nat} (h : s.initializeMap pick = .ok t) : Traces isSort s t := by
  unfold GMap.initializeMap at h
  split_ifs at h
  obtain ⟨u, hu, h⟩ := Outcome.bind_eq_ok.mp h
  obtain ⟨v, hv, h⟩ := Outcome.bind_eq_ok.mp h
  have h1 : Traces isSort s u := by
    unfold GMap.ensureSorted at hu
    split_ifs at hu
    · cases hu; exact Traces.of_eq rfl
    · exact sortEdges_traces hs hu
  exact h1.trans (Traces.of_eq ((embedFaces_of h).trans (initContours_of hv)))

theorem op_traces {h : Hooks K} {s t : GMap K} (hs : GraphOK s) (op : Op K) (hr : op.run h s = .ok t) : Traces (opCall op) s t := by
  cases op with
  | addNode p label => cases hr; exact Traces.of_eq rfl
  | addEdge a b pts label =>
    obtain ⟨r, h1, h2⟩ := Outcome.bind_eq_ok.mp hr
    cases h2; exact addEdge_traces hs h1
  | sortEdgesDirectly => exact sortEdges_traces hs hr
  | initializeMap pick => exact initializeMap_traces hs hr
  | removeIsolatedNode n =>
    obtain ⟨r, h1, h2⟩ := Outcome.bind_eq_ok.mp hr
    cases h2; exact Traces.of_eq (removeIsolatedNode_of h1)
  | mergeEdges d =>
    obtain ⟨r, h1, h2⟩ := Outcome.bind_eq_ok.mp hr
    cases h2; exact mergeEdges_traces hs h1
  | splitEdge l i np =>
    obtain ⟨r, h1, h2⟩ := Outcome.bind_eq_ok.mp hr
    cases h2; exact splitEdge_traces hs h1
  | removeBridge d =>
    obtain ⟨r, h1, h2⟩ := Outcome.bind_eq_ok.mp hr
    cases h2; exact removeBridge_traces hs h1
  | mergeFaces d =>
    obtain ⟨r, h1, h2⟩ := Outcome.bind_eq_ok.mp hr
    cases h2; exact mergeFaces_traces hs h1
  | removeEdge d =>
    obtain ⟨r, h1, h2⟩ := Outcome.bind_eq_ok.mp hr
    cases h2; exact removeEdge_traces hs h1
  | area f =>
    obtain ⟨r, h1, h2⟩ := Outcome.bind_eq_ok.mp hr
    cases h2; exact Traces.of_eq (faceArea_of h1)
  | setFlags l flags =>
    obtain ⟨e, h1, h2⟩ := Outcome.bind_eq_ok.mp hr
    cases h2; exact Traces.of_eq rfl

end Verif.Sigma
