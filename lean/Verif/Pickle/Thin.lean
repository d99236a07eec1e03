import Verif.Pickle.Props
import Verif.Sigma.Outside
import Verif.GeoMap.Props2

/-!
# Pickling: examples and thin faces (C61)
-/

namespace Verif.Pickle
open Verif Verif.GeoMap

variable {K : Type} [Field K] [LinearOrder K] [IsStrictOrderedRing K]

/-! ## the order of the contours decides -/

/-- no face but the infinite one is in the table -/
def NoFaces (s : GMap K) : Prop := ∀ f, f ≠ 0 → s.face f = none

omit [Field K] [LinearOrder K] [IsStrictOrderedRing K] in
theorem NoFaces.parent {s : GMap K} (h : NoFaces s) (pick : GMap K → Int → Option Nat) (a : Int) : s.parentOf pick a = 0 := by
  unfold GMap.parentOf
  cases pick s a with
  | none => rfl
  | some f =>
    by_cases hf : f = 0
    · subst hf; simp
    · simp [h f hf]

omit [Field K] [LinearOrder K] [IsStrictOrderedRing K] in
theorem setLeft_face {s t : GMap K} {d : Int} {l : Nat} (h : s.setLeft d l = .ok t) : t.face = s.face := by
  obtain ⟨e, -, h⟩ := Outcome.bind_eq_ok.mp h
  cases h; rfl

omit [Field K] [LinearOrder K] [IsStrictOrderedRing K] in
theorem markLoop_face {lbl : Nat} {stop : Option Nat → Bool} : ∀ (n : Nat) {s t : GMap K} {d : Int}, GMap.markLoop lbl stop n s d = .ok t → t.face = s.face := by
  intro n
  induction n with
  | zero => intro s t d h; cases h
  | succ n ih =>
    intro s t d h
    unfold GMap.markLoop at h
    obtain ⟨l, h1, h⟩ := Outcome.bind_eq_ok.mp h
    split_ifs at h
    · cases h; rfl
    · obtain ⟨u, h2, h⟩ := Outcome.bind_eq_ok.mp h
      rw [ih h, setLeft_face h2]

omit [LinearOrder K] [IsStrictOrderedRing K] in
theorem NoFaces.embed {s t : GMap K} {a : Int} (hs : NoFaces s) (h : s.embedContour 0 a = .ok t) : NoFaces t := by
  unfold GMap.embedContour at h
  obtain ⟨P, h1, h⟩ := Outcome.bind_eq_ok.mp h
  obtain ⟨u, h2, h⟩ := Outcome.bind_eq_ok.mp h
  have h3 := markLoop_face _ h2
  have hu : NoFaces u := by
    intro f hf
    rw [h3]; simp [GMap.setFace, hf, hs f hf]
  cases hP : P.area with
  | none => rw [hP] at h; cases h; exact hu
  | some x =>
    rw [hP] at h
    obtain ⟨y, -, h⟩ := Outcome.bind_eq_ok.mp h
    cases h
    intro f hf
    simp [GMap.setFace, hf, hu f hf]

omit [IsStrictOrderedRing K] in
/-- without hole contours the search is not asked -/
theorem embedLoop_outer (pick pick' : GMap K → Int → Option Nat) : ∀ (cs : List (Nat × Face K × K)) (s : GMap K), (∀ c ∈ cs, 0 < c.2.2) →
    GMap.embedLoop pick cs s = GMap.embedLoop pick' cs s := by
  intro cs
  induction cs with
  | nil => intro s _; rfl
  | cons c cs ih =>
    intro s h
    obtain ⟨f, F, x⟩ := c
    have hx : 0 < x := h (f, F, x) (by simp)
    unfold GMap.embedLoop
    cases F.anchors with
    | nil => rfl
    | cons a _ =>
      simp only [if_pos hx]
      exact ih _ fun c hc => h c (by simp [hc])

omit [IsStrictOrderedRing K] in
/-- if all hole contours come first, all of them end in the infinite face, whatever the search says -/
theorem embedLoop_holes_first (pick pick' : GMap K → Int → Option Nat) :
    ∀ (cs : List (Nat × Face K × K)) (s : GMap K), NoFaces s → cs.Pairwise (fun x y => 0 < x.2.2 → 0 < y.2.2) →
    GMap.embedLoop pick cs s = GMap.embedLoop pick' cs s := by
  intro cs
  induction cs with
  | nil => intro s _ _; rfl
  | cons c cs ih =>
    intro s hs h
    rw [List.pairwise_cons] at h
    obtain ⟨f, F, x⟩ := c
    by_cases hx : 0 < x
    · refine embedLoop_outer pick pick' _ s fun c hc => ?_
      rcases List.mem_cons.mp hc with rfl | hc
      · exact hx
      · exact h.1 c hc hx
    unfold GMap.embedLoop
    cases F.anchors with
    | nil => rfl
    | cons a _ =>
      simp only [if_neg hx, hs.parent]
      show Outcome.bind _ _ = Outcome.bind _ _
      cases he : s.embedContour 0 a with
      | ok t =>
        simp only [Outcome.bind_ok]
        refine ih _ (fun g hg => ?_) h.2
        show Function.update t.face f none g = none
        by_cases hgf : g = f
        · subst hgf; simp
        · simp [hgf, hs.embed he g hg]
      | _ => rfl

/-- all hole contours are sorted before the outer ones -/
def holesFirst (s : GMap K) : Bool :=
  match s.contourList (List.range' 1 (s.nFaces - 1)) with
  | .ok cs => decide ((cs.insertionSort (fun x y => GMap.absAreaLess y.2.2 x.2.2 = false)).Pairwise fun x y => 0 < x.2.2 → 0 < y.2.2)
  | _ => false

omit [IsStrictOrderedRing K] in
theorem embedFaces_holes_first {s : GMap K} (h : holesFirst s = true) (pick pick' : GMap K → Int → Option Nat) :
    s.embedFaces pick = s.embedFaces pick' := by
  unfold holesFirst at h
  unfold GMap.embedFaces
  show Outcome.bind _ _ = Outcome.bind _ _
  cases hc : s.contourList (List.range' 1 (s.nFaces - 1)) with
  | ok cs =>
    rw [hc] at h
    exact embedLoop_holes_first pick pick' _ _ (fun f hf => if_neg hf) (of_decide_eq_true h)
  | _ => rfl

/-! ## a thin face -/

/-- two squares, connected by a bridge: a big one at the node (0,0), a small one inside it -/
def thin2 : GMap ℚ := Example.next (Example.next GMap.empty (.addNode (0, 0) 0)) (.addNode (1/40, 1/40) 0)
def thinA : GMap ℚ := Example.next thin2 (.addEdge (.node 0) (.node 0) [(0, 0), (0, 1/10), (1/10, 1/10), (1/10, 0), (0, 0)] 0)
def thinB : GMap ℚ := Example.next thinA (.addEdge (.node 1) (.node 1) [(1/40, 1/40), (1/40, 3/40), (3/40, 3/40), (3/40, 1/40), (1/40, 1/40)] 0)
def thinC : GMap ℚ := Example.next thinB (.addEdge (.node 0) (.node 1) [(0, 0), (1/40, 1/40)] 0)
def thinBridge : GMap ℚ := Example.next thinC (.initializeMap fun _ _ => none)
/-- … and without the bridge: face 1 has the contours 1 and -2 -/
def thin : GMap ℚ := Example.next thinBridge (.removeBridge 3)

theorem thinC_reach : ReachG thinC := by
  have r2 : ReachG thin2 :=
    Example.reach_next (Example.reach_next .empty trivial trivial rfl fun _ h => absurd h (by decide +kernel)) trivial trivial rfl
      fun _ h => absurd h (by decide +kernel)
  refine Example.reach_edge (na := ⟨(0, 0), -1⟩) (nb := ⟨(1/40, 1/40), -2⟩) (Example.reach_edge (na := ⟨(1/40, 1/40), 0⟩) (nb := ⟨(1/40, 1/40), 0⟩)
    (Example.reach_edge (na := ⟨(0, 0), 0⟩) (nb := ⟨(0, 0), 0⟩) r2 ?_ ?_ ?_ ?_ ?_ ?_) ?_ ?_ ?_ ?_ ?_ ?_) ?_ ?_ ?_ ?_ ?_ ?_ <;> decide +kernel

theorem thin_darts : thinBridge.darts = {1, -1, 2, -2, 3, -3} := by decide +kernel

theorem thinBridge_planar : PlanarOK thinBridge := by
  intro w hw
  have h3 : w 3 = 0 := by
    have h := hw 1
    have e : (thinBridge.darts.filter fun d => thinBridge.startN? d = some 1) = {2, -2, -3} := by decide +kernel
    unfold bd at h
    rw [e, Finset.sum_insert (by decide), Finset.sum_insert (by decide), Finset.sum_singleton] at h
    have tt : ∀ a b : ZMod 2, a + (a + b) = 0 → b = 0 := by decide
    exact tt _ _ h
  rw [thin_darts]
  refine ⟨fun f => if f = some 1 then w 1 else if f = some 3 then w 1 + w 2 else 0, fun d hd => ?_⟩
  simp only [Finset.mem_insert, Finset.mem_singleton] at hd
  have q1 : thinBridge.left? 1 = some 1 := by decide +kernel
  have q1' : thinBridge.left? (-1) = some 0 := by decide +kernel
  have q2 : thinBridge.left? 2 = some 3 := by decide +kernel
  have q2' : thinBridge.left? (-2) = some 1 := by decide +kernel
  have q3 : thinBridge.left? 3 = some 1 := by decide +kernel
  have q3' : thinBridge.left? (-3) = some 1 := by decide +kernel
  have tt : ∀ a b : ZMod 2, b = a + b + a ∧ b = a + (a + b) ∧ 0 = a + a := by decide
  rcases hd with rfl | rfl | rfl | rfl | rfl | rfl <;> simp [q1, q1', q2, q2', q3, q3', h3] <;> first | exact (tt _ _).1 | exact (tt _ _).2.1 | exact (tt _ 0).2.2

theorem thinBridge_reach : ReachG thinBridge :=
  Example.reach_next thinC_reach trivial trivial (by decide +kernel) fun _ _ => thinBridge_planar

theorem thin_reach : ReachG thin :=
  Example.reach_next thinBridge_reach trivial trivial (by decide +kernel) fun h => absurd (by decide +kernel) h

/-- the value of a computation that succeeds -/
def get {α : Type} (d : α) : Outcome α → α
  | .ok a => a
  | _ => d

def good {α : Type} : Outcome α → Bool
  | .ok _ => true
  | _ => false

theorem get_eq {α : Type} (d : α) {o : Outcome α} (h : good o = true) : o = .ok (get d o) := by
  cases o <;> first | rfl | cases h

/-- the pickled map -/
def thinPickle : Pickled ℚ := get ⟨[], [], [], false, false, [], [], 0⟩ (pickle (Sigma.store thin) ⟨thin, fun _ => 0⟩)

theorem thinPickle_eq : pickle (Sigma.store thin) ⟨thin, fun _ => 0⟩ = .ok thinPickle := get_eq _ (by decide +kernel)

/-- the graph made by the constructor, with its sigma mapping -/
def thinGraph : GMap ℚ := get GMap.empty (createGeoMap thinPickle.nodes thinPickle.edges)
def thinGraph' : GMap ℚ := get GMap.empty (setSigmaMapping thinGraph thinPickle.sigma thinPickle.sorted)
def thinContours : GMap ℚ := get GMap.empty thinGraph'.initContours

theorem thinGraph_eq : createGeoMap thinPickle.nodes thinPickle.edges = .ok thinGraph := get_eq _ (by decide +kernel)
theorem thinGraph'_eq : setSigmaMapping thinGraph thinPickle.sigma thinPickle.sorted = .ok thinGraph' := get_eq _ (by decide +kernel)
theorem thinContours_eq : thinGraph'.initContours = .ok thinContours := get_eq _ (by decide +kernel)

theorem thin_init (pick pick' : GMap ℚ → Int → Option Nat) : thinGraph'.initializeMap pick = thinGraph'.initializeMap pick' := by
  unfold GMap.initializeMap GMap.ensureSorted
  rw [if_neg (show ¬ thinGraph'.initialized by decide +kernel), if_neg (show ¬ thinGraph'.initialized by decide +kernel),
    if_pos (show thinGraph'.edgesSorted = true by decide +kernel)]
  simp only [bind, Outcome.bind_ok, thinContours_eq]
  exact embedFaces_holes_first (by decide +kernel) pick pick'

theorem thin_unpickle (pick pick' : GMap ℚ → Int → Option Nat) : unpickle pick thinPickle = unpickle pick' thinPickle := by
  unfold unpickle setstate
  simp only [bind, thinGraph_eq, thinGraph'_eq, Outcome.bind_ok, thin_init pick pick']

def thinBack : PMap ℚ := get ⟨GMap.empty, fun _ => 0⟩ (unpickle (fun _ _ => none) thinPickle)
theorem thinBack_eq : unpickle (fun _ _ => none) thinPickle = .ok thinBack := get_eq _ (by decide +kernel)

/-- A map with a thin face (its two contours differ by less than 1/100 in area) does not come back,
however good the geometric search is: the hole of face 1 has become one of the infinite face. -/
theorem thin_face_violated :
    ∃ (s : GMap ℚ) (a : Sigma.Arrays), Reach s ∧ s.initialized ∧ Sigma.Holds a s ∧ s.left? (-2) = some 1 ∧
      ∃ p, pickle a ⟨s, fun _ => 0⟩ = .ok p ∧ ∀ pick, ∃ t, unpickle pick p = .ok t ∧ t.map.left? (-2) = some 0 ∧ ¬ SameMap ⟨s, fun _ => 0⟩ t := by
  refine ⟨thin, Sigma.store thin, thin_reach.reach, by decide +kernel, Sigma.store_holds thin_reach.reach (by decide +kernel),
    by decide +kernel, thinPickle, thinPickle_eq, fun pick => ⟨thinBack, ?_, by decide +kernel, fun h => ?_⟩⟩
  · rw [thin_unpickle pick fun _ _ => none]; exact thinBack_eq
  · have h2 : thinBack.map.left? (-2) = thin.left? (-2) := by
      unfold GMap.left?
      rw [h.edges]
    revert h2
    decide +kernel

/-! ## examples -/

theorem nested_orbitArea {d : Int} (hd : Props.nested.phi d = d) (hm : d ∈ Props.nested.darts) :
    Props.nested.orbitArea d = Props.nested.dartArea d := by
  classical
  unfold GMap.orbitArea
  have : ∀ x, Props.nested.phiReach d x ↔ x = d := by
    intro x
    constructor
    · rintro ⟨k, rfl⟩; exact Function.iterate_fixed hd k
    · rintro rfl; exact ⟨0, rfl⟩
  rw [← Finset.sum_singleton (fun x => Props.nested.dartArea x) d]
  congr 1
  ext x
  rw [Finset.mem_filter, this, Finset.mem_singleton]
  exact ⟨fun h => h.2, fun h => ⟨by rw [h]; exact hm, h⟩⟩

/-- three nested loops: each of the two inner ones lies in a face with an outer contour and a hole -/
theorem nested_regions : Regions Props.nested := by
  have a1 : Props.nested.orbitArea 1 = 144 := by rw [nested_orbitArea (by decide +kernel) (by decide +kernel)]; decide +kernel
  have a1' : Props.nested.orbitArea (-1) = -144 := by rw [nested_orbitArea (by decide +kernel) (by decide +kernel)]; decide +kernel
  have a2 : Props.nested.orbitArea 2 = 100 := by rw [nested_orbitArea (by decide +kernel) (by decide +kernel)]; decide +kernel
  have a2' : Props.nested.orbitArea (-2) = -100 := by rw [nested_orbitArea (by decide +kernel) (by decide +kernel)]; decide +kernel
  have a3 : Props.nested.orbitArea 3 = 1 := by rw [nested_orbitArea (by decide +kernel) (by decide +kernel)]; decide +kernel
  have a3' : Props.nested.orbitArea (-3) = -1 := by rw [nested_orbitArea (by decide +kernel) (by decide +kernel)]; decide +kernel
  have hn : Props.nested.nFaces = 7 := by decide +kernel
  have hanc : ∀ {f : Nat} {F : Face ℚ} {l : List Int}, Props.nested.face f = some F → (Props.nested.face f).map (fun F => F.anchors) = some l → F.anchors = l := by
    intro f F l h1 h2
    rw [h1] at h2; exact Option.some.inj h2
  constructor
  · intro f F hF hf
    have hlt : f < 7 := by rw [← hn]; exact Props.nested_reach.reach.good.map.graph.face_lt f (by simp [hF])
    rcases (by omega : f = 1 ∨ f = 2 ∨ f = 3 ∨ f = 4 ∨ f = 5 ∨ f = 6) with rfl | rfl | rfl | rfl | rfl | rfl
    · rw [hanc hF (l := [1, -2]) (by decide +kernel)]
      refine ⟨1, by simp, by rw [a1]; norm_num, fun b hb hne => ?_⟩
      have : b = -2 := by simpa [hne] using hb
      subst this
      rw [a1, a2']; norm_num
    · have h2 : Props.nested.face 2 = none := by decide +kernel
      rw [h2] at hF; cases hF
    · rw [hanc hF (l := [2, -3]) (by decide +kernel)]
      refine ⟨2, by simp, by rw [a2]; norm_num, fun b hb hne => ?_⟩
      have : b = -3 := by simpa [hne] using hb
      subst this
      rw [a2, a3']; norm_num
    · have h2 : Props.nested.face 4 = none := by decide +kernel
      rw [h2] at hF; cases hF
    · rw [hanc hF (l := [3]) (by decide +kernel)]
      refine ⟨3, by simp, by rw [a3]; norm_num, fun b hb hne => ?_⟩
      exact absurd (by simpa using hb) hne
    · have h2 : Props.nested.face 6 = none := by decide +kernel
      rw [h2] at hF; cases hF
  · intro F hF
    rw [hanc hF (l := [-1]) (by decide +kernel)]
    refine ⟨by simp, fun b hb => ?_⟩
    obtain rfl : b = -1 := by simpa using hb
    rw [a1']; norm_num

/-- the hypotheses of `map_roundtrip_partial` can be met -/
example : ∃ (a : Sigma.Arrays) (pick : GMap ℚ → Int → Option Nat), Reach Props.nested ∧ Props.nested.initialized ∧ Sigma.Holds a Props.nested ∧
    Regions Props.nested ∧ Finds Props.nested pick := by
  have hi : Props.nested.initialized := by decide +kernel
  obtain ⟨pick, hp⟩ := exists_finds Props.nested_reach.reach hi nested_regions
  exact ⟨Sigma.store Props.nested, pick, Props.nested_reach.reach, hi, Sigma.store_holds Props.nested_reach.reach (by decide +kernel), nested_regions, hp⟩

/-- the hypotheses of `graph_roundtrip` can be met -/
example : ∃ a : Sigma.Arrays, Reach thinC ∧ ¬ thinC.initialized ∧ Sigma.Holds a thinC :=
  ⟨Sigma.store thinC, thinC_reach.reach, by decide +kernel, Sigma.store_holds thinC_reach.reach (by decide +kernel)⟩

end Verif.Pickle
