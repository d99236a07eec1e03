import Verif.FaceStats.Plain
import Verif.LabelImage.Examples

/-!
# Properties of the statistics of faces

C43 (statistics equal recomputation) and C44 (bookkeeping of supersampled faces).  Specification: `Spec.lean`
(`faceValues`, `Stats.marked`, `BoxesCover`, `SReach`, `Merges`).
-/

set_option linter.unusedSectionVars false

namespace Verif.FaceStats
open Verif Verif.GeoMap Verif.LabelImage

variable {K V : Type} [Field K] [LinearOrder K] [IsStrictOrderedRing K] [FloorRing K]

/-! ## C43 -/

/-- Statistics can be created for every map with label image. -/
theorem construct_total (env : Env K V) (grid : Nat → Nat → List V) (c : Nat) {m : LMap K} (hm : LReach m) :
    ∃ st, construct env grid c m = .ok st ∧ SReach env m st := by
  obtain ⟨st, e, -⟩ := construct_inv env grid c hm
  exact ⟨st, e, .new grid c hm e⟩

/-- After every history without supersampling, the statistics of every face are those of its pixels, from
scratch. -/
theorem statistics_recomputed {env : Env K V} {m : LMap K} {st : Stats V} (h : SReach env m st) (h0 : st.minCount = 0) {f : Nat}
    (hf : (m.g.face f).isSome = true) : st.fn f = some (faceValues env.orig m f) := by
  obtain ⟨h1, h2⟩ := h.plain h0
  exact (h1.inv env.all_covers).values f hf (not_marked_none h2.1 f)

/-- With supersampling, this holds for every face that is not marked, provided that bounding boxes contain the pixels
of their faces. -/
theorem statistics_unmarked {env : Env K V} (hb : BoxesCover env) {m : LMap K} {st : Stats V} (h : SReach env m st) {f : Nat}
    (hf : (m.g.face f).isSome = true) (hm : ¬ st.marked f) : st.fn f = some (faceValues env.orig m f) :=
  (h.inv hb).values f hf hm

/-- There are statistics for exactly the faces of the map. -/
theorem statistics_faces {env : Env K V} (hb : BoxesCover env) {m : LMap K} {st : Stats V} (h : SReach env m st) (f : Nat) :
    (st.fn f).isSome = (m.g.face f).isSome := (h.inv hb).fn f

/-- The number of samples is the pixel area: the postconditions of debug builds hold. -/
theorem statistics_pixelCount {env : Env K V} (hb : BoxesCover env) {m : LMap K} {st : Stats V} (h : SReach env m st) {f : Nat} {F : Face K}
    (hf : m.g.face f = some F) (hm : ¬ st.marked f) : ∃ a, st.fn f = some a ∧ a.card = F.pixelArea := by
  refine ⟨_, (h.inv hb).values f (by rw [hf]; rfl) hm, ?_⟩
  rw [values_card (h.inv hb).reach env.orig (by rw [hf]; rfl)]
  simp [pixelArea, hf]

/-- Attached statistics do not disturb the map: a call either does exactly what it does without statistics, or merges
a marked face with an unmarked one while a single face is marked. -/
theorem statistics_transparent_partial {env : Env K V} (hb : BoxesCover env) {m : LMap K} {st : Stats V} (hS : SReach env m st) (h : Hooks K) (asked : Bool)
    (op : LOp K) (hl : op.op.legal m.g) (hf : op.fits m.g)
    (hno : ∀ sl ml, Merges h m op sl ml → ¬ (st.marked sl ∧ ¬ st.marked ml ∧ st.count = 1)) :
    (run env h asked m st op).map (·.1) = op.run h m := by
  rcases run_step hb (hS.inv hb) h asked op hl hf with ⟨e1, e2⟩ | ⟨sl, ml, e1, e2, -⟩ | ⟨-, n, st', e1, e2, -⟩
  · rw [e1, e2]; rfl
  · exact absurd e2 (hno sl ml e1)
  · rw [e1, e2]; rfl

/-- Without supersampling no exception is needed. -/
theorem statistics_transparent {env : Env K V} {m : LMap K} {st : Stats V} (hS : SReach env m st) (h0 : st.minCount = 0) (h : Hooks K) (asked : Bool)
    (op : LOp K) (hl : op.op.legal m.g) (hf : op.fits m.g) : (run env h asked m st op).map (·.1) = op.run h m := by
  obtain ⟨h1, h2⟩ := hS.plain h0
  rw [(run_plain env h asked m h2 op).1]
  exact statistics_transparent_partial env.all_covers h1 h asked op hl hf fun sl ml _ hh => not_marked_none h2.1 sl hh.1

/-! ## C44 -/

/-- `superSampledCount()` is the number of marked faces. -/
theorem superSampledCount_partial {env : Env K V} (hb : BoxesCover env) {m : LMap K} {st : Stats V} (h : SReach env m st) :
    ∃ fs : Finset Nat, (∀ f, f ∈ fs ↔ (m.g.face f).isSome = true ∧ st.marked f) ∧ st.count = fs.card := by
  have hI := h.inv hb
  have hc := hI.count
  unfold CountOK at hc
  cases hs : st.ss with
  | none =>
    rw [hs] at hc
    refine ⟨∅, fun f => ?_, hc⟩
    simp only [Finset.notMem_empty, false_iff, not_and]
    exact fun _ => not_marked_none hs f
  | some t =>
    rw [hs] at hc
    refine ⟨_, fun f => ?_, hc⟩
    rw [Finset.mem_filter, Finset.mem_range, marked_some hs]
    constructor
    · rintro ⟨-, h1⟩; exact h1
    · intro h1; exact ⟨face_lt hI.reach h1.1, h1⟩

/-- A merge with a marked survivor and an unmarked other face, while a single face is marked, dereferences the missing
table. -/
theorem supersampled_crash {env : Env K V} (hb : BoxesCover env) {m : LMap K} {st : Stats V} (hS : SReach env m st) (h : Hooks K) (asked : Bool)
    (op : LOp K) (hl : op.op.legal m.g) (hf : op.fits m.g) {sl ml : Nat} (hm : Merges h m op sl ml) (h1 : st.marked sl) (h2 : ¬ st.marked ml)
    (h3 : st.count = 1) : run env h asked m st op = .ub := by
  rcases run_step hb (hS.inv hb) h asked op hl hf with ⟨e1, -⟩ | ⟨_, _, -, -, e⟩ | ⟨hno, -⟩
  · exfalso
    obtain ⟨d, n, px, hop, e, hne, hs⟩ := hm
    have hlr : m.g.left? d ≠ m.g.left? (-d) := by
      rcases hs with ⟨a, b⟩ | ⟨a, b⟩ <;> rw [a, b] <;> simp only [ne_eq, Option.some.injEq] <;> omega
    rcases hop with rfl | rfl
    · have : (LOp.mergeFaces d).run h m = .ok n := by show (m.mergeFaces h d).map _ = _; rw [e]; rfl
      rw [this] at e1; cases e1
    · have : (LOp.removeEdge d).run h m = .ok n := by
        show (m.removeEdge h d).map _ = _
        unfold LMap.removeEdge
        cases he : m.g.edge d.natAbs with
        | none =>
          exfalso
          apply hlr
          unfold GMap.left?
          rw [Int.natAbs_neg, he]
          rfl
        | some e' =>
          simp only [guaranteedEdge_of he, bind, Outcome.bind_ok]
          rw [if_neg, e]
          · rfl
          · intro hh
            apply hlr
            rw [left?_of he, left?_of (d := -d) (by simpa using he)]
            unfold Edge.leftOf
            split_ifs <;> simp [hh]
      rw [this] at e1; cases e1
  · exact e
  · exact absurd ⟨h1, h2, h3⟩ (hno sl ml hm)

/-- `checkConsistency()` fails exactly if the table of marks outlives the last marked face. -/
theorem statistics_checkConsistency_partial {env : Env K V} (hb : BoxesCover env) {m : LMap K} {st : Stats V} (h : SReach env m st) :
    checkConsistency m st = true ↔ (st.ss ≠ none → st.count ≠ 0) := by
  have hI := h.inv hb
  have hc := hI.count
  unfold CountOK at hc
  unfold checkConsistency
  cases hs : st.ss with
  | none => rw [hs] at hc; simp [hc]
  | some t =>
    rw [hs] at hc
    have q1 : ((List.range m.g.nFaces).filter fun f => (m.g.face f).isSome).all
        (fun f => t f ≠ 0 || ((st.fn f).map Multiset.card == some (pixelArea m.g f))) = true := by
      rw [List.all_eq_true]
      intro f hf
      rw [List.mem_filter] at hf
      by_cases ht : t f = 0
      · obtain ⟨F, hF⟩ := Option.isSome_iff_exists.mp hf.2
        have hm : ¬ st.marked f := by rw [marked_some hs]; exact fun h => h ht
        obtain ⟨a, h1, h2⟩ := statistics_pixelCount hb h hF hm
        rw [h1]
        simp [ht, h2, pixelArea, hF]
      · simp [ht]
    have q2 : (((List.range m.g.nFaces).filter fun f => (m.g.face f).isSome).filter fun f => t f ≠ 0).length = st.count := by
      rw [hc]
      unfold markCount
      rw [← List.toFinset_card_of_nodup ((List.nodup_range.filter _).filter _)]
      congr 1
      ext f
      simp [and_comm]
    simp only [q1, q2]
    simp

/-! ## Concrete cases -/

/-- Every pixel has a value of its own; boxes contain everything. -/
def env0 : Env ℚ Nat := ⟨fun p => (10 * p.1 + p.2).toNat, fun _ _ _ => true⟩
theorem env0_covers : BoxesCover env0 := fun _ _ _ _ _ => rfl

def st1 : Stats Nat := Example.val ⟨0, 0, fun _ => none, none, 0, 0, 0, 0, 0⟩ (construct env0 (fun _ _ => []) 0 lab1)

set_option maxRecDepth 100000 in
theorem st1_reach : SReach env0 lab1 st1 := .new (fun _ _ => []) 0 lab1_reach (Example.ok_val (by decide +kernel))

set_option maxRecDepth 100000 in
/-- `statistics_recomputed` says something: in the map with three nested loops, merging faces 1 and 3 gives the values of
the pixels of the removed edge to face 3. -/
example : ∃ n st, SReach env0 n st ∧ st.minCount = 0 ∧ (n.g.face 3).isSome = true ∧ (n.g.face 1).isSome = false ∧
    st1.fn 3 = some {24, 34, 42, 43, 44} ∧ st.fn 3 = some {24, 34, 42, 43, 44, 11, 21, 31, 41, 12, 13, 14} := by
  have hr : Example.isOk (run env0 Hooks.none true lab1 st1 (.mergeFaces 2)) = true := by decide +kernel
  have e := Example.ok_val (a := (lab1, st1)) hr
  refine ⟨_, _, .call Hooks.none true (.mergeFaces 2) st1_reach trivial trivial e, ?_, ?_, ?_, ?_, ?_⟩ <;> decide +kernel

/-- Two nested loops, the outer one first. -/
def pairA : GMap ℚ :=
  let s := Example.next GMap.empty (.addNode (0, 0) 0)
  Example.next s (.addNode (1, 1) 0)
def pairB : GMap ℚ := Example.next pairA (.addEdge (.node 0) (.node 0) [(0, 0), (0, 9), (9, 9), (9, 0), (0, 0)] 0)
def pairC : GMap ℚ := Example.next pairB (.addEdge (.node 1) (.node 1) [(1, 1), (1, 5), (5, 5), (5, 1), (1, 1)] 0)
def pairPick : GMap ℚ → Int → Option Nat := fun _ d => if d = -2 then some 1 else none
/-- face 1 between the loops, face 3 inside the inner loop -/
def pair : GMap ℚ := Example.next pairC (.initializeMap pairPick)

theorem pair_darts : pair.darts = {1, -1, 2, -2} := by decide +kernel

theorem pair_planar : PlanarOK pair := by
  intro w _
  rw [pair_darts]
  refine ⟨fun f => if f = some 1 then w 1 else if f = some 3 then w 1 + w 2 else 0, fun d hd => ?_⟩
  simp only [Finset.mem_insert, Finset.mem_singleton] at hd
  have q1 : pair.left? 1 = some 1 := by decide +kernel
  have q1' : pair.left? (-1) = some 0 := by decide +kernel
  have q2 : pair.left? 2 = some 3 := by decide +kernel
  have q2' : pair.left? (-2) = some 1 := by decide +kernel
  have tt : ∀ a b : ZMod 2, b = a + b + a ∧ b = a + (a + b) := by decide
  rcases hd with rfl | rfl | rfl | rfl <;> simp [q1, q1', q2, q2'] <;> first | exact (tt _ _).1 | exact (tt _ _).2

theorem pair_reach : ReachG pair := by
  have r2 : ReachG pairA :=
    Example.reach_next (Example.reach_next .empty trivial trivial rfl fun _ h => absurd h (by decide +kernel)) trivial trivial rfl
      fun _ h => absurd h (by decide +kernel)
  have rC : ReachG pairC := by
    refine Example.reach_edge (na := ⟨(1, 1), 0⟩) (nb := ⟨(1, 1), 0⟩)
      (Example.reach_edge (na := ⟨(0, 0), 0⟩) (nb := ⟨(0, 0), 0⟩) r2 ?_ ?_ ?_ ?_ ?_ ?_) ?_ ?_ ?_ ?_ ?_ ?_ <;> decide +kernel
  exact Example.reach_next rC trivial trivial (by decide +kernel) fun _ _ => pair_planar

/-- The map with a label image of 4 by 4 pixels: no pixel in face 1, four pixels in face 3. -/
def plab0 : LMap ℚ := LMap.ofMap pair 4 4 ⟨[], []⟩
def plab1 : LMap ℚ := Example.val plab0 (plab0.setHasLabelImage true)

set_option maxRecDepth 100000 in
theorem plab1_reach : LReach plab1 := by
  refine .on (lut := ⟨[], []⟩) (w := 4) (h := 4) pair_reach (by decide +kernel) (fun F hF => ?_) (Example.ok_val (a := plab0) (by decide +kernel))
  have : (pair.face 0).map (·.pixelArea) = some 0 := by decide +kernel
  rw [hF] at this
  exact Option.some.inj this

/-- Every supersampling grid has ten points in a face. -/
def grid0 : Nat → Nat → List Nat := fun _ _ => List.replicate 10 7
def pst (c : Nat) : Stats Nat := Example.val ⟨0, 0, fun _ => none, none, 0, 0, 0, 0, 0⟩ (construct env0 grid0 c plab1)

set_option maxRecDepth 100000 in
theorem pst_reach (c : Nat) (hc : c = 3 ∨ c = 5) : SReach env0 plab1 (pst c) := by
  rcases hc with rfl | rfl
  · exact .new grid0 3 plab1_reach (Example.ok_val (by decide +kernel))
  · exact .new grid0 5 plab1_reach (Example.ok_val (by decide +kernel))

set_option maxRecDepth 100000 in
theorem plab1_merges : Merges Hooks.none plab1 (.mergeFaces 2) 1 3 := by
  have h1 : (plab1.mergeFaces Hooks.none 2).map (·.1) = .ok (some 1) := by decide +kernel
  obtain ⟨⟨r, n, px⟩, e1, e2⟩ := Outcome.bind_eq_ok.mp h1
  cases e2
  exact ⟨2, n, px, Or.inl rfl, e1, by decide, Or.inr ⟨by decide +kernel, by decide +kernel⟩⟩

set_option maxRecDepth 100000 in
/-- The released table is dereferenced: merging the only supersampled face, face 1, with face 3, which has enough
pixels, is undefined behaviour, although the map itself supports the call. -/
theorem supersampled_table_violated :
    ∃ (env : Env ℚ Nat) (m n : LMap ℚ) (st : Stats Nat), BoxesCover env ∧ SReach env m st ∧ checkConsistency m st = true ∧
      (LOp.mergeFaces 2).run Hooks.none m = .ok n ∧ run env Hooks.none true m st (.mergeFaces 2) = .ub := by
  have hm : (pst 3).ss.map (fun t => (t 1, t 3)) = some (1, 0) := by decide +kernel
  obtain ⟨t, ht, hp⟩ := Option.map_eq_some_iff.mp hm
  simp only [Prod.mk.injEq] at hp
  refine ⟨env0, plab1, _, pst 3, env0_covers, pst_reach 3 (Or.inl rfl), by decide +kernel, Example.ok_val (a := plab1) (by decide +kernel), ?_⟩
  refine supersampled_crash env0_covers (pst_reach 3 (Or.inl rfl)) Hooks.none true (.mergeFaces 2) trivial trivial plab1_merges ?_ ?_ (by decide +kernel)
  · rw [marked_some ht, hp.1]; decide
  · rw [marked_some ht, hp.2]; decide

set_option maxRecDepth 100000 in
/-- `associatePixels` does not release the table: after merging two supersampled faces whose common edge brings enough
pixels, no face is marked, the table still exists, and `checkConsistency()` fails. -/
theorem supersampled_release_violated :
    ∃ (env : Env ℚ Nat) (m : LMap ℚ) (st : Stats Nat), BoxesCover env ∧ SReach env m st ∧ st.count = 0 ∧ st.ss.isSome = true ∧ checkConsistency m st = false := by
  have hr : Example.isOk (run env0 Hooks.none true plab1 (pst 5) (.mergeFaces 2)) = true := by decide +kernel
  have e := Example.ok_val (a := (plab1, pst 5)) hr
  refine ⟨env0, _, _, env0_covers, .call Hooks.none true (.mergeFaces 2) (pst_reach 5 (Or.inr rfl)) trivial trivial e, ?_, ?_, ?_⟩ <;> decide +kernel

set_option maxRecDepth 100000 in
/-- `changeFaceLabels` does not tell the statistics: face 3 is renamed to 1, and there are no statistics for face 1. -/
theorem statistics_rename_violated :
    ∃ (env : Env ℚ Nat) (m n : LMap ℚ) (st : Stats Nat), BoxesCover env ∧ SReach env m st ∧
      (∃ lab, m.changeFaceLabels [0, 7, 7, 1, 7, 2, 7] 3 = .ok (true, n, lab)) ∧ (n.g.face 1).isSome = true ∧ st.fn 1 = none := by
  obtain ⟨st, -, hS⟩ := construct_total env0 (fun _ _ => []) 0 lab2_reach
  have hfn := statistics_faces env0_covers hS 1
  have h1 : (lab2.g.face 1).isSome = false := by decide +kernel
  have h2 : ((lab2.changeFaceLabels [0, 7, 7, 1, 7, 2, 7] 3).map fun r => (r.1, (r.2.1.g.face 1).isSome)) = .ok (true, true) := by decide +kernel
  obtain ⟨⟨d, n, lab⟩, e1, e2⟩ := Outcome.bind_eq_ok.mp h2
  simp only [Outcome.ok.injEq, Prod.mk.injEq] at e2
  refine ⟨env0, lab2, n, st, env0_covers, hS, ⟨lab, by rw [e1, e2.1]⟩, e2.2, ?_⟩
  rw [h1] at hfn
  simpa using hfn

end Verif.FaceStats
