import Verif.LabelImage.Props

/-!
# Concrete label images

Non-trivial cases that meet the hypotheses of `Props.lean`, and the cases in which the code does not
keep the label image right.
-/

set_option linter.unusedSectionVars false

namespace Verif.LabelImage
open Verif Verif.GeoMap Verif.Scan Verif.LabelLUT
open Verif.GeoMap.Props (nested nested_reach)

/-! ## Computing crossings -/

section
variable {K : Type} [Field K] [LinearOrder K] [IsStrictOrderedRing K] [FloorRing K]

/-- Edge `l` passes through the pixel, computed. -/
def crossesB (g : GMap K) (p : Int × Int) (l : Nat) : Bool :=
  match g.edge l with
  | none => false
  | some e => ((edgeLines e.pts).row p.2).any fun s => s.b ≤ p.1 && p.1 < s.e

theorem crossesB_iff (g : GMap K) (p : Int × Int) (l : Nat) : crossesB g p l = true ↔ Crosses g l p := by
  unfold crossesB
  cases he : g.edge l with
  | none =>
    simp only [Bool.false_eq_true, false_iff]
    rintro ⟨e, h, -⟩
    rw [he] at h; cases h
  | some e =>
    rw [crosses_iff he, ← (edgeLines_ok e.pts).cov]
    simp [Cov, Seg.Covers]

/-- The number of edges through a pixel, computed. -/
def crossingB (g : GMap K) (p : Int × Int) : Nat := ((List.range g.nEdges).filter (crossesB g p)).length

theorem crossing_eq (g : GMap K) (p : Int × Int) : crossing g p = crossingB g p := by
  classical
  unfold crossing crossingB
  rw [← List.toFinset_card_of_nodup (List.nodup_range.filter _)]
  congr 1
  ext l
  simp [crossesB_iff]

/-- The number of pixels reported as a face, computed. -/
def facePixelsB (m : LMap K) (f : Nat) : Nat :=
  ((LMap.allPixels m.w m.h).filter fun p => decide (m.report p = .ok (f : Int))).length

theorem facePixels_card (m : LMap K) (f : Nat) : (m.facePixels f).card = facePixelsB m f := by
  classical
  unfold facePixelsB LMap.facePixels
  rw [allPixels_filter (fun p => m.report p = .ok (f : Int))]

end

/-! ## A map with label image -/

/-- Three nested loops with a label image of 5 by 5 pixels: loop 1 along row and column 0, loop 2 along
row and column 1, loop 3 around the pixels from (2,2) to (3,3). -/
def lab0 : LMap ℚ := LMap.ofMap nested 5 5 ⟨[], []⟩
def lab1 : LMap ℚ := Example.val lab0 (lab0.setHasLabelImage true)
/-- … after merging faces 1 and 3 -/
def lab2 : LMap ℚ := Example.val lab1 ((LOp.mergeFaces 2).run Hooks.none lab1)
/-- … and splitting edge 1 -/
def lab3 : LMap ℚ := Example.val lab2 ((LOp.splitEdge 1 0 (some (0, 5))).run Hooks.none lab2)

set_option maxRecDepth 100000 in
theorem lab1_reach : LReach lab1 := by
  refine .on (lut := ⟨[], []⟩) (w := 5) (h := 5) nested_reach (by decide +kernel) (fun F hF => ?_) (Example.ok_val (a := lab0) (by decide +kernel))
  have : (nested.face 0).map (·.pixelArea) = some 0 := by decide +kernel
  rw [hF] at this
  exact Option.some.inj this

set_option maxRecDepth 100000 in
theorem lab2_reach : LReach lab2 :=
  .call Hooks.none (.mergeFaces 2) lab1_reach trivial trivial (Example.ok_val (a := lab1) (by decide +kernel))

set_option maxRecDepth 100000 in
theorem lab3_reach : LReach lab3 := by
  refine .call Hooks.none (.splitEdge 1 0 (some (0, 5))) lab2_reach trivial ?_ (Example.ok_val (a := lab2) (by decide +kernel))
  intro e a b h1 h2 h3
  have hp : (lab2.g.edge 1).map (fun e => (e.pts[0]?, e.pts[1]?)) = some (some (0, 0), some (0, 12)) := by decide +kernel
  rw [h1] at hp
  simp only [Option.map_some, Option.some.injEq, Prod.mk.injEq, zero_add] at hp h2 h3
  rw [h2, h3] at hp
  simp only [Option.some.injEq] at hp
  obtain ⟨rfl, rfl⟩ := hp
  exact ⟨5 / 12, by norm_num, by norm_num, by norm_num⟩

set_option maxRecDepth 100000 in
/-- `labelImage_meaning` and `pixelArea_counts` say something about this map: pixel (1,0) is crossed by one edge, pixel (4,4) lies in face 3, and
merging faces 1 and 3 gives pixel (1,1) of the removed edge to face 3. -/
example : LReach lab2 ∧ crossing lab2.g (1, 0) = 1 ∧ lab2.report (1, 0) = .ok (-1) ∧
    crossing lab2.g (4, 4) = 0 ∧ lab2.report (4, 4) = .ok 3 ∧ lab1.report (1, 1) = .ok (-1) ∧ lab2.report (1, 1) = .ok 3 := by
  refine ⟨lab2_reach, ?_, by decide +kernel, ?_, by decide +kernel, by decide +kernel, by decide +kernel⟩
  · rw [crossing_eq]; decide +kernel
  · rw [crossing_eq]; decide +kernel

set_option maxRecDepth 100000 in
/-- `mergeFaces_pixels` says something: this call frees pixels. -/
example : ∃ n, lab1.mergeFaces Hooks.none 2 = .ok (some 3, n, [(1, 1), (2, 1), (3, 1), (4, 1), (1, 2), (1, 3), (1, 4)]) := by
  have : Example.val none ((lab1.mergeFaces Hooks.none 2).map fun r => some (r.1, r.2.2)) =
      some (some 3, [(1, 1), (2, 1), (3, 1), (4, 1), (1, 2), (1, 3), (1, 4)]) := by decide +kernel
  revert this
  cases lab1.mergeFaces Hooks.none 2 with
  | ok r =>
    intro this
    simp only [Outcome.map, Outcome.bind, Example.val, Option.some.injEq, Prod.mk.injEq] at this
    exact ⟨r.2.1, by rw [← this.1, ← this.2]⟩
  | precond => intro h; exact absurd h (by decide)
  | ub => intro h; exact absurd h (by decide)
  | hang => intro h; exact absurd h (by decide)

set_option maxRecDepth 100000 in
/-- `changeFaceLabels_pixels` says something: faces 0, 3, 5 of the merged map get the labels 0, 1, 2. -/
example : ∃ n lab, lab2.changeFaceLabels [0, 7, 7, 1, 7, 2, 7] 3 = .ok (true, n, lab) ∧ lab2.report (4, 4) = .ok 3 ∧ n.report (4, 4) = .ok 1 := by
  have : ((lab2.changeFaceLabels [0, 7, 7, 1, 7, 2, 7] 3).map fun r => (r.1, r.2.1.report (4, 4))) = .ok (true, .ok 1) := by decide +kernel
  revert this
  cases lab2.changeFaceLabels [0, 7, 7, 1, 7, 2, 7] 3 with
  | ok r =>
    intro this
    obtain ⟨d, n, lab⟩ := r
    simp only [Outcome.map, Outcome.bind, Outcome.ok.injEq, Prod.mk.injEq] at this
    exact ⟨n, lab, by rw [this.1], by decide +kernel, this.2⟩
  | precond => intro h; cases h
  | ub => intro h; cases h
  | hang => intro h; cases h

/-! ## Switching the label image off and on again

`LReach` switches the label image on once, on a map that never had one.  Neither restriction can be
dropped. -/

/-- Two nested loops, the inner one added first. -/
def ringA : GMap ℚ :=
  let s := Example.next GMap.empty (.addNode (2, 2) 0)
  Example.next s (.addNode (1, 1) 0)
def ringB : GMap ℚ := Example.next ringA (.addEdge (.node 0) (.node 0) [(2, 2), (2, 4), (4, 4), (4, 2), (2, 2)] 0)
def ringC : GMap ℚ := Example.next ringB (.addEdge (.node 1) (.node 1) [(1, 1), (1, 5), (5, 5), (5, 1), (1, 1)] 0)
def ringPick : GMap ℚ → Int → Option Nat := fun _ d => if d = -1 then some 3 else none
/-- face 1 inside the inner loop, face 3 between the loops -/
def ring : GMap ℚ := Example.next ringC (.initializeMap ringPick)

theorem ring_darts : ring.darts = {1, -1, 2, -2} := by decide +kernel

theorem ring_planar : PlanarOK ring := by
  intro w _
  rw [ring_darts]
  refine ⟨fun f => if f = some 1 then w 1 + w 2 else if f = some 3 then w 2 else 0, fun d hd => ?_⟩
  simp only [Finset.mem_insert, Finset.mem_singleton] at hd
  have q1 : ring.left? 1 = some 1 := by decide +kernel
  have q1' : ring.left? (-1) = some 3 := by decide +kernel
  have q2 : ring.left? 2 = some 3 := by decide +kernel
  have q2' : ring.left? (-2) = some 0 := by decide +kernel
  have tt : ∀ a b : ZMod 2, a = a + b + b ∧ a = b + (a + b) := by decide
  rcases hd with rfl | rfl | rfl | rfl <;> simp [q1, q1', q2, q2'] <;> first | exact (tt _ _).1 | exact (tt _ _).2

theorem ring_reach : ReachG ring := by
  have r2 : ReachG ringA :=
    Example.reach_next (Example.reach_next .empty trivial trivial rfl fun _ h => absurd h (by decide +kernel)) trivial trivial rfl
      fun _ h => absurd h (by decide +kernel)
  have rC : ReachG ringC := by
    refine Example.reach_edge (na := ⟨(1, 1), 0⟩) (nb := ⟨(1, 1), 0⟩)
      (Example.reach_edge (na := ⟨(2, 2), 0⟩) (nb := ⟨(2, 2), 0⟩) r2 ?_ ?_ ?_ ?_ ?_ ?_) ?_ ?_ ?_ ?_ ?_ ?_ <;> decide +kernel
  exact Example.reach_next rC trivial trivial (by decide +kernel) fun _ _ => ring_planar

/-- the map with a label image of 6 by 6 pixels -/
def rlab0 : LMap ℚ := LMap.ofMap ring 6 6 ⟨[], []⟩
def rlab1 : LMap ℚ := Example.val rlab0 (rlab0.setHasLabelImage true)
def rlab2 : LMap ℚ := Example.val rlab1 (rlab1.setHasLabelImage false)
def rlab3 : LMap ℚ := Example.val rlab2 (rlab2.setHasLabelImage true)

set_option maxRecDepth 100000 in
theorem rlab1_reach : LReach rlab1 := by
  refine .on (lut := ⟨[], []⟩) (w := 6) (h := 6) ring_reach (by decide +kernel) (fun F hF => ?_) (Example.ok_val (a := rlab0) (by decide +kernel))
  have : (ring.face 0).map (·.pixelArea) = some 0 := by decide +kernel
  rw [hF] at this
  exact Option.some.inj this

set_option maxRecDepth 100000 in
/-- Switching the label image off and on again doubles `pixelArea()` of face 0. -/
theorem pixelArea_reswitch_violated :
    ∃ (a b c : LMap ℚ) (F : Face ℚ), LReach a ∧ a.setHasLabelImage false = .ok b ∧ b.setHasLabelImage true = .ok c ∧
      c.g.face 0 = some F ∧ (c.facePixels 0).card = 11 ∧ F.pixelArea = 22 := by
  have hF : (rlab3.g.face 0).map (·.pixelArea) = some 22 := by decide +kernel
  obtain ⟨F, hF', hp⟩ := Option.map_eq_some_iff.mp hF
  refine ⟨rlab1, rlab2, rlab3, F, rlab1_reach, Example.ok_val (a := rlab1) (by decide +kernel), Example.ok_val (a := rlab2) (by decide +kernel), hF', ?_, hp⟩
  rw [facePixels_card]
  decide +kernel

/-- … without label image, edge 1 is split -/
def rlab4 : LMap ℚ := Example.val rlab2 ((LOp.splitEdge 1 0 (some (2, 3))).run Hooks.none rlab2)

set_option maxRecDepth 100000 in
/-- Splitting an edge while the label image is switched off leaves the scanlines of the whole edge cached;
switching the label image on again then fails, although it works on the same map without these scanlines. -/
theorem labelImage_stale_violated :
    ∃ a b c : LMap ℚ, LReach a ∧ a.setHasLabelImage false = .ok b ∧
      (LOp.splitEdge (K := ℚ) 1 0 (some (2, 3))).fits b.g ∧ (LOp.splitEdge 1 0 (some (2, 3))).run Hooks.none b = .ok c ∧
      c.setHasLabelImage true = .precond ∧ ∃ n, (LMap.ofMap c.g c.w c.h c.lut).setHasLabelImage true = .ok n := by
  refine ⟨rlab1, rlab2, rlab4, rlab1_reach, Example.ok_val (a := rlab1) (by decide +kernel), ?_,
    Example.ok_val (a := rlab2) (by decide +kernel), ?_, _, Example.ok_val (a := rlab4) (by decide +kernel)⟩
  · intro e a b h1 h2 h3
    have hp : (rlab2.g.edge 1).map (fun e => (e.pts[0]?, e.pts[1]?)) = some (some (2, 2), some (2, 4)) := by decide +kernel
    rw [h1] at hp
    simp only [Option.map_some, Option.some.injEq, Prod.mk.injEq, zero_add] at hp h2 h3
    rw [h2, h3] at hp
    simp only [Option.some.injEq] at hp
    obtain ⟨rfl, rfl⟩ := hp
    exact ⟨1 / 2, by norm_num, by norm_num, by norm_num⟩
  · have h : (rlab4.setHasLabelImage true).map (fun _ => ()) = .precond := by decide +kernel
    revert h
    cases rlab4.setHasLabelImage true <;> simp [Outcome.map, Outcome.bind]

/-- edge 1 split at a point that does not lie on it -/
def rlab6 : LMap ℚ := Example.val rlab1 ((LOp.splitEdge 1 0 (some (0, 0))).run Hooks.none rlab1)

set_option maxRecDepth 100000 in
/-- Splitting an edge at a point off the edge leaves `pixelArea()` wrong: the new pixels of the edge are still
counted for the face they belonged to. -/
theorem splitEdge_off_violated :
    ∃ (a b : LMap ℚ) (F : Face ℚ), LReach a ∧ (LOp.splitEdge 1 0 (some (0, 0))).run Hooks.none a = .ok b ∧
      b.g.face 0 = some F ∧ (b.facePixels 0).card = 9 ∧ F.pixelArea = 11 := by
  have hF : (rlab6.g.face 0).map (·.pixelArea) = some 11 := by decide +kernel
  obtain ⟨F, hF', hp⟩ := Option.map_eq_some_iff.mp hF
  refine ⟨rlab1, rlab6, F, rlab1_reach, Example.ok_val (a := rlab1) (by decide +kernel), hF', ?_, hp⟩
  rw [facePixels_card]
  decide +kernel

set_option maxRecDepth 100000 in
/-- Faces are painted in label order, each over the whole area within its outer contour.  Here pixel (3,3) lies inside
both loops, hence in face 1, but face 3 is painted later: the label image reports face 3, and face 1 has no pixels. -/
theorem labelImage_nested_violated :
    ∃ (m : LMap ℚ) (F : Face ℚ) (e₁ e₂ : Edge ℚ), LReach m ∧ m.g.edge 1 = some e₁ ∧ m.g.edge 2 = some e₂ ∧
      m.g.left? 1 = some 1 ∧ m.g.left? (-1) = some 3 ∧ m.g.left? 2 = some 3 ∧ m.g.left? (-2) = some 0 ∧
      crossing m.g (3, 3) = 0 ∧ winding (3, 3) e₁.pts = 1 ∧ winding (3, 3) e₂.pts = 1 ∧
      m.report (3, 3) = .ok 3 ∧ m.g.face 1 = some F ∧ F.pixelArea = 0 := by
  have hF : (rlab1.g.face 1).map (·.pixelArea) = some 0 := by decide +kernel
  obtain ⟨F, hF', hp⟩ := Option.map_eq_some_iff.mp hF
  have h1 : (rlab1.g.edge 1).map (fun e => winding (3, 3) e.pts) = some 1 := by decide +kernel
  obtain ⟨e₁, he1, hw1⟩ := Option.map_eq_some_iff.mp h1
  have h2 : (rlab1.g.edge 2).map (fun e => winding (3, 3) e.pts) = some 1 := by decide +kernel
  obtain ⟨e₂, he2, hw2⟩ := Option.map_eq_some_iff.mp h2
  refine ⟨rlab1, F, e₁, e₂, rlab1_reach, he1, he2, by decide +kernel, by decide +kernel, by decide +kernel, by decide +kernel, ?_, hw1, hw2, by decide +kernel, hF', hp⟩
  rw [crossing_eq]; decide +kernel

end Verif.LabelImage
