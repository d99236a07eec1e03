import Verif.FourEight.StatProps

/-!
# Examples for the statistics of faces (C97)
-/

namespace Verif.FourEight.Props
open Verif Verif.CellImage Verif.FourEight Verif.Outcome

/-- the checks of the single pixels in a cell image of 7 x 7 pixels: a dart at (x, y) -/
def dartCheck7 (m : Map) (x y : Int) (k : Fin 8) : Bool :=
  decide ((m.w = 7 ∧ m.h = 7) ∧ (-2 ≤ x ∧ x < 5 ∧ -2 ≤ y ∧ y < 5) ∧ (m.px x y).1 = .vertex ∧ (m.look x y k).1 = .line ∧
    (k.val % 2 = 1 → (m.look x y (k + 1)).1 = .region ∧ (m.look x y (k + 7)).1 = .region))

theorem dartCheck7_spec {m : Map} {x y : Int} {k : Fin 8} (h : dartCheck7 m x y k = true) : IsDart m ⟨x, y, k⟩ := by
  obtain ⟨⟨h1, h2⟩, h3, h4, h5, h6⟩ := of_decide_eq_true h
  exact ⟨by unfold Map.inside; rw [h1, h2]; exact h3, h4, h5, h6⟩

def isolatedCheck7 (m : Map) (x y : Int) (k : Fin 8) : Bool :=
  decide ((m.w = 7 ∧ m.h = 7) ∧ (-2 ≤ x ∧ x < 5 ∧ -2 ≤ y ∧ y < 5) ∧ (m.px x y).1 = .vertex ∧ (m.look x y k).1 = .region ∧
    (m.look x y (k + 1)).1 = .region) &&
  everywhere 7 7 (fun x' y' => decide ((m.px x' y').1 = .vertex → (m.px x' y').2 = (m.px x y).2 → ∀ k : Fin 8, (m.look x' y' k).1 ≠ .line))

theorem isolatedCheck7_spec {m : Map} {x y : Int} {k : Fin 8} (h : isolatedCheck7 m x y k = true) : AtIsolated m ⟨x, y, k⟩ := by
  obtain ⟨ha, hb⟩ := Bool.and_eq_true_iff.1 h
  obtain ⟨⟨h1, h2⟩, h3, h4, h5, h6⟩ := of_decide_eq_true ha
  refine ⟨by unfold Map.inside; rw [h1, h2]; exact h3, h4, h5, Or.inl h6, fun d hd hl => ?_⟩
  have hin := hd.inside
  unfold Map.inside at hin
  rw [h1, h2] at hin
  exact of_decide_eq_true (everywhere_spec hb d.x d.y hin) hd.node hl d.dir hd.edge

/-- statistics of a result, and whether there is one -/
def theStats (o : Outcome (Map × List (Stat Int))) : Map × List (Stat Int) := match o with | .ok p => p | _ => (frame0, [])
def isOk {α : Type} (o : Outcome α) : Bool := match o with | .ok _ => true | _ => false
theorem theStats_spec {o : Outcome (Map × List (Stat Int))} {q : Map × List (Stat Int)} (hq : q = theStats o) (h : isOk o = true) :
    o = .ok (q.1, q.2) := by
  cases o with
  | ok p => rw [hq]; rfl
  | _ => cases h

def firstStats (m : Map) (v : Int → Int → Int) : List (Stat Int) := match initStats m v with | .ok st => st | _ => []
theorem firstStats_spec {m : Map} {v : Int → Int → Int} (h : isOk (initStats m v) = true) : initStats m v = .ok (firstStats m v) := by
  unfold firstStats
  cases hi : initStats m v with
  | ok p => rfl
  | _ => rw [hi] at h; cases h

/-- the values -/
def someValues (x y : Int) : Int := 10 + x + 2 * y

/-! ## a bar -/

/-- a bar through an image of 3 x 3 pixels -/
def barSrc (x _ : Int) : Bool := decide (x = 1)

def barComponents : Components :=
  ⟨fun x y => if y < 0 then (if x < 0 then 1 else if x < 3 then 2 else 3) else (if x < 0 then 4 else if x < 3 then 5 else 6), 6,
    fun x _ => if x < 1 then 1 else 2, 2⟩

def barOracle : Oracle := ⟨fun _ => 1, fun _ => [], fun x y => if cellsOf .vertex 3 3 barSrc x y = .region then 0 else 1, 1⟩

def bar0 : Map := theMap ((initMap .vertex 3 3 barSrc barComponents barOracle).map fun m => (m, 0))

def barLabelled : Map := labelled (labelCells (3 + 4) (3 + 4) (cellsOf .vertex 3 3 barSrc) barComponents)

def barNodes (l : Nat) : List (Int × Int) := ([[], [(-1, -1)], [(1, -1)], [(3, -1)], [(-1, 3)], [(1, 3)], [(3, 3)]][l]?).getD []

theorem bar_meets : initCellImage .vertex (3 + 4) (3 + 4) (contourImage 3 3 barSrc) = .ok (cellsOf .vertex 3 3 barSrc) ∧
    barComponents.Sane (3 + 4) (3 + 4) (cellsOf .vertex 3 3 barSrc) ∧
    NoHoles (typedMap (3 + 4) (3 + 4) (cellsOf .vertex 3 3 barSrc) barComponents) ∧
    ∃ N n, labelCells (3 + 4) (3 + 4) (cellsOf .vertex 3 3 barSrc) barComponents = .ok (barLabelled, N, n) ∧
    (∀ l, (barLabelled.cell (.vertex, l)).Nonempty → barOracle.crackArea l = (barLabelled.cell (.vertex, l)).card % 2 ^ 32) ∧
    initMap .vertex 3 3 barSrc barComponents barOracle = .ok bar0 := by
  have hi : initCellImage .vertex (3 + 4) (3 + 4) (contourImage 3 3 barSrc) = .ok (cellsOf .vertex 3 3 barSrc) := cellsOf_eq (by decide +kernel)
  have hv : barComponents.Sane (3 + 4) (3 + 4) (cellsOf .vertex 3 3 barSrc) :=
    sane_of_check hi (by decide +kernel) (by decide +kernel) (by decide +kernel) (by decide +kernel)
  have hn : NoHoles (typedMap (3 + 4) (3 + 4) (cellsOf .vertex 3 3 barSrc) barComponents) :=
    noHoles_of_single (w := 7) (h := 7) (f := barNodes) rfl rfl (by decide +kernel)
  obtain ⟨N, n, hr⟩ : ∃ N n, labelCells (3 + 4) (3 + 4) (cellsOf .vertex 3 3 barSrc) barComponents = .ok (barLabelled, N, n) :=
    labelled_spec (by decide +kernel)
  have hholes : ∀ l, (barLabelled.cell (.vertex, l)).Nonempty → barOracle.crackArea l = (barLabelled.cell (.vertex, l)).card % 2 ^ 32 := by
    intro l hne
    rw [card_one (f := barNodes) (w := 7) (h := 7) (by decide +kernel) (by decide +kernel) (by decide +kernel) hne]
    exact (by norm_num : 1 = 1 % 2 ^ 32)
  have h0 : initMap .vertex 3 3 barSrc barComponents barOracle = .ok bar0 := by
    have h : theLabel ((initMap .vertex 3 3 barSrc barComponents barOracle).map fun m => (m, 0)) = some 0 := by decide +kernel
    obtain ⟨a, ha, h2⟩ := map_ok (theMap_spec h)
    rw [ha]
    unfold bar0
    rw [ha]; rfl
  exact ⟨hi, hv, hn, N, n, hr, hholes, h0⟩

/-- the faces on both sides of the bar become one -/
def bar1 : Map × List (Stat Int) := theStats (runStat bar0 someValues (firstStats bar0 someValues) (.mergeFaces ⟨1, -1, 6⟩))

theorem bar1_eq : bar1 = theStats (runStat bar0 someValues (firstStats bar0 someValues) (.mergeFaces ⟨1, -1, 6⟩)) := by rw [bar1]

theorem bar_checks : (isOk (initStats bar0 someValues) && dartCheck7 bar0 1 (-1) 6 &&
    isOk (runStat bar0 someValues (firstStats bar0 someValues) (.mergeFaces ⟨1, -1, 6⟩)) &&
    (decide (firstStats bar0 someValues = [⟨0, 0, 0⟩, ⟨3, 36, 440⟩, ⟨3, 42, 596⟩, ⟨0, 0, 0⟩]) &&
    decide (bar1.2[2]? = some ⟨9, 117, 1551⟩)) && decide (bar1.1.px 0 0 = (.region, 2) ∧ bar1.1.w = 7 ∧ bar1.1.h = 7)) = true := by
  decide +kernel

/-- The bar meets the hypotheses, and after a removal of the bar the statistics are those of all nine pixels. -/
theorem bar_stats : ∃ L, StatReach someValues bar0 bar1.1 bar1.2 L ∧ bar1.2[2]? = some ⟨9, 117, 1551⟩ ∧
    (⟨9, 117, 1551⟩ : Stat Int) = totalOf someValues (basePixels bar1.1 (.region, 2) \ L) := by
  have h := bar_checks
  simp only [Bool.and_eq_true] at h
  obtain ⟨⟨⟨⟨a1, a2⟩, a3⟩, -, a4⟩, a5⟩ := h
  have b := of_decide_eq_true a5
  have c := of_decide_eq_true a4
  have hr : StatReach someValues bar0 bar1.1 bar1.2 _ := .faces ⟨1, -1, 6⟩ (.init (firstStats_spec a1)) (dartCheck7_spec a2) (theStats_spec bar1_eq a3)
  obtain ⟨hi, hv, hn, N, n, hl, hholes, h0⟩ := bar_meets
  have hc := ((faceStats_exact_partial someValues hi hv hn hl hholes h0).2 _ _ _ hr).2.2 2
  clear a1 a2 a3 a4 a5 hi hv hn hl hholes h0
  generalize bar1 = q at *
  generalize bar0 = m0 at *
  refine ⟨_, hr, c, ?_⟩
  have := hc ⟨(0, 0), mem_cell.2 ⟨by unfold Map.inside; dsimp only; rw [b.2.1, b.2.2]; norm_num, b.1⟩⟩
  rw [c] at this
  exact Option.some.inj this

/-! ## a single pixel -/

/-- a contour of one pixel in the middle of an image of 3 x 3 pixels -/
def dotSrc (x y : Int) : Bool := decide (x = 1 ∧ y = 1)

def dotComponents : Components :=
  ⟨fun x y => if x = 1 ∧ y = 1 then 3 else if x < 0 then (if y < 0 then 1 else 4) else if y < 0 then 2 else 5, 5, fun _ _ => 1, 1⟩

def dotOracle : Oracle :=
  ⟨fun _ => 1, fun _ => [], fun x y => if cellsOf .vertex 3 3 dotSrc x y = .region then 0 else if x = 1 ∧ y = 1 then 2 else 1, 2⟩

def dot0 : Map := theMap ((initMap .vertex 3 3 dotSrc dotComponents dotOracle).map fun m => (m, 0))

def dotLabelled : Map := labelled (labelCells (3 + 4) (3 + 4) (cellsOf .vertex 3 3 dotSrc) dotComponents)

def dotNodes (l : Nat) : List (Int × Int) := ([[], [(-1, -1)], [(3, -1)], [(1, 1)], [(-1, 3)], [(3, 3)]][l]?).getD []

theorem dot_meets : initCellImage .vertex (3 + 4) (3 + 4) (contourImage 3 3 dotSrc) = .ok (cellsOf .vertex 3 3 dotSrc) ∧
    dotComponents.Sane (3 + 4) (3 + 4) (cellsOf .vertex 3 3 dotSrc) ∧
    NoHoles (typedMap (3 + 4) (3 + 4) (cellsOf .vertex 3 3 dotSrc) dotComponents) ∧
    ∃ N n, labelCells (3 + 4) (3 + 4) (cellsOf .vertex 3 3 dotSrc) dotComponents = .ok (dotLabelled, N, n) ∧
    (∀ l, (dotLabelled.cell (.vertex, l)).Nonempty → dotOracle.crackArea l = (dotLabelled.cell (.vertex, l)).card % 2 ^ 32) ∧
    initMap .vertex 3 3 dotSrc dotComponents dotOracle = .ok dot0 := by
  have hi : initCellImage .vertex (3 + 4) (3 + 4) (contourImage 3 3 dotSrc) = .ok (cellsOf .vertex 3 3 dotSrc) := cellsOf_eq (by decide +kernel)
  have hv : dotComponents.Sane (3 + 4) (3 + 4) (cellsOf .vertex 3 3 dotSrc) :=
    sane_of_check hi (by decide +kernel) (by decide +kernel) (by decide +kernel) (by decide +kernel)
  have hn : NoHoles (typedMap (3 + 4) (3 + 4) (cellsOf .vertex 3 3 dotSrc) dotComponents) :=
    noHoles_of_single (w := 7) (h := 7) (f := dotNodes) rfl rfl (by decide +kernel)
  obtain ⟨N, n, hr⟩ : ∃ N n, labelCells (3 + 4) (3 + 4) (cellsOf .vertex 3 3 dotSrc) dotComponents = .ok (dotLabelled, N, n) :=
    labelled_spec (by decide +kernel)
  have hholes : ∀ l, (dotLabelled.cell (.vertex, l)).Nonempty → dotOracle.crackArea l = (dotLabelled.cell (.vertex, l)).card % 2 ^ 32 := by
    intro l hne
    rw [card_one (f := dotNodes) (w := 7) (h := 7) (by decide +kernel) (by decide +kernel) (by decide +kernel) hne]
    exact (by norm_num : 1 = 1 % 2 ^ 32)
  have h0 : initMap .vertex 3 3 dotSrc dotComponents dotOracle = .ok dot0 := by
    have h : theLabel ((initMap .vertex 3 3 dotSrc dotComponents dotOracle).map fun m => (m, 0)) = some 0 := by decide +kernel
    obtain ⟨a, ha, h2⟩ := map_ok (theMap_spec h)
    rw [ha]
    unfold dot0
    rw [ha]; rfl
  exact ⟨hi, hv, hn, N, n, hr, hholes, h0⟩

/-- the isolated node is removed -/
def dot1 : Map × List (Stat Int) := theStats (runStat dot0 someValues (firstStats dot0 someValues) (.removeIsolatedNode ⟨1, 1, 0⟩))

theorem dot1_eq : dot1 = theStats (runStat dot0 someValues (firstStats dot0 someValues) (.removeIsolatedNode ⟨1, 1, 0⟩)) := by rw [dot1]

theorem dot_checks : (isOk (initStats dot0 someValues) && isolatedCheck7 dot0 1 1 0 &&
    isOk (runStat dot0 someValues (firstStats dot0 someValues) (.removeIsolatedNode ⟨1, 1, 0⟩)) &&
    (decide (dot1.1.w = 7 ∧ dot1.1.h = 7 ∧ dot1.1.px 1 1 = (.region, 1)) && decide (dot0.px 1 1 = (.vertex, 3) ∧ dot0.w = 7 ∧ dot0.h = 7))) = true := by
  decide +kernel

/-- a pixel the statistics did not see is missing in the number of pixels of its face -/
theorem stats_miss {R : Type} [CommRing R] {v : Int → Int → R} {m : Map} {st : List (Stat R)} {L : Finset (Int × Int)} (h : Counts v m st L)
    {f : Nat} {p : Int × Int} (hp : p ∈ basePixels m (.region, f)) (hL : p ∈ L) :
    ∃ s, st[f]? = some s ∧ s.count < (basePixels m (.region, f)).card := by
  refine ⟨_, h f ⟨p, mem_cell.2 (mem_basePixels.1 hp).1⟩, ?_⟩
  unfold totalOf
  dsimp only
  rw [Nat.cast_lt]
  refine Finset.card_lt_card ⟨Finset.sdiff_subset, fun hs => ?_⟩
  exact (Finset.mem_sdiff.1 (hs hp)).2 hL

/-- **C97, violated.** The statistics of a face are not those of its pixels, although it is finite and always was: if an isolated node
is removed, nobody adds its pixels to the statistics of the face. -/
theorem faceStats_violated : ∃ (m0 : Map) (m : Map) (st : List (Stat Int)) (L : Finset (Int × Int)) (s : Stat Int),
    initMap .vertex 3 3 dotSrc dotComponents dotOracle = .ok m0 ∧ StatReach someValues m0 m st L ∧
    st[1]? = some s ∧ s.count < (basePixels m (.region, 1)).card ∧ s ≠ totalOf someValues (basePixels m (.region, 1)) := by
  have h := dot_checks
  simp only [Bool.and_eq_true] at h
  obtain ⟨⟨⟨a1, a2⟩, a3⟩, a4, a5⟩ := h
  obtain ⟨b1, b2, b3⟩ := of_decide_eq_true a4
  obtain ⟨b4, b5, b6⟩ := of_decide_eq_true a5
  have hr : StatReach someValues dot0 dot1.1 dot1.2 _ := .node ⟨1, 1, 0⟩ (.init (firstStats_spec a1)) (isolatedCheck7_spec a2) (theStats_spec dot1_eq a3)
  obtain ⟨hi, hv, hn, N, n, hl, hholes, h0⟩ := dot_meets
  have hc := ((faceStats_exact_partial someValues hi hv hn hl hholes h0).2 _ _ _ hr).2.2
  generalize dot1 = q at *
  generalize dot0 = m0 at *
  obtain ⟨s, h1, h2⟩ := stats_miss (p := (1, 1)) (f := 1) hc
    (mem_basePixels.2 ⟨⟨by unfold Map.inside; dsimp only; rw [b1, b2]; norm_num, b3⟩, by dsimp only; rw [b1, b2]; norm_num⟩)
    (Finset.mem_union_right _ (mem_cell.2 ⟨by unfold Map.inside; dsimp only; rw [b5, b6]; norm_num, rfl⟩))
  refine ⟨m0, q.1, q.2, _, s, h0, hr, h1, h2, fun e => ?_⟩
  rw [e] at h2
  exact lt_irrefl _ h2

end Verif.FourEight.Props
