import Verif.FourEight.EdgeStatProps

/-!
# Statistics of edges: the theorems (C99)
-/

namespace Verif.FourEight.Props
open Verif Verif.CellImage Verif.FourEight Verif.Outcome

/-- The maps and statistics of edges that any number of operations leads to, from the map `m0` and what the constructor computes for it. -/
inductive EdgeStatReach {R : Type} [CommRing R] (v : Int → Int → R) (mx : R) (m0 : Map) : Map → List (Stat R) → Prop
  | init {st} : initEdgeStats m0 v mx = .ok st → EdgeStatReach v mx m0 m0 st
  | step {m m' st st'} (op : Op) : EdgeStatReach v mx m0 m st → DartCall m op → runEdgeStat m v mx st op = .ok (m', st') →
      EdgeStatReach v mx m0 m' st'

theorem runEdgeStat_run {R : Type} [CommRing R] {v : Int → Int → R} {mx : R} {m m' : Map} {st st' : List (Stat R)} {op : Op}
    (h : runEdgeStat m v mx st op = .ok (m', st')) : ∃ l, run m op = .ok (m', l) := by
  cases op with
  | mergeEdges d =>
    unfold runEdgeStat at h
    dsimp only at h
    obtain ⟨t, -, h⟩ := bind_eq_ok.1 h
    obtain ⟨⟨p, l⟩, hp, h⟩ := bind_eq_ok.1 h
    obtain ⟨st2, -, h⟩ := bind_eq_ok.1 h
    obtain ⟨rfl, -⟩ := Prod.ext_iff.1 (Outcome.ok.inj h)
    exact ⟨l, hp⟩
  | _ =>
    unfold runEdgeStat at h
    dsimp only at h
    obtain ⟨⟨p, l⟩, hp, h⟩ := bind_eq_ok.1 h
    obtain ⟨rfl, -⟩ := Prod.ext_iff.1 (Outcome.ok.inj h)
    exact ⟨l, hp⟩

theorem edgeStatReach_inv {R : Type} [CommRing R] {v : Int → Int → R} {mx : R} {m0 m : Map} {st : List (Stat R)} (h0 : Whole m0)
    (h : EdgeStatReach v mx m0 m st) : DartReach m0 m ∧ Whole m ∧ EdgeCounts v mx m st := by
  induction h with
  | init h =>
    obtain ⟨st', h1, h2, -⟩ := initEdgeStats_counts (v := v) (mx := mx) h0
    rw [h] at h1
    obtain rfl := Outcome.ok.inj h1
    exact ⟨.refl, h0, h2⟩
  | step op hr hc hrun ih =>
    obtain ⟨a1, a2, a3⟩ := ih
    obtain ⟨l, hl⟩ := runEdgeStat_run hrun
    obtain ⟨st', b1, b2⟩ := a2.edgeStatStep hc hl a3
    rw [hrun] at b1
    obtain ⟨-, rfl⟩ := Prod.ext_iff.1 (Outcome.ok.inj b1)
    exact ⟨a1.tail ⟨op, l, hc, hl⟩, a2.step ⟨op, l, hc, hl⟩, b2⟩

/-- **C99, partial.** The constructor computes statistics of edges, with the marker `mx` for each edge beside the infinite face.  After
every history of operations, the statistics of an edge with finite faces on both sides are those of the values at exactly its pixels, those
of nodes between merged edges included; the statistics of an edge beside the infinite face are either the marker alone or, again, those of its
pixels.  An operation that returns also returns with its notifications.  Missing: that edges beside the infinite face always have the marker,
which is wrong (`edgeStats_violated`); rounding; the rethinning of edges. -/
theorem edgeStats_exact_partial {R : Type} [CommRing R] (v : Int → Int → R) (mx : R) {w h : Nat} {src : Int → Int → Bool}
    {cells : Int → Int → CellType} (hi : initCellImage .vertex (w + 4) (h + 4) (contourImage w h src) = .ok cells) {o : Components}
    (hv : o.Sane (w + 4) (h + 4) cells) (hn : NoHoles (typedMap (w + 4) (h + 4) cells o)) {mL : Map} {N n : Nat}
    (hr : labelCells (w + 4) (h + 4) cells o = .ok (mL, N, n)) {q : Oracle}
    (hholes : ∀ l, (mL.cell (.vertex, l)).Nonempty → q.crackArea l = (mL.cell (.vertex, l)).card % 2 ^ 32)
    {m0 : Map} (h0 : initMap .vertex w h src o q = .ok m0) :
    (∃ st, initEdgeStats m0 v mx = .ok st ∧ ∀ d a b e, IsDart m0 d → leftFace m0 d = .ok a → rightFace m0 d = .ok b → edgeLabel m0 d = .ok e →
      a = 0 ∨ b = 0 → st[e]? = some (Stat.zero.add mx)) ∧
    ∀ m st, EdgeStatReach v mx m0 m st → DartReach m0 m ∧
      (∀ op m' l, DartCall m op → run m op = .ok (m', l) → ∃ st', runEdgeStat m v mx st op = .ok (m', st')) ∧
      ∀ d, IsDart m d → ∃ a b e, leftFace m d = .ok a ∧ rightFace m d = .ok b ∧ edgeLabel m d = .ok e ∧
        (a ≠ 0 ∧ b ≠ 0 → st[e]? = some (totalOf v (basePixels m (.line, e)))) ∧
        (a = 0 ∨ b = 0 → st[e]? = some (Stat.zero.add mx) ∨ st[e]? = some (totalOf v (basePixels m (.line, e)))) := by
  have hw := initMap_whole hi hv hn hr hholes h0
  refine ⟨?_, fun m st hm => ?_⟩
  · obtain ⟨st, h1, -, h3⟩ := initEdgeStats_counts (v := v) (mx := mx) hw
    refine ⟨st, h1, fun d a b e hd ha hb he hz => ?_⟩
    rw [hw.leftFace hd] at ha
    rw [hw.rightFace hd] at hb
    rw [hw.edgeLabel_eq hd] at he
    obtain rfl := Outcome.ok.inj ha
    obtain rfl := Outcome.ok.inj hb
    obtain rfl := Outcome.ok.inj he
    exact h3 d _ hd (hw.label hd) hz
  · obtain ⟨a1, a2, a3⟩ := edgeStatReach_inv hw hm
    refine ⟨a1, fun op m' l hc hl => ?_, fun d hd => ⟨_, _, _, a2.leftFace hd, a2.rightFace hd, a2.edgeLabel_eq hd, ?_, ?_⟩⟩
    · obtain ⟨st', b1, -⟩ := a2.edgeStatStep hc hl a3
      exact ⟨st', b1⟩
    · rintro ⟨ha, hb⟩
      exact (a3.value d _ hd (a2.label hd)).resolve_right fun h => h.1.elim ha hb
    · intro _
      rcases a3.value d _ hd (a2.label hd) with h | h
      · exact Or.inr h
      · exact Or.inl h.2

def firstEdgeStats (m : Map) (v : Int → Int → Int) (mx : Int) : List (Stat Int) := match initEdgeStats m v mx with | .ok st => st | _ => []
theorem firstEdgeStats_spec {m : Map} {v : Int → Int → Int} {mx : Int} (h : isOk (initEdgeStats m v mx) = true) :
    initEdgeStats m v mx = .ok (firstEdgeStats m v mx) := by
  unfold firstEdgeStats
  cases hi : initEdgeStats m v mx with
  | ok p => rfl
  | _ => rw [hi] at h; cases h

/-! ## the bar: the face left of it becomes a part of the infinite face -/

def bar2 : Map × List (Stat Int) := theStats (runEdgeStat bar0 someValues 1000 (firstEdgeStats bar0 someValues 1000) (.mergeFaces ⟨1, -1, 4⟩))

theorem bar2_eq : bar2 = theStats (runEdgeStat bar0 someValues 1000 (firstEdgeStats bar0 someValues 1000) (.mergeFaces ⟨1, -1, 4⟩)) := by rw [bar2]

theorem bar2_checks : (isOk (initEdgeStats bar0 someValues 1000) && dartCheck7 bar0 1 (-1) 4 && dartCheck7 bar0 1 (-1) 6 &&
    isOk (runEdgeStat bar0 someValues 1000 (firstEdgeStats bar0 someValues 1000) (.mergeFaces ⟨1, -1, 4⟩)) && dartCheck7 bar2.1 1 (-1) 6 &&
    (decide (firstEdgeStats bar0 someValues 1000 = [⟨0, 0, 0⟩, ⟨1, 1000, 1000000⟩, ⟨1, 1000, 1000000⟩, ⟨3, 39, 515⟩, ⟨1, 1000, 1000000⟩,
      ⟨1, 1000, 1000000⟩, ⟨1, 1000, 1000000⟩, ⟨1, 1000, 1000000⟩, ⟨0, 0, 0⟩]) && decide (bar2.2[3]? = some ⟨3, 39, 515⟩)) &&
    (isOk ((rightFace bar2.1 ⟨1, -1, 6⟩).bind fun b => if b = 0 then .ok () else .precond) &&
    isOk ((edgeLabel bar2.1 ⟨1, -1, 6⟩).bind fun b => if b = 3 then .ok () else .precond))) = true := by
  decide +kernel

theorem isOk_eq {o : Outcome Nat} {k : Nat} (h : isOk (o.bind fun b => if b = k then Outcome.ok () else .precond) = true) : o = .ok k := by
  cases o with
  | ok a =>
    rw [bind_ok] at h
    by_cases ha : a = k
    · rw [ha]
    · rw [if_neg ha] at h; cases h
  | _ => cases h

/-- **C99, violated.** Edges beside the infinite face do not always have the marker: where a face is merged with the infinite face, its other
edges keep the statistics they had. -/
theorem edgeStats_violated : ∃ (m0 m : Map) (st : List (Stat Int)) (d : Dart) (e : Nat),
    initMap .vertex 3 3 barSrc barComponents barOracle = .ok m0 ∧ EdgeStatReach someValues 1000 m0 m st ∧ IsDart m d ∧
    rightFace m d = .ok 0 ∧ edgeLabel m d = .ok e ∧ st[e]? ≠ some (Stat.zero.add 1000) := by
  have h := bar2_checks
  simp only [Bool.and_eq_true] at h
  obtain ⟨⟨⟨⟨⟨⟨a1, a2⟩, -⟩, a3⟩, a4⟩, -, a5⟩, a6, a7⟩ := h
  have c := of_decide_eq_true a5
  have hr : EdgeStatReach someValues 1000 bar0 bar2.1 bar2.2 :=
    .step (.mergeFaces ⟨1, -1, 4⟩) (.init (firstEdgeStats_spec a1)) (dartCheck7_spec a2) (theStats_spec bar2_eq a3)
  have k1 := isOk_eq a6
  have k2 := isOk_eq a7
  have k3 := dartCheck7_spec a4
  obtain ⟨-, -, -, N, n, -, -, h0⟩ := bar_meets
  clear a1 a2 a3 a4 a5 a6 a7
  generalize bar2 = q at *
  generalize bar0 = m0 at *
  refine ⟨m0, q.1, q.2, _, 3, h0, hr, k3, k1, k2, ?_⟩
  rw [c]
  decide

/-- The bar meets the hypotheses: at first its statistics are those of its three pixels, between two finite faces. -/
theorem bar_edge : ∃ st, initEdgeStats bar0 someValues 1000 = .ok st ∧ EdgeStatReach someValues 1000 bar0 bar0 st ∧ IsDart bar0 ⟨1, -1, 6⟩ ∧
    st[3]? = some ⟨3, 39, 515⟩ ∧ st[1]? = some (Stat.zero.add 1000) := by
  have h := bar2_checks
  simp only [Bool.and_eq_true] at h
  obtain ⟨⟨⟨⟨⟨⟨a1, a2⟩, a0⟩, a3⟩, a4⟩, a5, -⟩, -⟩ := h
  have k := firstEdgeStats_spec a1
  refine ⟨_, k, .init k, dartCheck7_spec a0, ?_, ?_⟩
  · rw [of_decide_eq_true a5]; rfl
  · rw [of_decide_eq_true a5]; rfl

/-! ## a cross: two of its arms are removed, the other two become one edge -/

/-- a cross in an image of 3 x 3 pixels -/
def plusSrc (x y : Int) : Bool := decide (x = 1 ∨ y = 1)

def plusComponents : Components :=
  ⟨fun x y => (if y < 0 then 0 else if y < 3 then 3 else 6) + (if x < 0 then 1 else if x < 3 then 2 else 3), 9,
    fun x y => (if y < 1 then 0 else 2) + (if x < 1 then 1 else 2), 4⟩

def plusOracle : Oracle := ⟨fun _ => 1, fun _ => [], fun x y => if cellsOf .vertex 3 3 plusSrc x y = .region then 0 else 1, 1⟩

def plus0 : Map := theMap ((initMap .vertex 3 3 plusSrc plusComponents plusOracle).map fun m => (m, 0))

def plusLabelled : Map := labelled (labelCells (3 + 4) (3 + 4) (cellsOf .vertex 3 3 plusSrc) plusComponents)

def plusNodes (l : Nat) : List (Int × Int) := ([[], [(-1, -1)], [(1, -1)], [(3, -1)], [(-1, 1)], [(1, 1)], [(3, 1)], [(-1, 3)], [(1, 3)], [(3, 3)]][l]?).getD []

theorem plus_meets : initCellImage .vertex (3 + 4) (3 + 4) (contourImage 3 3 plusSrc) = .ok (cellsOf .vertex 3 3 plusSrc) ∧
    plusComponents.Sane (3 + 4) (3 + 4) (cellsOf .vertex 3 3 plusSrc) ∧
    NoHoles (typedMap (3 + 4) (3 + 4) (cellsOf .vertex 3 3 plusSrc) plusComponents) ∧
    ∃ N n, labelCells (3 + 4) (3 + 4) (cellsOf .vertex 3 3 plusSrc) plusComponents = .ok (plusLabelled, N, n) ∧
    (∀ l, (plusLabelled.cell (.vertex, l)).Nonempty → plusOracle.crackArea l = (plusLabelled.cell (.vertex, l)).card % 2 ^ 32) ∧
    initMap .vertex 3 3 plusSrc plusComponents plusOracle = .ok plus0 := by
  have hi : initCellImage .vertex (3 + 4) (3 + 4) (contourImage 3 3 plusSrc) = .ok (cellsOf .vertex 3 3 plusSrc) := cellsOf_eq (by decide +kernel)
  have hv : plusComponents.Sane (3 + 4) (3 + 4) (cellsOf .vertex 3 3 plusSrc) :=
    sane_of_check hi (by decide +kernel) (by decide +kernel) (by decide +kernel) (by decide +kernel)
  have hn : NoHoles (typedMap (3 + 4) (3 + 4) (cellsOf .vertex 3 3 plusSrc) plusComponents) :=
    noHoles_of_single (w := 7) (h := 7) (f := plusNodes) rfl rfl (by decide +kernel)
  obtain ⟨N, n, hr⟩ : ∃ N n, labelCells (3 + 4) (3 + 4) (cellsOf .vertex 3 3 plusSrc) plusComponents = .ok (plusLabelled, N, n) :=
    labelled_spec (by decide +kernel)
  have hholes : ∀ l, (plusLabelled.cell (.vertex, l)).Nonempty → plusOracle.crackArea l = (plusLabelled.cell (.vertex, l)).card % 2 ^ 32 := by
    intro l hne
    rw [card_one (f := plusNodes) (w := 7) (h := 7) (by decide +kernel) (by decide +kernel) (by decide +kernel) hne]
    exact (by norm_num : 1 = 1 % 2 ^ 32)
  have h0 : initMap .vertex 3 3 plusSrc plusComponents plusOracle = .ok plus0 := by
    have h : theLabel ((initMap .vertex 3 3 plusSrc plusComponents plusOracle).map fun m => (m, 0)) = some 0 := by decide +kernel
    obtain ⟨a, ha, h2⟩ := map_ok (theMap_spec h)
    rw [ha]
    unfold plus0
    rw [ha]; rfl
  exact ⟨hi, hv, hn, N, n, hr, hholes, h0⟩

def plus1 : Map × List (Stat Int) := theStats (runEdgeStat plus0 someValues 1000 (firstEdgeStats plus0 someValues 1000) (.mergeFaces ⟨1, 1, 0⟩))
def plus2 : Map × List (Stat Int) := theStats (runEdgeStat plus1.1 someValues 1000 plus1.2 (.mergeFaces ⟨1, 1, 4⟩))
def plus3 : Map × List (Stat Int) := theStats (runEdgeStat plus2.1 someValues 1000 plus2.2 (.mergeEdges ⟨1, 1, 6⟩))

theorem plus1_eq : plus1 = theStats (runEdgeStat plus0 someValues 1000 (firstEdgeStats plus0 someValues 1000) (.mergeFaces ⟨1, 1, 0⟩)) := by rw [plus1]
theorem plus2_eq : plus2 = theStats (runEdgeStat plus1.1 someValues 1000 plus1.2 (.mergeFaces ⟨1, 1, 4⟩)) := by rw [plus2]
theorem plus3_eq : plus3 = theStats (runEdgeStat plus2.1 someValues 1000 plus2.2 (.mergeEdges ⟨1, 1, 6⟩)) := by rw [plus3]

theorem plus_checks : (isOk (initEdgeStats plus0 someValues 1000) && dartCheck7 plus0 1 1 0 &&
    isOk (runEdgeStat plus0 someValues 1000 (firstEdgeStats plus0 someValues 1000) (.mergeFaces ⟨1, 1, 0⟩)) && dartCheck7 plus1.1 1 1 4 &&
    isOk (runEdgeStat plus1.1 someValues 1000 plus1.2 (.mergeFaces ⟨1, 1, 4⟩)) && dartCheck7 plus2.1 1 1 6 &&
    isOk (runEdgeStat plus2.1 someValues 1000 plus2.2 (.mergeEdges ⟨1, 1, 6⟩)) && dartCheck7 plus3.1 1 (-1) 6 &&
    (isOk ((leftFace plus3.1 ⟨1, -1, 6⟩).bind fun b => if b = 2 then .ok () else .precond) &&
    isOk ((rightFace plus3.1 ⟨1, -1, 6⟩).bind fun b => if b = 3 then .ok () else .precond) &&
    isOk ((edgeLabel plus3.1 ⟨1, -1, 6⟩).bind fun b => if b = 8 then .ok () else .precond)) &&
    decide (plus3.2[8]? = some ⟨3, 39, 515⟩)) = true := by
  decide +kernel

/-- The cross meets the hypotheses: the merged edge has the statistics of its three pixels, one of which was a node. -/
theorem plus_edge : EdgeStatReach someValues 1000 plus0 plus3.1 plus3.2 ∧ IsDart plus3.1 ⟨1, -1, 6⟩ ∧ plus3.2[8]? = some ⟨3, 39, 515⟩ ∧
    (⟨3, 39, 515⟩ : Stat Int) = totalOf someValues (basePixels plus3.1 (.line, 8)) := by
  have h := plus_checks
  simp only [Bool.and_eq_true] at h
  obtain ⟨⟨⟨⟨⟨⟨⟨⟨⟨a1, a2⟩, a3⟩, a4⟩, a5⟩, a6⟩, a7⟩, a8⟩, ⟨b1, b2⟩, b3⟩, b4⟩ := h
  have hr : EdgeStatReach someValues 1000 plus0 plus3.1 plus3.2 :=
    .step (.mergeEdges ⟨1, 1, 6⟩) (.step (.mergeFaces ⟨1, 1, 4⟩) (.step (.mergeFaces ⟨1, 1, 0⟩) (.init (firstEdgeStats_spec a1)) (dartCheck7_spec a2)
      (theStats_spec plus1_eq a3)) (dartCheck7_spec a4) (theStats_spec plus2_eq a5)) (dartCheck7_spec a6) (theStats_spec plus3_eq a7)
  have k1 := isOk_eq b1
  have k2 := isOk_eq b2
  have k3 := isOk_eq b3
  have k4 := dartCheck7_spec a8
  have k5 := of_decide_eq_true b4
  obtain ⟨hi, hv, hn, N, n, hl, hholes, h0⟩ := plus_meets
  have hc := ((edgeStats_exact_partial someValues 1000 hi hv hn hl hholes h0).2 _ _ hr).2.2 _ k4
  clear a1 a2 a3 a4 a5 a6 a7 a8 b1 b2 b3 b4 hi hv hn hl hholes h0
  generalize plus3 = q at *
  generalize plus0 = m0 at *
  refine ⟨hr, k4, k5, ?_⟩
  obtain ⟨a, b, e, c1, c2, c3, c4, -⟩ := hc
  rw [k1] at c1
  rw [k2] at c2
  rw [k3] at c3
  obtain rfl := Outcome.ok.inj c1
  obtain rfl := Outcome.ok.inj c2
  obtain rfl := Outcome.ok.inj c3
  have := c4 ⟨by decide, by decide⟩
  rw [k5] at this
  exact Option.some.inj this

end Verif.FourEight.Props
