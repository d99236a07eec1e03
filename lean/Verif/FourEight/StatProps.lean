import Verif.FourEight.StatLemmas
import Verif.FourEight.PyrProps
import Mathlib.Tactic.FieldSimp
import Mathlib.Algebra.Order.Ring.Rat

/-!
# The statistics of faces after any history of operations (C97)
-/

namespace Verif.FourEight.Props
open Verif Verif.CellImage Verif.FourEight Verif.Outcome

section
variable {R : Type} [CommRing R]

/-- `StatReach v m0 m st L`: statistics were constructed for `m0` and told about a history of operations, called with darts of the map they
are applied to and returning normally, that lead to map `m` and statistics `st`.  `L` are the pixels the statistics never saw: those of the
infinite face of `m0` and those of the isolated nodes that were removed. -/
inductive StatReach (v : Int → Int → R) (m0 : Map) : Map → List (Stat R) → Finset (Int × Int) → Prop
  | init {st} (h : initStats m0 v = .ok st) : StatReach v m0 m0 st (basePixels m0 (.region, 0))
  | node {m m' st st' L} (d : Dart) (hr : StatReach v m0 m st L) (hc : DartCall m (.removeIsolatedNode d))
      (h : runStat m v st (.removeIsolatedNode d) = .ok (m', st')) : StatReach v m0 m' st' (L ∪ m.cell (m.px d.x d.y))
  | faces {m m' st st' L} (d : Dart) (hr : StatReach v m0 m st L) (hc : DartCall m (.mergeFaces d))
      (h : runStat m v st (.mergeFaces d) = .ok (m', st')) : StatReach v m0 m' st' L
  | bridge {m m' st st' L} (d : Dart) (hr : StatReach v m0 m st L) (hc : DartCall m (.removeBridge d))
      (h : runStat m v st (.removeBridge d) = .ok (m', st')) : StatReach v m0 m' st' L
  | edges {m m' st st' L} (d : Dart) (hr : StatReach v m0 m st L) (hc : DartCall m (.mergeEdges d))
      (h : runStat m v st (.mergeEdges d) = .ok (m', st')) : StatReach v m0 m' st' L

theorem statReach_inv {v : Int → Int → R} {m0 : Map} (h0 : Whole m0) {m : Map} {st : List (Stat R)} {L : Finset (Int × Int)}
    (h : StatReach v m0 m st L) : DartReach m0 m ∧ Whole m ∧ Counts v m st L ∧ InFaces m L := by
  have next : ∀ {m m' : Map} {st st' : List (Stat R)} {L : Finset (Int × Int)} {op : Op}, DartReach m0 m ∧ Whole m ∧ Counts v m st L ∧ InFaces m L →
      DartCall m op → runStat m v st op = .ok (m', st') →
      DartReach m0 m' ∧ Whole m' ∧ Counts v m' st' (L ∪ forgotten m op) ∧ InFaces m' (L ∪ forgotten m op) := by
    intro m m' st st' L op ⟨a1, a2, a3, a4⟩ hc h
    obtain ⟨⟨l, hl⟩, b2, b3⟩ := a2.statStep hc h a3 a4
    have hs : DartStep m m' := ⟨op, l, hc, hl⟩
    exact ⟨a1.tail hs, a2.step hs, b2, b3⟩
  induction h with
  | init h =>
    obtain ⟨st', h1, h2, h3⟩ := initStats_counts (v := v) h0.cons h0.outer
    rw [h] at h1
    rw [Outcome.ok.inj h1]
    exact ⟨Relation.ReflTransGen.refl, h0, h2, h3⟩
  | node d _ hc h ih => simpa only [forgotten] using next (op := .removeIsolatedNode d) ih hc h
  | faces d _ hc h ih => simpa only [forgotten, Finset.union_empty] using next (op := .mergeFaces d) ih hc h
  | bridge d _ hc h ih => simpa only [forgotten, Finset.union_empty] using next (op := .removeBridge d) ih hc h
  | edges d _ hc h ih => simpa only [forgotten, Finset.union_empty] using next (op := .mergeEdges d) ih hc h

end

/-- **C97.** In a map from the constructor, for a source image of any size that is accepted with nodes at corners, if no node has a hole and
VIGRA's functions keep their promises, the statistics can be constructed, and no history of operations makes them fail.  After every
history, the entry of a face is the number of its pixels in the base image, the sum of their values and the sum of their squares, where pixels
that belonged to the infinite face at first or to an isolated node that was removed do not count.  Missing for the full property: these
pixels (`faceStats_violated`), the rethinning of edges, and rounding. -/
theorem faceStats_exact_partial {R : Type} [CommRing R] (v : Int → Int → R) {w h : Nat} {src : Int → Int → Bool} {cells : Int → Int → CellType}
    (hi : initCellImage .vertex (w + 4) (h + 4) (contourImage w h src) = .ok cells) {o : Components} (hv : o.Sane (w + 4) (h + 4) cells)
    (hn : NoHoles (typedMap (w + 4) (h + 4) cells o)) {mL : Map} {N n : Nat} (hr : labelCells (w + 4) (h + 4) cells o = .ok (mL, N, n))
    {q : Oracle} (hholes : ∀ l, (mL.cell (.vertex, l)).Nonempty → q.crackArea l = (mL.cell (.vertex, l)).card % 2 ^ 32)
    {m0 : Map} (h0 : initMap .vertex w h src o q = .ok m0) :
    (∃ st, initStats m0 v = .ok st) ∧
    ∀ m st L, StatReach v m0 m st L → DartReach m0 m ∧
      (∀ op m' l, DartCall m op → run m op = .ok (m', l) → ∃ st', runStat m v st op = .ok (m', st')) ∧
      ∀ f, (m.cell (.region, f)).Nonempty → st[f]? = some (totalOf v (basePixels m (.region, f) \ L)) := by
  have hw := initMap_whole hi hv hn hr hholes h0
  refine ⟨?_, fun m st L hm => ?_⟩
  · obtain ⟨st, h1, -⟩ := initStats_counts (v := v) hw.cons hw.outer
    exact ⟨st, h1⟩
  · obtain ⟨a1, a2, a3, -⟩ := statReach_inv hw hm
    exact ⟨a1, fun op m' l hc hl => a2.statStep_ok hc hl a3, a3⟩

/-- **C97.** What the functor computes: taking a value out again undoes adding it, in any order with other values, and after any
nonempty list of values in a field of characteristic zero `average` is their mean and `variance` the mean of the squared deviations from it. -/
theorem statFunctor_exact {K : Type} [Field K] [CharZero K] (l : List K) (hl : l ≠ []) (s : Stat K) (x y : K) :
    (s.add x).remove x = s ∧ ((s.add x).add y).remove x = s.add y ∧
    (l.foldl Stat.add Stat.zero).average = l.sum / l.length ∧
    (l.foldl Stat.add Stat.zero).variance = (l.map fun x => (x - l.sum / l.length) ^ 2).sum / l.length := by
  have key : ∀ (l : List K) (s : Stat K), l.foldl Stat.add s = ⟨s.count + l.length, s.sum + l.sum, s.squareSum + (l.map fun x => x * x).sum⟩ := by
    intro l
    induction l with
    | nil => intro s; simp
    | cons a l ih =>
      intro s
      rw [List.foldl_cons, ih]
      simp only [Stat.add, List.length_cons, List.sum_cons, List.map_cons, Nat.cast_add, Nat.cast_one]
      ext <;> dsimp only <;> ring
  have hlen : (l.length : K) ≠ 0 := by
    rw [Nat.cast_ne_zero]
    exact fun h => hl (List.length_eq_zero_iff.1 h)
  have dev : ∀ (c : K) (l : List K), (l.map fun x => (x - c) ^ 2).sum = (l.map fun x => x * x).sum - 2 * c * l.sum + l.length * (c * c) := by
    intro c l
    induction l with
    | nil => simp
    | cons a l ih =>
      simp only [List.map_cons, List.sum_cons, ih, List.length_cons, Nat.cast_add, Nat.cast_one]
      ring
  refine ⟨?_, ?_, ?_, ?_⟩
  · simp only [Stat.add, Stat.remove]; ext <;> dsimp only <;> ring
  · simp only [Stat.add, Stat.remove]; ext <;> dsimp only <;> ring
  · rw [key]; simp [Stat.average, Stat.zero]
  · rw [key, dev]
    simp only [Stat.average, Stat.variance, Stat.zero, zero_add, Int.cast_natCast]
    field_simp
    ring

end Verif.FourEight.Props
