import Verif.FourEight.Props
import Verif.FourEight.ContourProps

/-!
# The pixel based map: a worked history, counterexamples (C77-C79)
-/

namespace Verif.FourEight.Props
open Verif Verif.CellImage Verif.FourEight Verif.Outcome

/-- an image given by its rows; pixel (-2, -2) is the first one -/
def look (p : List (List Pixel)) (x y : Int) : Pixel := ((p[(y + 2).toNat]?.getD [])[(x + 2).toNat]?).getD (.region, 0)

/-- two faces beside each other in a frame: three nodes (two of degree 3, one of degree 2), four edges -/
def pic : List (List Pixel) :=
  let r := fun n => (CellType.region, n)
  let l := fun n => (CellType.line, n)
  let v := fun n => (CellType.vertex, n)
  [[r 0, r 0, r 0, r 0, r 0, r 0, r 0],
   [r 0, v 1, l 1, v 2, l 4, l 4, r 0],
   [r 0, l 2, r 1, l 3, r 2, l 4, r 0],
   [r 0, l 2, l 2, v 3, l 4, l 4, r 0],
   [r 0, r 0, r 0, r 0, r 0, r 0, r 0]]

/-- what VIGRA returns for `pic`: nothing to fill, one component of contours -/
def orc (p : List (List Pixel)) : Oracle := ⟨fun _ => 1, fun _ => [], fun x y => if (look p x y).1 = .region then 0 else 1, 1⟩

/-- the value of an outcome, or an empty map -/
def theMap : Outcome (Map × Nat) → Map
  | .ok r => r.1
  | _ => ⟨0, 0, look [], [], [], [], 0, 0, 0, false⟩
/-- the returned label -/
def theLabel : Outcome (Map × Nat) → Option Nat
  | .ok r => some r.2
  | _ => none

theorem theMap_spec {o : Outcome (Map × Nat)} {l : Nat} (h : theLabel o = some l) : o = .ok (theMap o, l) := by
  cases o <;> simp [theLabel] at h
  subst h; rfl

theorem precond_of {o : Outcome (Map × Nat)} (h : (match o with | .precond => true | _ => false) = true) : o = .precond := by
  cases o <;> simp at h ⊢

def m0 : Map := theMap ((construct (orc pic) 7 5 (look pic)).map fun m => (m, 0))

theorem m0_spec : construct (orc pic) 7 5 (look pic) = .ok m0 := by
  have h : theLabel ((construct (orc pic) 7 5 (look pic)).map fun m => (m, 0)) = some 0 := by decide +kernel
  obtain ⟨a, ha, h2⟩ := map_ok (theMap_spec h)
  rw [ha]
  unfold m0
  rw [ha]; rfl

/-- a check of all pixels of an image -/
def everywhere (w h : Nat) (P : Int → Int → Bool) : Bool :=
  (List.range w).all fun i : Nat => (List.range h).all fun j : Nat => P ((i : Int) - 2) ((j : Int) - 2)

theorem everywhere_spec {w h : Nat} {P : Int → Int → Bool} (hP : everywhere w h P = true) (x y : Int)
    (hi : -2 ≤ x ∧ x < w - 2 ∧ -2 ≤ y ∧ y < h - 2) : P x y = true := by
  unfold everywhere at hP
  simp only [List.all_eq_true, List.mem_range] at hP
  have := hP (x + 2).toNat (by omega) (y + 2).toNat (by omega)
  have hx : ((x + 2).toNat : Int) - 2 = x := by omega
  have hy : ((y + 2).toNat : Int) - 2 = y := by omega
  rwa [hx, hy] at this

/-- `pic` meets the hypotheses of `construct_consistent`. -/
theorem m0_consistent : Consistent m0 ∧ Outer m0 ∧ m0.w = 7 ∧ m0.h = 5 := by
  refine construct_consistent (o := orc pic) (px := look pic) (by omega) (by omega) ?_ m0_spec ?_
  · intro x y hi hb
    have h : everywhere 7 5 (fun x y => decide ((x = -2 ∨ y = -2 ∨ x = 4 ∨ y = 2) → look pic x y = (.region, 0))) = true := by decide +kernel
    have := everywhere_spec h x y hi
    simp only [decide_eq_true_eq] at this
    exact this (by omega)
  · intro x y l hi hp
    have h : everywhere 7 5 (fun x y => (look pic x y).1 ≠ .line || (m0.edges[(look pic x y).2]?.any (·.live))) = true := by decide +kernel
    have := everywhere_spec h x y hi
    rw [hp] at this
    unfold HasEdge
    cases he : m0.edges[l]? with
    | none => simp [he] at this
    | some a => exact ⟨a, rfl, by simpa [he] using this⟩

/-- remove edge 3 between faces 1 and 2 -/
def m1 : Map := theMap (mergeFaces m0 ⟨1, -1, 6⟩)
/-- node 2 has degree 2 now: merge its edges 1 and 4 -/
def m2 : Map := theMap (mergeEdges m1 ⟨1, -1, 0⟩)
/-- the same at node 3: edge 4 becomes a loop -/
def m3 : Map := theMap (mergeEdges m2 ⟨1, 1, 4⟩)
/-- remove the loop: only node 1 and the infinite face remain -/
def m4 : Map := theMap (mergeFaces m3 ⟨-1, -1, 0⟩)
/-- remove node 1 -/
def m5 : Map := theMap (removeIsolatedNode m4 ⟨-1, -1, 0⟩)

theorem nonempty_of {m : Map} {c : Pixel} (x y : Int) (hi : m.inside x y) (hp : m.px x y = c) : (m.cell c).Nonempty :=
  ⟨(x, y), mem_cell.2 ⟨hi, hp⟩⟩

theorem endsFit_of {m : Map} {d : Dart} {e l r : Nat} (E : Edge) (x y x' y' : Int) (hi : m.init = true) (h1 : m.nb d 0 = .ok (.line, e))
    (h2 : m.edges[e]? = some E) (h3 : E.live = true) (h4 : d = E.start ∨ d = E.stop) (h5 : m.nb E.start 0 = .ok (.line, e))
    (h6 : m.nb E.stop 0 = .ok (.line, e)) (h7 : leftFace m E.start = .ok l) (h8 : rightFace m E.start = .ok r)
    (h9 : leftFace m E.stop = .ok r) (h10 : rightFace m E.stop = .ok l)
    (h11 : (-2 ≤ x ∧ x < m.w - 2 ∧ -2 ≤ y ∧ y < m.h - 2) ∧ m.px x y = (.region, l))
    (h12 : (-2 ≤ x' ∧ x' < m.w - 2 ∧ -2 ≤ y' ∧ y' < m.h - 2) ∧ m.px x' y' = (.region, r)) : EndsFit m d :=
  ⟨hi, e, E, l, r, h1, h2, h3, h4, h5, h6, h7, h8, h9, h10, nonempty_of x y h11.1 h11.2, nonempty_of x' y' h12.1 h12.2⟩

/-- the hypotheses of `mergeFaces_effect` are met -/
theorem m0_ends : EndsFit m0 ⟨1, -1, 6⟩ :=
  endsFit_of (e := 3) (l := 2) (r := 1) ⟨true, ⟨1, 0, 2, 1⟩, 1, ⟨1, -1, 6⟩, ⟨1, 1, 2⟩⟩ 2 0 0 0 (by decide +kernel) (by decide +kernel)
    (by decide +kernel) (by decide +kernel) (by decide +kernel) (by decide +kernel) (by decide +kernel) (by decide +kernel)
    (by decide +kernel) (by decide +kernel) (by decide +kernel) (by decide +kernel) (by decide +kernel)

theorem m3_ends : EndsFit m3 ⟨-1, -1, 0⟩ :=
  endsFit_of (e := 4) (l := 0) (r := 2) ⟨true, ⟨-1, -1, 4, 2⟩, 11, ⟨-1, -1, 0⟩, ⟨-1, -1, 6⟩⟩ (-2) (-2) 0 0 (by decide +kernel) (by decide +kernel)
    (by decide +kernel) (by decide +kernel) (by decide +kernel) (by decide +kernel) (by decide +kernel) (by decide +kernel)
    (by decide +kernel) (by decide +kernel) (by decide +kernel) (by decide +kernel) (by decide +kernel)

theorem m4_isolated : Isolated m4 1 0 := by
  have hw : m4.w = 7 := by decide +kernel
  have hh : m4.h = 5 := by decide +kernel
  have h : everywhere 7 5 (fun x y => decide (m4.px x y = (.vertex, 1) → ∀ k : Fin 8, k.val % 2 = 0 →
      (-2 ≤ x + dx k ∧ x + dx k < 5 ∧ -2 ≤ y + dy k ∧ y + dy k < 3) ∧
      (m4.px (x + dx k) (y + dy k) = (.vertex, 1) ∨ m4.px (x + dx k) (y + dy k) = (.region, 0)))) = true := by decide +kernel
  intro x y hi hp k hk
  simp only [Map.inside, hw, hh] at hi ⊢
  have := everywhere_spec h x y hi
  simp only [decide_eq_true_eq] at this
  have := this hp k hk
  exact ⟨by have := this.1; simp only [Nat.cast_ofNat]; omega, this.2⟩

theorem step_of {m : Map} (op : Op) {l : Nat} (ha : Allowed m op) (h : theLabel (run m op) = some l) : Step m (theMap (run m op)) :=
  ⟨op, l, ha, theMap_spec h⟩

/-- The history is one of those `history_consistent` speaks about, and it removes everything but the infinite face. -/
theorem history_example : Reach m0 m5 ∧ m5.nodeCount = 0 ∧ m5.edgeCount = 0 ∧ m5.faceCount = 1 := by
  refine ⟨?_, by decide +kernel, by decide +kernel, by decide +kernel⟩
  have h1 : Step m0 m1 := step_of (.mergeFaces ⟨1, -1, 6⟩) (l := 2) m0_ends (by decide +kernel)
  have h2 : Step m1 m2 := step_of (.mergeEdges ⟨1, -1, 0⟩) (l := 4) trivial (by decide +kernel)
  have h3 : Step m2 m3 := step_of (.mergeEdges ⟨1, 1, 4⟩) (l := 4) trivial (by decide +kernel)
  have h4 : Step m3 m4 := step_of (.mergeFaces ⟨-1, -1, 0⟩) (l := 0) m3_ends (by decide +kernel)
  have h5 : Step m4 m5 := by
    refine step_of (.removeIsolatedNode ⟨-1, -1, 0⟩) (l := 0) ?_ (by decide +kernel)
    intro n f hn hf
    have e1 : nodeLabel m4 ⟨-1, -1, 0⟩ = .ok 1 := by decide +kernel
    have e2 : leftFace m4 ⟨-1, -1, 0⟩ = .ok 0 := by decide +kernel
    rw [e1] at hn; rw [e2] at hf
    cases hn; cases hf
    exact m4_isolated
  exact ((((Relation.ReflTransGen.refl.tail h1).tail h2).tail h3).tail h4).tail h5

example : Consistent m5 ∧ Outer m5 := history_consistent m0_consistent.1 m0_consistent.2.1 history_example.1

/-- two bounded faces and the infinite one with one contour each (`construct_contours`) -/
example : m0.faces.map (fun F => (F.live, F.contours.length)) = [(true, 1), (true, 1), (true, 1)] := by decide +kernel

/-- an image with a bridge: a line that ends inside of face 1 -/
def pic2 : List (List Pixel) :=
  let r := fun n => (CellType.region, n)
  let l := fun n => (CellType.line, n)
  let v := fun n => (CellType.vertex, n)
  [[r 0, r 0, r 0, r 0, r 0, r 0, r 0],
   [r 0, v 1, l 1, v 2, l 3, l 3, r 0],
   [r 0, l 3, r 1, l 2, r 1, l 3, r 0],
   [r 0, l 3, r 1, v 3, r 1, l 3, r 0],
   [r 0, l 3, r 1, r 1, r 1, l 3, r 0],
   [r 0, l 3, l 3, l 3, l 3, l 3, r 0],
   [r 0, r 0, r 0, r 0, r 0, r 0, r 0]]
def b0 : Map := theMap ((construct (orc pic2) 7 7 (look pic2)).map fun m => (m, 0))

/-- `removeBridge` accepts the bridge and nothing else, `mergeFaces` everything but the bridge. -/
example : theLabel (removeBridge b0 ⟨1, -1, 6⟩) = some 1 ∧ removeBridge b0 ⟨1, -1, 0⟩ = .precond ∧
    theLabel (mergeFaces b0 ⟨1, -1, 0⟩) = some 0 ∧ mergeFaces b0 ⟨1, -1, 6⟩ = .precond := by
  refine ⟨by decide +kernel, ?_, by decide +kernel, ?_⟩
  · exact precond_of (by decide +kernel)
  · exact precond_of (by decide +kernel)

/-! ## Counterexamples -/

/-- **C78 (counterexample).** `removeIsolatedNode` looks only at the one pixel the dart points to.  A dart of the edge that `mergeFaces`
has just removed is accepted as isolated, although its node still has degree 2: the node is removed, and the bounds of the face do not
contain its pixels. -/
theorem stale_dart_violated :
    (Consistent m1 ∧ Outer m1) ∧ (∃ N, m1.nodes[2]? = some N ∧ N.degree = 2) ∧
    ∃ m', removeIsolatedNode m1 ⟨1, -1, 6⟩ = .ok (m', 2) ∧ ¬ HasNode m' 2 ∧ ¬ Consistent m' := by
  have h1 : Step m0 m1 := step_of (.mergeFaces ⟨1, -1, 6⟩) (l := 2) m0_ends (by decide +kernel)
  have hc := history_consistent m0_consistent.1 m0_consistent.2.1 (Relation.ReflTransGen.refl.tail h1)
  refine ⟨hc, ⟨_, (by decide +kernel : m1.nodes[2]? = some ⟨true, ⟨1, -1, 2, 0⟩, 1, ⟨1, -1, 4⟩, 2⟩), rfl⟩, ?_⟩
  have hm := theMap_spec (o := removeIsolatedNode m1 ⟨1, -1, 6⟩) (l := 2) (by decide +kernel)
  refine ⟨_, hm, ?_, ?_⟩
  · rintro ⟨a, h1, h2⟩
    have : (theMap (removeIsolatedNode m1 ⟨1, -1, 6⟩)).nodes[2]? = some ⟨false, ⟨1, -1, 2, 0⟩, 1, ⟨1, -1, 4⟩, 2⟩ := by decide +kernel
    rw [this] at h1; cases h1; simp at h2
  · intro hcon
    have hF : (theMap (removeIsolatedNode m1 ⟨1, -1, 6⟩)).faces[2]? = some ⟨true, ⟨0, 0, 3, 1⟩, 4, []⟩ := by decide +kernel
    have hwh : (theMap (removeIsolatedNode m1 ⟨1, -1, 6⟩)).w = 7 ∧ (theMap (removeIsolatedNode m1 ⟨1, -1, 6⟩)).h = 5 := by decide +kernel
    have hpx : (theMap (removeIsolatedNode m1 ⟨1, -1, 6⟩)).px 1 (-1) = (.region, 2) := by decide +kernel
    generalize theMap (removeIsolatedNode m1 ⟨1, -1, 6⟩) = m' at hcon hF hwh hpx
    have hb := (hcon.faceBox hF rfl).1 (1, -1) (mem_cell.2 ⟨by simp only [Map.inside, hwh.1, hwh.2]; omega, hpx⟩)
    dsimp only at hb; omega

/-- **C78 (counterexample).** The stored size of the infinite face means nothing: it starts as 4294967295 and wraps around at the first
merge. -/
theorem infinite_size_violated :
    (m3.faces[0]?.map Face.size = some 4294967295) ∧ (m4.faces[0]?.map Face.size = some 13) ∧
    ((everywhere 7 5 fun x y => m4.px x y = (.region, 0) || (x, y) = (-1, -1)) = true) := by
  refine ⟨by decide +kernel, by decide +kernel, by decide +kernel⟩

end Verif.FourEight.Props
