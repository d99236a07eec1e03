import Verif.GeoMap.Undo
import Mathlib.Data.Rat.Defs
import Mathlib.Algebra.Order.Ring.Rat

/-!
# A concrete map

Used to show that the hypotheses of the theorems can be met.  Three edges 1, 2, 3 from node 0 at
(0,0) to node 1 at (2,0) and a bridge 4 from node 1 to node 2 at (3,0):

```
      .--1--.
     /   f1  \
    0----2----1--4--2      f0
     \   f3  /
      `--3--'
```
-/

namespace Verif.GeoMap.Example
open Verif Verif.GeoMap

deriving instance DecidableEq for Node
deriving instance DecidableEq for Edge
deriving instance DecidableEq for Face

/-- the value of an outcome -/
def val {α : Type} (a : α) : Outcome α → α
  | .ok x => x
  | _ => a

def isOk {α : Type} : Outcome α → Bool
  | .ok _ => true
  | _ => false

theorem ok_val {α : Type} {a : α} {o : Outcome α} (h : isOk o = true) : o = .ok (val a o) := by
  cases o <;> simp_all [isOk, val]

/-- the next state, all callbacks agreeing -/
def next (s : GMap ℚ) (op : Op ℚ) : GMap ℚ := val GMap.empty (op.run Hooks.none s)

/-- the map before `initializeMap` -/
def g1 : GMap ℚ := next GMap.empty (.addNode (0, 0) 0)
def g2 : GMap ℚ := next g1 (.addNode (2, 0) 0)
def g3 : GMap ℚ := next g2 (.addNode (3, 0) 0)
def op4 : Op ℚ := .addEdge (.node 0) (.node 1) [(0, 0), (1, 1), (2, 0)] 0
def g4 : GMap ℚ := next g3 op4
def op5 : Op ℚ := .addEdge (.node 0) (.node 1) [(0, 0), (1, 0), (2, 0)] 0
def g5 : GMap ℚ := next g4 op5
def op6 : Op ℚ := .addEdge (.node 0) (.node 1) [(0, 0), (1, -1), (2, 0)] 0
def g6 : GMap ℚ := next g5 op6
def op7 : Op ℚ := .addEdge (.node 1) (.node 2) [(2, 0), (3, 0)] 0
/-- the graph -/
def graph : GMap ℚ := next g6 op7
/-- the map -/
def map : GMap ℚ := next graph (.initializeMap fun _ _ => none)

theorem reach_next {s : GMap ℚ} {op : Op ℚ} (h : ReachG s) (hl : op.legal s) (hf : op.fits s) (ho : isOk (op.run Hooks.none s) = true)
    (hp : ¬ s.initialized → (next s op).initialized → PlanarOK (next s op)) : ReachG (next s op) :=
  .call Hooks.none op h hl hf (ok_val ho) hp

theorem reach_g3 : ReachG g3 :=
  reach_next (reach_next (reach_next .empty trivial trivial rfl fun _ h => absurd h (by decide +kernel)) trivial trivial rfl
    fun _ h => absurd h (by decide +kernel)) trivial trivial rfl fun _ h => absurd h (by decide +kernel)

/-- adding an edge between two nodes -/
theorem reach_edge {s : GMap ℚ} (h : ReachG s) {a b : Nat} {na nb : Node ℚ} {pts : List (Pt ℚ)} (ha : s.node a = some na)
    (hb : s.node b = some nb) (h1 : pts.head? = some na.pos) (h2 : pts.getLast? = some nb.pos)
    (ho : isOk ((Op.addEdge (.node a) (.node b) pts 0).run Hooks.none s) = true)
    (hp : (next s (.addEdge (.node a) (.node b) pts 0)).nFaces = 0) :
    ReachG (next s (.addEdge (.node a) (.node b) pts 0)) := by
  refine reach_next h ⟨?_, ?_, ?_⟩ ⟨⟨a, na, rfl, ha, h1⟩, ⟨b, nb, rfl, hb, h2⟩⟩ ho (fun _ hi => ?_)
  · rintro rfl; simp at h1
  · rintro n e; cases e; rw [ha]; rfl
  · rintro n e; cases e; rw [hb]; rfl
  · unfold GMap.initialized at hi; omega

theorem reach_graph : ReachG graph := by
  refine reach_edge (na := ⟨(2, 0), -1⟩) (nb := ⟨(3, 0), 0⟩) (reach_edge (na := ⟨(0, 0), 1⟩) (nb := ⟨(2, 0), -1⟩)
    (reach_edge (na := ⟨(0, 0), 1⟩) (nb := ⟨(2, 0), -1⟩) (reach_edge (na := ⟨(0, 0), 0⟩) (nb := ⟨(2, 0), 0⟩) reach_g3 ?_ ?_ ?_ ?_ ?_ ?_)
      ?_ ?_ ?_ ?_ ?_ ?_) ?_ ?_ ?_ ?_ ?_ ?_) ?_ ?_ ?_ ?_ ?_ ?_ <;> decide +kernel

theorem map_darts : map.darts = {1, -1, 2, -2, 3, -3, 4, -4} := by decide +kernel

theorem map_planar : PlanarOK map := by
  intro w hw
  have h0 := hw 0
  have h2 := hw 2
  unfold bd at h0 h2
  rw [map_darts] at h0 h2 ⊢
  have e0 : (({1, -1, 2, -2, 3, -3, 4, -4} : Finset Int).filter fun d => map.startN? d = some 0) = {1, 2, 3} := by decide +kernel
  have e2 : (({1, -1, 2, -2, 3, -3, 4, -4} : Finset Int).filter fun d => map.startN? d = some 2) = {-4} := by decide +kernel
  rw [e0] at h0
  rw [e2] at h2
  have h0' : w 1 + (w 2 + w 3) = 0 := by simpa [Finset.sum_insert] using h0
  have h2' : w 4 = 0 := by simpa using h2
  refine ⟨fun f => if f = some 1 then w 1 else if f = some 3 then w 3 else 0, fun d hd => ?_⟩
  simp only [Finset.mem_insert, Finset.mem_singleton] at hd
  have q1 : map.left? 1 = some 1 := by decide +kernel
  have q1' : map.left? (-1) = some 0 := by decide +kernel
  have q2 : map.left? 2 = some 3 := by decide +kernel
  have q2' : map.left? (-2) = some 1 := by decide +kernel
  have q3 : map.left? 3 = some 0 := by decide +kernel
  have q3' : map.left? (-3) = some 3 := by decide +kernel
  have q4 : map.left? 4 = some 0 := by decide +kernel
  have q4' : map.left? (-4) = some 0 := by decide +kernel
  have tt : ∀ a b c : ZMod 2, a + (b + c) = 0 → b = c + a ∧ b = a + c := by decide
  have := tt _ _ _ h0'
  rcases hd with rfl | rfl | rfl | rfl | rfl | rfl | rfl | rfl <;> simp [q1, q1', q2, q2', q3, q3', q4, q4', h2', ← this.1, ← this.2]

theorem reach_map : ReachG map :=
  reach_next reach_graph trivial trivial (by decide +kernel) fun _ _ => map_planar

end Verif.GeoMap.Example
