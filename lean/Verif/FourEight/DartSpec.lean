import Verif.FourEight.Model
import Verif.FourEight.Config
import Mathlib.Logic.Relation

/-!
# Darts of the pixel based map: specification

What a dart is, and which images the navigation is made for.  Nothing here refers to how the navigation works.
-/

namespace Verif.FourEight
open Verif Verif.CellImage

/-- the pixel seen from (x, y) in direction `j` -/
def Map.look (m : Map) (x y : Int) (j : Fin 8) : Pixel := m.px (x + dx j) (y + dy j)

/-- Every pixel belongs to a node, an edge or a face, and nodes and edges keep away from the margin. -/
structure Clean (m : Map) : Prop where
  types : ∀ x y, m.inside x y → (m.px x y).1 = .vertex ∨ (m.px x y).1 = .line ∨ (m.px x y).1 = .region
  frame : ∀ x y, m.inside x y → (m.px x y).1 ≠ .region → -2 < x ∧ x < m.w - 3 ∧ -2 < y ∧ y < m.h - 3

/-- A dart looks from a pixel of a node to a pixel of an edge.  It does so diagonally only if there is no other way: both pixels between
belong to faces. -/
structure IsDart (m : Map) (d : Dart) : Prop where
  inside : m.inside d.x d.y
  node : (m.px d.x d.y).1 = .vertex
  edge : (m.look d.x d.y d.dir).1 = .line
  between : d.dir.val % 2 = 1 → (m.look d.x d.y (d.dir + 1)).1 = .region ∧ (m.look d.x d.y (d.dir + 7)).1 = .region

/-- No pixel of an edge fills the corner between two pixels of nodes. -/
def NoCorner (m : Map) : Prop := ∀ x y, m.inside x y → (m.px x y).1 = .line → ∀ k : Fin 8, k.val % 2 = 0 →
  ¬((m.look x y k).1 = .vertex ∧ (m.look x y (k + 2)).1 = .vertex)

/-- Every pixel of an edge has one of the neighbourhoods for which the table of cell configurations allows an edge. -/
def Traceable (m : Map) : Prop := ∀ x y, m.inside x y → (m.px x y).1 = .line →
  cellConf .line (fun j => decide ((m.look x y j).1 ≠ .region)) = .line

/-- a step from a pixel of a node to another one (eight neighbours) -/
def NodeStep (m : Map) (p q : Int × Int) : Prop :=
  (m.px p.1 p.2).1 = .vertex ∧ (m.px q.1 q.2).1 = .vertex ∧ ∃ k : Fin 8, q = (p.1 + dx k, p.2 + dy k)

/-- Neighbouring pixels of nodes have the same label. -/
def NodesLabelled (m : Map) : Prop := ∀ x y (k : Fin 8), m.inside x y → (m.px x y).1 = .vertex → (m.look x y k).1 = .vertex →
  (m.look x y k).2 = (m.px x y).2

/-- 4-neighbours that belong to faces have the same label. -/
def FacesLabelled (m : Map) : Prop := ∀ x y (k : Fin 8), k.val % 2 = 0 → m.inside x y → m.inside (x + dx k) (y + dy k) →
  (m.px x y).1 = .region → (m.look x y k).1 = .region → (m.look x y k).2 = (m.px x y).2

/-- The cell types of `m` are the ones `initCellImage` finds for a contour image. -/
def FromContours (corner : CellType) (raw : Raw) (m : Map) : Prop :=
  ∃ f, initCellImage corner m.w m.h raw = .ok f ∧ ∀ x y, m.inside x y → (m.px x y).1 = f x y

end Verif.FourEight
