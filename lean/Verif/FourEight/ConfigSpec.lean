import Verif.FourEight.Config
import Mathlib.Logic.Relation
import Mathlib.Data.Fintype.Pi
import Mathlib.Data.Fin.VecNotation

/-!
# Classification of contour pixels: specification

The topology of a pixel's neighbourhood, in the usual words of digital topology: contour pixels are connected over sides and corners,
background pixels over sides only.
-/

namespace Verif.FourEight

/-- two of the eight neighbours share a side -/
def sideBySide (i j : Fin 8) : Bool :=
  ((step8 i).1 - (step8 j).1).natAbs + ((step8 i).2 - (step8 j).2).natAbs = 1

/-- two of the eight neighbours share a side or a corner -/
def touching (i j : Fin 8) : Bool :=
  max ((step8 i).1 - (step8 j).1).natAbs ((step8 i).2 - (step8 j).2).natAbs = 1

/-- `j` is reached from `i` over neighbours that belong to the set -/
def Conn (P : Fin 8 → Bool) (adj : Fin 8 → Fin 8 → Bool) : Fin 8 → Fin 8 → Prop :=
  Relation.ReflTransGen fun a b => P a = true ∧ P b = true ∧ adj a b = true

/-- the background around a pixel -/
def bg (n : Fin 8 → Bool) : Fin 8 → Bool := fun k => !n k

/-- a background pixel that shares a side with the pixel in the middle (East, North, West, South) -/
def OpenSide (n : Fin 8 → Bool) (k : Fin 8) : Prop := k.val % 2 = 0 ∧ n k = false

/-- one background component touches the pixel -/
def OneSide (n : Fin 8 → Bool) : Prop := ∃ a, OpenSide n a ∧ ∀ k, OpenSide n k → Conn (bg n) sideBySide a k

/-- exactly two background components touch the pixel -/
def TwoSides (n : Fin 8 → Bool) : Prop := ∃ a b, OpenSide n a ∧ OpenSide n b ∧ ¬ Conn (bg n) sideBySide a b ∧
  ∀ k, OpenSide n k → Conn (bg n) sideBySide a k ∨ Conn (bg n) sideBySide b k

/-- at least three background components touch the pixel -/
def ThreeSides (n : Fin 8 → Bool) : Prop := ∃ a b c, OpenSide n a ∧ OpenSide n b ∧ OpenSide n c ∧ ¬ Conn (bg n) sideBySide a b ∧
  ¬ Conn (bg n) sideBySide a c ∧ ¬ Conn (bg n) sideBySide b c

/-- the contour pixels around form one component -/
def OneBranch (n : Fin 8 → Bool) : Prop := ∃ a, n a = true ∧ ∀ k, n k = true → Conn n touching a k

/-- the contour pixels around form exactly two components -/
def TwoBranches (n : Fin 8 → Bool) : Prop := ∃ a b, n a = true ∧ n b = true ∧ ¬ Conn n touching a b ∧
  ∀ k, n k = true → Conn n touching a k ∨ Conn n touching b k

/-- at least three components -/
def ThreeBranches (n : Fin 8 → Bool) : Prop := ∃ a b c, n a = true ∧ n b = true ∧ n c = true ∧ ¬ Conn n touching a b ∧
  ¬ Conn n touching a c ∧ ¬ Conn n touching b c

/-- The pixel can be removed from the contour without changing the topology of contour and background around it. -/
def Simple (n : Fin 8 → Bool) : Prop := OneSide n ∧ OneBranch n

/-- number of contour pixels around -/
def branches (n : Fin 8 → Bool) : Nat := (List.finRange 8).countP n

end Verif.FourEight
