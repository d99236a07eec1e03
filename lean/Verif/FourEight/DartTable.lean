import Verif.FourEight.ConfigTable

/-!
# The way through a pixel of an edge: facts about the table of cell configurations (lemmas)

The table is finite: what follows is checked for each of its 256 entries, which are all the neighbourhoods there are.
-/

namespace Verif.FourEight
open Verif Verif.CellImage

/-- the way to this neighbour is not blocked by a shorter one -/
def good (n : Fin 8 → Bool) (b : Fin 8) : Bool := n b && (b.val % 2 == 0 || (!(n (b + 1)) && !(n (b + 7))))

/-- the first neighbour from `d` on -/
def turnTo (n : Fin 8 → Bool) : Nat → Fin 8 → Option (Fin 8)
  | 0, _ => none
  | k + 1, d => if n d then some d else turnTo n k (d + 1)

/-- diagonal neighbours are left out if the next one is a neighbour, too -/
def straighten (n : Fin 8 → Bool) (e : Fin 8) : Fin 8 := if e.val % 2 = 1 then (if n (e + 1) then e + 1 else e) else e

/-- where to go after coming from neighbour `b` -/
def exit (n : Fin 8 → Bool) (b : Fin 8) : Option (Fin 8) := (turnTo n 8 (b + 4 + 6)).map (straighten n)

/-- left of the way to neighbour `e` -/
def leftOut (n : Fin 8 → Bool) (e : Fin 8) : Fin 8 := if n (e + 1) then e + 2 else e + 1
/-- right of the way to neighbour `e` -/
def rightOut (n : Fin 8 → Bool) (e : Fin 8) : Fin 8 := if n (e + 7) then e + 6 else e + 7
/-- left of the way from neighbour `b` -/
def leftIn (n : Fin 8 → Bool) (b : Fin 8) : Fin 8 := if b.val % 2 = 1 then b + 7 else if n (b + 6) then b + 7 else b + 6
/-- right of the way from neighbour `b` -/
def rightIn (n : Fin 8 → Bool) (b : Fin 8) : Fin 8 := if b.val % 2 = 1 then b + 1 else if n (b + 2) then b + 1 else b + 2

theorem table_exit : ∀ n : Fin 8 → Bool, cellConf .line n = .line → ∀ b, good n b = true →
    ∃ e, exit n b = some e ∧ good n e = true ∧ exit n e = some b := by
  apply ring8_all
  decide +kernel

theorem table_sides : ∀ n : Fin 8 → Bool, cellConf .line n = .line → ∀ b e, good n b = true → exit n b = some e →
    arcTo (bg n) (leftOut n e) (leftIn n b) = true ∧ arcTo (bg n) (rightIn n b) (rightOut n e) = true := by
  apply ring8_all
  decide +kernel

/-- both ends of an arc belong to the set -/
theorem table_free : ∀ n : Fin 8 → Bool, cellConf .line n = .line → ∀ b, good n b = true →
    n (leftIn n b) = false ∧ n (rightIn n b) = false ∧ n (leftOut n b) = false ∧ n (rightOut n b) = false := by
  apply ring8_all
  decide +kernel

theorem table_no_corner : ∀ n : Fin 8 → Bool, cellConf .vertex n = .line → ∀ k : Fin 8, k.val % 2 = 0 → ¬(n k = true ∧ n (k + 2) = true) := by
  apply ring8_all
  decide +kernel

end Verif.FourEight
