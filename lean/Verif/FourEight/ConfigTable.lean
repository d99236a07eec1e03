import Verif.FourEight.ConfigLemmas

/-!
# Classification of contour pixels: facts about the table (lemmas)
-/

namespace Verif.FourEight.Props
open Verif Verif.CellImage Verif.FourEight

/-! The table is finite: what follows is checked for each of its 256 entries, which are all the neighbourhoods there are. -/

theorem table_error : ∀ n : Fin 8 → Bool, cellConf .line n = .error ∨ cellConf .vertex n = .error →
    (∃ a, OpenSide n a ∧ ∀ k, OpenSide n k → ringConn (bg n) a k = true) ∧
    (∃ a, n a = true ∧ ∀ k, n k = true → ringConn (fill n) a k = true) ∧ 3 ≤ branches n := by
  unfold OpenSide
  apply ring8_all
  decide +kernel

theorem table_line : ∀ n : Fin 8 → Bool, cellConf .vertex n = .line →
    (∃ a b, OpenSide n a ∧ OpenSide n b ∧ ringConn (bg n) a b = false ∧
      ∀ k, OpenSide n k → ringConn (bg n) a k = true ∨ ringConn (bg n) b k = true) ∧
    (∃ a b, n a = true ∧ n b = true ∧ ringConn (fill n) a b = false ∧
      ∀ k, n k = true → ringConn (fill n) a k = true ∨ ringConn (fill n) b k = true) := by
  unfold OpenSide
  apply ring8_all
  decide +kernel

theorem table_vertex : ∀ n : Fin 8 → Bool,
    (∃ a b c, OpenSide n a ∧ OpenSide n b ∧ OpenSide n c ∧ ringConn (bg n) a b = false ∧ ringConn (bg n) a c = false ∧
      ringConn (bg n) b c = false) ∨
    (∃ a b c, n a = true ∧ n b = true ∧ n c = true ∧ ringConn (fill n) a b = false ∧ ringConn (fill n) a c = false ∧
      ringConn (fill n) b c = false) ∨ (∀ k, ¬ OpenSide n k) ∨ branches n ≤ 1 →
    cellConf .line n = .vertex ∧ cellConf .vertex n = .vertex := by
  unfold OpenSide
  apply ring8_all
  decide +kernel

theorem table_kinds : ∀ n : Fin 8 → Bool, (cellConf .vertex n = .vertex ∨ cellConf .vertex n = .line ∨ cellConf .vertex n = .error) ∧
    (cellConf .line n = .vertex ∨ cellConf .line n = .line ∨ cellConf .line n = .error) ∧
    (cellConf .line n = .vertex → cellConf .vertex n = .vertex) ∧ (cellConf .vertex n = .line → cellConf .line n = .line) ∧
    (cellConf .line n = .error → cellConf .vertex n = .error) := by
  apply ring8_all
  decide +kernel

theorem table_corner : ∀ n : Fin 8 → Bool, cellConf .line n = .line → cellConf .vertex n ≠ .line →
    (∃ a, OpenSide n a ∧ ∀ k, OpenSide n k → ringConn (bg n) a k = true) ∧
    (∃ a, n a = true ∧ ∀ k, n k = true → ringConn (fill n) a k = true) := by
  unfold OpenSide
  apply ring8_all
  decide +kernel

theorem table_rotate : ∀ n : Fin 8 → Bool, cellConf .line (fun k => n (k + 2)) = cellConf .line n ∧
    cellConf .vertex (fun k => n (k + 2)) = cellConf .vertex n ∧ cellConf .line (fun k => n (-k)) = cellConf .line n ∧
    cellConf .vertex (fun k => n (-k)) = cellConf .vertex n := by
  apply ring8_all
  decide +kernel

end Verif.FourEight.Props
