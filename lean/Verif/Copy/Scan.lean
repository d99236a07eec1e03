import Verif.Copy.Props

/-! # Scanlines are not shared by copies (C19)

The cached scanlines of an edge are owned by the edge (`auto_ptr`, cppmap.hxx:549): two edges must never hold the same pointer. -/

namespace Verif.Copy
open Verif Verif.GeoMap Verif.LabelLUT Verif.NodeIndex

/-- The pointer to the cached scanlines. -/
def Data.scanPtr {K : Type} : Data K → Option Nat
  | .edge _ _ _ _ _ _ s => s
  | _ => none

/-- No two cells own the same scanlines. -/
def ScanOwned {K : Type} (h : Heap K) : Prop := ∀ a b c d x, h.cell a = some c → h.cell b = some d → c.data.scanPtr = some x → d.data.scanPtr = some x → a = b

variable {K : Type} [Field K] [LinearOrder K]

theorem copyCells_scan {new : Nat} : ∀ {src : List (Option Nat)} {r r' : Heap K × List (Option Nat) × List (Entry K)},
    copyCells new src r = .ok r' → ∀ a c x, r'.1.cell a = some c → c.data.scanPtr = some x → r.1.cell a = some c
  | [], r, r', h, a, c, x, h1, _ => by rw [copyCells] at h; cases h; exact h1
  | none :: src, r, r', h, a, c, x, h1, h2 => by rw [copyCells] at h; exact copyCells_scan h a c x h1 h2
  | some b :: src, (g, out, ix), r', h, a, c, x, h1, h2 => by
    rw [copyCells] at h
    cases hb : g.cell b with
    | none => rw [hb] at h; cases h
    | some cb =>
      rw [hb] at h
      simp only at h
      split_ifs at h with hl
      have h3 := copyCells_scan h a c x h1 h2
      simp only at h3 ⊢
      by_cases ha : a = g.fresh
      · rw [ha, Function.update_self] at h3
        cases h3
        exfalso
        simp only at h2
        cases hd : cb.data <;> rw [hd] at h2 <;> cases h2
      · rwa [Function.update_of_ne ha] at h3

/-- C19: a cell that has scanlines after copying a map is a cell that was there before, unchanged: no cell of the copy holds scanlines of the
source. -/
theorem copy_scan {h h' : Heap K} {src new : Nat} (hc : copyMap h src = .ok (h', new)) {a x : Nat} {c : Cell K} (h1 : h'.cell a = some c)
    (h2 : c.data.scanPtr = some x) : h.cell a = some c := by
  unfold copyMap at hc
  cases hM : h.map src with
  | none => rw [hM] at hc; cases hc
  | some M =>
    rw [hM] at hc
    simp only at hc
    obtain ⟨⟨g1, n1, i1⟩, e1, hc⟩ := Outcome.bind_eq_ok.1 hc
    obtain ⟨⟨g2, n2, i2⟩, e2, hc⟩ := Outcome.bind_eq_ok.1 hc
    obtain ⟨⟨g3, n3, i3⟩, e3, hc⟩ := Outcome.bind_eq_ok.1 hc
    have key : h'.cell = g3.cell := by
      simp only at hc
      split at hc
      · cases hc; rfl
      · split_ifs at hc
        · cases hc; rfl
        · split at hc
          · cases hc
          · cases hc; rfl
    rw [key] at h1
    exact copyCells_scan e1 a c x (copyCells_scan e2 a c x (copyCells_scan e3 a c x h1 h2) h2) h2

/-- C19: copying keeps the ownership of scanlines. -/
theorem copy_scanOwned {h h' : Heap K} {src new : Nat} (hc : copyMap h src = .ok (h', new)) (ho : ScanOwned h) : ScanOwned h' :=
  fun a b c d x h1 h2 h3 h4 => ho a b c d x (copy_scan hc h1 h3) (copy_scan hc h2 h4) h3 h4

/-- A heap with one map and one edge that has scanlines. -/
def scanned : Heap ℚ where
  cell a := if a = 1 then some ⟨some 0, 0, .edge 0 0 none none [] 0 (some 7)⟩ else none
  map m := if m = 0 then some ⟨[], [], (0, 0), (0, 0), fun k => if k = .edge then [some 1] else [], fun _ => 0, [], (0, 0), none, ⟨[], []⟩, false⟩ else none
  image _ := none
  fresh := 2

/-- The copied edge exists and has no scanlines; that of the source has kept its own. -/
example : ScanOwned scanned ∧ ∃ h', copyMap scanned 0 = .ok (h', 2) ∧ (h'.cell 3).map (fun c => (c.map, c.data.scanPtr)) = some (some 2, none) ∧
    (h'.cell 1).map (fun c => c.data.scanPtr) = some (some 7) := by
  refine ⟨fun a b c d x h1 h2 _ _ => ?_, _, rfl, rfl, rfl⟩
  simp only [scanned] at h1 h2
  split_ifs at h1 h2 with p q
  rw [p, q]

end Verif.Copy
