import Verif.FourEight.StartFaces

/-!
# Nodes without holes
-/

namespace Verif.FourEight
open Verif Verif.CellImage

section
variable {m : Map}

theorem fin_71 (δ : Fin 8) : δ + 7 + 1 = δ := by revert δ; decide
theorem fin_72 (δ : Fin 8) : δ + 7 + 2 = δ + 1 := by revert δ; decide

/-- no dart is hidden in a hole -/
theorem oneRim_of_noHoles (hc : Clean m) (hno : NoCorner m) (hnl : NodesLabelled m) (hn : NoHoles m) : OneRim m := by
  rw [oneRim_walk hc hno hnl]
  intro x y d hf hd hl
  have h4 : (4 : Fin 8).val % 2 = 0 := by decide
  by_cases ho : d.dir.val % 2 = 1
  · obtain ⟨b1, b2⟩ := hd.between ho
    have hev : ¬(d.dir + 7).val % 2 = 1 := by generalize d.dir = δ at ho; revert δ; decide
    obtain ⟨n, hn⟩ := hn x y ⟨d.x, d.y, d.dir + 7⟩ hf ⟨hd.inside, hd.node, by show (d.dir + 7).val % 2 = 0; omega, by
      show (m.look d.x d.y (d.dir + 7)).1 ≠ _; rw [b2]; decide⟩ hl
    obtain ⟨j, hj⟩ := cracks_walk (m := m) n (d := ⟨x, y, 4⟩) h4
    refine ⟨j + 1, ?_⟩
    rw [Function.iterate_succ_apply', ← hj, hn, walk_t hev (by rw [fin_71, hd.edge]; decide) (by rw [fin_72, b1]; decide), fin_71]
  · obtain ⟨n, hn⟩ := hn x y d hf ⟨hd.inside, hd.node, by omega, by rw [hd.edge]; decide⟩ hl
    obtain ⟨j, hj⟩ := cracks_walk (m := m) n (d := ⟨x, y, 4⟩) h4
    exact ⟨j, by rw [← hj, hn]⟩

theorem nextCrack_node {d : Dart} (hc : Clean m) (hi : m.inside d.x d.y) (hv : (m.px d.x d.y).1 = .vertex) :
    m.inside (nextCrack m d).x (nextCrack m d).y ∧ (m.px (nextCrack m d).x (nextCrack m d).y).1 = .vertex := by
  have hnear := hc.near hi (by rw [hv]; decide)
  unfold nextCrack
  by_cases h1 : (m.look d.x d.y (d.dir + 1)).1 = .vertex
  · rw [if_pos h1]; exact ⟨hnear _, h1⟩
  rw [if_neg h1]
  by_cases h2 : (m.look d.x d.y (d.dir + 2)).1 = .vertex
  · rw [if_pos h2]; exact ⟨hnear _, h2⟩
  · rw [if_neg h2]; exact ⟨hi, hv⟩

theorem cracks_node {d : Dart} (hc : Clean m) (hi : m.inside d.x d.y) (hv : (m.px d.x d.y).1 = .vertex) (n : Nat) :
    m.inside ((nextCrack m)^[n] d).x ((nextCrack m)^[n] d).y ∧ (m.px ((nextCrack m)^[n] d).x ((nextCrack m)^[n] d).y).1 = .vertex := by
  induction n with
  | zero => exact ⟨hi, hv⟩
  | succ n ih =>
    rw [Function.iterate_succ_apply']
    exact nextCrack_node hc ih.1 ih.2

theorem cracks_single {x y : Int} (h : ∀ k, (m.look x y k).1 ≠ .vertex) (n : Nat) (δ : Fin 8) :
    ∃ ε : Fin 8, (nextCrack m)^[n] ⟨x, y, δ⟩ = ⟨x, y, ε⟩ ∧ ε.val = (δ.val + 2 * n) % 8 := by
  induction n with
  | zero => exact ⟨δ, rfl, by rw [Nat.mul_zero, Nat.add_zero, Nat.mod_eq_of_lt δ.isLt]⟩
  | succ n ih =>
    obtain ⟨ε, h1, h2⟩ := ih
    refine ⟨ε + 2, ?_, ?_⟩
    · rw [Function.iterate_succ_apply', h1]
      unfold nextCrack
      dsimp only
      rw [if_neg (h _), if_neg (h _)]
    · have : (ε + 2).val = (ε.val + 2) % 8 := by clear * -; revert ε; decide
      rw [this]; omega

/-- new nodes that consist of one pixel have no holes -/
theorem noHoles_grown {m' : Map} {N : Nat} (hc : Clean m) (hc' : Clean m')
    (hnl' : NodesLabelled m') (hw : m'.w = m.w) (hh : m'.h = m.h)
    (hlab : ∀ x y, m.inside x y → (m.px x y).1 = .vertex → (m.px x y).2 ≤ N)
    (hold : ∀ x y, m.inside x y → (m.px x y).1 = .vertex → m'.px x y = m.px x y)
    (hnew : ∀ x y, m.inside x y → (m'.px x y).1 = (m.px x y).1 ∨ (m'.px x y).1 = .vertex ∧ (m.px x y).1 ≠ .vertex ∧ N < (m'.px x y).2 ∧
      ∀ x' y', m.inside x' y' → m'.px x' y' = m'.px x y → x' = x ∧ y' = y) (ho : NoHoles m) : NoHoles m' := by
  have hin : ∀ x y, m'.inside x y ↔ m.inside x y := by intro x y; unfold Map.inside; rw [hw, hh]
  have hlook : ∀ x y, m.inside x y → (m.px x y).1 = .vertex → ∀ k, (m'.look x y k).1 = (m.look x y k).1 := by
    intro x y hi hv k
    rcases hnew _ _ (hc.near hi (by rw [hv]; decide) k) with e | ⟨e1, -, e3, -⟩
    · exact e
    · exfalso
      have hp := hold x y hi hv
      have h1 : (m'.look x y k).2 = (m'.px x y).2 := hnl' x y k ((hin _ _).2 hi) (by rw [hp]; exact hv) e1
      have h2 := hlab x y hi hv
      rw [← hp, ← h1] at h2
      exact absurd h2 (not_le.2 e3)
  have hnext : ∀ {d : Dart}, m.inside d.x d.y → (m.px d.x d.y).1 = .vertex → nextCrack m' d = nextCrack m d := by
    intro d hi hv
    unfold nextCrack
    rw [hlook _ _ hi hv, hlook _ _ hi hv]
  have hvert : ∀ x y, m.inside x y → (m'.px x y).1 = .vertex → (m'.px x y).2 ≤ N → (m.px x y).1 = .vertex := by
    intro x y hi hv hl
    rcases hnew x y hi with e | ⟨-, -, e3, -⟩
    · rw [← e]; exact hv
    · omega
  intro x y d hf hd hl
  have hfi := (hin _ _).1 hf.inside
  have hdi := (hin _ _).1 hd.inside
  by_cases hv : (m.px x y).1 = .vertex
  · have hfl := hlab x y hfi hv
    have hp := hold x y hfi hv
    have hdv := hvert _ _ hdi hd.node (by rw [hl, hp]; exact hfl)
    have hd0 : Crack m d := ⟨hdi, hdv, hd.even, by rw [← hlook _ _ hdi hdv]; exact hd.out⟩
    have hf0 : FirstOf m x y := by
      refine ⟨hfi, hv, fun x' y' h1 h2 h3 => hf.first x' y' ((hin _ _).2 h1) ?_ ?_⟩
      · rw [hold x' y' h1 h2]; exact h2
      · rw [hold x' y' h1 h2, hp]; exact h3
    obtain ⟨n, hn⟩ := ho x y d hf0 hd0 (by rw [← hold _ _ hdi hdv, hl, hp])
    refine ⟨n, ?_⟩
    rw [← hn]
    clear hn
    induction n with
    | zero => rfl
    | succ n ih =>
      obtain ⟨g1, g2⟩ := cracks_node (d := ⟨x, y, 4⟩) hc hfi hv n
      rw [Function.iterate_succ_apply', Function.iterate_succ_apply', ih, hnext g1 g2]
  · rcases hnew x y hfi with e | ⟨e1, -, e3, e4⟩
    · exact absurd (e.symm.trans hf.node) hv
    have hdxy : d.x = x ∧ d.y = y := e4 _ _ hdi (Prod.ext (hd.node.trans e1.symm) hl)
    have halone : ∀ k, (m'.look x y k).1 ≠ .vertex := by
      intro k hk
      have h1 : (m'.look x y k).2 = (m'.px x y).2 := hnl' x y k hf.inside hf.node hk
      have := e4 (x + dx k) (y + dy k) ((hin _ _).1 (hc'.near hf.inside (by rw [hf.node]; decide) k)) (Prod.ext (hk.trans hf.node.symm) h1)
      rcases dir_move k with h | h <;> omega
    have hev := hd.even
    obtain ⟨ε, h1, h2⟩ := cracks_single halone (d.dir.val / 2 + 2) 4
    refine ⟨d.dir.val / 2 + 2, ?_⟩
    rw [h1]
    have : ε = d.dir := by
      apply Fin.ext
      rw [h2]
      show (4 + 2 * (d.dir.val / 2 + 2)) % 8 = _
      have := d.dir.isLt
      omega
    rw [this]
    obtain ⟨x', y', k'⟩ := d
    obtain ⟨rfl, rfl⟩ := hdxy
    rfl

/-- the largest label of nodes grows -/
theorem labelCells_maxNode {w h : Nat} {cells : Int → Int → CellType} {v : Components} {mL : Map} {N n : Nat}
    (hr : labelCells w h cells v = .ok (mL, N, n)) : v.maxNode ≤ N := by
  unfold labelCells at hr
  obtain ⟨r, -, hr⟩ := Outcome.bind_eq_ok.1 hr
  unfold labelSelfLoops at hr
  refine foldO_keep (P := fun st : Map × Nat × Nat => v.maxNode ≤ st.2.1) _ _ _ ?_ hr (le_refl _)
  intro p st st' _ hst hs
  unfold labelSelfLoop at hs
  split at hs
  · cases hs; exact hst
  · obtain ⟨r, -, hs⟩ := Outcome.bind_eq_ok.1 hs
    cases hs
    exact Nat.le_succ_of_le hst

end

end Verif.FourEight
