import Verif.FourEight.LabelTotal

/-!
# Turning around nodes, told by the walk along the rim
-/

namespace Verif.FourEight
open Verif Verif.CellImage

section
variable {m : Map}

/-- an iterated function that comes back -/
theorem iterate_period {α : Type} {f : α → α} {a : α} {p : Nat} (h : f^[p] a = a) (q r : Nat) : f^[r + q * p] a = f^[r] a := by
  induction q with
  | zero => rw [Nat.zero_mul, Nat.add_zero]
  | succ q ih => rw [Nat.succ_mul, ← Nat.add_assoc, Function.iterate_add_apply, h, ih]

/-- where the constructor of darts leads, for the first pixel of a node -/
theorem mkDart_walk (hc : Clean m) (hno : NoCorner m) (hnl : NodesLabelled m) {x y : Int} (hf : FirstOf m x y) :
    Rim m ⟨x, y, 4⟩ ∧ ∃ n, mkDart m ⟨x, y, 4⟩ = .ok ((walk m 1)^[n] ⟨x, y, 4⟩) ∧
      ∀ j, IsDart m ((walk m 1)^[j] ⟨x, y, 4⟩) → IsDart m ((walk m 1)^[n] ⟨x, y, 4⟩) := by
  have hn : (m.px x y).1 ≠ .region := by rw [hf.node]; decide
  have hearly : ∀ k : Fin 8, k = 3 ∨ k = 4 → (m.look x y k).1 ≠ .vertex := by
    intro k hk hv
    have hl := hnl x y k hf.inside hf.node hv
    have := hf.first _ _ (hc.near hf.inside hn k) hv hl
    rcases hk with rfl | rfl <;> simp [dx, dy] at this
  have hodd : ¬(4 : Fin 8).val % 2 = 1 := by decide
  have hrim : Rim m ⟨x, y, 4⟩ := ⟨hf.inside, hf.node, hearly 4 (Or.inr rfl), fun ho => absurd ho hodd⟩
  refine ⟨hrim, ?_⟩
  unfold mkDart
  have hget : m.get x y = .ok (m.px x y) := by unfold Map.get; rw [if_pos hf.inside]
  dsimp only
  rw [hget, Outcome.bind_ok, if_neg (by rw [hf.node]; decide), hc.nb (d := ⟨x, y, 4⟩) hf.inside hn, Outcome.bind_ok, add_zero,
    if_neg (hearly 4 (Or.inr rfl))]
  have hd : diagonalLoop m m.fuel ⟨x, y, 4⟩ = .ok ⟨x, y, 4⟩ := by
    unfold Map.fuel
    rw [diagonalLoop, badDiagonal_even hodd, Outcome.bind_ok, if_neg (by decide)]
  rw [hd, Outcome.bind_ok, hc.nb (d := ⟨x, y, 4⟩) hf.inside hn, Outcome.bind_ok, add_zero]
  by_cases hl : (m.look x y 4).1 = .line
  · exact ⟨0, if_neg (by simpa using hl), fun _ _ => even_dart hrim hodd hl⟩
  · have hr : (m.look x y 4).1 = .region := by
      rcases hc.look_types hf.inside hn 4 with e | e | e
      · exact absurd e (hearly 4 (Or.inr rfl))
      · exact absurd e hl
      · exact e
    obtain ⟨n, h1, h2, h3⟩ := careful_total hc hno (nend := ⟨x, y, 4⟩) hrim hr (hearly 3 (Or.inl rfl))
    refine ⟨n + 1, by rw [if_pos hl]; exact h1, fun j hj => ?_⟩
    rcases h2 with h2 | h2
    · exfalso
      have e : (walk m 1)^[j] ⟨x, y, 4⟩ = (walk m 1)^[j % (n + 1)] ⟨x, y, 4⟩ := by
        conv_lhs => rw [← Nat.mod_add_div j (n + 1), Nat.mul_comm]
        exact iterate_period h2 _ _
      rw [e] at hj
      rcases Nat.eq_zero_or_pos (j % (n + 1)) with h0 | h0
      · rw [h0] at hj
        exact hl hj.edge
      · exact h3 _ h0 (Nat.mod_lt _ (by omega)) (Or.inr hj)
    · exact h2

/-- darts on the walk are found by turning -/
theorem sigmas_walk (hc : Clean m) (hno : NoCorner m) (i : Nat) : ∀ {a : Dart}, IsDart m a → IsDart m ((walk m 1)^[i] a) →
    ∃ n, sigmas m n a = .ok ((walk m 1)^[i] a) := by
  induction i using Nat.strong_induction_on with
  | _ i ih =>
    intro a ha hd
    rcases Nat.eq_zero_or_pos i with rfl | h0
    · exact ⟨0, rfl⟩
    obtain ⟨n, h1, h2⟩ := first_dart hc (k := 1) (Or.inl rfl) ha
    have hle : n + 1 ≤ i := by
      by_contra hlt
      exact h2 i h0 (by omega) hd
    have e : (walk m 1)^[i] a = (walk m 1)^[i - (n + 1)] ((walk m 1)^[n + 1] a) := by
      rw [← Function.iterate_add_apply, Nat.sub_add_cancel hle]
    rw [e] at hd ⊢
    obtain ⟨k, hk⟩ := ih (i - (n + 1)) (by omega) h1 hd
    exact ⟨k + 1, by rw [sigmas_head, sigma_walk hc hno (Or.inl rfl) n ha h1 h2, Outcome.bind_ok]; exact hk⟩

theorem sigmas_on_walk (hc : Clean m) (hno : NoCorner m) (n : Nat) : ∀ {a d : Dart}, IsDart m a → sigmas m n a = .ok d →
    ∃ i, (walk m 1)^[i] a = d := by
  induction n with
  | zero => intro a d _ h; cases h; exact ⟨0, rfl⟩
  | succ n ih =>
    intro a d ha h
    obtain ⟨k, h1, h2⟩ := first_dart hc (k := 1) (Or.inl rfl) ha
    rw [sigmas_head, sigma_walk hc hno (Or.inl rfl) k ha h1 h2, Outcome.bind_ok] at h
    obtain ⟨i, hi⟩ := ih h1 h
    exact ⟨i + (k + 1), by rw [Function.iterate_add_apply]; exact hi⟩

/-- `OneRim`, told by the walk -/
theorem oneRim_walk (hc : Clean m) (hno : NoCorner m) (hnl : NodesLabelled m) :
    OneRim m ↔ ∀ x y d, FirstOf m x y → IsDart m d → (m.px d.x d.y).2 = (m.px x y).2 → ∃ n, (walk m 1)^[n] ⟨x, y, 4⟩ = d := by
  constructor
  · intro ho x y d hf hd hl
    obtain ⟨a, n, ha, hn⟩ := ho x y d hf hd hl
    obtain ⟨-, k, h1, h2⟩ := mkDart_walk hc hno hnl hf
    obtain ⟨ai, av, ad⟩ := mkDart_west hc ha
    rw [ha] at h1
    have hak := Outcome.ok.inj h1
    have hda : IsDart m a := by
      by_cases hline : (m.look a.x a.y a.dir).1 = .line
      · exact ad hline
      · have hs : sigma m 1 a = .ok a := by
          unfold sigma
          rw [hc.nb ai (by rw [av]; decide), Outcome.bind_ok, add_zero, if_pos hline]
        have : ∀ n, sigmas m n a = .ok a := by
          intro n
          induction n with
          | zero => rfl
          | succ n ih => rw [sigmas, ih, Outcome.bind_ok, hs]
        rw [this n] at hn
        obtain rfl := Outcome.ok.inj hn
        exact hd
    obtain ⟨i, hi⟩ := sigmas_on_walk hc hno n hda hn
    exact ⟨i + k, by rw [Function.iterate_add_apply, ← hak]; exact hi⟩
  · intro hw x y d hf hd hl
    obtain ⟨j, hj⟩ := hw x y d hf hd hl
    obtain ⟨hrim, k, h1, h2⟩ := mkDart_walk hc hno hnl hf
    have hda := h2 j (by rw [hj]; exact hd)
    obtain ⟨p, hp, e⟩ := walk_returns hc (Or.inl rfl : IsTurn 1) hrim
    have hkp : k ≤ k * p := Nat.le_mul_of_pos_right k hp
    have he : (walk m 1)^[j + k * p - k] ((walk m 1)^[k] ⟨x, y, 4⟩) = d := by
      rw [← Function.iterate_add_apply, show j + k * p - k + k = j + k * p by omega, iterate_period e, hj]
    obtain ⟨n, hn⟩ := sigmas_walk hc hno (j + k * p - k) hda (by rw [he]; exact hd)
    exact ⟨_, n, h1, by rw [hn, he]⟩

/-- the anchor of a node with darts is a dart -/
theorem oneRim_dart (hc : Clean m) (hno : NoCorner m) (hnl : NodesLabelled m) (ho : OneRim m) {x y : Int} {d a : Dart} (hf : FirstOf m x y)
    (hd : IsDart m d) (hl : (m.px d.x d.y).2 = (m.px x y).2) (ha : mkDart m ⟨x, y, 4⟩ = .ok a) : IsDart m a := by
  obtain ⟨j, hj⟩ := (oneRim_walk hc hno hnl).1 ho x y d hf hd hl
  obtain ⟨-, k, h1, h2⟩ := mkDart_walk hc hno hnl hf
  rw [ha] at h1
  rw [Outcome.ok.inj h1]
  exact h2 j (by rw [hj]; exact hd)

/-- the walk around a single pixel -/
theorem walk_single {x y : Int} (h : ∀ k, (m.look x y k).1 ≠ .vertex) (i : Nat) (δ : Fin 8) :
    ∃ ε : Fin 8, (walk m 1)^[i] ⟨x, y, δ⟩ = ⟨x, y, ε⟩ ∧ ε.val = (δ.val + i) % 8 := by
  induction i with
  | zero => exact ⟨δ, rfl, by rw [Nat.add_zero, Nat.mod_eq_of_lt δ.isLt]⟩
  | succ i ih =>
    obtain ⟨ε, h1, h2⟩ := ih
    refine ⟨ε + 1, ?_, ?_⟩
    · rw [Function.iterate_succ_apply', h1]
      unfold walk
      dsimp only
      split
      · rfl
      · rw [if_neg (h _), if_neg (h _)]; rfl
    · rw [Fin.val_add, h2]
      show ((δ.val + i) % 8 + 1) % 8 = _
      omega

/-- New nodes of one pixel beside edges without old nodes change nothing for the old nodes. -/
theorem oneRim_grown {m' : Map} {N : Nat} (hc : Clean m) (hno : NoCorner m) (hnl : NodesLabelled m) (hc' : Clean m') (hno' : NoCorner m')
    (hnl' : NodesLabelled m') (hw : m'.w = m.w) (hh : m'.h = m.h)
    (hlab : ∀ x y, m.inside x y → (m.px x y).1 = .vertex → (m.px x y).2 ≤ N)
    (hold : ∀ x y, m.inside x y → (m.px x y).1 = .vertex → m'.px x y = m.px x y)
    (hnew : ∀ x y, m.inside x y → (m'.px x y).1 = (m.px x y).1 ∨ (m'.px x y).1 = .vertex ∧ (m.px x y).1 ≠ .vertex ∧ N < (m'.px x y).2 ∧
      ∀ x' y', m.inside x' y' → m'.px x' y' = m'.px x y → x' = x ∧ y' = y) (ho : OneRim m) : OneRim m' := by
  have hin : ∀ x y, m'.inside x y ↔ m.inside x y := by intro x y; unfold Map.inside; rw [hw, hh]
  rw [oneRim_walk hc hno hnl] at ho
  rw [oneRim_walk hc' hno' hnl']
  have hlook : ∀ x y, m.inside x y → (m.px x y).1 = .vertex → ∀ k, (m'.look x y k).1 = (m.look x y k).1 := by
    intro x y hi hv k
    rcases hnew _ _ (hc.near hi (by rw [hv]; decide) k) with e | ⟨e1, -, e3, -⟩
    · exact e
    · exfalso
      have hp := hold x y hi hv
      have h1 : (m'.look x y k).2 = (m'.px x y).2 := hnl' x y k ((hin _ _).2 hi) (by rw [hp]; exact hv) e1
      have h2 := hlab x y hi hv
      rw [← hp, ← h1] at h2
      exact absurd h2 (not_le.2 e3)
  have hwalk : ∀ {d : Dart}, Rim m d → walk m' 1 d = walk m 1 d := by
    intro d hd
    unfold walk
    rw [hlook _ _ hd.inside hd.node, hlook _ _ hd.inside hd.node]
  have hvert : ∀ x y, m.inside x y → (m'.px x y).1 = .vertex → (m'.px x y).2 ≤ N → (m.px x y).1 = .vertex := by
    intro x y hi hv hl
    rcases hnew x y hi with e | ⟨-, -, e3, -⟩
    · rw [← e]; exact hv
    · omega
  intro x y d hf hd hl
  have hfi := (hin _ _).1 hf.inside
  have hdi := (hin _ _).1 hd.inside
  by_cases hv : (m.px x y).1 = .vertex
  · have hfl := hlab x y hfi hv
    have hp := hold x y hfi hv
    have hdv := hvert _ _ hdi hd.node (by rw [hl, hp]; exact hfl)
    have hd0 : IsDart m d := by
      refine ⟨hdi, hdv, by rw [← hlook _ _ hdi hdv]; exact hd.edge, fun hodd => ?_⟩
      rw [← hlook _ _ hdi hdv, ← hlook _ _ hdi hdv]
      exact hd.between hodd
    have hf0 : FirstOf m x y := by
      refine ⟨hfi, hv, fun x' y' h1 h2 h3 => hf.first x' y' ((hin _ _).2 h1) ?_ ?_⟩
      · rw [hold x' y' h1 h2]; exact h2
      · rw [hold x' y' h1 h2, hp]; exact h3
    obtain ⟨n, hn⟩ := ho x y d hf0 hd0 (by rw [← hold _ _ hdi hdv, hl, hp])
    obtain ⟨hrim, -⟩ := mkDart_walk hc hno hnl hf0
    refine ⟨n, ?_⟩
    rw [← hn]
    clear hn
    induction n with
    | zero => rfl
    | succ n ih => rw [Function.iterate_succ_apply', Function.iterate_succ_apply', ih, hwalk (iter_rim hc (Or.inl rfl) hrim n)]
  · rcases hnew x y hfi with e | ⟨e1, -, e3, e4⟩
    · exact absurd (e.symm.trans hf.node) hv
    have hdxy : d.x = x ∧ d.y = y := e4 _ _ hdi (Prod.ext (hd.node.trans e1.symm) hl)
    have halone : ∀ k, (m'.look x y k).1 ≠ .vertex := by
      intro k hk
      have h1 : (m'.look x y k).2 = (m'.px x y).2 := hnl' x y k hf.inside hf.node hk
      have := e4 (x + dx k) (y + dy k) ((hin _ _).1 (hc'.near hf.inside (by rw [hf.node]; decide) k)) (Prod.ext (hk.trans hf.node.symm) h1)
      rcases dir_move k with h | h <;> omega
    obtain ⟨ε, h1, h2⟩ := walk_single halone (d.dir.val + 4) 4
    refine ⟨d.dir.val + 4, ?_⟩
    rw [h1]
    have : ε = d.dir := by
      apply Fin.ext
      rw [h2]
      show (4 + (d.dir.val + 4)) % 8 = _
      have := d.dir.isLt
      omega
    rw [this]
    obtain ⟨x', y', k'⟩ := d
    obtain ⟨rfl, rfl⟩ := hdxy
    rfl

end

end Verif.FourEight
