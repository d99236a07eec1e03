import Verif.FourEight.DartTrace

/-!
# The faces beside a dart
-/

namespace Verif.FourEight
open Verif Verif.CellImage

section
variable {m : Map}

/-- the label `leftFaceLabel` reads -/
def leftL (m : Map) (d : Dart) : Nat :=
  if (m.look d.x d.y (d.dir + 1)).1 = .region then (m.look d.x d.y (d.dir + 1)).2 else (m.look d.x d.y (d.dir + 2)).2

/-- the label `rightFaceLabel` reads -/
def rightL (m : Map) (d : Dart) : Nat :=
  if (m.look d.x d.y (d.dir + 7)).1 = .region then (m.look d.x d.y (d.dir + 7)).2 else (m.look d.x d.y (d.dir + 6)).2

theorem leftFace_eq (hc : Clean m) {d : Dart} (hi : m.inside d.x d.y) (hn : (m.px d.x d.y).1 ≠ .region) :
    leftFace m d = .ok (leftL m d) := by
  unfold leftFace leftL
  rw [hc.nb hi hn, Outcome.bind_ok]
  split
  · rfl
  · rw [hc.nb hi hn]; rfl

theorem rightFace_eq (hc : Clean m) {d : Dart} (hi : m.inside d.x d.y) (hn : (m.px d.x d.y).1 ≠ .region) :
    rightFace m d = .ok (rightL m d) := by
  unfold rightFace rightL
  rw [hc.nb hi hn, Outcome.bind_ok]
  split
  · rfl
  · rw [hc.nb hi hn]; rfl

theorem dir_ring (j : Fin 8) : ∃ g : Fin 8, g.val % 2 = 0 ∧ dx j + dx g = dx (j + 1) ∧ dy j + dy g = dy (j + 1) := by revert j; decide

/-- neighbouring pixels around a pixel -/
theorem ring_label (hc : Clean m) (hf : FacesLabelled m) {x y : Int} (hi : m.inside x y) (hn : (m.px x y).1 ≠ .region) (j : Fin 8)
    (h1 : (m.look x y j).1 = .region) (h2 : (m.look x y (j + 1)).1 = .region) : (m.look x y (j + 1)).2 = (m.look x y j).2 := by
  obtain ⟨g, hg, he⟩ := dir_ring j
  have hin := hc.near hi hn (j + 1)
  have := hf (x + dx j) (y + dy j) g hg (hc.near hi hn j)
    (by rw [add_assoc, add_assoc, he.1, he.2]; exact hin) h1 (by rw [look_shift he]; exact h2)
  rw [look_shift he] at this
  exact this

theorem arc_label (hc : Clean m) (hf : FacesLabelled m) {x y : Int} (hi : m.inside x y) (hn : (m.px x y).1 ≠ .region) (i : Fin 8) (k : Nat)
    (h : arc (bg (ringOf m x y)) i k = true) :
    (m.look x y (i + Fin.ofNat 8 k)).1 = .region ∧ (m.look x y (i + Fin.ofNat 8 k)).2 = (m.look x y i).2 := by
  have hbg : ∀ j, bg (ringOf m x y) j = true → (m.look x y j).1 = .region := fun j hj => by
    unfold bg at hj
    rw [Bool.not_eq_true'] at hj
    exact ringOf_false.1 hj
  induction k with
  | zero =>
    have e : i + Fin.ofNat 8 0 = i := by simp
    rw [e]
    exact ⟨hbg _ h, rfl⟩
  | succ k ih =>
    have h' := h
    simp only [arc, Bool.and_eq_true] at h'
    obtain ⟨h1, h2⟩ := ih h'.1
    have h3 := hbg _ h'.2
    rw [ofNat_succ] at h3 ⊢
    exact ⟨h3, by rw [ring_label hc hf hi hn _ h1 h3, h2]⟩

theorem arcTo_label (hc : Clean m) (hf : FacesLabelled m) {x y : Int} (hi : m.inside x y) (hn : (m.px x y).1 ≠ .region) {i j : Fin 8}
    (h : arcTo (bg (ringOf m x y)) i j = true) : (m.look x y j).2 = (m.look x y i).2 := by
  have := (arc_label hc hf hi hn i _ h).2
  rwa [add_sub_val] at this

/- directions, seen from the other end -/
theorem dir_o6 {δ : Fin 8} (h : ¬δ.val % 2 = 1) : dx δ + dx (δ + 4 + 6) = dx (δ + 1) ∧ dy δ + dy (δ + 4 + 6) = dy (δ + 1) := by
  revert h; revert δ; decide
theorem dir_o7 {δ : Fin 8} (h : ¬δ.val % 2 = 1) : dx δ + dx (δ + 4 + 7) = dx (δ + 2) ∧ dy δ + dy (δ + 4 + 7) = dy (δ + 2) := by
  revert h; revert δ; decide
theorem dir_o2 {δ : Fin 8} (h : ¬δ.val % 2 = 1) : dx δ + dx (δ + 4 + 2) = dx (δ + 7) ∧ dy δ + dy (δ + 4 + 2) = dy (δ + 7) := by
  revert h; revert δ; decide
theorem dir_o1 {δ : Fin 8} (h : ¬δ.val % 2 = 1) : dx δ + dx (δ + 4 + 1) = dx (δ + 6) ∧ dy δ + dy (δ + 4 + 1) = dy (δ + 6) := by
  revert h; revert δ; decide

/-- left of the way into a pixel -/
theorem leftL_in {d : Dart} (h : Link m d) :
    leftL m d = (m.look d.swap.x d.swap.y (leftIn (ringOf m d.swap.x d.swap.y) d.swap.dir)).2 := by
  obtain ⟨x, y, δ⟩ := d
  unfold leftL leftIn
  show _ = (m.look (x + dx δ) (y + dy δ) (if (δ + 4).val % 2 = 1 then δ + 4 + 7 else
    if ringOf m (x + dx δ) (y + dy δ) (δ + 4 + 6) = true then δ + 4 + 7 else δ + 4 + 6)).2
  rw [par_opp]
  by_cases ho : δ.val % 2 = 1
  · rw [if_pos ho, if_pos (h.between ho).1, look_shift (dir_between7 ho)]
  · rw [if_neg ho]
    dsimp only
    by_cases h1 : (m.look x y (δ + 1)).1 = .region
    · rw [if_pos h1, if_neg, look_shift (dir_o6 ho)]
      rw [ringOf_true, look_shift (dir_o6 ho)]
      exact fun hh => hh h1
    · rw [if_neg h1, if_pos, look_shift (dir_o7 ho)]
      rw [ringOf_true, look_shift (dir_o6 ho)]
      exact h1

/-- right of the way into a pixel -/
theorem rightL_in {d : Dart} (h : Link m d) :
    rightL m d = (m.look d.swap.x d.swap.y (rightIn (ringOf m d.swap.x d.swap.y) d.swap.dir)).2 := by
  obtain ⟨x, y, δ⟩ := d
  unfold rightL rightIn
  show _ = (m.look (x + dx δ) (y + dy δ) (if (δ + 4).val % 2 = 1 then δ + 4 + 1 else
    if ringOf m (x + dx δ) (y + dy δ) (δ + 4 + 2) = true then δ + 4 + 1 else δ + 4 + 2)).2
  rw [par_opp]
  by_cases ho : δ.val % 2 = 1
  · rw [if_pos ho, if_pos (h.between ho).2, look_shift (dir_between1 ho)]
  · rw [if_neg ho]
    dsimp only
    by_cases h1 : (m.look x y (δ + 7)).1 = .region
    · rw [if_pos h1, if_neg, look_shift (dir_o2 ho)]
      rw [ringOf_true, look_shift (dir_o2 ho)]
      exact fun hh => hh h1
    · rw [if_neg h1, if_pos, look_shift (dir_o1 ho)]
      rw [ringOf_true, look_shift (dir_o2 ho)]
      exact h1

theorem leftL_out (d : Dart) : leftL m d = (m.look d.x d.y (leftOut (ringOf m d.x d.y) d.dir)).2 := by
  unfold leftL leftOut
  by_cases h1 : (m.look d.x d.y (d.dir + 1)).1 = .region
  · rw [if_pos h1, if_neg (fun hh => ringOf_true.1 hh h1)]
  · rw [if_neg h1, if_pos (ringOf_true.2 h1)]

theorem rightL_out (d : Dart) : rightL m d = (m.look d.x d.y (rightOut (ringOf m d.x d.y) d.dir)).2 := by
  unfold rightL rightOut
  by_cases h1 : (m.look d.x d.y (d.dir + 7)).1 = .region
  · rw [if_pos h1, if_neg (fun hh => ringOf_true.1 hh h1)]
  · rw [if_neg h1, if_pos (ringOf_true.2 h1)]

/-- the sides do not change along an edge -/
theorem sides_next (hc : Clean m) (ht : Traceable m) (hf : FacesLabelled m) {d : Dart} (h : Link m d)
    (hl : (m.look d.x d.y d.dir).1 = .line) : leftL m (nextD m d) = leftL m d ∧ rightL m (nextD m d) = rightL m d := by
  obtain ⟨h1, h2, h3, h4⟩ := nextD_spec hc ht h hl
  have hs := h.swap hc
  have hcl : cellConf .line (ringOf m d.swap.x d.swap.y) = .line := ht _ _ hs.inside hl
  obtain ⟨ha, hb⟩ := table_sides _ hcl _ _ ((link_iff hs.inside hs.here).1 hs) h4
  rw [leftL_out, rightL_out, leftL_in h, rightL_in h]
  exact ⟨(arcTo_label hc hf hs.inside hs.here ha).symm, arcTo_label hc hf hs.inside hs.here hb⟩

theorem sides_iter (hc : Clean m) (ht : Traceable m) (hf : FacesLabelled m) {d : Dart} (h : Link m d) (n : Nat)
    (hl : ∀ i < n, (m.look ((nextD m)^[i] d).x ((nextD m)^[i] d).y ((nextD m)^[i] d).dir).1 = .line) :
    leftL m ((nextD m)^[n] d) = leftL m d ∧ rightL m ((nextD m)^[n] d) = rightL m d := by
  induction n with
  | zero => exact ⟨rfl, rfl⟩
  | succ n ih =>
    rw [Function.iterate_succ_apply']
    obtain ⟨h1, h2⟩ := sides_next hc ht hf (iter_link hc ht h n fun i hi => hl i (by omega)) (hl n (by omega))
    obtain ⟨h3, h4⟩ := ih fun i hi => hl i (by omega)
    exact ⟨h1.trans h3, h2.trans h4⟩

/-- what is left in one direction is right in the other one -/
theorem sides_swap (hc : Clean m) (ht : Traceable m) (hf : FacesLabelled m) {d : Dart} (h : Link m d)
    (hl : (m.px d.x d.y).1 = .line) : rightL m d.swap = leftL m d ∧ leftL m d.swap = rightL m d := by
  have hcl : cellConf .line (ringOf m d.x d.y) = .line := ht _ _ h.inside hl
  obtain ⟨-, -, hlo, hro⟩ := table_free _ hcl _ ((link_iff h.inside h.here).1 h)
  obtain ⟨x, y, δ⟩ := d
  unfold leftOut at hlo
  unfold rightOut at hro
  unfold leftL rightL
  dsimp only at hlo hro
  show (if (m.look (x + dx δ) (y + dy δ) (δ + 4 + 7)).1 = .region then (m.look (x + dx δ) (y + dy δ) (δ + 4 + 7)).2
      else (m.look (x + dx δ) (y + dy δ) (δ + 4 + 6)).2) = (if (m.look x y (δ + 1)).1 = .region then (m.look x y (δ + 1)).2
      else (m.look x y (δ + 2)).2) ∧
    (if (m.look (x + dx δ) (y + dy δ) (δ + 4 + 1)).1 = .region then (m.look (x + dx δ) (y + dy δ) (δ + 4 + 1)).2
      else (m.look (x + dx δ) (y + dy δ) (δ + 4 + 2)).2) = (if (m.look x y (δ + 7)).1 = .region then (m.look x y (δ + 7)).2
      else (m.look x y (δ + 6)).2)
  by_cases ho : δ.val % 2 = 1
  · obtain ⟨hb1, hb7⟩ := h.between ho
    rw [look_shift (dir_between7 ho), look_shift (dir_between1 ho), if_pos hb1, if_pos hb7]
    dsimp only at hb1 hb7
    rw [if_pos hb1, if_pos hb7]
    exact ⟨rfl, rfl⟩
  · rw [look_shift (dir_o7 ho), look_shift (dir_o6 ho), look_shift (dir_o1 ho), look_shift (dir_o2 ho)]
    have hr1 := ring_label hc hf h.inside h.here (δ + 1)
    have hr6 := ring_label hc hf h.inside h.here (δ + 6)
    have e2 : δ + 1 + 1 = δ + 2 := by clear * -; revert δ; decide
    have e7 : δ + 6 + 1 = δ + 7 := by clear * -; revert δ; decide
    rw [e2] at hr1
    rw [e7] at hr6
    dsimp only at hr1 hr6
    constructor
    · by_cases h2 : (m.look x y (δ + 2)).1 = .region
      · rw [if_pos h2]
        by_cases h1 : (m.look x y (δ + 1)).1 = .region
        · rw [if_pos h1, hr1 h1 h2]
        · rw [if_neg h1]
      · rw [if_neg h2]
        by_cases h1 : (m.look x y (δ + 1)).1 = .region
        · rw [if_pos h1]
        · rw [if_pos (ringOf_true.2 h1)] at hlo
          exact absurd (ringOf_false.1 hlo) h2
    · by_cases h6 : (m.look x y (δ + 6)).1 = .region
      · rw [if_pos h6]
        by_cases h7 : (m.look x y (δ + 7)).1 = .region
        · rw [if_pos h7, hr6 h6 h7]
        · rw [if_neg h7]
      · rw [if_neg h6]
        by_cases h7 : (m.look x y (δ + 7)).1 = .region
        · rw [if_pos h7]
        · rw [if_pos (ringOf_true.2 h7)] at hro
          exact absurd (ringOf_false.1 hro) h6

/-- beside a dart there are faces -/
theorem dart_sides (hc : Clean m) (ht : Traceable m) {d : Dart} (h : IsDart m d) :
    (∃ j, m.look d.x d.y j = (.region, leftL m d)) ∧ (∃ j, m.look d.x d.y j = (.region, rightL m d)) ∧
    (¬d.dir.val % 2 = 1 → (m.look d.x d.y (d.dir + 1)).1 ≠ .region → (m.look d.x d.y (d.dir + 2)).1 = .region) ∧
    (¬d.dir.val % 2 = 1 → (m.look d.x d.y (d.dir + 7)).1 ≠ .region → (m.look d.x d.y (d.dir + 6)).1 = .region) := by
  have hs := h.link.swap hc
  have hcl : cellConf .line (ringOf m d.swap.x d.swap.y) = .line := ht _ _ hs.inside h.edge
  obtain ⟨hli, hri, -, -⟩ := table_free _ hcl _ ((link_iff hs.inside hs.here).1 hs)
  obtain ⟨x, y, δ⟩ := d
  have key1 : ¬δ.val % 2 = 1 → (m.look x y (δ + 1)).1 ≠ .region → (m.look x y (δ + 2)).1 = .region := by
    intro he h1
    unfold leftIn at hli
    rw [if_neg (by
      show ¬(δ + 4).val % 2 = 1
      rw [par_opp]; exact he)] at hli
    change ringOf m (x + dx δ) (y + dy δ) (if ringOf m (x + dx δ) (y + dy δ) (δ + 4 + 6) = true then δ + 4 + 7 else δ + 4 + 6) = false at hli
    rw [if_pos (by rw [ringOf_true, look_shift (dir_o6 he)]; exact h1), ringOf_false, look_shift (dir_o7 he)] at hli
    exact hli
  have key2 : ¬δ.val % 2 = 1 → (m.look x y (δ + 7)).1 ≠ .region → (m.look x y (δ + 6)).1 = .region := by
    intro he h1
    unfold rightIn at hri
    rw [if_neg (by
      show ¬(δ + 4).val % 2 = 1
      rw [par_opp]; exact he)] at hri
    change ringOf m (x + dx δ) (y + dy δ) (if ringOf m (x + dx δ) (y + dy δ) (δ + 4 + 2) = true then δ + 4 + 1 else δ + 4 + 2) = false at hri
    rw [if_pos (by rw [ringOf_true, look_shift (dir_o2 he)]; exact h1), ringOf_false, look_shift (dir_o1 he)] at hri
    exact hri
  refine ⟨?_, ?_, key1, key2⟩
  · unfold leftL
    by_cases h1 : (m.look x y (δ + 1)).1 = .region
    · exact ⟨δ + 1, by dsimp only; rw [if_pos h1]; exact Prod.ext h1 rfl⟩
    · refine ⟨δ + 2, ?_⟩
      dsimp only
      rw [if_neg h1]
      refine Prod.ext (key1 (fun ho => h1 (h.between ho).1) h1) rfl
  · unfold rightL
    by_cases h1 : (m.look x y (δ + 7)).1 = .region
    · exact ⟨δ + 7, by dsimp only; rw [if_pos h1]; exact Prod.ext h1 rfl⟩
    · refine ⟨δ + 6, ?_⟩
      dsimp only
      rw [if_neg h1]
      refine Prod.ext (key2 (fun ho => h1 (h.between ho).2) h1) rfl

/-! ## between two darts of a node -/

theorem dir_a {δ : Fin 8} (h : ¬δ.val % 2 = 1) : dx (δ + 2) + dx (δ + 7) = dx δ ∧ dy (δ + 2) + dy (δ + 7) = dy δ := by
  revert h; revert δ; decide

theorem fin_17 (δ : Fin 8) : δ + 1 + 7 = δ := by revert δ; decide
theorem fin_26 (δ : Fin 8) : δ + 2 + 6 = δ := by revert δ; decide
theorem fin_27 (δ : Fin 8) : δ + 2 + 7 = δ + 1 := by revert δ; decide
theorem fin_11 (δ : Fin 8) : δ + 1 + 1 = δ + 2 := by revert δ; decide
theorem par1 {δ : Fin 8} : (δ + 1).val % 2 = 1 ↔ ¬δ.val % 2 = 1 := by revert δ; decide
theorem par2 {δ : Fin 8} : (δ + 2).val % 2 = 1 ↔ δ.val % 2 = 1 := by revert δ; decide
theorem two_one : (2 : Fin 8) * 1 = 2 := by decide

theorem walk_odd {x y : Int} {δ : Fin 8} (h : δ.val % 2 = 1) : walk m 1 ⟨x, y, δ⟩ = ⟨x, y, δ + 1⟩ := by
  unfold walk; rw [if_pos h]; rfl

theorem walk_q {x y : Int} {δ : Fin 8} (h : ¬δ.val % 2 = 1) (hq : (m.look x y (δ + 1)).1 = .vertex) :
    walk m 1 ⟨x, y, δ⟩ = ⟨x + dx (δ + 1), y + dy (δ + 1), δ + 4 + 2 * 1⟩ := by
  unfold walk; dsimp only; rw [if_neg h, if_pos hq]

theorem walk_r {x y : Int} {δ : Fin 8} (h : ¬δ.val % 2 = 1) (hq : ¬(m.look x y (δ + 1)).1 = .vertex)
    (hr : (m.look x y (δ + 2)).1 = .vertex) : walk m 1 ⟨x, y, δ⟩ = ⟨x + dx (δ + 2), y + dy (δ + 2), δ⟩ := by
  unfold walk; dsimp only; rw [two_one, if_neg h, if_neg hq, if_pos hr]

theorem walk_t {x y : Int} {δ : Fin 8} (h : ¬δ.val % 2 = 1) (hq : ¬(m.look x y (δ + 1)).1 = .vertex)
    (hr : ¬(m.look x y (δ + 2)).1 = .vertex) : walk m 1 ⟨x, y, δ⟩ = ⟨x, y, δ + 1⟩ := by
  unfold walk; dsimp only; rw [two_one, if_neg h, if_neg hq, if_neg hr]; rfl

theorem one_turn : IsTurn 1 := Or.inl rfl

/-- from a position that looks at a face to the next dart -/
theorem sector (hc : Clean m) (hf : FacesLabelled m) (l : Nat) (n : Nat) : ∀ {s : Dart}, Rim m s →
    m.look s.x s.y s.dir = (.region, l) → IsDart m ((walk m 1)^[n + 1] s) →
    (∀ i, 0 < i → i < n + 1 → ¬IsDart m ((walk m 1)^[i] s)) → rightL m ((walk m 1)^[n + 1] s) = l := by
  induction n using Nat.strong_induction_on with
  | _ n ih =>
    intro s h hl hd hno
    have hrim := walk_rim hc one_turn h
    -- if the next position looks at the face again
    have again : m.look (walk m 1 s).x (walk m 1 s).y (walk m 1 s).dir = (.region, l) → rightL m ((walk m 1)^[n + 1] s) = l := by
      intro hl'
      have hnd : ¬IsDart m (walk m 1 s) := fun hh => by
        have := hh.edge
        rw [hl'] at this
        exact absurd this (by simp)
      rcases Nat.eq_zero_or_pos n with rfl | hn
      · exact absurd hd hnd
      · obtain ⟨n', rfl⟩ : ∃ n', n = n' + 1 := ⟨n - 1, by omega⟩
        exact ih n' (by omega) hrim hl' hd (fun i h0 hi => hno (i + 1) (by omega) (by omega))
    -- if it is a dart
    have stop : IsDart m (walk m 1 s) → rightL m (walk m 1 s) = l → rightL m ((walk m 1)^[n + 1] s) = l := by
      intro h1 h2
      rcases Nat.eq_zero_or_pos n with rfl | hn
      · exact h2
      · exact absurd h1 (hno 1 (by omega) (by omega))
    obtain ⟨x, y, δ⟩ := s
    have hn := h.nonregion
    have hi := h.inside
    have hl1 : (m.look x y δ).1 = .region := by
      have := congrArg Prod.fst hl
      exact this
    have hl2 : (m.look x y δ).2 = l := by
      have := congrArg Prod.snd hl
      exact this
    have hring := ring_label hc hf hi hn
    dsimp only at hring hi hn
    by_cases ho : δ.val % 2 = 1
    · have e1 := walk_odd (m := m) (x := x) (y := y) ho
      rw [e1] at again stop hrim
      rcases hc.look_types hi hn (δ + 1) with h1 | h1 | h1
      · exact absurd h1 (h.sides ho 1 one_turn)
      · refine stop (even_dart hrim (fun hh => par1.1 hh ho) h1) ?_
        unfold rightL
        dsimp only
        rw [fin_17, if_pos hl1, hl2]
      · exact again (Prod.ext h1 (by dsimp only; rw [hring δ hl1 h1, hl2]))
    by_cases hq : (m.look x y (δ + 1)).1 = .vertex
    · rw [walk_q ho hq] at again
      refine again ?_
      dsimp only
      rw [look_shift (dir_q one_turn ho)]
      exact hl
    by_cases hr : (m.look x y (δ + 2)).1 = .vertex
    · rw [walk_r ho hq hr] at again stop hrim
      have hlook : m.look (x + dx (δ + 2)) (y + dy (δ + 2)) δ = m.look x y (δ + 1) := by
        have := look_shift (m := m) (x := x) (y := y) (dir_r one_turn ho)
        rw [two_one] at this
        exact this
      rcases hc.look_types hi hn (δ + 1) with h1 | h1 | h1
      · exact absurd h1 hq
      · refine stop (even_dart hrim ho (by dsimp only; rw [hlook]; exact h1)) ?_
        unfold rightL
        dsimp only
        rw [look_shift (dir_a ho), if_pos hl1, hl2]
      · refine again ?_
        dsimp only
        rw [hlook]
        exact Prod.ext h1 (by dsimp only; rw [hring δ hl1 h1, hl2])
    · have e1 := walk_t ho hq hr
      rw [e1] at again stop hrim
      rcases hc.look_types hi hn (δ + 1) with h1 | h1 | h1
      · exact absurd h1 hq
      · by_cases h2 : (m.look x y (δ + 2)).1 = .region
        · refine stop ⟨hi, h.node, h1, fun _ => ⟨by dsimp only; rw [fin_11]; exact h2, by dsimp only; rw [fin_17]; exact hl1⟩⟩ ?_
          unfold rightL
          dsimp only
          rw [fin_17, if_pos hl1, hl2]
        · -- a bad diagonal, then a dart
          have hline : (m.look x y (δ + 2)).1 = .line := by
            rcases hc.look_types hi hn (δ + 2) with h3 | h3 | h3
            · exact absurd h3 hr
            · exact h3
            · exact absurd h3 h2
          have hnd : ¬IsDart m (walk m 1 ⟨x, y, δ⟩) := by
            rw [e1]
            intro hh
            have := (hh.between (par1.2 ho)).1
            dsimp only at this
            rw [fin_11] at this
            exact h2 this
          have e2 : walk m 1 (walk m 1 ⟨x, y, δ⟩) = ⟨x, y, δ + 2⟩ := by
            rw [e1, walk_odd (par1.2 ho), fin_11]
          have hd2 : IsDart m (walk m 1 (walk m 1 ⟨x, y, δ⟩)) := by
            rw [e2]
            exact ⟨hi, h.node, hline, fun hh => absurd (par2.1 hh) ho⟩
          rcases Nat.eq_zero_or_pos n with rfl | hn0
          · exact absurd hd hnd
          · by_cases hn1 : n = 1
            · subst hn1
              show rightL m (walk m 1 (walk m 1 ⟨x, y, δ⟩)) = l
              rw [e2]
              unfold rightL
              dsimp only
              rw [fin_27, if_neg (by rw [h1]; decide), fin_26, hl2]
            · exact absurd hd2 (hno 2 (by omega) (by omega))
      · exact again (Prod.ext h1 (by dsimp only; rw [hring δ hl1 h1, hl2]))

/-- what is left of a dart is right of the next one -/
theorem sides_sigma (hc : Clean m) (hno : NoCorner m) (hf : FacesLabelled m) (n : Nat) {d : Dart} (h : IsDart m d)
    (hside : ¬d.dir.val % 2 = 1 → (m.look d.x d.y (d.dir + 1)).1 ≠ .region → (m.look d.x d.y (d.dir + 2)).1 = .region)
    (hd : IsDart m ((walk m 1)^[n + 1] d)) (hfirst : ∀ i, 0 < i → i < n + 1 → ¬IsDart m ((walk m 1)^[i] d)) :
    rightL m ((walk m 1)^[n + 1] d) = leftL m d := by
  have hrim := walk_rim hc one_turn h.rim
  have again : ∀ l, m.look (walk m 1 d).x (walk m 1 d).y (walk m 1 d).dir = (.region, l) → rightL m ((walk m 1)^[n + 1] d) = l := by
    intro l hl'
    have hnd : ¬IsDart m (walk m 1 d) := fun hh => by
      have := hh.edge
      rw [hl'] at this
      exact absurd this (by simp)
    rcases Nat.eq_zero_or_pos n with rfl | hn
    · exact absurd hd hnd
    · obtain ⟨n', rfl⟩ : ∃ n', n = n' + 1 := ⟨n - 1, by omega⟩
      exact sector hc hf l n' hrim hl' hd (fun i h0 hi => hfirst (i + 1) (by omega) (by omega))
  obtain ⟨x, y, δ⟩ := d
  have hi := h.inside
  have hn := h.rim.nonregion
  dsimp only at hi hn hside
  by_cases ho : δ.val % 2 = 1
  · rw [walk_odd ho] at again
    have h1 : (m.look x y (δ + 1)).1 = .region := (h.between ho).1
    refine again _ (Prod.ext h1 ?_)
    unfold leftL
    dsimp only
    rw [if_pos h1]
  have hq : ¬(m.look x y (δ + 1)).1 = .vertex := by
    intro hq
    have hv1 : (m.look (x + dx δ) (y + dy δ) (δ + 4)).1 = .vertex := by rw [look_back (dir_opp δ)]; exact h.node
    have hv2 : (m.look (x + dx δ) (y + dy δ) (δ + 2 * 1)).1 = .vertex := by rw [look_shift (dir_line one_turn ho)]; exact hq
    rw [two_one] at hv2
    refine hno _ _ (hc.near hi hn δ) h.edge (δ + 2) ?_ ⟨hv2, ?_⟩
    · have := (par2 (δ := δ)).not.2 ho
      omega
    · have e : δ + 2 + 2 = δ + 4 := by clear * -; revert δ; decide
      rw [e]; exact hv1
  have hleft : ∀ h1 : (m.look x y (δ + 1)).1 = .region, leftL m ⟨x, y, δ⟩ = (m.look x y (δ + 1)).2 := fun h1 => by
    unfold leftL
    dsimp only
    rw [if_pos h1]
  rcases hc.look_types hi hn (δ + 1) with h1 | h1 | h1
  · exact absurd h1 hq
  · have h2 := hside ho (by rw [h1]; decide)
    have hr : ¬(m.look x y (δ + 2)).1 = .vertex := by rw [h2]; decide
    have e1 := walk_t ho hq hr
    have hnd : ¬IsDart m (walk m 1 ⟨x, y, δ⟩) := by
      rw [e1]
      intro hh
      have := (hh.between (par1.2 ho)).2
      dsimp only at this
      rw [fin_17, h.edge] at this
      exact absurd this (by decide)
    have e2 : walk m 1 (walk m 1 ⟨x, y, δ⟩) = ⟨x, y, δ + 2⟩ := by
      rw [e1, walk_odd (par1.2 ho), fin_11]
    have hrim2 := walk_rim hc one_turn hrim
    have hl2 : m.look (walk m 1 (walk m 1 ⟨x, y, δ⟩)).x (walk m 1 (walk m 1 ⟨x, y, δ⟩)).y (walk m 1 (walk m 1 ⟨x, y, δ⟩)).dir =
        (.region, leftL m ⟨x, y, δ⟩) := by
      rw [e2]
      refine Prod.ext h2 ?_
      unfold leftL
      dsimp only
      rw [if_neg (by rw [h1]; decide)]
    have hnd2 : ¬IsDart m (walk m 1 (walk m 1 ⟨x, y, δ⟩)) := fun hh => by
      have := hh.edge
      rw [hl2] at this
      exact absurd this (by simp)
    rcases Nat.eq_zero_or_pos n with rfl | hn0
    · exact absurd hd hnd
    · by_cases hn1 : n = 1
      · subst hn1
        exact absurd hd hnd2
      · obtain ⟨n', rfl⟩ : ∃ n', n = n' + 2 := ⟨n - 2, by omega⟩
        exact sector hc hf _ n' hrim2 hl2 hd (fun i h0 hi => hfirst (i + 2) (by omega) (by omega))
  · rw [hleft h1]
    by_cases hr : (m.look x y (δ + 2)).1 = .vertex
    · rw [walk_r ho hq hr] at again
      refine again _ ?_
      dsimp only
      have := look_shift (m := m) (x := x) (y := y) (dir_r one_turn ho)
      rw [two_one] at this
      rw [this]
      exact Prod.ext h1 rfl
    · rw [walk_t ho hq hr] at again
      exact again _ (Prod.ext h1 rfl)

end

end Verif.FourEight
