import Verif.Iter.Model
import Mathlib.Data.List.Sort
import Mathlib.Tactic.Common

/-! # Lemmas about the iterators -/

namespace Verif.Iter
open Verif

theorem check_spec (live : Nat → Bool) (fin : Nat) : ∀ fuel pos, pos ≤ fin → fin - pos < fuel →
    ∃ p, check live fin fuel pos = .ok p ∧ pos ≤ p ∧ p ≤ fin ∧ (∀ k, pos ≤ k → k < p → live k = false) ∧ (p = fin ∨ live p = true) := by
  intro fuel
  induction fuel with
  | zero => intro pos _ h; omega
  | succ fuel ih =>
    intro pos h1 h2
    unfold check
    by_cases e : pos = fin
    · rw [if_pos e]; exact ⟨pos, rfl, Nat.le_refl _, h1, fun k a b => by omega, Or.inl e⟩
    · rw [if_neg e, if_neg (by omega)]
      by_cases l : live pos = true
      · rw [if_pos l]; exact ⟨pos, rfl, Nat.le_refl _, h1, fun k a b => by omega, Or.inr l⟩
      · rw [if_neg l]
        obtain ⟨p, a, b, c, d, f⟩ := ih (pos + 1) (by omega) (by omega)
        refine ⟨p, a, by omega, c, fun k h3 h4 => ?_, f⟩
        by_cases hk : k = pos
        · subst hk; simpa using l
        · exact d k (by omega) h4

theorem check_live {live : Nat → Bool} {fin p fuel : Nat} (hp : p < fin) (hl : live p = true) : check live fin (fuel + 1) p = .ok p := by
  unfold check
  rw [if_neg (by omega), if_neg (by omega), if_pos hl]

section
variable {S : Type} {live : S → Nat → Bool} {body : S → Nat → Outcome S}

/-- what the loop does, started at `pos` -/
theorem loop_spec (hbody : ∀ s q s', body s q = .ok s' → ∀ k, live s' k = true → live s k = true) (fin : Nat) :
    ∀ fuel pos (s : S) vis t, pos ≤ fin → loop live body fin fuel pos s = .ok (vis, t) →
      vis.Pairwise (· < ·) ∧ (∀ q ∈ vis, pos ≤ q ∧ q < fin ∧ live s q = true) ∧
      (∀ k, pos ≤ k → k < fin → live t k = true → k ∈ vis) ∧ (∀ k, live t k = true → live s k = true) := by
  intro fuel
  induction fuel with
  | zero => intro pos s vis t _ h; simp [loop] at h
  | succ fuel ih =>
    intro pos s vis t hpos h
    obtain ⟨p, hc, h1, h2, h3, h4⟩ := check_spec (live s) fin (fin + 1) pos hpos (by omega)
    unfold loop at h
    rw [hc] at h
    change (if p = fin then _ else _) = _ at h
    by_cases e : p = fin
    · rw [if_pos e] at h
      simp only [Outcome.ok.injEq, Prod.mk.injEq] at h
      obtain ⟨rfl, rfl⟩ := h
      refine ⟨List.Pairwise.nil, by simp, fun k a b c => ?_, fun k a => a⟩
      rw [h3 k a (by omega)] at c; simp at c
    · rw [if_neg e] at h
      have hl : live s p = true := h4.resolve_left e
      rw [check_live (by omega) hl] at h
      change (if p = fin then _ else _) = _ at h
      rw [if_neg e] at h
      obtain ⟨s', hb, h⟩ := Outcome.bind_eq_ok.mp h
      unfold incr at h
      rw [if_neg e] at h
      obtain ⟨r, hr, k1, k2, k3, k4⟩ := check_spec (live s') fin (fin + 1) (p + 1) (by omega) (by omega)
      obtain ⟨r', hr', h⟩ := Outcome.bind_eq_ok.mp h
      rw [hr] at hr'
      simp only [Outcome.ok.injEq] at hr'; subst hr'
      obtain ⟨⟨v, u⟩, hrest, h⟩ := Outcome.bind_eq_ok.mp h
      simp only [Outcome.ok.injEq, Prod.mk.injEq] at h
      obtain ⟨rfl, rfl⟩ := h
      obtain ⟨g1, g2, g3, g4⟩ := ih r s' v u k2 hrest
      refine ⟨List.pairwise_cons.mpr ⟨fun q hq => ?_, g1⟩, fun q hq => ?_, fun k a b c => ?_, fun k hk => hbody _ _ _ hb k (g4 k hk)⟩
      · have := (g2 q hq).1; omega
      · rcases List.mem_cons.mp hq with rfl | hq
        · exact ⟨h1, by omega, hl⟩
        · obtain ⟨a, b, c⟩ := g2 q hq
          exact ⟨by omega, b, hbody _ _ _ hb q c⟩
      · by_cases hk : k < p
        · have := hbody _ _ _ hb k (g4 k c)
          rw [h3 k a hk] at this; simp at this
        · by_cases hkp : k = p
          · subst hkp; exact List.mem_cons_self
          · refine List.mem_cons_of_mem _ ?_
            by_cases hkr : k < r
            · have := g4 k c
              rw [k3 k (by omega) hkr] at this; simp at this
            · exact g3 k (by omega) b c

/-- the loop terminates and does not misbehave by itself -/
theorem loop_total (hsafe : ∀ s q, live s q = true → body s q ≠ .ub ∧ body s q ≠ .hang) (fin : Nat) :
    ∀ fuel pos (s : S), pos ≤ fin → fin - pos < fuel → loop live body fin fuel pos s ≠ .ub ∧ loop live body fin fuel pos s ≠ .hang := by
  intro fuel
  induction fuel with
  | zero => intro pos s _ h; omega
  | succ fuel ih =>
    intro pos s hpos hf
    obtain ⟨p, hc, h1, h2, h3, h4⟩ := check_spec (live s) fin (fin + 1) pos hpos (by omega)
    unfold loop
    rw [hc]
    change (if p = fin then _ else _) ≠ _ ∧ (if p = fin then _ else _) ≠ _
    by_cases e : p = fin
    · rw [if_pos e]; simp
    · rw [if_neg e]
      have hl : live s p = true := h4.resolve_left e
      rw [check_live (by omega) hl]
      change (if p = fin then _ else _) ≠ _ ∧ (if p = fin then _ else _) ≠ _
      rw [if_neg e]
      have := hsafe s p hl
      cases hb : body s p with
      | ub => exact absurd hb this.1
      | hang => exact absurd hb this.2
      | precond => constructor <;> intro h <;> cases h
      | ok s' =>
        unfold incr
        simp only [if_neg e]
        obtain ⟨r, hr, k1, k2, k3, k4⟩ := check_spec (live s') fin (fin + 1) (p + 1) (by omega) (by omega)
        have := ih r s' k2 (by omega)
        simp only [bind, Outcome.bind_ok, hr]
        cases hrest : loop live body fin fuel r s' with
        | ub => exact absurd hrest this.1
        | hang => exact absurd hrest this.2
        | precond => simp
        | ok v => simp

end

theorem sorted_ext {l m : List Nat} (hl : l.Pairwise (· < ·)) (hm : m.Pairwise (· < ·)) (h : ∀ x, x ∈ l ↔ x ∈ m) : l = m := by
  have nd : ∀ {l : List Nat}, l.Pairwise (· < ·) → l.Nodup := fun h => h.imp (fun h => Nat.ne_of_lt h)
  exact List.Perm.eq_of_pairwise (fun a b _ _ h1 h2 => absurd h1 (by omega)) hl hm ((List.perm_ext_iff_of_nodup (nd hl) (nd hm)).mpr h)

/-! ### rectangles -/

/-- the matching positions of row `y` from column `x` on -/
def rowFrom (pix : Nat → Nat → Bool) (w y x : Nat) : List (Nat × Nat) := ((List.range' x (w - x)).filter (pix · y)).map (·, y)

/-- the matching positions of the rows from `y` on -/
def rowsFrom (pix : Nat → Nat → Bool) (w h y : Nat) : List (Nat × Nat) := (List.range' y (h - y)).flatMap fun y => rowFrom pix w y 0

theorem rowFrom_step (pix : Nat → Nat → Bool) {w y x : Nat} (h : x < w) :
    rowFrom pix w y x = (if pix x y then [(x, y)] else []) ++ rowFrom pix w y (x + 1) := by
  unfold rowFrom
  rw [show w - x = (w - (x + 1)) + 1 by omega, List.range'_succ, List.filter_cons]
  split <;> simp

theorem rowFrom_end (pix : Nat → Nat → Bool) {w y x : Nat} (h : w ≤ x) : rowFrom pix w y x = [] := by
  unfold rowFrom; rw [show w - x = 0 by omega]; rfl

theorem rowsFrom_step (pix : Nat → Nat → Bool) {w h y : Nat} (hy : y < h) :
    rowsFrom pix w h y = rowFrom pix w y 0 ++ rowsFrom pix w h (y + 1) := by
  unfold rowsFrom
  rw [show h - y = (h - (y + 1)) + 1 by omega, List.range'_succ, List.flatMap_cons]

theorem rowsFrom_end (pix : Nat → Nat → Bool) {w h y : Nat} (hy : h ≤ y) : rowsFrom pix w h y = [] := by
  unfold rowsFrom; rw [show h - y = 0 by omega]; rfl

theorem scanRow_spec (pix : Nat → Nat → Bool) (w y : Nat) : ∀ fuel x, x ≤ w → w - x < fuel →
    ∃ x', scanRow pix w y fuel x = .ok x' ∧ x ≤ x' ∧ x' ≤ w ∧ rowFrom pix w y x = rowFrom pix w y x' ∧ (x' = w ∨ pix x' y = true) := by
  intro fuel
  induction fuel with
  | zero => intro x _ h; omega
  | succ fuel ih =>
    intro x h1 h2
    unfold scanRow
    by_cases e : x = w
    · rw [if_pos e]; exact ⟨x, rfl, Nat.le_refl _, h1, rfl, Or.inl e⟩
    · rw [if_neg e, if_neg (by omega)]
      by_cases l : pix x y = true
      · rw [if_pos l]; exact ⟨x, rfl, Nat.le_refl _, h1, rfl, Or.inr l⟩
      · rw [if_neg l]
        obtain ⟨x', a, b, c, d, f⟩ := ih (x + 1) (by omega) (by omega)
        refine ⟨x', a, by omega, c, ?_, f⟩
        rw [rowFrom_step pix (by omega), if_neg l, d]; rfl

/-- the state reached when `rest` is the list of positions still to come -/
def Ahead (s : Scan) (rest : List (Nat × Nat)) : Prop := s.cell = rest.head? ∧ ∀ c, s.cell = some c → s.img = ((c.1 : Int), (c.2 : Int))

theorem scanNext_spec (pix : Nat → Nat → Bool) (w h : Nat) (hw : 0 < w) : ∀ fuel x y, x < w → y < h → h - y ≤ fuel →
    ∃ s, scanNext pix w h fuel x y ((x : Int), (y : Int)) = .ok s ∧ Ahead s (rowFrom pix w y (x + 1) ++ rowsFrom pix w h (y + 1)) := by
  intro fuel
  induction fuel with
  | zero => intro x y _ h1 h2; omega
  | succ fuel ih =>
    intro x y hx hy hf
    obtain ⟨x', a, b, c, d, f⟩ := scanRow_spec pix w y (w + 1) (x + 1) (by omega) (by omega)
    unfold scanNext
    rw [a]
    change ∃ s, (if x' = w then _ else _) = _ ∧ _
    rw [d]
    by_cases e : x' = w
    · rw [if_pos e]
      subst e
      have e1 : ((x : Int) + ((x' : Int) - (x : Int)) - (x' : Int), (y : Int) + 1) = (((0 : Nat) : Int), ((y + 1 : Nat) : Int)) := by
        push_cast; congr 1; omega
      rw [rowFrom_end pix (Nat.le_refl _), List.nil_append]
      simp only [e1]
      by_cases ey : y + 1 = h
      · rw [if_pos ey]
        refine ⟨_, rfl, ?_⟩
        rw [rowsFrom_end pix (by omega)]
        exact ⟨rfl, by simp⟩
      · rw [if_neg ey, rowsFrom_step pix (by omega), rowFrom_step pix hw]
        by_cases ep : pix 0 (y + 1) = true
        · rw [if_pos ep, if_pos ep]
          refine ⟨_, rfl, rfl, ?_⟩
          rintro c hc
          simp only [Option.some.injEq] at hc; subst hc; rfl
        · rw [if_neg ep, if_neg ep]
          obtain ⟨s, h1, h2⟩ := ih 0 (y + 1) hw (by omega) (by omega)
          exact ⟨s, h1, by simpa using h2⟩
    · rw [if_neg e, rowFrom_step pix (by omega), if_pos (f.resolve_left e)]
      refine ⟨_, rfl, rfl, ?_⟩
      rintro c hc
      simp only [Option.some.injEq] at hc; subst hc
      simp only [Prod.mk.injEq, and_true]; omega

theorem pending_pos (pix : Nat → Nat → Bool) {w h x y cx cy : Nat} {r : List (Nat × Nat)} (hy : y < h)
    (hr : (cx, cy) :: r = rowFrom pix w y x ++ rowsFrom pix w h (y + 1)) :
    cx < w ∧ cy < h ∧ r = rowFrom pix w cy (cx + 1) ++ rowsFrom pix w h (cy + 1) := by
  have row : ∀ n x y t, w - x ≤ n → rowFrom pix w y x ++ t = (cx, cy) :: r →
      (cx < w ∧ cy = y ∧ r = rowFrom pix w y (cx + 1) ++ t) ∨ (rowFrom pix w y x = [] ∧ t = (cx, cy) :: r) := by
    intro n
    induction n with
    | zero =>
      intro x y t h1 hh
      have e0 := rowFrom_end pix (w := w) (y := y) (x := x) (by omega)
      rw [e0] at hh; exact Or.inr ⟨e0, hh⟩
    | succ n ihn =>
      intro x y t h1 hh
      by_cases hxw : x < w
      · have e0 := rowFrom_step pix (y := y) hxw
        rw [e0] at hh
        by_cases hp : pix x y = true
        · rw [if_pos hp] at hh
          simp only [List.cons_append, List.nil_append, List.cons.injEq, Prod.mk.injEq] at hh
          obtain ⟨⟨rfl, rfl⟩, hh⟩ := hh
          exact Or.inl ⟨hxw, rfl, hh.symm⟩
        · rw [if_neg hp, List.nil_append] at hh e0
          rw [e0]
          exact ihn (x + 1) y t (by omega) hh
      · have e0 := rowFrom_end pix (w := w) (y := y) (x := x) (by omega)
        rw [e0] at hh; exact Or.inr ⟨e0, hh⟩
  have rows : ∀ n y, h - y ≤ n → rowsFrom pix w h y = (cx, cy) :: r →
      cx < w ∧ cy < h ∧ r = rowFrom pix w cy (cx + 1) ++ rowsFrom pix w h (cy + 1) := by
    intro n
    induction n with
    | zero => intro y h1 h2; rw [rowsFrom_end pix (by omega)] at h2; simp at h2
    | succ n ihn =>
      intro y h1 h2
      by_cases hyh : y < h
      · rw [rowsFrom_step pix hyh] at h2
        rcases row w 0 y _ (by omega) h2 with ⟨a, b, c⟩ | ⟨a, b⟩
        · subst b; exact ⟨a, hyh, c⟩
        · exact ihn (y + 1) (by omega) b
      · rw [rowsFrom_end pix (by omega)] at h2; simp at h2
  rcases row w x y _ (by omega) hr.symm with ⟨a, b, c⟩ | ⟨a, b⟩
  · subst b; exact ⟨a, hy, c⟩
  · obtain ⟨a, b, c⟩ := rows h (y + 1) (by omega) b
    exact ⟨a, b, c⟩

theorem scanLoop_spec (pix : Nat → Nat → Bool) (w h : Nat) : ∀ fuel y x (s : Scan) rest, x ≤ w → y < h →
    rest = rowFrom pix w y x ++ rowsFrom pix w h (y + 1) → Ahead s rest → rest.length < fuel →
    scanLoop pix w h fuel s = .ok (rest.map fun c => (c, ((c.1 : Int), (c.2 : Int)))) := by
  intro fuel
  induction fuel with
  | zero => intro y x s rest _ _ _ _ h; omega
  | succ fuel ih =>
    intro y x s rest hx hy hr hA hf
    unfold scanLoop
    cases hs : s.cell with
    | none =>
      have := hA.1; rw [hs] at this
      cases rest with
      | nil => rfl
      | cons c r => simp at this
    | some c =>
      have h1 := hA.1; rw [hs] at h1
      have h2 := hA.2 c hs
      cases rest with
      | nil => simp at h1
      | cons c' r =>
        simp only [List.head?_cons, Option.some.injEq] at h1; subst h1
        obtain ⟨cx, cy⟩ := c
        obtain ⟨hx0, hy0, hr0⟩ := pending_pos pix hy hr
        obtain ⟨s', hs', hA'⟩ := scanNext_spec pix w h (by omega) h cx cy hx0 hy0 (by omega)
        have hn : s.next pix w h = .ok s' := by
          unfold Scan.next; rw [hs]; simp only [Int.toNat_natCast]; rw [h2]; exact hs'
        have hl : scanLoop pix w h fuel s' = .ok (r.map fun c => (c, ((c.1 : Int), (c.2 : Int)))) :=
          ih cy (cx + 1) s' r (by omega) hy0 hr0 (hr0 ▸ hA') (by simpa using hf)
        simp only [hn, bind, Outcome.bind_ok, hl, h2, List.map_cons]

/-- raster order: all positions of the rectangle, row by row -/
def raster (w h : Nat) : List (Nat × Nat) := (List.range h).flatMap fun y => (List.range w).map fun x => (x, y)

theorem raster_filter (pix : Nat → Nat → Bool) (w h : Nat) : (raster w h).filter (fun c => pix c.1 c.2) = rowsFrom pix w h 0 := by
  unfold raster rowsFrom rowFrom
  simp only [Nat.sub_zero, ← List.range_eq_range', List.filter_flatMap, List.filter_map]
  rfl

theorem raster_length (w h : Nat) : (raster w h).length = w * h := by
  unfold raster
  rw [List.length_flatMap]
  simp [Nat.mul_comm]

theorem filterNext_spec (pix : Nat → Nat → Bool) (w h : Nat) : ∀ fuel x y, x ≤ w → y < h → h - y ≤ fuel →
    filterNext pix w h fuel x y = .ok (rowFrom pix w y x ++ rowsFrom pix w h (y + 1)).head? := by
  intro fuel
  induction fuel with
  | zero => intro x y _ h1 h2; omega
  | succ fuel ih =>
    intro x y hx hy hf
    obtain ⟨x', a, b, c, d, f⟩ := scanRow_spec pix w y (w + 1) x hx (by omega)
    unfold filterNext
    rw [a]
    change (if x' = w then _ else _) = _
    rw [d]
    by_cases e : x' = w
    · rw [if_pos e]
      subst e
      rw [rowFrom_end pix (Nat.le_refl _), List.nil_append]
      by_cases ey : y + 1 = h
      · rw [if_pos ey, rowsFrom_end pix (by omega)]; rfl
      · rw [if_neg ey, rowsFrom_step pix (by omega)]
        exact ih 0 (y + 1) (by omega) (by omega) (by omega)
    · rw [if_neg e, rowFrom_step pix (by omega), if_pos (f.resolve_left e)]; rfl

theorem filterLoop_spec (pix : Nat → Nat → Bool) (w h : Nat) : ∀ fuel y x rest, y < h →
    rest = rowFrom pix w y x ++ rowsFrom pix w h (y + 1) → rest.length < fuel →
    filterLoop pix w h fuel rest.head? = .ok rest := by
  intro fuel
  induction fuel with
  | zero => intro y x rest _ _ h; omega
  | succ fuel ih =>
    intro y x rest hy hr hf
    cases rest with
    | nil => rfl
    | cons c r =>
      obtain ⟨cx, cy⟩ := c
      obtain ⟨hx0, hy0, hr0⟩ := pending_pos pix hy hr
      simp only [List.head?_cons, filterLoop, bind]
      rw [filterNext_spec pix w h h (cx + 1) cy (by omega) hy0 (by omega), ← hr0, Outcome.bind_ok, ih cy (cx + 1) r hy0 hr0 (by simpa using hf)]
      rfl

end Verif.Iter
