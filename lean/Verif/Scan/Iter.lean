import Verif.Scan.Fill

/-!
# Iterating over the covered pixels

Models `ScanlinesIter` (polygon.hxx:1871-1944).  The `vigra_assert` of `ensureValid` is off in
release builds, so that reading a segment that does not exist is undefined behaviour.
-/

namespace Verif.Scan
open Verif

/-- The members of `ScanlinesIter` (polygon.hxx:1875-1877). -/
structure It where
  x : Int
  y : Int
  si : Nat
  deriving DecidableEq, Repr

/-- `scanlines[y][si]` (polygon.hxx:1787-1795, 1886): a segment, if there is one. -/
def seg? (l : Lines) (y : Int) (si : Nat) : Option Seg := (l.row y)[si]?

/-- The inner loop of `ensureValid` (polygon.hxx:1889-1895). -/
def skip (l : Lines) : Nat → It → It
  | 0, it => it
  | n + 1, it =>
    if (l.row it.y).length ≤ it.si then
      if l.stop ≤ it.y + 1 then { it with y := it.y + 1 }
      else skip l n { it with y := it.y + 1, si := 0 }
    else it

/-- The outer loop of `ensureValid` (polygon.hxx:1886-1897). -/
def settle (l : Lines) : Nat → It → Outcome It
  | 0, _ => .hang
  | n + 1, it =>
    match seg? l it.y it.si with
    | none => .ub
    | some s =>
      if s.e ≤ it.x then
        let it1 := skip l l.rows.length { it with si := it.si + 1 }
        if l.stop ≤ it1.y then .ok it1
        else
          match seg? l it1.y it1.si with
          | none => .ub
          | some s1 => settle l n { it1 with x := s1.b }
      else .ok it

/-- The number of segments. -/
def segCount (l : Lines) : Nat := (l.rows.map List.length).sum

/-- `ensureValid` (polygon.hxx:1881-1898). -/
def ensureValid (l : Lines) (it : It) : Outcome It := settle l (segCount l + 1) it

/-- The loop of the constructor (polygon.hxx:1909-1910). -/
def firstLine (l : Lines) : Nat → Int → Int
  | 0, y => y
  | n + 1, y => if y < l.stop ∧ (l.row y).length = 0 then firstLine l n (y + 1) else y

/-- The constructor (polygon.hxx:1903-1914). -/
def It.init (l : Lines) : Outcome It :=
  let y := firstLine l l.rows.length l.start
  ensureValid l ⟨(match seg? l y 0 with | some s => if y < l.stop then s.b else 0 | none => 0), y, 0⟩

/-- `atEnd` (polygon.hxx:1930-1933). -/
def It.atEnd (l : Lines) (it : It) : Bool := l.stop ≤ it.y

/-- `operator++` (polygon.hxx:1916-1923). -/
def It.next (l : Lines) (it : It) : Outcome It :=
  if it.atEnd l then .precond else ensureValid l { it with x := it.x + 1 }

/-- `operator*` (polygon.hxx:1940-1943). -/
def It.pos (it : It) : Int × Int := (it.x, it.y)

/-- The usual loop `for(ScanlinesIter it(l); it.inRange(); ++it)`: the pixels met, with a bound
on the number of rounds. -/
def collect (l : Lines) : Nat → It → Outcome (List (Int × Int))
  | 0, _ => .hang
  | n + 1, it =>
    if it.atEnd l then .ok []
    else (it.next l).bind fun it' => (collect l n it').bind fun r => .ok (it.pos :: r)

/-- The loop from the start. -/
def visit (l : Lines) (n : Nat) : Outcome (List (Int × Int)) :=
  (It.init l).bind (collect l n)

/-! ## Lemmas -/

/-- All segments from a place on. -/
def segsFrom (l : Lines) (y : Int) (si : Nat) : List (Int × Seg) :=
  ((l.row y).drop si).map (y, ·) ++
    (cols (y + 1) l.stop).flatMap fun z => (l.row z).map (z, ·)

theorem cols_cons {x b : Int} (h : x < b) : cols x b = x :: cols (x + 1) b := by
  unfold cols
  obtain ⟨n, hn⟩ : ∃ n, (b - x).toNat = n + 1 := ⟨(b - x).toNat - 1, by omega⟩
  rw [hn, List.range_succ_eq_map, show (b - (x + 1)).toNat = n by omega]
  simp only [List.map_cons, List.map_map, Nat.cast_zero, add_zero, List.cons.injEq, true_and]
  apply List.map_congr_left
  intro i _
  simp only [Function.comp, Nat.succ_eq_add_one, Nat.cast_add, Nat.cast_one]
  omega

theorem cols_nil {x b : Int} (h : b ≤ x) : cols x b = [] := by
  unfold cols
  rw [show (b - x).toNat = 0 by omega]
  rfl

theorem segsFrom_cons {l : Lines} {y : Int} {si : Nat} {s : Seg} (h : seg? l y si = some s) :
    segsFrom l y si = (y, s) :: segsFrom l y (si + 1) := by
  unfold segsFrom
  unfold seg? at h
  obtain ⟨h1, h2⟩ := List.getElem?_eq_some_iff.mp h
  rw [List.drop_eq_getElem_cons h1, h2]
  rfl

theorem segsFrom_skip {l : Lines} {y : Int} {si : Nat} (h : (l.row y).length ≤ si)
    (hy : y + 1 < l.stop) : segsFrom l y si = segsFrom l (y + 1) 0 := by
  unfold segsFrom
  rw [List.drop_of_length_le h, cols_cons hy]
  simp

theorem segsFrom_end {l : Lines} {y : Int} {si : Nat} (h : (l.row y).length ≤ si)
    (hy : l.stop ≤ y + 1) : segsFrom l y si = [] := by
  unfold segsFrom
  rw [List.drop_of_length_le h, cols_nil hy]
  rfl

theorem skip_spec {l : Lines} (n : Nat) {it : It} (hy : it.y < l.stop)
    (hn : l.stop - it.y ≤ n) :
    (l.stop ≤ (skip l n it).y ∧ segsFrom l it.y it.si = []) ∨
    ((skip l n it).y < l.stop ∧ (∃ s, seg? l (skip l n it).y (skip l n it).si = some s) ∧
      segsFrom l (skip l n it).y (skip l n it).si = segsFrom l it.y it.si) := by
  induction n generalizing it with
  | zero => omega
  | succ n ih =>
    unfold skip
    by_cases h : (l.row it.y).length ≤ it.si
    · rw [if_pos h]
      by_cases h2 : l.stop ≤ it.y + 1
      · rw [if_pos h2]
        exact .inl ⟨h2, segsFrom_end h h2⟩
      · rw [if_neg h2]
        have := ih (it := { it with y := it.y + 1, si := 0 }) (by simp only; omega) (by simp only; omega)
        rw [segsFrom_skip h (by omega)]
        exact this
    · rw [if_neg h]
      refine .inr ⟨hy, ?_, rfl⟩
      exact ⟨(l.row it.y)[it.si], List.getElem?_eq_getElem (by omega)⟩

/-- The pixels of a list of segments. -/
def pixels (r : List (Int × Seg)) : List (Int × Int) :=
  r.flatMap fun p => (cols p.2.b p.2.e).map fun x => (x, p.1)

/-- What an iterator at a segment has still to visit. -/
def rest (l : Lines) (it : It) : List (Int × Int) :=
  match seg? l it.y it.si with
  | none => []
  | some s => (cols it.x s.e).map (fun x => (x, it.y)) ++ pixels (segsFrom l it.y (it.si + 1))

theorem rest_begin {l : Lines} {it : It} {s : Seg} (h : seg? l it.y it.si = some s)
    (hx : it.x = s.b) : rest l it = pixels (segsFrom l it.y it.si) := by
  unfold rest
  rw [h, segsFrom_cons h, hx]
  simp [pixels]

/-- `ensureValid` goes to the next pixel. -/
theorem settle_spec {l : Lines} (n : Nat) {it : It} {s : Seg}
    (h : seg? l it.y it.si = some s) (hy : l.start ≤ it.y ∧ it.y < l.stop)
    (hn : (segsFrom l it.y it.si).length ≤ n) :
    ∃ it', settle l n it = .ok it' ∧
      ((l.stop ≤ it'.y ∧ rest l it = []) ∨
        (l.start ≤ it'.y ∧ it'.y < l.stop ∧ (∃ s', seg? l it'.y it'.si = some s' ∧ it'.x < s'.e) ∧
          rest l it' = rest l it)) := by
  induction n generalizing it s with
  | zero =>
    rw [segsFrom_cons h] at hn
    simp at hn
  | succ n ih =>
    unfold settle
    rw [h]
    simp only
    by_cases hx : s.e ≤ it.x
    · rw [if_pos hx]
      have hr : rest l it = pixels (segsFrom l it.y (it.si + 1)) := by
        unfold rest
        rw [h]
        simp only
        rw [cols_nil hx]
        rfl
      have hlen : l.stop - it.y ≤ (l.rows.length : Int) := by
        have : l.stop = l.start + l.rows.length := rfl
        omega
      have hge : ∀ (n : Nat) (it : It), it.y ≤ (skip l n it).y := by
        intro n
        induction n with
        | zero => exact fun it => Int.le_refl _
        | succ n ih =>
          intro it
          unfold skip
          split
          · split
            · simp only; omega
            · have := ih { it with y := it.y + 1, si := 0 }
              simp only at this
              omega
          · exact Int.le_refl _
      rcases skip_spec l.rows.length (it := { it with si := it.si + 1 }) hy.2
        (by exact_mod_cast hlen) with ⟨h1, h2⟩ | ⟨h1, ⟨s1, h2⟩, h3⟩
      · rw [if_pos h1]
        refine ⟨_, rfl, .inl ⟨h1, ?_⟩⟩
        rw [hr, h2]
        rfl
      · rw [if_neg (by omega), h2]
        simp only
        have hg := hge l.rows.length { it with si := it.si + 1 }
        have h4 := h3
        simp only at h4 hg
        have e2 : rest l { skip l l.rows.length { it with si := it.si + 1 } with x := s1.b } =
            rest l it := by
          rw [rest_begin (it := { skip l l.rows.length { it with si := it.si + 1 } with x := s1.b })
            h2 rfl, hr]
          exact congrArg pixels h4
        obtain ⟨it', e1, e3⟩ := ih (it := { skip l l.rows.length { it with si := it.si + 1 } with
          x := s1.b }) h2 ⟨by simp only; omega, h1⟩ (by
            rw [segsFrom_cons h] at hn
            simp only [List.length_cons] at hn
            simp only
            rw [h4]
            omega)
        rw [e2] at e3
        exact ⟨it', e1, e3⟩
    · rw [if_neg hx]
      exact ⟨it, rfl, .inr ⟨hy.1, hy.2, ⟨s, h, by omega⟩, rfl⟩⟩

theorem segsFrom_length_le {l : Lines} {y : Int} {si : Nat} (hy : l.start ≤ y ∧ y < l.stop) :
    (segsFrom l y si).length ≤ segCount l := by
  -- from the first line on there are all segments
  have all : ∀ (rows : List (List Seg)) (start : Int),
      ((cols start (start + rows.length)).map fun z => ((⟨start, rows⟩ : Lines).row z).length).sum =
        (rows.map List.length).sum := by
    intro rows start
    have : (cols start (start + rows.length)).map (fun z => ((⟨start, rows⟩ : Lines).row z).length) =
        rows.map List.length := by
      apply List.ext_getElem?
      intro i
      simp only [cols, List.map_map, List.getElem?_map]
      by_cases hi : i < rows.length
      · rw [List.getElem?_range (by omega)]
        rw [List.getElem?_eq_getElem hi]
        simp only [Option.map_some, Function.comp, Lines.row]
        rw [if_pos (by omega), show (start + (i : Int) - start).toNat = i by omega,
          List.getElem?_eq_getElem hi]
        rfl
      · rw [List.getElem?_eq_none (by simp; omega), List.getElem?_eq_none (by omega)]
        rfl
    rw [this]
  have hle : ∀ (n : Nat) (y : Int), l.stop - y = n → l.start ≤ y →
      ((cols y l.stop).map fun z => (l.row z).length).sum ≤
        ((cols l.start l.stop).map fun z => (l.row z).length).sum := by
    intro n y _ hs
    have : ∀ (k : Nat) (z : Int), z + k ≤ l.stop →
        ((cols (z + k) l.stop).map fun z => (l.row z).length).sum ≤
        ((cols z l.stop).map fun z => (l.row z).length).sum := by
      intro k
      induction k with
      | zero => intro z _; simp
      | succ k ih =>
        intro z hz
        have := ih (z + 1) (by push_cast at hz; omega)
        rw [cols_cons (show z < l.stop by push_cast at hz; omega)]
        simp only [List.map_cons, List.sum_cons]
        rw [show z + ((k + 1 : Nat) : Int) = z + 1 + k by push_cast; omega]
        omega
    by_cases hyl : y ≤ l.stop
    · have := this (y - l.start).toNat l.start (by omega)
      rw [show l.start + ((y - l.start).toNat : Int) = y by omega] at this
      exact this
    · rw [cols_nil (by omega)]
      simp
  have h1 := hle (l.stop - y).toNat y (by omega) hy.1
  have h2 := all l.rows l.start
  have h3 : (segsFrom l y si).length ≤ ((cols y l.stop).map fun z => (l.row z).length).sum := by
    rw [cols_cons hy.2]
    unfold segsFrom
    simp only [List.length_append, List.length_map, List.length_drop, List.length_flatMap,
      List.map_cons, List.sum_cons]
    omega
  unfold segCount
  unfold Lines.stop at h1
  have h4 : ((cols y l.stop).map fun z => (l.row z).length).sum ≤ (l.rows.map List.length).sum := by
    rw [← h2]
    exact h1
  omega

/-- The loop visits everything that is left. -/
theorem collect_spec {l : Lines} (n : Nat) {it : It}
    (h : (l.stop ≤ it.y) ∨ (l.start ≤ it.y ∧ it.y < l.stop ∧
      ∃ s, seg? l it.y it.si = some s ∧ it.x < s.e))
    (hn : (if l.stop ≤ it.y then 0 else (rest l it).length) < n) :
    collect l n it = .ok (if l.stop ≤ it.y then [] else rest l it) := by
  induction n generalizing it with
  | zero => omega
  | succ n ih =>
    unfold collect It.atEnd
    by_cases he : l.stop ≤ it.y
    · simp [he]
    · rcases h with h | ⟨h1, h2, s, h3, h4⟩
      · omega
      · have hns : ¬ (decide (l.stop ≤ it.y) = true) := by simpa using he
        rw [if_neg hns, if_neg he]
        rw [if_neg he] at hn
        unfold It.next It.atEnd
        rw [if_neg hns]
        have hr : rest l it = (it.x, it.y) :: rest l { it with x := it.x + 1 } := by
          unfold rest
          simp only
          rw [h3]
          simp only
          rw [cols_cons h4]
          rfl
        obtain ⟨it', e1, e2⟩ := settle_spec (segCount l + 1)
          (it := { it with x := it.x + 1 }) h3 ⟨h1, h2⟩
          ((segsFrom_length_le ⟨h1, h2⟩).trans (by omega))
        unfold ensureValid
        rw [e1]
        show (collect l n it').bind _ = _
        rw [hr] at hn ⊢
        simp only [List.length_cons] at hn
        rcases e2 with ⟨a1, a2⟩ | ⟨a1, a2, a3, a4⟩
        · rw [ih (.inl a1) (by rw [if_pos a1]; omega), if_pos a1, a2]
          rfl
        · rw [ih (.inr ⟨a1, a2, a3⟩) (by rw [if_neg (by omega), a4]; omega),
            if_neg (by omega), a4]
          rfl

theorem firstLine_spec {l : Lines} (n : Nat) {y : Int} (hy : l.start ≤ y) (hy2 : y ≤ l.stop)
    (hn : l.stop - y ≤ n) :
    (firstLine l n y = l.stop ∧ ∀ z, y ≤ z → l.row z = []) ∨
    (y ≤ firstLine l n y ∧ firstLine l n y < l.stop ∧
      (∃ s, seg? l (firstLine l n y) 0 = some s) ∧
      (y < l.stop → segsFrom l (firstLine l n y) 0 = segsFrom l y 0)) := by
  induction n generalizing y with
  | zero =>
    have : y = l.stop := by omega
    left
    refine ⟨this, fun z hz => Lines.row_out fun h => ?_⟩
    have := h.2
    omega
  | succ n ih =>
    unfold firstLine
    by_cases h : y < l.stop ∧ (l.row y).length = 0
    · rw [if_pos h]
      rcases ih (y := y + 1) (by omega) (by omega) (by omega) with ⟨a1, a2⟩ | ⟨a1, a2, a3, a4⟩
      · left
        refine ⟨a1, fun z hz => ?_⟩
        rcases Int.lt_or_eq_of_le hz with hz | hz
        · exact a2 z (by omega)
        · rw [← hz]
          exact List.length_eq_zero_iff.mp h.2
      · right
        refine ⟨by omega, a2, a3, fun _ => ?_⟩
        have : y + 1 < l.stop := by omega
        rw [segsFrom_skip (by omega) this]
        exact a4 this
    · rw [if_neg h]
      by_cases h2 : y < l.stop
      · right
        refine ⟨le_rfl, h2, ?_, fun _ => rfl⟩
        have h3 : (l.row y).length ≠ 0 := fun h3 => h ⟨h2, h3⟩
        exact ⟨(l.row y)[0]'(by omega), List.getElem?_eq_getElem (by omega)⟩
      · left
        refine ⟨by omega, fun z hz => Lines.row_out fun h => ?_⟩
        have := h.2
        omega

theorem init_spec {l : Lines} (h : ∃ y, l.row y ≠ []) :
    ∃ it, It.init l = .ok it ∧
      ((l.stop ≤ it.y) ∨ (l.start ≤ it.y ∧ it.y < l.stop ∧
        ∃ s, seg? l it.y it.si = some s ∧ it.x < s.e)) ∧
      (if l.stop ≤ it.y then [] else rest l it) = pixels (segsFrom l l.start 0) := by
  have hstop : l.stop = l.start + l.rows.length := rfl
  rcases firstLine_spec (l := l) l.rows.length (le_refl l.start) (by omega) (by omega) with
    ⟨-, a2⟩ | ⟨a1, a2, ⟨s, a3⟩, a4⟩
  · obtain ⟨y, hy⟩ := h
    by_cases hyl : l.start ≤ y
    · exact absurd (a2 y hyl) hy
    · exact absurd (Lines.row_out fun h => hyl h.1) hy
  · unfold It.init
    simp only
    rw [a3]
    simp only
    rw [if_pos a2]
    obtain ⟨it', e1, e2⟩ := settle_spec (l := l) (segCount l + 1)
      (it := ⟨s.b, firstLine l l.rows.length l.start, 0⟩) a3 ⟨a1, a2⟩
      ((segsFrom_length_le ⟨a1, a2⟩).trans (by omega))
    have hr : rest l ⟨s.b, firstLine l l.rows.length l.start, 0⟩ = pixels (segsFrom l l.start 0) := by
      rw [rest_begin (it := ⟨s.b, firstLine l l.rows.length l.start, 0⟩) a3 rfl]
      exact congrArg pixels (a4 (by omega))
    refine ⟨it', e1, ?_, ?_⟩
    · rcases e2 with ⟨b1, -⟩ | ⟨b1, b2, b3, -⟩
      · exact .inl b1
      · exact .inr ⟨b1, b2, b3⟩
    · rcases e2 with ⟨b1, b2⟩ | ⟨b1, b2, b3, b4⟩
      · rw [if_pos b1, ← hr, b2]
      · rw [if_neg (by omega), b4, hr]

end Verif.Scan
