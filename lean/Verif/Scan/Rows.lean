import Verif.Scan.Norm

/-! # Lemmas about the lines of `Scanlines` -/

namespace Verif.Scan

/-- The line belongs to the scanned range. -/
def Lines.In (l : Lines) (y : Int) : Prop := l.start ≤ y ∧ y < l.stop

theorem Lines.row_out {l : Lines} {y : Int} (h : ¬ l.In y) : l.row y = [] := by
  unfold Lines.row
  by_cases h1 : l.start ≤ y
  · rw [if_pos h1]
    have : l.rows.length ≤ (y - l.start).toNat := by
      simp only [Lines.In, Lines.stop, not_and, not_lt] at h
      have := h h1
      omega
    rw [List.getElem?_eq_none this]
    rfl
  · rw [if_neg h1]

theorem Lines.append_in (l : Lines) (y z : Int) (s : Seg) : (l.append y s).In z ↔ l.In z := by
  unfold Lines.append
  split
  · simp [Lines.In, Lines.stop]
  · rfl

theorem Lines.row_append {l : Lines} {y : Int} (h : l.In y) (z : Int) (s : Seg) :
    (l.append z s).row y = if z = y then l.row y ++ [s] else l.row y := by
  obtain ⟨h1, h2⟩ := h
  simp only [Lines.stop] at h2
  have hy : (y - l.start).toNat < l.rows.length := by omega
  unfold Lines.append Lines.row
  by_cases hc : 0 ≤ z - l.start ∧ z - l.start < l.rows.length
  · simp only [if_pos hc, if_pos h1, List.getElem?_modify]
    by_cases hz : z = y
    · subst hz
      simp [hy]
    · have : ¬ (z - l.start).toNat = (y - l.start).toNat := by omega
      simp [this, hz]
  · simp only [if_neg hc, if_pos h1]
    have : z ≠ y := by omega
    simp [this]

theorem Lines.row_empty (start : Int) (n : Nat) (y : Int) : (Lines.empty start n).row y = [] := by
  unfold Lines.row Lines.empty
  split
  · simp only [List.getElem?_replicate]
    split <;> rfl
  · rfl

theorem Lines.empty_in (start : Int) (n : Nat) (y : Int) :
    (Lines.empty start n).In y ↔ start ≤ y ∧ y < start + n := by
  simp [Lines.In, Lines.stop, Lines.empty]

theorem Lines.row_map {l : Lines} (f : List Seg → List Seg) (hf : f [] = []) (y : Int) :
    (Lines.mk l.start (l.rows.map f)).row y = f (l.row y) := by
  unfold Lines.row
  simp only [List.getElem?_map]
  split
  · cases l.rows[(y - l.start).toNat]? <;> simp [hf]
  · exact hf.symm

theorem Lines.row_normalize (l : Lines) (y : Int) : l.normalize.row y = normRow (l.row y) :=
  l.row_map normRow rfl y

theorem Lines.row_reverse (l : Lines) (y : Int) :
    l.reverse.row y = (l.row y).map fun s => { s with d := -s.d } :=
  l.row_map _ rfl y

theorem Lines.normalize_in (l : Lines) (y : Int) : l.normalize.In y ↔ l.In y := by
  simp [Lines.In, Lines.stop, Lines.normalize]

theorem Lines.reverse_in (l : Lines) (y : Int) : l.reverse.In y ↔ l.In y := by
  simp [Lines.In, Lines.stop, Lines.reverse]

theorem addRows_length (rows : List (List Seg)) (i : Nat) (o : List (List Seg)) (h : o.length + i ≤ rows.length) :
    (addRows rows i o).length = rows.length := by
  induction i generalizing rows with
  | zero => simp [addRows]; omega
  | succ i ih =>
    cases rows with
    | nil => rfl
    | cons r rows =>
      simp only [addRows, List.length_cons] at h ⊢
      rw [ih rows (by omega)]

theorem addRows_get (rows : List (List Seg)) (i : Nat) (o : List (List Seg)) (h : o.length + i ≤ rows.length)
    (n : Nat) : ((addRows rows i o)[n]?).getD [] =
      (rows[n]?).getD [] ++ if i ≤ n then (o[n - i]?).getD [] else [] := by
  induction i generalizing rows n with
  | zero =>
    simp only [addRows, List.getElem?_zipWith, Nat.zero_le, if_true, Nat.sub_zero]
    by_cases hn : n < rows.length
    · by_cases hm : n < o.length
      · rw [List.getElem?_append_left hm, List.getElem?_eq_getElem hn, List.getElem?_eq_getElem hm]
        rfl
      · rw [List.getElem?_append_right (by omega), List.getElem?_replicate,
          if_pos (by omega), List.getElem?_eq_getElem hn, List.getElem?_eq_none (by omega)]
        simp
    · rw [List.getElem?_eq_none (l := rows) (by omega), List.getElem?_eq_none (l := o) (by omega)]
      simp
  | succ i ih =>
    cases rows with
    | nil => simp at h
    | cons r rows =>
      cases n with
      | zero => simp [addRows]
      | succ n =>
        simp only [List.length_cons] at h
        simp only [addRows, List.getElem?_cons_succ]
        rw [ih rows (by omega) n]
        congr 1
        by_cases hi : i ≤ n
        · rw [if_pos hi, if_pos (by omega), show n + 1 - (i + 1) = n - i by omega]
        · rw [if_neg hi, if_neg (by omega)]

theorem Lines.row_pad_front (l : Lines) (n : Nat) (y : Int) :
    (Lines.mk (l.start - n) (List.replicate n [] ++ l.rows)).row y = l.row y := by
  unfold Lines.row
  by_cases h1 : l.start ≤ y
  · simp only [if_pos h1, if_pos (show l.start - n ≤ y by omega)]
    rw [List.getElem?_append_right (by simp; omega)]
    congr 2
    simp
    omega
  · simp only [if_neg h1]
    split
    · rw [List.getElem?_append_left (by simp; omega), List.getElem?_replicate]
      split <;> rfl
    · rfl

theorem Lines.row_pad_back (l : Lines) (n : Nat) (y : Int) :
    (Lines.mk l.start (l.rows ++ List.replicate n [])).row y = l.row y := by
  unfold Lines.row
  by_cases h1 : l.start ≤ y
  · simp only [if_pos h1]
    by_cases h2 : (y - l.start).toNat < l.rows.length
    · rw [List.getElem?_append_left h2]
    · rw [List.getElem?_append_right (by omega), List.getElem?_replicate, List.getElem?_eq_none (by omega)]
      split <;> rfl
  · simp only [if_neg h1]

/-- `merge` appends the segments of the other object on every line. -/
theorem Lines.row_merge (l o : Lines) (y : Int) : (l.merge o).row y = l.row y ++ o.row y := by
  -- the padded lines
  obtain ⟨l1, hl1, e1, e2⟩ : ∃ l1 : Lines,
      l1 = (if 0 < l.start - o.start then
        ⟨o.start, List.replicate (l.start - o.start).toNat [] ++ l.rows⟩ else l) ∧
      l1.start ≤ o.start ∧ ∀ y, l1.row y = l.row y := by
    refine ⟨_, rfl, ?_, fun y => ?_⟩
    · split
      · exact le_rfl
      · omega
    · split
      · have := l.row_pad_front (l.start - o.start).toNat y
        rw [show l.start - ((l.start - o.start).toNat : Int) = o.start by omega] at this
        exact this
      · rfl
  obtain ⟨l2, hl2, e3, e4, e5⟩ : ∃ l2 : Lines,
      l2 = (if 0 < o.stop - l1.stop then
        ⟨l1.start, l1.rows ++ List.replicate (o.stop - l1.stop).toNat []⟩ else l1) ∧
      l2.start = l1.start ∧ o.stop ≤ l2.stop ∧ ∀ y, l2.row y = l1.row y := by
    refine ⟨_, rfl, ?_, ?_, fun y => ?_⟩
    · split <;> rfl
    · split
      · simp only [Lines.stop, List.length_append, List.length_replicate] at *
        omega
      · omega
    · split
      · exact l1.row_pad_back _ y
      · rfl
  have hm : l.merge o = ⟨l2.start, addRows l2.rows (o.start - l2.start).toNat o.rows⟩ := by
    rw [hl2, hl1]
    rfl
  rw [hm, ← e2 y, ← e5 y]
  have hlen : o.rows.length + (o.start - l2.start).toNat ≤ l2.rows.length := by
    simp only [Lines.stop] at e4
    omega
  unfold Lines.row
  by_cases hy : l2.start ≤ y
  · simp only [if_pos hy]
    rw [addRows_get _ _ _ hlen]
    congr 1
    by_cases ho : o.start ≤ y
    · rw [if_pos ho, if_pos (by omega), show (y - l2.start).toNat - (o.start - l2.start).toNat =
        (y - o.start).toNat by omega]
    · rw [if_neg ho, if_neg (by omega)]
  · simp only [if_neg hy]
    rw [if_neg (by omega)]
    rfl

end Verif.Scan
