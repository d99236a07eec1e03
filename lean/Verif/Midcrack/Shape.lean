import Verif.Midcrack.Lemmas
import Verif.DartPos.Lemmas

/-! # The shape of midcrack polygons -/

namespace Verif.Midcrack
open Verif Verif.GeoMap Verif.DartPos

section
variable {K : Type} [Field K] [CharZero K]

/-- the midpoints of the segments -/
def midList (pts : List (Pt K)) : List (Pt K) := List.zipWith mid pts pts.tail

theorem eq_mid {p q r : Pt K} (h : r + r = p + q) : r = mid p q := by
  obtain ⟨h1, h2⟩ := Prod.ext_iff.1 h
  simp only [Prod.fst_add, Prod.snd_add] at h1 h2
  unfold mid
  ext
  · show r.1 = (p.1 + q.1) * (1 / 2)
    rw [← h1]; ring
  · show r.2 = (p.2 + q.2) * (1 / 2)
    rw [← h2]; ring

theorem Midpoints.get {pts pts' : List (Pt K)} (h : Midpoints pts pts') {i : Nat} (hi : i + 1 < pts.length) : pts'[i + 1]? = (midList pts)[i]? := by
  obtain ⟨p, q, r, h1, h2, h3, h4⟩ := h (i + 1) (by omega) hi
  rw [h3, eq_mid h4, midList, List.getElem?_zipWith, List.getElem?_tail]
  rw [Nat.add_sub_cancel] at h1
  rw [h1, h2]

omit [CharZero K] in
theorem midList_length (pts : List (Pt K)) : (midList pts).length = pts.length - 1 := by
  rw [midList, List.length_zipWith, List.length_tail]; omega

theorem Kept.eq {pts pts' : List (Pt K)} (h : Kept pts pts') {a b : Pt K} (ha : pts.head? = some a) (hb : pts.getLast? = some b) :
    pts' = a :: midList pts ++ [b] := by
  have hpos : 0 < pts.length := by
    cases pts with
    | nil => cases ha
    | cons _ _ => simp
  apply List.ext_getElem?
  rintro (_ | i)
  · rw [← List.head?_eq_getElem?, h.head, ha]; rfl
  · rw [List.cons_append, List.getElem?_cons_succ]
    by_cases hi : i + 1 < pts.length
    · rw [h.mids.get hi, List.getElem?_append_left (by rw [midList_length]; omega)]
    · by_cases hi2 : i + 1 = pts.length
      · have : pts'[i + 1]? = pts'.getLast? := by
          rw [List.getLast?_eq_getElem?, h.length]; congr 1
        rw [this, h.last, hb, List.getElem?_append_right (by rw [midList_length]; omega), midList_length, show i - (pts.length - 1) = 0 by omega]
        rfl
      · rw [List.getElem?_eq_none (by rw [h.length]; omega), List.getElem?_eq_none]
        rw [List.length_append, midList_length, List.length_singleton]; omega

theorem Turned.eq {pts pts' : List (Pt K)} (h : Turned pts pts') (hl : 2 ≤ pts.length) : ∃ m, (midList pts).getLast? = some m ∧ pts' = m :: midList pts := by
  have hlast : pts'.getLast? = (midList pts).getLast? := by
    rw [List.getLast?_eq_getElem?, List.getLast?_eq_getElem?, h.length, midList_length, show pts.length - 1 = (pts.length - 2) + 1 by omega, h.mids.get (by omega)]
    rfl
  obtain ⟨m, hm⟩ : ∃ m, (midList pts).getLast? = some m := by
    refine Option.isSome_iff_exists.1 ?_
    rw [List.getLast?_isSome]
    intro hc
    have := midList_length pts
    rw [hc] at this
    simp at this; omega
  refine ⟨m, hm, ?_⟩
  apply List.ext_getElem?
  rintro (_ | i)
  · rw [← List.head?_eq_getElem?, h.closed, hlast, hm]; rfl
  · rw [List.getElem?_cons_succ]
    by_cases hi : i + 1 < pts.length
    · exact h.mids.get hi
    · rw [List.getElem?_eq_none (by rw [h.length]; omega), List.getElem?_eq_none (by rw [midList_length]; omega)]

end

theorem mid_sub (p q : Pt ℝ) : mid p q - p = (1 / 2 : ℝ) • (q - p) ∧ q - mid p q = (1 / 2 : ℝ) • (q - p) := by
  unfold mid
  constructor <;> ext <;> simp only [Prod.fst_sub, Prod.snd_sub, Prod.smul_fst, Prod.smul_snd, smul_eq_mul] <;> ring

theorem mag_mid (p q : Pt ℝ) : mag (mid p q - p) = 1 / 2 * mag (q - p) ∧ mag (q - mid p q) = 1 / 2 * mag (q - p) := by
  rw [(mid_sub p q).1, (mid_sub p q).2, mag_smul _ _ (by norm_num)]
  exact ⟨rfl, rfl⟩

theorem mag_triangle (a b c : Pt ℝ) : mag (c - a) ≤ mag (b - a) + mag (c - b) := by
  have := mag_add_le (b - a) (c - b)
  rwa [show b - a + (c - b) = c - a by abel] at this

theorem midList_cons (p q : Pt ℝ) (l : List (Pt ℝ)) : midList (p :: q :: l) = mid p q :: midList (q :: l) := rfl

/-- from the first midpoint to the end -/
theorem pathLen_mids (l : List (Pt ℝ)) : ∀ (p q : Pt ℝ) {b : Pt ℝ}, (q :: l).getLast? = some b →
    pathLen (midList (p :: q :: l) ++ [b]) ≤ 1 / 2 * mag (q - p) + pathLen (q :: l) := by
  induction l with
  | nil =>
    intro p q b hb
    cases hb
    show pathLen [mid p q, q] ≤ _
    simp only [pathLen]
    rw [(mag_mid p q).2]
  | cons r l ih =>
    intro p q b hb
    have := ih q r (b := b) (by rwa [List.getLast?_cons_cons] at hb)
    rw [midList_cons, midList_cons, List.cons_append, List.cons_append]
    rw [midList_cons, List.cons_append] at this
    simp only [pathLen]
    have ht := mag_triangle (mid p q) q (mid q r)
    rw [(mag_mid p q).2, (mag_mid q r).1] at ht
    linarith

theorem Kept.pathLen_le {pts pts' : List (Pt ℝ)} (h : Kept pts pts') (hl : 2 ≤ pts.length) : pathLen pts' ≤ pathLen pts := by
  match pts, hl with
  | p :: q :: l, _ =>
    obtain ⟨b, hb⟩ : ∃ b, (p :: q :: l).getLast? = some b := ⟨_, List.getLast?_eq_some_getLast (by simp)⟩
    rw [h.eq rfl hb]
    have := pathLen_mids l p q (b := b) (by rwa [List.getLast?_cons_cons] at hb)
    rw [midList_cons] at this ⊢
    simp only [List.cons_append] at this ⊢
    simp only [pathLen]
    rw [(mag_mid p q).1]
    linarith

theorem pathLen_snoc (l : List (Pt ℝ)) : ∀ {m : Pt ℝ} (b : Pt ℝ), l.getLast? = some m → pathLen (l ++ [b]) = pathLen l + mag (b - m) := by
  induction l with
  | nil => intro m b h; cases h
  | cons p l ih =>
    intro m b h
    cases l with
    | nil => cases h; simp [pathLen]
    | cons q l =>
      have := ih b (by rwa [List.getLast?_cons_cons] at h)
      simp only [List.cons_append] at this ⊢
      simp only [pathLen]
      rw [this]; ring

theorem Turned.pathLen_le {pts pts' : List (Pt ℝ)} (h : Turned pts pts') (hl : 2 ≤ pts.length) (hc : pts.head? = pts.getLast?) : pathLen pts' ≤ pathLen pts := by
  obtain ⟨m, hm, e⟩ := h.eq hl
  match pts, hl with
  | p :: q :: l, _ =>
    rw [e]
    have hb : (q :: l).getLast? = some p := by rw [List.getLast?_cons_cons] at hc; exact hc.symm
    have h1 := pathLen_mids l p q hb
    rw [pathLen_snoc _ _ hm] at h1
    rw [midList_cons] at h1 ⊢
    simp only [pathLen]
    have := mag_triangle m p (mid p q)
    rw [(mag_mid p q).1] at this
    linarith

section
variable {K : Type} [Field K] [LinearOrder K] [IsStrictOrderedRing K]

theorem Midpoints.half_plane {pts pts' : List (Pt K)} (h : Midpoints pts pts') {a b c : K} (hp : ∀ p ∈ pts, a * p.1 + b * p.2 ≤ c) {i : Nat} (h0 : 0 < i)
    (hi : i < pts.length) {r : Pt K} (hr : pts'[i]? = some r) : a * r.1 + b * r.2 ≤ c := by
  obtain ⟨p, q, r', h1, h2, h3, h4⟩ := h i h0 hi
  rw [hr] at h3; cases h3
  have hp1 := hp p (List.mem_of_getElem? h1)
  have hp2 := hp q (List.mem_of_getElem? h2)
  obtain ⟨e1, e2⟩ := Prod.ext_iff.1 h4
  simp only [Prod.fst_add, Prod.snd_add] at e1 e2
  have : 2 * (a * r.1 + b * r.2) = (a * p.1 + b * p.2) + (a * q.1 + b * q.2) := by linear_combination a * e1 + b * e2
  linarith

theorem Kept.half_plane {pts pts' : List (Pt K)} (h : Kept pts pts') {a b c : K} (hp : ∀ p ∈ pts, a * p.1 + b * p.2 ≤ c) : ∀ r ∈ pts', a * r.1 + b * r.2 ≤ c := by
  intro r hr
  obtain ⟨i, hi⟩ := List.mem_iff_getElem?.1 hr
  by_cases h0 : 0 < i
  · by_cases hl : i < pts.length
    · exact h.mids.half_plane hp h0 hl hi
    · have hlt := (List.getElem?_eq_some_iff.1 hi).1
      have : i = pts'.length - 1 := by rw [h.length] at hlt ⊢; omega
      rw [this, ← List.getLast?_eq_getElem?, h.last] at hi
      exact hp r (List.mem_of_getLast? hi)
  · have : i = 0 := by omega
    subst this
    rw [← List.head?_eq_getElem?, h.head] at hi
    exact hp r (List.mem_of_head? hi)

theorem Turned.half_plane {pts pts' : List (Pt K)} (h : Turned pts pts') (hl2 : 2 ≤ pts.length) {a b c : K} (hp : ∀ p ∈ pts, a * p.1 + b * p.2 ≤ c) :
    ∀ r ∈ pts', a * r.1 + b * r.2 ≤ c := by
  intro r hr
  obtain ⟨i, hi⟩ := List.mem_iff_getElem?.1 hr
  have hlt := (List.getElem?_eq_some_iff.1 hi).1
  by_cases h0 : 0 < i
  · exact h.mids.half_plane hp h0 (by rw [← h.length]; exact hlt) hi
  · have : i = 0 := by omega
    subst this
    rw [← List.head?_eq_getElem?, h.closed, List.getLast?_eq_getElem?, h.length] at hi
    exact h.mids.half_plane hp (by omega) (by omega) hi

end

end Verif.Midcrack
