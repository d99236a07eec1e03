import Verif.PyPoly.Model
import Verif.Resample.Lemmas
import Verif.DartPos.Lemmas
import Mathlib.Tactic.Linarith
import Mathlib.Tactic.LinearCombination
import Mathlib.Tactic.FieldSimp

/-! # Cutting a polygon at a line: specification and helper lemmas -/

namespace Verif.PyPoly
open Verif Verif.GeoMap Verif.DartPos Verif.Resample

/-! ## The specification -/

/-- The side of the line through `a` and `b` on which `p` lies: 0 on the line, positive in the half-plane that is kept. -/
def side (a b p : Pt ℝ) : ℝ := (b - a).2 * (p - a).1 - (b - a).1 * (p - a).2

/-- the point number `i` -/
def pt (poly : List (Pt ℝ)) (i : Nat) : Pt ℝ := poly.getD i 0

/-- The points `i ≤ k < j` form a maximal run of points in the half-plane. -/
structure Run (a b : Pt ℝ) (poly : List (Pt ℝ)) (i j : Nat) : Prop where
  lt : i < j
  le : j ≤ poly.length
  inside : ∀ k, i ≤ k → k < j → 0 ≤ side a b (pt poly k)
  before : i = 0 ∨ side a b (pt poly (i - 1)) < 0
  after : j = poly.length ∨ side a b (pt poly j) < 0

/-- What is put in front of a run: nothing at the start of the polygon, otherwise the point where the polygon enters the half-plane. -/
def Enter (a b : Pt ℝ) (poly : List (Pt ℝ)) (i : Nat) (pre : List (Pt ℝ)) : Prop :=
  if i = 0 then pre = []
  else ∃ c, pre = [c] ∧ side a b c = 0 ∧ ∃ t : ℝ, 0 ≤ t ∧ t ≤ 1 ∧ c = pt poly (i - 1) + t • (pt poly i - pt poly (i - 1))

/-- What is put behind a run: nothing at the end of the polygon, otherwise a point of the line through the segment that leaves the half-plane.  It
lies on the cutting line only if the polygon starts in the half-plane and the last point of the run is already on the line. -/
def Leave (a b : Pt ℝ) (poly : List (Pt ℝ)) (i j : Nat) (post : List (Pt ℝ)) : Prop :=
  if j = poly.length then post = [] else ∃ z, post = [z] ∧ (∃ t : ℝ, z = pt poly (j - 1) + t • (pt poly j - pt poly (j - 1))) ∧ (side a b z = 0 ↔ i = 0 ∧ side a b (pt poly (j - 1)) = 0)

/-- The part made of a run -/
def IsPart (a b : Pt ℝ) (poly : List (Pt ℝ)) (r : Nat × Nat) (part : List (Pt ℝ)) : Prop :=
  Run a b poly r.1 r.2 ∧ ∃ pre post, part = pre ++ (poly.drop r.1).take (r.2 - r.1) ++ post ∧ Enter a b poly r.1 pre ∧ Leave a b poly r.1 r.2 post

/-- No run inside of the polygon is entered and left by points with the same distance from the line. -/
def Uneven (a b : Pt ℝ) (poly : List (Pt ℝ)) : Prop :=
  ∀ i j, 0 < i → j < poly.length → Run a b poly i j → side a b (pt poly (i - 1)) ≠ side a b (pt poly j)

/-! ## Lemmas -/

/-- the length of the normal vector -/
noncomputable def nlen (a b : Pt ℝ) : ℝ := mag (((b - a).2, -(b - a).1) : Pt ℝ)

theorem lineDist_eq (a b p : Pt ℝ) : lineDist a b p = side a b p / nlen a b := by
  simp only [lineDist, side, nlen, dot, Prod.smul_fst, Prod.smul_snd, smul_eq_mul]; ring

theorem side_mix (a b p q : Pt ℝ) (t : ℝ) : side a b (p - t • (q - p)) = side a b p - t * (side a b q - side a b p) := by
  simp only [side, Prod.fst_sub, Prod.snd_sub, Prod.smul_fst, Prod.smul_snd, smul_eq_mul]; ring

theorem take_snoc {poly : List (Pt ℝ)} {i k : Nat} (hik : i ≤ k) (hk : k < poly.length) :
    (poly.drop i).take (k - i) ++ [pt poly k] = (poly.drop i).take (k + 1 - i) := by
  rw [show k + 1 - i = (k - i) + 1 by omega, List.take_add_one]
  congr 1
  rw [List.getElem?_drop, show i + (k - i) = k by omega, List.getElem?_eq_getElem hk]
  simp [pt, List.getD, hk]

theorem rd_pt {poly : List (Pt ℝ)} {k : Nat} (h : k < poly.length) : rd poly k = .ok (pt poly k) := by
  rw [rd_lt h]; simp [pt, List.getD, h]

theorem cut_zero {n x y q : ℝ} (hn : n ≠ 0) (h : x / n - q ≠ 0) (hx : x ≠ 0) : y - q / (x / n - q) * (x - y) = 0 ↔ y = q * n := by
  have e : y - q / (x / n - q) * (x - y) = (x / n * (y - q * n)) / (x / n - q) := by
    rw [eq_div_iff h, sub_mul, mul_right_comm, div_mul_cancel₀ _ h]
    field_simp; ring
  rw [e, div_eq_zero_iff, mul_eq_zero, sub_eq_zero]
  constructor
  · rintro ((h' | h') | h')
    · rcases div_eq_zero_iff.1 h' with h' | h'
      · exact absurd h' hx
      · exact absurd h' hn
    · exact h'
    · exact absurd h' h
  · intro h'; exact .inl (.inr h')

/-- the state of the loop before round `k` -/
structure Inv (a b : Pt ℝ) (poly : List (Pt ℝ)) (k : Nat) (s : Cut) : Prop where
  runs : ∃ rs : List (Nat × Nat), List.Forall₂ (IsPart a b poly) rs s.result ∧ rs.Pairwise (fun x y => x.2 < y.1) ∧
    (if s.inside then
      ∃ i pre, i ≤ k ∧ (i = k → k = 0) ∧ (∀ m, i ≤ m → m < k → 0 ≤ side a b (pt poly m)) ∧ (i = 0 ∨ side a b (pt poly (i - 1)) < 0) ∧
        s.current = pre ++ (poly.drop i).take (k - i) ∧ Enter a b poly i pre ∧ (k = 0 → 0 ≤ side a b (pt poly 0)) ∧
        s.prevDist = (if i = 0 then 0 else lineDist a b (pt poly (i - 1))) ∧ (∀ r ∈ rs, r.2 < i) ∧
        ∀ m, m < i → 0 ≤ side a b (pt poly m) → ∃ r ∈ rs, r.1 ≤ m ∧ m < r.2
    else
      s.current = [] ∧ (k = 0 → side a b (pt poly 0) < 0) ∧ (0 < k → side a b (pt poly (k - 1)) < 0 ∧ s.prevDist = lineDist a b (pt poly (k - 1))) ∧
        (∀ r ∈ rs, r.2 < k) ∧ ∀ m, m < k → 0 ≤ side a b (pt poly m) → ∃ r ∈ rs, r.1 ≤ m ∧ m < r.2)

theorem inv_step {a b : Pt ℝ} {poly : List (Pt ℝ)} (hn : 0 < nlen a b) (hu : Uneven a b poly) {k : Nat} (hk : k < poly.length) {s : Cut} (h : Inv a b poly k s) :
    ∃ s', cutBody a b poly k s = .ok s' ∧ Inv a b poly (k + 1) s' := by
  obtain ⟨rs, hF, hP, hI⟩ := h.runs
  have hneg : ∀ p, lineDist a b p < 0 ↔ side a b p < 0 := by
    intro p; rw [lineDist_eq, div_lt_iff₀ hn, zero_mul]
  simp only [cutBody, rd_pt hk, Outcome.bind]
  by_cases hd : side a b (pt poly k) < 0
  · rw [if_pos ((hneg _).2 hd)]
    by_cases hin : s.inside = true
    · rw [if_pos hin] at hI
      obtain ⟨i, pre, hik, hik0, hins, hbef, hcur, hent, hk0, hprev, hrs, hcov⟩ := hI
      have hlt : i < k := by
        rcases Nat.lt_or_ge i k with h | h
        · exact h
        · have e : i = k := by omega
          have := hk0 (hik0 e)
          rw [hik0 e] at hd; exact absurd hd (not_lt.mpr this)
      have hrun : Run a b poly i k := ⟨hlt, hk.le, hins, hbef, .inr hd⟩
      have hne : lineDist a b (pt poly k) - s.prevDist ≠ 0 := by
        rw [hprev]
        by_cases h0 : i = 0
        · rw [if_pos h0, sub_zero]; exact ne_of_lt ((hneg _).2 hd)
        · rw [if_neg h0, lineDist_eq, lineDist_eq, ← sub_div]
          intro e
          rcases div_eq_zero_iff.1 e with e | e
          · exact hu i k (by omega) hk hrun (by linarith)
          · exact hn.ne' e
      rw [if_pos hin]
      simp only [cutPoint, prevPt, if_neg (show k ≠ 0 by omega), rd_pt (show k - 1 < poly.length by omega), quot_ok hne, Outcome.bind]
      refine ⟨_, rfl, ⟨rs ++ [(i, k)], ?_, ?_, ?_⟩⟩
      · refine List.rel_append hF (.cons ⟨hrun, pre, [pt poly (k - 1) - (s.prevDist / (lineDist a b (pt poly k) - s.prevDist)) • (pt poly k - pt poly (k - 1))], ?_, hent, ?_⟩ .nil)
        · rw [hcur]
        · unfold Leave
          rw [if_neg (show (i, k).2 ≠ poly.length from by dsimp only; omega)]
          refine ⟨_, rfl, ⟨-(s.prevDist / (lineDist a b (pt poly k) - s.prevDist)), by rw [neg_smul, sub_eq_add_neg]⟩, ?_⟩
          dsimp only
          rw [side_mix]
          have hD : 0 ≤ side a b (pt poly (k - 1)) := hins (k - 1) (by omega) (by omega)
          have key : side a b (pt poly (k - 1)) - s.prevDist / (lineDist a b (pt poly k) - s.prevDist) * (side a b (pt poly k) - side a b (pt poly (k - 1))) = 0 ↔
              side a b (pt poly (k - 1)) = s.prevDist * nlen a b := by
            have hne' := hne
            rw [lineDist_eq] at hne' ⊢
            exact cut_zero hn.ne' hne' (ne_of_lt hd)
          rw [key, hprev]
          by_cases h0 : i = 0
          · rw [if_pos h0, zero_mul]; exact ⟨fun h => ⟨h0, h⟩, fun h => h.2⟩
          · rw [if_neg h0, lineDist_eq, div_mul_cancel₀ _ hn.ne']
            rcases hbef with h | h
            · exact absurd h h0
            · exact ⟨fun e => by linarith, fun e => absurd e.1 h0⟩
      · rw [List.pairwise_append]
        refine ⟨hP, List.pairwise_singleton _ _, ?_⟩
        intro x hx y hy
        rw [List.mem_singleton] at hy; subst hy
        exact hrs x hx
      · rw [if_neg (by simp)]
        refine ⟨rfl, fun h => by omega, fun _ => ?_, ?_, ?_⟩
        · rw [Nat.add_sub_cancel]; exact ⟨hd, rfl⟩
        · intro r hr
          rcases List.mem_append.1 hr with hr | hr
          · have := hrs r hr; omega
          · rw [List.mem_singleton] at hr; subst hr; dsimp only; omega
        · intro m hm hs
          by_cases hmi : m < i
          · obtain ⟨r, hr, h⟩ := hcov m hmi hs
            exact ⟨r, List.mem_append_left _ hr, h⟩
          · refine ⟨(i, k), by simp, by dsimp only; omega, ?_⟩
            dsimp only
            rcases Nat.lt_or_ge m k with h | h
            · exact h
            · have : m = k := by omega
              subst this; exact absurd hd (not_lt.mpr hs)
    · rw [if_neg hin] at hI
      rw [if_neg hin]
      obtain ⟨hcur, hk0, hk1, hrs, hcov⟩ := hI
      refine ⟨_, rfl, ⟨rs, hF, hP, ?_⟩⟩
      dsimp only
      rw [if_neg hin]
      refine ⟨hcur, fun h => by omega, fun _ => ?_, ?_, ?_⟩
      · rw [Nat.add_sub_cancel]; exact ⟨hd, rfl⟩
      · intro r hr; have := hrs r hr; omega
      · intro m hm hs
        rcases Nat.lt_or_ge m k with h | h
        · exact hcov m h hs
        · have : m = k := by omega
          subst this; exact absurd hd (not_lt.mpr hs)
  · rw [if_neg (fun h => hd ((hneg _).1 h))]
    have hs0 := not_lt.mp hd
    by_cases hin : s.inside = true
    · rw [if_pos hin] at hI
      rw [if_neg (by simp [hin])]
      obtain ⟨i, pre, hik, hik0, hins, hbef, hcur, hent, hk0, hprev, hrs, hcov⟩ := hI
      refine ⟨_, rfl, ⟨rs, hF, hP, ?_⟩⟩
      dsimp only
      rw [if_pos hin]
      refine ⟨i, pre, by omega, fun h => by omega, ?_, hbef, ?_, hent, fun h => by omega, hprev, hrs, hcov⟩
      · intro m h1 h2
        rcases Nat.lt_or_ge m k with h | h
        · exact hins m h1 h
        · have : m = k := by omega
          subst this; exact hs0
      · rw [hcur, List.append_assoc, take_snoc hik hk]
    · rw [if_neg hin] at hI
      rw [if_pos (by simp [hin])]
      obtain ⟨hcur, hk0, hk1, hrs, hcov⟩ := hI
      have hkp : 0 < k := by
        rcases Nat.eq_zero_or_pos k with h | h
        · have := hk0 h; subst h; exact absurd this hd
        · exact h
      obtain ⟨hb, hpd⟩ := hk1 hkp
      have hne : lineDist a b (pt poly k) - s.prevDist ≠ 0 := by
        have h1 := (hneg _).2 hb
        have h2 : 0 ≤ lineDist a b (pt poly k) := not_lt.mp (fun h => hd ((hneg _).1 h))
        rw [hpd]; intro e; linarith
      simp only [cutPoint, prevPt, if_neg (show k ≠ 0 by omega), rd_pt (show k - 1 < poly.length by omega), quot_ok hne, Outcome.bind]
      refine ⟨_, rfl, ⟨rs, hF, hP, ?_⟩⟩
      dsimp only
      rw [if_pos rfl]
      refine ⟨k, [pt poly (k - 1) - (s.prevDist / (lineDist a b (pt poly k) - s.prevDist)) • (pt poly k - pt poly (k - 1))], by omega, fun h => by omega, ?_, .inr hb, ?_, ?_, fun h => by omega, ?_, hrs, hcov⟩
      · intro m h1 h2
        have : m = k := by omega
        subst this; exact hs0
      · rw [hcur, ← take_snoc le_rfl hk]; simp
      · unfold Enter
        rw [if_neg (by omega)]
        rw [hpd, lineDist_eq, lineDist_eq]
        have e : side a b (pt poly (k - 1)) / nlen a b / (side a b (pt poly k) / nlen a b - side a b (pt poly (k - 1)) / nlen a b) =
            side a b (pt poly (k - 1)) / (side a b (pt poly k) - side a b (pt poly (k - 1))) := by
          rw [← sub_div, div_div_div_cancel_right₀ hn.ne']
        rw [e]
        have hpos : 0 < side a b (pt poly k) - side a b (pt poly (k - 1)) := by linarith
        refine ⟨_, rfl, ?_, -(side a b (pt poly (k - 1)) / (side a b (pt poly k) - side a b (pt poly (k - 1)))), ?_, ?_, ?_⟩
        · rw [side_mix]; field_simp; ring
        · rw [← neg_div]; exact div_nonneg (by linarith) hpos.le
        · rw [← neg_div, div_le_one hpos]; linarith
        · rw [neg_smul, sub_eq_add_neg]
      · rw [if_neg (by omega)]; exact hpd

/-- The result of cutting: the parts are made of the maximal runs, in order. -/
theorem cut_spec {a b : Pt ℝ} {poly : List (Pt ℝ)} (hab : a ≠ b) (hne : poly ≠ []) (hu : Uneven a b poly) :
    ∃ parts rs, intersectLine poly a b = .ok parts ∧ List.Forall₂ (IsPart a b poly) rs parts ∧ rs.Pairwise (fun x y => x.2 < y.1) ∧
      ∀ m, m < poly.length → 0 ≤ side a b (pt poly m) → ∃ r ∈ rs, r.1 ≤ m ∧ m < r.2 := by
  have hlen : 0 < poly.length := List.length_pos_iff.2 hne
  have hn : 0 < nlen a b := by
    refine lt_of_le_of_ne (mag_nonneg _) (fun e => hab ?_)
    have := mag_eq_zero.1 e.symm
    have h1 := congrArg Prod.fst this
    have h2 := congrArg Prod.snd this
    simp only [Prod.fst_zero, Prod.snd_zero, Prod.fst_sub, Prod.snd_sub] at h1 h2
    exact Prod.ext (by linarith) (by linarith)
  have hneg : ∀ p, 0 ≤ lineDist a b p ↔ 0 ≤ side a b p := by
    intro p; rw [lineDist_eq, le_div_iff₀ hn, zero_mul]
  obtain ⟨s, e, I⟩ := forUp_inv (body := cutBody a b poly) (fun k s => Inv a b poly k s) poly.length 0 ⟨[], [], decide (lineDist a b (pt poly 0) ≥ 0), 0⟩
    ⟨[], .nil, .nil, by
      dsimp only
      by_cases h0 : 0 ≤ side a b (pt poly 0)
      · rw [if_pos (by simpa using (hneg _).2 h0)]
        exact ⟨0, [], le_rfl, fun _ => rfl, fun m _ h => by omega, .inl rfl, by simp, by simp [Enter], fun _ => h0, by simp, by simp, fun m h => by omega⟩
      · rw [if_neg (by simpa [hneg] using h0)]
        exact ⟨rfl, fun _ => not_le.mp h0, fun h => absurd h (lt_irrefl 0), by simp, fun m h => by omega⟩⟩
    (fun j s _ hj h => inv_step hn hu (by omega) h)
  rw [Nat.zero_add] at I
  obtain ⟨rs, hF, hP, hI⟩ := I.runs
  have hrun : intersectLine poly a b = .ok (if s.inside then s.result ++ [s.current] else s.result) := by
    simp only [intersectLine]
    rw [if_neg (by omega), if_neg (show ¬ mag _ = 0 from hn.ne'), rd_pt hlen]
    simp only [Outcome.bind]
    rw [e]
  by_cases hin : s.inside = true
  · rw [if_pos hin] at hI
    obtain ⟨i, pre, hik, hik0, hins, hbef, hcur, hent, hk0, hprev, hrs, hcov⟩ := hI
    have hlt : i < poly.length := by
      rcases Nat.lt_or_ge i poly.length with h | h
      · exact h
      · have := hik0 (by omega); omega
    refine ⟨s.result ++ [s.current], rs ++ [(i, poly.length)], by rw [hrun, if_pos hin], ?_, ?_, ?_⟩
    · refine List.rel_append hF (.cons ⟨⟨hlt, le_rfl, hins, hbef, .inl rfl⟩, pre, [], ?_, hent, ?_⟩ .nil)
      · rw [hcur]; simp
      · simp [Leave]
    · rw [List.pairwise_append]
      refine ⟨hP, List.pairwise_singleton _ _, ?_⟩
      intro x hx y hy
      rw [List.mem_singleton] at hy; subst hy
      exact hrs x hx
    · intro m hm hs
      by_cases hmi : m < i
      · obtain ⟨r, hr, h⟩ := hcov m hmi hs
        exact ⟨r, List.mem_append_left _ hr, h⟩
      · exact ⟨(i, poly.length), by simp, by dsimp only; omega, hm⟩
  · rw [if_neg hin] at hI
    exact ⟨s.result, rs, by rw [hrun, if_neg hin], hF, hP, hI.2.2.2.2⟩

end Verif.PyPoly
