import Verif.Locate.Spec
import Verif.Locate.Wind
import Verif.GeoMap.PropLemmas
import Verif.Scan.Props

/-! # Winding numbers of faces are constant off the edges -/

set_option linter.unusedSectionVars false

namespace Verif.Locate
open Verif Verif.GeoMap Verif.Polygon Verif.Scan Verif.PermLemmas

variable {K : Type} [Field K] [LinearOrder K] [IsStrictOrderedRing K]

/-- First point of a dart. -/
def head (g : GMap K) (d : Int) : Option (Pt K) := (g.edge d.natAbs).bind fun e => (e.dartPts d).head?

theorem Located.unique {g : GMap K} {c : Pt K} {f f' : Nat} (h : Located g c f) (h' : Located g c f') : f = f' := by
  by_contra hne
  have h1 := h.2 f h.1
  have h2 := h'.2 f h.1
  rw [if_pos rfl] at h1
  rw [if_neg hne] at h2
  omega

theorem onLine_reverse {pts : List (Pt K)} {r : Pt K} (h : OnLine pts r) : OnLine pts.reverse r := by
  rcases h with h | ⟨p, q, ⟨u, v, huv⟩, t, t0, t1, hr⟩
  · exact Or.inl (List.mem_reverse.mpr h)
  · refine Or.inr ⟨q, p, ⟨v.reverse, u.reverse, by rw [← huv]; simp⟩, 1 - t, by linarith, by linarith, ?_⟩
    rw [hr]; ext <;> simp only <;> ring

theorem onLine_dart {e : Edge K} {d : Int} {r : Pt K} : OnLine (e.dartPts d) r ↔ OnLine e.pts r := by
  unfold Edge.dartPts
  split_ifs
  · rfl
  · exact ⟨fun h => by simpa using onLine_reverse h, onLine_reverse⟩

theorem dartWind_neg {g : GMap K} (h0 : g.edge 0 = none) (c : Pt K) (d : Int) : dartWind g c (-d) = - dartWind g c d := by
  unfold dartWind
  rw [Int.natAbs_neg]
  cases he : g.edge d.natAbs with
  | none => simp
  | some e =>
    have d0 : d ≠ 0 := by rintro rfl; rw [Int.natAbs_zero, h0] at he; cases he
    simp only
    rw [Edge.dartPts_neg e d0, winding_reverse]

/-- Contours are closed: what is counted at first points is counted at last points. -/
theorem sum_closed_of {g : GMap K} (hM : MapOK g) (hi : g.initialized) (hG : GeomOK g) (j : Option (Pt K) → Int) {P : Int → Prop} [DecidablePred P]
    (hP : ∀ d, g.liveD d → (P (g.phi d) ↔ P d)) :
    (∑ d ∈ g.darts, if P d then j (head g (-d)) else 0) = ∑ d ∈ g.darts, if P d then j (head g d) else 0 := by
  obtain ⟨π, hg⟩ := hM.graph.exists_rep
  obtain ⟨ψ, hc⟩ := (hM.contours hi).exists_rep hg
  have hlive : ∀ d, d ∈ g.darts ↔ g.liveD d := mem_darts hg.labels.edge_lt
  refine Finset.sum_bij' (fun d _ => ψ d) (fun d _ => ψ⁻¹ d) ?_ ?_ (by simp) (by simp) ?_
  · intro d hd
    exact hc.rep.mem hd
  · intro d hd
    exact hc.rep.memi hd
  · intro d hd
    have h1 : g.phi d = ψ d := hc.rep.eq d hd
    have hld := (hlive d).mp hd
    have h2 : P (ψ d) ↔ P d := by rw [← h1]; exact hP d hld
    have h3 : head g (-d) = head g (ψ d) := by
      have hlp : g.liveD (ψ d) := (hlive _).mp (hc.rep.mem hd)
      have hn : g.liveD (-d) := by unfold GMap.liveD at hld ⊢; rw [Int.natAbs_neg]; exact hld
      have hs : g.startN? (ψ d) = g.startN? (-d) := by
        rw [← h1]
        obtain ⟨q1, q2⟩ := hM.graph.sigmaInv_live (-d) hn
        have := hM.graph.start_sigma _ q1
        rw [q2] at this
        exact this.symm
      have key : ∀ x, g.liveD x → head g x = (g.startN? x).bind fun n => (g.node n).map (·.pos) := by
        intro x hx
        obtain ⟨e, he⟩ := Option.isSome_iff_exists.mp hx
        unfold head
        rw [he]
        simp only [Option.bind_some]
        rw [(hG.dart he).1, startN?_of he]
        rfl
      rw [key _ hn, key _ hlp, hs]
    rw [h3]
    simp only [h2]

/-- The contours of a face are closed. -/
theorem sum_closed {g : GMap K} (hM : MapOK g) (hi : g.initialized) (hG : GeomOK g) (j : Option (Pt K) → Int) (f : Nat) :
    (∑ d ∈ g.darts, if g.left? d = some f then j (head g (-d)) else 0) = ∑ d ∈ g.darts, if g.left? d = some f then j (head g d) else 0 :=
  sum_closed_of hM hi hG j fun d hd => by rw [(hM.contours hi).left_phi d hd]

/-- `r` lies in the rectangle spanned by `c` and `c'`. -/
def Between (c c' r : Pt K) : Prop := (min c.1 c'.1 ≤ r.1 ∧ r.1 ≤ max c.1 c'.1) ∧ min c.2 c'.2 ≤ r.2 ∧ r.2 ≤ max c.2 c'.2

/-- If no edge meets the rectangle spanned by two points, every face winds equally often around both. -/
theorem faceWind_const {g : GMap K} (hM : MapOK g) (hi : g.initialized) (hG : GeomOK g) {c c' : Pt K} (h : ∀ r, OnEdge g r → ¬ Between c c' r) (f : Nat) :
    faceWind g c f = faceWind g c' f := by
  have honto : ∀ {d : Int} {e : Edge K}, g.edge d.natAbs = some e → ∀ r, OnLine (e.dartPts d) r → OnEdge g r :=
    fun he r hr => ⟨_, _, he, onLine_dart.mp hr⟩
  -- horizontally
  have hor : ∀ x x' y : K, x ≤ x' → (∀ r, OnEdge g r → ¬ (r.2 = y ∧ x ≤ r.1 ∧ r.1 ≤ x')) → faceWind g (x', y) f = faceWind g (x, y) f := by
    intro x x' y hx hh
    unfold faceWind
    refine Finset.sum_congr rfl fun d _ => ?_
    congr 1
    unfold dartWind
    cases he : g.edge d.natAbs with
    | none => rfl
    | some e => exact winding_horiz hx fun r hr => hh r (honto he r hr)
  -- vertically
  have ver : ∀ x y y' : K, y ≤ y' → (∀ r, OnEdge g r → ¬ (r.1 = x ∧ y ≤ r.2 ∧ r.2 ≤ y')) → faceWind g (x, y') f = faceWind g (x, y) f := by
    intro x y y' hy hh
    have hsum := sum_closed hM hi hG (fun v => (v.map (jump x y y')).getD 0) f
    have hz : faceWind g (x, y') f - faceWind g (x, y) f = 0 := by
      unfold faceWind
      rw [← Finset.sum_sub_distrib]
      rw [← sub_eq_zero, ← Finset.sum_sub_distrib] at hsum
      rw [← hsum]
      refine Finset.sum_congr rfl fun d hd => ?_
      by_cases hl : g.left? d = some f
      · rw [if_pos hl, if_pos hl, if_pos hl, if_pos hl]
        have hld := (mem_darts hM.graph.labels.edge_lt d).mp hd
        obtain ⟨e, he⟩ := Option.isSome_iff_exists.mp hld
        have d0 : d ≠ 0 := by rintro rfl; rw [Int.natAbs_zero, hM.graph.edge_zero] at he; cases he
        have hne := e.dartPts_ne (hM.graph.pts_ne _ e he) d
        unfold dartWind head
        rw [Int.natAbs_neg, he]
        simp only [Option.bind_some]
        rw [Edge.dartPts_neg e d0, List.head?_reverse]
        cases hpts : e.dartPts d with
        | nil => exact absurd hpts hne
        | cons p l =>
          obtain ⟨q, hq⟩ : ∃ q, (p :: l).getLast? = some q := ⟨_, List.getLast?_eq_some_getLast (by simp)⟩
          rw [hq]
          simp only [List.head?_cons, Option.map_some, Option.getD_some]
          exact winding_vert hy hq fun r hr => hh r (honto he r (by rw [hpts]; exact hr))
      · simp [hl]
    linarith
  obtain ⟨x, y⟩ := c
  obtain ⟨x', y'⟩ := c'
  have e1 : faceWind g (x', y) f = faceWind g (x, y) f := by
    rcases le_total x x' with hx | hx
    · refine hor x x' y hx fun r hr ⟨h1, h2, h3⟩ => h r hr ⟨⟨?_, ?_⟩, ?_, ?_⟩
      · exact (min_le_left _ _).trans h2
      · exact h3.trans (le_max_right _ _)
      · rw [h1]; exact min_le_left _ _
      · rw [h1]; exact le_max_left _ _
    · refine (hor x' x y hx fun r hr ⟨h1, h2, h3⟩ => h r hr ⟨⟨?_, ?_⟩, ?_, ?_⟩).symm
      · exact (min_le_right _ _).trans h2
      · exact h3.trans (le_max_left _ _)
      · rw [h1]; exact min_le_left _ _
      · rw [h1]; exact le_max_left _ _
  have e2 : faceWind g (x', y') f = faceWind g (x', y) f := by
    rcases le_total y y' with hy | hy
    · refine ver x' y y' hy fun r hr ⟨h1, h2, h3⟩ => h r hr ⟨⟨?_, ?_⟩, ?_, ?_⟩
      · rw [h1]; exact min_le_right _ _
      · rw [h1]; exact le_max_right _ _
      · exact (min_le_left _ _).trans h2
      · exact h3.trans (le_max_right _ _)
    · refine (ver x' y' y hy fun r hr ⟨h1, h2, h3⟩ => h r hr ⟨⟨?_, ?_⟩, ?_, ?_⟩).symm
      · rw [h1]; exact min_le_right _ _
      · rw [h1]; exact le_max_right _ _
      · exact (min_le_right _ _).trans h2
      · exact h3.trans (le_max_left _ _)
  rw [e2, e1]

theorem Located.move {g : GMap K} (hM : MapOK g) (hi : g.initialized) (hG : GeomOK g) {c c' : Pt K} (h : ∀ r, OnEdge g r → ¬ Between c c' r) {f : Nat}
    (hl : Located g c f) : Located g c' f :=
  ⟨hl.1, fun k hk => by rw [← faceWind_const hM hi hG h]; exact hl.2 k hk⟩

/-! ### A box around a point off the edges -/

theorem segment_box {p q c : Pt K} (h : ¬ OnSegment p q c) :
    ∃ ε : K, 0 < ε ∧ ∀ r, OnSegment p q r → ¬ (|r.1 - c.1| ≤ ε ∧ |r.2 - c.2| ≤ ε) := by
  set w := (q.1 - p.1) * (c.2 - p.2) - (q.2 - p.2) * (c.1 - p.1) with hw
  by_cases hw0 : w = 0
  · -- on the line, beyond an end
    by_cases hpq : q.1 - p.1 = 0 ∧ q.2 - p.2 = 0
    · -- a point
      have hne : c.1 ≠ p.1 ∨ c.2 ≠ p.2 := by
        by_contra hh
        push Not at hh
        exact h ⟨0, le_refl 0, zero_le_one, by ext <;> simp [hh.1, hh.2]⟩
      rcases hne with hne | hne
      · have hpos : 0 < |p.1 - c.1| := abs_pos.mpr (sub_ne_zero.mpr (Ne.symm hne))
        refine ⟨|p.1 - c.1| / 2, by linarith, ?_⟩
        rintro r ⟨t, -, -, rfl⟩ ⟨h1, -⟩
        simp only [hpq.1, mul_zero, add_zero] at h1
        linarith
      · have hpos : 0 < |p.2 - c.2| := abs_pos.mpr (sub_ne_zero.mpr (Ne.symm hne))
        refine ⟨|p.2 - c.2| / 2, by linarith, ?_⟩
        rintro r ⟨t, -, -, rfl⟩ ⟨-, h1⟩
        simp only [hpq.2, mul_zero, add_zero] at h1
        linarith
    · -- the parameter of `c` on the line
      set n := (q.1 - p.1) * (q.1 - p.1) + (q.2 - p.2) * (q.2 - p.2) with hn
      have hnpos : 0 < n := by
        rcases not_and_or.mp hpq with h1 | h1
        · have := mul_self_pos.mpr h1
          have := mul_self_nonneg (q.2 - p.2)
          linarith
        · have := mul_self_pos.mpr h1
          have := mul_self_nonneg (q.1 - p.1)
          linarith
      set u := ((q.1 - p.1) * (c.1 - p.1) + (q.2 - p.2) * (c.2 - p.2)) / n with hu
      have hun : u * n = (q.1 - p.1) * (c.1 - p.1) + (q.2 - p.2) * (c.2 - p.2) := div_mul_cancel₀ _ hnpos.ne'
      have hc : c = (p.1 + u * (q.1 - p.1), p.2 + u * (q.2 - p.2)) := by
        have a1 : (c.1 - p.1 - u * (q.1 - p.1)) * n = 0 := by
          have : (c.1 - p.1 - u * (q.1 - p.1)) * n = (c.1 - p.1) * n - (u * n) * (q.1 - p.1) := by ring
          rw [this, hun, hn]
          have : (c.1 - p.1) * ((q.1 - p.1) * (q.1 - p.1) + (q.2 - p.2) * (q.2 - p.2)) - ((q.1 - p.1) * (c.1 - p.1) + (q.2 - p.2) * (c.2 - p.2)) * (q.1 - p.1) =
            - (q.2 - p.2) * w := by rw [hw]; ring
          rw [this, hw0, mul_zero]
        have a2 : (c.2 - p.2 - u * (q.2 - p.2)) * n = 0 := by
          have : (c.2 - p.2 - u * (q.2 - p.2)) * n = (c.2 - p.2) * n - (u * n) * (q.2 - p.2) := by ring
          rw [this, hun, hn]
          have : (c.2 - p.2) * ((q.1 - p.1) * (q.1 - p.1) + (q.2 - p.2) * (q.2 - p.2)) - ((q.1 - p.1) * (c.1 - p.1) + (q.2 - p.2) * (c.2 - p.2)) * (q.2 - p.2) =
            (q.1 - p.1) * w := by rw [hw]; ring
          rw [this, hw0, mul_zero]
        have b1 := (mul_eq_zero.mp a1).resolve_right hnpos.ne'
        have b2 := (mul_eq_zero.mp a2).resolve_right hnpos.ne'
        ext <;> simp only <;> linarith
      -- distance in parameters
      have hout : u < 0 ∨ 1 < u := by
        by_contra hh
        push Not at hh
        exact h ⟨u, hh.1, hh.2, hc⟩
      have hd : ∃ δ : K, 0 < δ ∧ ∀ t, 0 ≤ t → t ≤ 1 → δ ≤ |t - u| := by
        rcases hout with h1 | h1
        · refine ⟨-u, by linarith, fun t t0 _ => ?_⟩
          rw [abs_of_nonneg (by linarith)]; linarith
        · refine ⟨u - 1, by linarith, fun t _ t1 => ?_⟩
          rw [abs_of_nonpos (by linarith)]; linarith
      obtain ⟨δ, hδ, hdist⟩ := hd
      rcases not_and_or.mp hpq with h1 | h1
      · have hp1 : 0 < |q.1 - p.1| := abs_pos.mpr h1
        refine ⟨δ * |q.1 - p.1| / 2, by have := mul_pos hδ hp1; linarith, ?_⟩
        rintro r ⟨t, t0, t1, rfl⟩ ⟨h2, -⟩
        simp only [hc] at h2
        have e : p.1 + t * (q.1 - p.1) - (p.1 + u * (q.1 - p.1)) = (t - u) * (q.1 - p.1) := by ring
        rw [e, abs_mul] at h2
        have := mul_le_mul_of_nonneg_right (hdist t t0 t1) hp1.le
        have := mul_pos hδ hp1
        linarith
      · have hp1 : 0 < |q.2 - p.2| := abs_pos.mpr h1
        refine ⟨δ * |q.2 - p.2| / 2, by have := mul_pos hδ hp1; linarith, ?_⟩
        rintro r ⟨t, t0, t1, rfl⟩ ⟨-, h2⟩
        simp only [hc] at h2
        have e : p.2 + t * (q.2 - p.2) - (p.2 + u * (q.2 - p.2)) = (t - u) * (q.2 - p.2) := by ring
        rw [e, abs_mul] at h2
        have := mul_le_mul_of_nonneg_right (hdist t t0 t1) hp1.le
        have := mul_pos hδ hp1
        linarith
  · -- off the line
    have hwp : 0 < |w| := abs_pos.mpr hw0
    set m := |q.1 - p.1| + |q.2 - p.2| + 1 with hm
    have hmp : 0 < m := by have := abs_nonneg (q.1 - p.1); have := abs_nonneg (q.2 - p.2); linarith
    refine ⟨|w| / (2 * m), by positivity, ?_⟩
    rintro r ⟨t, t0, t1, rfl⟩ ⟨h1, h2⟩
    simp only at h1 h2
    set a := p.1 + t * (q.1 - p.1) - c.1 with ha
    set b := p.2 + t * (q.2 - p.2) - c.2 with hb
    have e : w = (q.2 - p.2) * a - (q.1 - p.1) * b := by rw [hw, ha, hb]; ring
    have hle : |w| ≤ |q.2 - p.2| * |a| + |q.1 - p.1| * |b| := by
      rw [e, ← abs_mul, ← abs_mul]; exact abs_sub _ _
    have k1 := mul_le_mul_of_nonneg_left h1 (abs_nonneg (q.2 - p.2))
    have k2 := mul_le_mul_of_nonneg_left h2 (abs_nonneg (q.1 - p.1))
    have hε : |w| / (2 * m) * m = |w| / 2 := by field_simp
    have hεp : 0 < |w| / (2 * m) := by positivity
    have : (|q.2 - p.2| + |q.1 - p.1|) * (|w| / (2 * m)) ≤ |w| / 2 := by
      have : (|q.2 - p.2| + |q.1 - p.1|) * (|w| / (2 * m)) = |w| / (2 * m) * m - |w| / (2 * m) := by rw [hm]; ring
      rw [this, hε]; linarith
    linarith

theorem point_box {p c : Pt K} (h : p ≠ c) : ∃ ε : K, 0 < ε ∧ ¬ (|p.1 - c.1| ≤ ε ∧ |p.2 - c.2| ≤ ε) := by
  have : ¬ OnSegment p p c := by
    rintro ⟨t, -, -, e⟩
    apply h
    rw [e]; ext <;> simp
  obtain ⟨ε, h1, h2⟩ := segment_box this
  exact ⟨ε, h1, h2 p (onSegment_left p p)⟩

theorem line_box {pts : List (Pt K)} {c : Pt K} (h : ¬ OnLine pts c) :
    ∃ ε : K, 0 < ε ∧ ∀ r, OnLine pts r → ¬ (|r.1 - c.1| ≤ ε ∧ |r.2 - c.2| ≤ ε) := by
  induction pts with
  | nil =>
    refine ⟨1, one_pos, ?_⟩
    rintro r (hr | ⟨p, q, hr, -⟩)
    · simp at hr
    · simp at hr
  | cons p l ih =>
    obtain ⟨ε1, h1, h1'⟩ := ih (fun hh => h (onLine_tail hh))
    obtain ⟨ε2, h2, h2'⟩ := point_box (p := p) (c := c) (by rintro rfl; exact h (Or.inl List.mem_cons_self))
    cases l with
    | nil =>
      refine ⟨ε2, h2, ?_⟩
      rintro r (hr | ⟨a, b, hab, -⟩)
      · simp only [List.mem_singleton] at hr
        subst hr; exact h2'
      · have := hab.length_le
        simp at this
    | cons q l =>
      obtain ⟨ε3, h3, h3'⟩ := segment_box (p := p) (q := q) (c := c) (fun hh => h (onLine_cons hh))
      refine ⟨min ε1 (min ε2 ε3), by simp [h1, h2, h3], ?_⟩
      have m1 : min ε1 (min ε2 ε3) ≤ ε1 := min_le_left _ _
      have m2 : min ε1 (min ε2 ε3) ≤ ε2 := (min_le_right _ _).trans (min_le_left _ _)
      have m3 : min ε1 (min ε2 ε3) ≤ ε3 := (min_le_right _ _).trans (min_le_right _ _)
      rintro r hr ⟨ha, hb⟩
      rcases hr with hr | ⟨a, b, hab, hs⟩
      · rcases List.mem_cons.mp hr with rfl | hr
        · exact h2' ⟨ha.trans m2, hb.trans m2⟩
        · exact h1' r (Or.inl hr) ⟨ha.trans m1, hb.trans m1⟩
      · rcases List.infix_cons_iff.mp hab with hpre | hinf
        · obtain ⟨v, hv⟩ := hpre
          simp only [List.cons_append, List.nil_append, List.cons.injEq] at hv
          obtain ⟨rfl, rfl, -⟩ := hv
          exact h3' r hs ⟨ha.trans m3, hb.trans m3⟩
        · exact h1' r (Or.inr ⟨a, b, hinf, hs⟩) ⟨ha.trans m1, hb.trans m1⟩

theorem exists_box {g : GMap K} (hl : ∀ n, (g.edge n).isSome = true → n < g.nEdges) {c : Pt K} (h : ¬ OnEdge g c) :
    ∃ ε : K, 0 < ε ∧ ∀ r, OnEdge g r → ¬ (|r.1 - c.1| ≤ ε ∧ |r.2 - c.2| ≤ ε) := by
  have key : ∀ n, ∃ ε : K, 0 < ε ∧ ∀ l < n, ∀ e, g.edge l = some e → ∀ r, OnLine e.pts r → ¬ (|r.1 - c.1| ≤ ε ∧ |r.2 - c.2| ≤ ε) := by
    intro n
    induction n with
    | zero => exact ⟨1, one_pos, fun l hl => absurd hl (by omega)⟩
    | succ n ih =>
      obtain ⟨ε, h1, h2⟩ := ih
      cases he : g.edge n with
      | none =>
        refine ⟨ε, h1, fun l hl e hle => h2 l ?_ e hle⟩
        have : l ≠ n := by rintro rfl; rw [he] at hle; cases hle
        omega
      | some e =>
        obtain ⟨ε', h1', h2'⟩ := line_box (pts := e.pts) (c := c) (fun hh => h ⟨n, e, he, hh⟩)
        refine ⟨min ε ε', by simp [h1, h1'], fun l hl e' hle r hr ⟨ha, hb⟩ => ?_⟩
        by_cases hln : l = n
        · subst hln
          rw [he] at hle; cases hle
          exact h2' r hr ⟨ha.trans (min_le_right _ _), hb.trans (min_le_right _ _)⟩
        · exact h2 l (by omega) e' hle r hr ⟨ha.trans (min_le_left _ _), hb.trans (min_le_left _ _)⟩
  obtain ⟨ε, h1, h2⟩ := key g.nEdges
  refine ⟨ε, h1, ?_⟩
  rintro r ⟨l, e, he, hr⟩
  exact h2 l (hl l (by rw [he]; rfl)) e he r hr

/-- A box around `c` without edges: points in it lie in the same face as `c`. -/
theorem Located.near {g : GMap K} (hM : MapOK g) (hi : g.initialized) (hG : GeomOK g) {c c' : Pt K} {ε : K}
    (h : ∀ r, OnEdge g r → ¬ (|r.1 - c.1| ≤ ε ∧ |r.2 - c.2| ≤ ε)) (h1 : |c'.1 - c.1| < ε) (h2 : |c'.2 - c.2| < ε) {f : Nat} (hl : Located g c' f) :
    Located g c f := by
  have key : ∀ {a b x ε : K}, min a b ≤ x → x ≤ max a b → |a - b| < ε → |x - b| ≤ ε := by
    intro a b x ε hm1 hm2 hlt
    rw [abs_lt] at hlt
    rw [abs_le]
    rcases le_total a b with hab | hab
    · rw [min_eq_left hab] at hm1
      rw [max_eq_right hab] at hm2
      constructor <;> linarith
    · rw [min_eq_right hab] at hm1
      rw [max_eq_left hab] at hm2
      constructor <;> linarith
  refine hl.move hM hi hG fun r hr hb => h r hr ⟨?_, ?_⟩
  · exact key hb.1.1 hb.1.2 h1
  · exact key hb.2.1 hb.2.2 h2

/-- What a change of the map must do to keep the subdivision: the edges do not grow, points keep their faces up to
the renaming `ren`, and so do the sides of edges. -/
theorem Subdivision.transfer {s t : GMap K} (hS : Subdivision s) (hM : MapOK t) (hi : t.initialized) (hG : GeomOK t) (ren : Nat → Nat)
    (hloc : ∀ c f, ¬ OnEdge s c → Located s c f → Located t c (ren f))
    (hedge : ∀ d e, t.edge d.natAbs = some e → ∀ q, OnLine e.pts q →
      ∃ d' e', s.edge d'.natAbs = some e' ∧ OnLine e'.pts q ∧ t.left? d = (s.left? d').map ren) : Subdivision t := by
  have hsub : ∀ c, OnEdge t c → OnEdge s c := by
    rintro c ⟨l, e, he, hq⟩
    obtain ⟨d', e', h1, h2, -⟩ := hedge (l : Int) e (by simpa using he) c hq
    exact ⟨_, e', h1, h2⟩
  constructor
  · intro c hc
    by_cases hs : OnEdge s c
    · obtain ⟨l, e, he, hq⟩ := hs
      obtain ⟨ε, h1, h2⟩ := exists_box hM.graph.edge_lt hc
      obtain ⟨c', f, -, a, b, hoff, hl⟩ := hS.border (l : Int) e (by simpa using he) c hq ε h1
      exact ⟨ren f, (hloc c' f hoff hl).near hM hi hG h2 a b⟩
    · obtain ⟨f, hl⟩ := hS.located c hs
      exact ⟨ren f, hloc c f hs hl⟩
  · intro d e he q hq ε hε
    obtain ⟨d', e', h1, h2, h3⟩ := hedge d e he q hq
    obtain ⟨c, f, q0, q1, q2, q3, q4⟩ := hS.border d' e' h1 q h2 ε hε
    exact ⟨c, ren f, by rw [h3, q0]; rfl, q1, q2, fun hh => q3 (hsub c hh), hloc c f q3 q4⟩

end Verif.Locate
