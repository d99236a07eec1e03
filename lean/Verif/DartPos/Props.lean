import Verif.DartPos.Back
import Verif.PointIter.Props

/-!
# C64: positions on darts

`Hist L s` (Spec): `s` was obtained on a dart with the points `L` by calls that go forward.
-/

namespace Verif.DartPos
open Verif Verif.GeoMap Verif.PointIter

variable {L : List (Pt ℝ)} {s : DP}

/-- Invariant of all histories. -/
theorem Hist.inv (h : Hist L s) : ((∃ k, Track L s k ∧ InSeg s) ∨ Done L s) ∧ s.pos = along L s.arcLength ∧ 0 ≤ s.part := by
  induction h with
  | @start i s hi he =>
    have hat : At L i 0 := by
      rcases hi with h | h
      · left; simpa using h
      · right; simpa using h
    rw [DP.start] at he
    rcases e0 : L[0]? with _ | p
    · rw [hat.deref_none e0] at he; cases he
    · rw [hat.deref e0] at he
      rcases e1 : L[1]? with _ | q
      · rw [Outcome.bind_ok, hat.next.deref_none e1] at he; cases he
      · rw [Outcome.bind_ok, hat.next.deref e1] at he
        cases he
        refine ⟨Or.inl ⟨0, ⟨hat.next, ?_, rfl, e0, e1, by simp [reach_zero]⟩, ⟨0, le_rfl, zero_le_one, by simp, by simp⟩⟩, ?_, le_rfl⟩
        · by_contra hc
          rw [List.getElem?_eq_none (by omega)] at e1
          cases e1
        · have := along_seg e0 e1 (t := 0) le_rfl zero_le_one
          simp only [reach_zero, zero_mul, zero_smul, add_zero] at this
          simp [DP.arcLength, this]
  | @call s s' b o _ hf hr ih =>
    obtain ⟨ht, hpos, hpart⟩ := ih
    have hp : s.it.pts.length = L.length := by
      rcases ht with ⟨k, t, ins⟩ | t
      exacts [t.it.length, t.it.length]
    -- the start of a segment
    have vertex : ∀ {s : DP} {k : Nat}, Track L s k → along L s.arc = s.p1 := by
      intro s k t
      have := along_seg t.p1 t.p2 (t := 0) le_rfl zero_le_one
      simpa [t.arc] using this
    have segEnd : ∀ {s : DP} {k : Nat}, Track L s k → along L (s.arc + mag (s.p2 - s.p1)) = s.p2 := by
      intro s k t
      have := along_seg t.p1 t.p2 (t := 1) zero_le_one le_rfl
      simpa [t.arc] using this
    have finish : ∀ {s : DP} {a : ℝ}, Done L s → 0 ≤ a → along L (s.arc + a) = s.p1 := by
      intro s a d ha
      exact along_last d.p1 (by rw [d.arc]; linarith)
    cases o with
    | gotoArcLength a =>
      simp only [Op.forward] at hf
      simp only [Op.run, DP.gotoArcLength, back_none hf, Outcome.bind_ok, if_true, hp] at hr
      have key : ∃ b s', fwdLoop a (L.length + 1) s = .ok (b, s') ∧ Arrived L a b s' := by
        rcases ht with ⟨k, t, ins⟩ | t
        · exact t.fwd hf (by omega)
        · exact ⟨false, t.fwd (by rw [← t.arc]; exact hf)⟩
      obtain ⟨b', s'', e, ar⟩ := key
      rw [e] at hr
      cases hr
      have h1 := ar.here
      split_ifs at h1 with hlt
      · obtain ⟨-, ⟨k, hk⟩, ha, hle, hin⟩ := h1
        refine ⟨Or.inl ⟨k, hk, hin⟩, by rw [ha, ar.pos], ?_⟩
        rw [DP.arcLength] at ha
        linarith
      · obtain ⟨-, d, h0⟩ := h1
        refine ⟨Or.inr d, ?_, by rw [h0]⟩
        rw [ar.pos, DP.arcLength, finish d (by rw [h0]), along_last d.p1 (not_lt.1 hlt)]
    | gotoNextSegment =>
      simp only [Op.run, DP.gotoNextSegment] at hr
      rcases ht with ⟨k, t, ins⟩ | t
      · rcases Nat.lt_or_ge (k + 2) L.length with hk | hk
        · obtain ⟨s1, e, t1, -⟩ := t.next hk
          rw [e] at hr
          cases hr
          refine ⟨Or.inl ⟨k + 1, ⟨t1.it, t1.lt, t1.seg, t1.p1, t1.p2, t1.arc⟩, ⟨0, le_rfl, zero_le_one, by simp, by simp⟩⟩, ?_, le_rfl⟩
          simp [DP.arcLength, vertex t1]
        · have := t.lt
          obtain ⟨s1, e, t1, -⟩ := t.last (by omega)
          rw [e] at hr
          cases hr
          refine ⟨Or.inr ⟨t1.it, t1.seg, t1.p1, t1.p2, t1.arc⟩, ?_, le_rfl⟩
          simp only [DP.arcLength]
          rw [finish t1 le_rfl]
      · rw [t.next] at hr
        cases hr
        refine ⟨Or.inr ⟨t.it, t.seg, t.p1, t.p2, t.arc⟩, ?_, le_rfl⟩
        simp only [DP.arcLength]
        rw [finish t le_rfl]
    | leaveCircle c r2 =>
      simp only [Op.run, DP.leaveCircle, hp] at hr
      rcases ht with ⟨k, t, ins⟩ | t
      · obtain ⟨b1, s1, e, -, -, h1⟩ := t.circle (c := c) (r2 := r2) (n := L.length + 1) (by omega)
        rw [e] at hr
        cases hr
        cases b1 with
        | true =>
          simp only [if_true] at h1
          obtain ⟨k', -, t1, -⟩ := h1
          refine ⟨Or.inl ⟨k', ⟨t1.it, t1.lt, t1.seg, t1.p1, t1.p2, t1.arc⟩, ⟨1, zero_le_one, le_rfl, by simp, by simp⟩⟩, ?_, mag_nonneg _⟩
          simp only [DP.arcLength]
          rw [segEnd t1]
        | false =>
          simp only [Bool.false_eq_true, if_false] at h1
          obtain ⟨d, -⟩ := h1
          refine ⟨Or.inr ⟨d.it, d.seg, d.p1, d.p2, d.arc⟩, ?_, mag_nonneg _⟩
          simp only [DP.arcLength]
          rw [finish d (mag_nonneg _), d.p2]
      · rw [t.circle] at hr
        cases hr
        refine ⟨Or.inr ⟨t.it, t.seg, t.p1, t.p2, t.arc⟩, ?_, mag_nonneg _⟩
        simp only [DP.arcLength]
        rw [finish t (mag_nonneg _), t.p2]
    | intersectCircle c r2 =>
      simp only [Op.forward] at hf
      simp only [Op.run] at hr
      rcases ht with ⟨k, t, ins⟩ | t
      · obtain ⟨b1, s1, e, h1⟩ := t.intersect (c := c) (r2 := r2)
        rw [e] at hr
        cases hr
        cases b with
        | true =>
          simp only [if_true] at h1
          obtain ⟨k', -, t1, -, hin, -⟩ := h1
          obtain ⟨i1, -⟩ := hin (hf.symm.imp id (fun h => ⟨ins, h⟩))
          refine ⟨Or.inl ⟨k', t1, i1⟩, (t1.along i1).1, ?_⟩
          obtain ⟨u, u0, -, -, up⟩ := i1
          rw [up]
          exact mul_nonneg u0 (mag_nonneg _)
        | false =>
          simp only [Bool.false_eq_true, if_false] at h1
          obtain ⟨d, hp1, hp2, -⟩ := h1
          refine ⟨Or.inr d, ?_, by rw [hp2]; exact hpart⟩
          rw [hp1, DP.arcLength, finish d (by rw [hp2]; exact hpart)]
      · obtain ⟨b1, s1, e, d, hp1, hp2⟩ := t.intersect (c := c) (r2 := r2)
        rw [e] at hr
        cases hr
        have : 0 ≤ s'.part := by
          rcases hp2 with h | h
          · rw [h]
          · rw [h]; exact hpart
        refine ⟨Or.inr d, ?_, this⟩
        rw [hp1, DP.arcLength, finish d this]

/-- **C64.**  After any history of forward calls the position lies on the polyline of the dart, at the arc length that
`arcLength()` reports (at the end of the dart if this is not below the length of the dart); while the end is not reached, the
current segment is the one with the reported index, and it contains the position. -/
theorem dartPosition_history (h : Hist L s) :
    s.pos = along L s.arcLength ∧
    (s.atEnd = false → L[s.seg]? = some s.p1 ∧ L[s.seg + 1]? = some s.p2 ∧ s.arc = reach L s.seg) ∧
    (s.atEnd = true → L.getLast? = some s.pos ∧ pathLen L ≤ s.arcLength) := by
  obtain ⟨ht, hp, h0⟩ := h.inv
  refine ⟨hp, ?_, ?_⟩
  · intro he
    rcases ht with ⟨k, t, ins⟩ | t
    · obtain rfl := t.seg
      exact ⟨t.p1, t.p2, t.arc⟩
    · rw [DP.atEnd, t.atEnd] at he; cases he
  · intro he
    rcases ht with ⟨k, t, ins⟩ | t
    · rw [DP.atEnd, t.atEnd] at he; cases he
    · have hl : pathLen L ≤ s.arcLength := by rw [DP.arcLength, t.arc]; linarith
      exact ⟨by rw [hp, along_last t.p1 hl, t.p1], hl⟩

/-- Forward calls never misbehave. -/
theorem forward_safe (h : Hist L s) (o : Op) (hf : o.forward s) : ∃ b s', o.run s = .ok (b, s') := by
  obtain ⟨ht, -, -⟩ := h.inv
  have hp : s.it.pts.length = L.length := by
    rcases ht with ⟨k, t, ins⟩ | t
    exacts [t.it.length, t.it.length]
  have hc : ∀ c r2, ∃ b s', circleLoop c r2 (L.length + 1) s = .ok (b, s') := by
    intro c r2
    rcases ht with ⟨k, t, ins⟩ | t
    · obtain ⟨b1, s1, e, -⟩ := t.circle (c := c) (r2 := r2) (n := L.length + 1) (by omega)
      exact ⟨b1, s1, e⟩
    · exact ⟨_, _, t.circle⟩
  cases o with
  | gotoArcLength a =>
    simp only [Op.forward] at hf
    simp only [Op.run, DP.gotoArcLength, back_none hf, Outcome.bind_ok, if_true, hp]
    rcases ht with ⟨k, t, ins⟩ | t
    · obtain ⟨b, s', e, -⟩ := t.fwd (n := L.length + 1) hf (by omega)
      exact ⟨b, s', e⟩
    · obtain ⟨s', e, -⟩ := t.fwd (n := L.length) (a := a) (by rw [← t.arc]; exact hf)
      exact ⟨false, s', e⟩
  | gotoNextSegment =>
    simp only [Op.run, DP.gotoNextSegment]
    rcases ht with ⟨k, t, ins⟩ | t
    · rcases Nat.lt_or_ge (k + 2) L.length with hk | hk
      · obtain ⟨s1, e, -⟩ := t.next hk
        exact ⟨_, _, by rw [e]; rfl⟩
      · have := t.lt
        obtain ⟨s1, e, -⟩ := t.last (by omega)
        exact ⟨_, _, by rw [e]; rfl⟩
    · exact ⟨_, _, by rw [t.next]; rfl⟩
  | leaveCircle c r2 =>
    obtain ⟨b, s', e⟩ := hc c r2
    exact ⟨_, _, by simp only [Op.run, DP.leaveCircle, hp, e]; rfl⟩
  | intersectCircle c r2 =>
    obtain ⟨b, s', e⟩ := hc c r2
    simp only [Op.run, DP.intersectCircle, hp, e, Outcome.bind_ok]
    cases b
    · exact ⟨_, _, rfl⟩
    · exact ⟨_, _, rfl⟩

/-- Going forward to an arc length succeeds exactly if it lies on the dart before its end, and leads to the point with this arc
length, otherwise to the end of the dart. -/
theorem gotoArcLength_forward (h : Hist L s) {a : ℝ} (ha : s.arc ≤ a) : ∃ b s', s.gotoArcLength a = .ok (b, s') ∧
    (b = true ↔ a < pathLen L) ∧ s'.pos = along L a ∧ s'.arcLength = min a (pathLen L) := by
  obtain ⟨ht, -, -⟩ := h.inv
  have hp : s.it.pts.length = L.length := by
    rcases ht with ⟨k, t, ins⟩ | t
    exacts [t.it.length, t.it.length]
  have key : ∃ b s', fwdLoop a (L.length + 1) s = .ok (b, s') ∧ Arrived L a b s' := by
    rcases ht with ⟨k, t, ins⟩ | t
    · exact t.fwd ha (by omega)
    · exact ⟨false, t.fwd (by rw [← t.arc]; exact ha)⟩
  obtain ⟨b, s', e, ar⟩ := key
  refine ⟨b, s', by rw [DP.gotoArcLength, back_none ha, Outcome.bind_ok, if_pos rfl, hp, e], ?_, ar.pos, ?_⟩
  · have h1 := ar.here
    split_ifs at h1 with hlt
    · simp [h1.1, hlt]
    · simp [h1.1, hlt]
  · have h1 := ar.here
    split_ifs at h1 with hlt
    · rw [h1.2.2.1, min_eq_left hlt.le]
    · rw [DP.arcLength, h1.2.2, h1.2.1.arc, add_zero, min_eq_right (not_lt.1 hlt)]

/-- Going back to an arc length before the current segment, exactly: from a position before the end of the dart the call succeeds
if and only if the arc length does not lie in the first segment, from the end of the dart if and only if it does not lie in the
first two segments.  If it succeeds, the position is right, but `segmentIndex()` is too small by one (by two); otherwise the
position does not change, and the answer is `false` although the arc length lies on the dart. -/
theorem gotoArcLength_backward (h : Hist L s) {a : ℝ} (h0 : 0 ≤ a) (ha : a < s.arc) :
    ∃ b s', s.gotoArcLength a = .ok (b, s') ∧
    (b = true ↔ reach L (if s.atEnd then 2 else 1) ≤ a) ∧
    (b = false → s'.pos = s.pos) ∧
    (b = true → s'.pos = along L a ∧ s'.arcLength = a ∧ reach L (s'.seg + if s.atEnd then 2 else 1) ≤ a ∧
      a < reach L (s'.seg + (if s.atEnd then 2 else 1) + 1)) := by
  obtain ⟨ht, -, -⟩ := h.inv
  have hp : s.it.pts.length = L.length := by
    rcases ht with ⟨k, t, ins⟩ | t
    exacts [t.it.length, t.it.length]
  -- the loop that goes back
  have key : ∃ b s', backLoop a (s.seg + 1) s = .ok (b, s') ∧ (b = true ↔ reach L (if s.atEnd then 2 else 1) ≤ a) ∧
      s'.pos = s.pos ∧ (b = true → ∃ m', Back L s' m' ∧ L[m' + 1]? = some s'.p2 ∧ s'.seg + (if s.atEnd then 2 else 1) = m' ∧
        reach L m' ≤ a ∧ a < reach L (m' + 1)) := by
    rcases ht with ⟨k, t, ins⟩ | t
    · have hne : k ≠ 0 := by
        rintro rfl
        rw [t.arc, reach_zero] at ha
        linarith
      obtain ⟨k, rfl⟩ := Nat.exists_eq_succ_of_ne_zero hne
      obtain ⟨s1, e, b1, -, hs, hpos, -⟩ := t.prev
      rw [DP.atEnd, t.atEnd, backLoop, if_pos ha, e, t.seg]
      simp only [Outcome.bind_ok, if_true, Bool.false_eq_true, if_false]
      obtain ⟨b, s', q1, q2, q3, -, q5⟩ := b1.loop (e := 1) (a := a) hs rfl (by rw [b1.arc, ← t.arc]; exact ha)
      exact ⟨b, s', q1, q2, by rw [q3, hpos], q5⟩
    · rw [DP.atEnd, t.atEnd]
      simp only [if_true]
      by_cases hs : s.seg = 0
      · refine ⟨false, s, by rw [backLoop, if_pos ha, DP.prev, if_pos hs]; rfl, ?_, rfl, fun h => by cases h⟩
        have := t.seg
        have e2 : reach L 2 = pathLen L := by
          rw [reach, List.take_of_length_le (by omega)]
        rw [e2, ← t.arc]
        simp [ha]
      · obtain ⟨s1, e, b1, -, hs1, hpos, -⟩ := t.prev hs
        rw [backLoop, if_pos ha, e]
        simp only [Outcome.bind_ok, if_true]
        obtain ⟨σ, hσ⟩ := Nat.exists_eq_succ_of_ne_zero hs
        have hlen := t.seg
        obtain ⟨b, s', q1, q2, q3, -, q5⟩ := b1.loop (e := 2) (a := a) (σ := σ) (by omega) (by omega)
          (by rw [b1.arc, reach_last (by omega), ← t.arc]; exact ha)
        rw [hσ]
        exact ⟨b, s', q1, q2, by rw [q3, hpos], q5⟩
  obtain ⟨b, s1, e, hb, hpos, hok⟩ := key
  cases b with
  | false =>
    refine ⟨false, s1, by rw [DP.gotoArcLength, e]; rfl, hb, fun _ => hpos, fun h => by cases h⟩
  | true =>
    obtain ⟨m', q1, q2, q3, q4, q5⟩ := hok rfl
    have hf := q1.fwd (n := L.length) q2 q4 q5
    refine ⟨true, _, by rw [DP.gotoArcLength, e, Outcome.bind_ok, if_pos rfl, hp, hf], hb, (fun h => by cases h), fun _ => ?_⟩
    refine ⟨rfl, by simp [DP.arcLength], ?_⟩
    rw [q3]
    exact ⟨q4, q5⟩

/-- **C64, finding.**  On every dart whose first segment has positive length and is not the whole dart there is a position from
which `gotoArcLength` refuses to go to an arc length that lies on the dart ("returns false iff not possible"). -/
theorem gotoArcLength_violated {i : DPI ℝ} {s0 : DP} (hi : (i.pts = L ∧ i.inc = 1 ∧ i.fin = L.length ∧ i.index = 0) ∨
      (i.pts = L.reverse ∧ i.inc = -1 ∧ i.fin = -1 ∧ i.index = L.length - 1)) (h0 : DP.start i = .ok s0)
    (h1 : 0 < reach L 1) (h2 : reach L 1 < pathLen L) :
    ∃ s s', Hist L s ∧ s.gotoArcLength 0 = .ok (false, s') ∧ s'.pos ≠ along L 0 := by
  have hs0 : Hist L s0 := .start hi h0
  have z : s0.arc = 0 := by
    rw [DP.start, Outcome.bind_eq_ok] at h0
    obtain ⟨p, -, h0⟩ := h0
    rw [Outcome.bind_eq_ok] at h0
    obtain ⟨q, -, h0⟩ := h0
    cases h0
    rfl
  obtain ⟨b, s, e, hb, hp, hl⟩ := gotoArcLength_forward hs0 (a := reach L 1) (by rw [z]; exact h1.le)
  have hs : Hist L s := .call (.gotoArcLength (reach L 1)) hs0 (by rw [Op.forward, z]; exact h1.le) e
  have harc : 0 < s.arc ∧ s.atEnd = false := by
    obtain ⟨ht, -, -⟩ := hs.inv
    rw [min_eq_left h2.le, DP.arcLength] at hl
    rcases ht with ⟨k, t, ins⟩ | t
    · refine ⟨?_, t.atEnd⟩
      -- the position was found in a segment of positive length
      have hk : k ≠ 0 := by
        rintro rfl
        have hb' := hb.2 h2
        have := hs0.inv
        rw [DP.gotoArcLength, back_none (by rw [z]; exact h1.le), Outcome.bind_ok, if_pos rfl] at e
        -- the first segment is left
        obtain ⟨ht0, -, -⟩ := this
        rcases ht0 with ⟨k0, t0, -⟩ | t0
        · have hk0 : k0 = 0 := by
            rw [DP.start, Outcome.bind_eq_ok] at h0
            obtain ⟨p, -, h0⟩ := h0
            rw [Outcome.bind_eq_ok] at h0
            obtain ⟨q, -, h0⟩ := h0
            cases h0
            exact t0.seg.symm
          subst hk0
          have hr : reach L 1 = mag (s0.p2 - s0.p1) := by rw [reach_succ t0.p1 t0.p2, reach_zero, zero_add]
          rw [fwdLoop, if_neg (by rw [z, sub_zero, hr, mag_mul_self]; simp)] at e
          rcases Nat.lt_or_ge 2 L.length with hk | hk
          · obtain ⟨s1, e1, t1, -⟩ := t0.next hk
            rw [e1] at e
            simp only [Outcome.bind_ok, if_true] at e
            -- segments never go down
            have hmono : ∀ (n : Nat) (u u' : DP) (j : Nat) (b : Bool), Track L u (j + 1) → fwdLoop (reach L 1) n u = .ok (b, u') → u'.seg ≠ 0 := by
              intro n
              induction n with
              | zero => intro u u' j b _ h; rw [fwdLoop] at h; cases h
              | succ n ih =>
                intro u u' j b tu h
                rw [fwdLoop] at h
                split_ifs at h with hc
                · cases h
                  simp [tu.seg]
                · rcases Nat.lt_or_ge (j + 1 + 2) L.length with hj | hj
                  · obtain ⟨u1, f1, w1, -⟩ := tu.next hj
                    rw [f1] at h
                    simp only [Outcome.bind_ok, if_true] at h
                    exact ih u1 u' (j + 1) b w1 h
                  · have := tu.lt
                    obtain ⟨u1, f1, w1, -⟩ := tu.last (by omega)
                    rw [f1] at h
                    cases h
                    have := w1.seg
                    simp only
                    omega
            exact hmono _ _ _ _ _ t1 e t.seg
          · have hlt := t0.lt
            rw [reach_last (by omega)] at h2
            exact absurd h2 (lt_irrefl _)
        · have := t0.arc
          rw [z] at this
          have := reach_le (L := L) 1
          linarith
      rw [t.arc]
      obtain ⟨k, rfl⟩ := Nat.exists_eq_succ_of_ne_zero hk
      have : ∀ (i : Nat), pathLen (L.take 2) ≤ pathLen (L.take (i + 2)) := by
        intro i
        have := reach_le (L := L.take (i + 2)) 1
        rwa [reach, List.take_take, Nat.min_eq_left (by omega)] at this
      exact lt_of_lt_of_le h1 (this k)
    · exfalso
      have := hs.inv.2.2
      have h3 := t.arc
      linarith
  obtain ⟨b', s', e', hb', hf', -⟩ := gotoArcLength_backward hs le_rfl harc.1
  have : b' = false := by
    rw [harc.2] at hb'
    cases b' with
    | false => rfl
    | true => exact absurd (hb'.1 rfl) (by simpa using h1)
  subst this
  refine ⟨s, s', hs, e', ?_⟩
  rw [hf' rfl, hp]
  -- the two points differ
  obtain ⟨p, q, l, rfl⟩ : ∃ p q l, L = p :: q :: l := by
    match L, h1 with
    | [], h1 => simp [reach, pathLen] at h1
    | [p], h1 => simp [reach, pathLen] at h1
    | p :: q :: l, _ => exact ⟨p, q, l, rfl⟩
  have e1 := along_seg (L := p :: q :: l) (k := 0) (p := p) (q := q) rfl rfl (t := 1) zero_le_one le_rfl
  have e0 := along_seg (L := p :: q :: l) (k := 0) (p := p) (q := q) rfl rfl (t := 0) le_rfl zero_le_one
  have er : reach (p :: q :: l) 1 = mag (q - p) := by rw [reach_cons, reach_zero, add_zero]
  rw [reach_zero, zero_add, one_mul, one_smul, ← er, add_sub_cancel] at e1
  rw [reach_zero, zero_add, zero_mul, zero_smul, add_zero] at e0
  rw [e1, e0]
  rintro rfl
  rw [er, sub_self] at h1
  rw [mag_eq_zero.2 rfl] at h1
  exact lt_irrefl _ h1

/-- **C64, finding.**  `gotoPrevSegment` never goes to the beginning of the previous segment: it answers `true` and goes to the
beginning of the current one, while `segmentIndex()` decreases. -/
theorem gotoPrevSegment_violated (h : Hist L s) (he : s.atEnd = false) (hs : s.seg ≠ 0) :
    ∃ s', s.gotoPrevSegment = .ok (true, s') ∧ s'.seg + 1 = s.seg ∧ s'.pos = s.p1 := by
  obtain ⟨ht, -, -⟩ := h.inv
  rcases ht with ⟨k, t, ins⟩ | t
  · obtain ⟨k, rfl⟩ := Nat.exists_eq_succ_of_ne_zero (t.seg ▸ hs)
    obtain ⟨s1, e, b1, hp, hs1, -⟩ := t.prev
    exact ⟨_, by rw [DP.gotoPrevSegment, e]; rfl, by simp [hs1, t.seg], hp⟩
  · rw [DP.atEnd, t.atEnd] at he; cases he

/-- Leaving a circle goes to the first following point of the dart that is not inside, and to the end if all are. -/
theorem leaveCircle_exact (h : Hist L s) (he : s.atEnd = false) (c : Pt ℝ) (r2 : ℝ) : ∃ b s', s.leaveCircle c r2 = .ok (b, s') ∧
    (b = true → ∃ k, s.seg < k ∧ L[k]? = some s'.pos ∧ r2 ≤ sqMag (s'.pos - c) ∧
      ∀ j p, s.seg < j → j < k → L[j]? = some p → sqMag (p - c) < r2) ∧
    (b = false → L.getLast? = some s'.pos ∧ ∀ j p, s.seg < j → L[j]? = some p → sqMag (p - c) < r2) := by
  obtain ⟨ht, -, -⟩ := h.inv
  rcases ht with ⟨k, t, ins⟩ | t
  · obtain rfl := t.seg
    obtain ⟨b1, s1, e, -, -, h1⟩ := t.circle (c := c) (r2 := r2) (n := L.length + 1) (by omega)
    refine ⟨_, _, by rw [DP.leaveCircle, t.it.length, e]; rfl, ?_⟩
    cases b1 with
    | true =>
      simp only [if_true] at h1
      obtain ⟨k', hk, t1, ho, -, hin⟩ := h1
      simp only [DP.atEnd, t1.atEnd, Bool.not_false, true_imp_iff, Bool.true_eq_false, false_imp_iff, and_true]
      exact ⟨k' + 1, by omega, t1.p2, ho, fun j p hj hj' hp => hin j p hj (by omega) hp⟩
    | false =>
      simp only [Bool.false_eq_true, if_false] at h1
      obtain ⟨d, hin⟩ := h1
      simp only [DP.atEnd, d.atEnd, Bool.not_true, true_imp_iff, Bool.false_eq_true, false_imp_iff, true_and]
      exact ⟨by rw [d.p2]; exact d.p1, hin⟩
  · rw [DP.atEnd, t.atEnd] at he; cases he

/-- Intersecting a circle from the inside goes to the first point of the circle on the rest of the dart: the new position lies
on the circle, at the reported arc length on the dart, not before the old one, and all points of the dart passed on the way lie
inside the circle.  If the answer is `false`, all following points lie inside, and the position is the end of the dart. -/
theorem intersectCircle_exact (h : Hist L s) (he : s.atEnd = false) (c : Pt ℝ) (r2 : ℝ) (hin : sqMag (s.pos - c) < r2) :
    ∃ b s', s.intersectCircle c r2 = .ok (b, s') ∧
    (b = true → sqMag (s'.pos - c) = r2 ∧ s'.pos = along L s'.arcLength ∧ s.arcLength < s'.arcLength ∧
      s'.arcLength ≤ pathLen L ∧ s.seg ≤ s'.seg ∧
      ∀ j p, s.seg < j → j ≤ s'.seg → L[j]? = some p → sqMag (p - c) < r2) ∧
    (b = false → L.getLast? = some s'.pos ∧ ∀ j p, s.seg < j → L[j]? = some p → sqMag (p - c) < r2) := by
  obtain ⟨ht, hpos, -⟩ := h.inv
  rcases ht with ⟨k, t, ins⟩ | t
  · obtain rfl := t.seg
    obtain ⟨b, s1, e, h1⟩ := t.intersect (c := c) (r2 := r2)
    refine ⟨b, s1, e, ?_⟩
    cases b with
    | true =>
      simp only [if_true] at h1
      obtain ⟨k', hk, t1, hins, hon, hle⟩ := h1
      obtain ⟨i1, hc⟩ := hon (Or.inr ⟨ins, hin⟩)
      refine ⟨fun _ => ⟨hc, (t1.along i1).1, ?_, ?_, by rw [t1.seg]; exact hk, by rw [t1.seg]; exact hins.1⟩, fun h => by cases h⟩
      · refine lt_of_le_of_ne (hle ⟨ins, hin⟩) ?_
        intro heq
        rw [(t1.along i1).1, ← heq, ← hpos] at hc
        linarith
      · obtain ⟨u, u0, u1, -, up⟩ := i1
        rw [DP.arcLength, up, t1.arc]
        have := reach_le (L := L) (k' + 1)
        rw [reach_succ t1.p1 t1.p2] at this
        nlinarith [mag_nonneg (s1.p2 - s1.p1)]
    | false =>
      simp only [Bool.false_eq_true, if_false] at h1
      obtain ⟨d, hp, -, hins⟩ := h1
      exact ⟨(fun h => by cases h), fun _ => ⟨by rw [hp]; exact d.p1, hins⟩⟩
  · rw [DP.atEnd, t.atEnd] at he; cases he

/-- The iterator of a dart of a map starts as required by `Hist`, with the points of the dart in its direction. -/
theorem hist_of_dart {g : GMap ℝ} {d : Int} {e : Edge ℝ} (he : g.edge d.natAbs = some e) {i : DPI ℝ} (hi : DPI.start g d = .ok i)
    {s : DP} (h : DP.start i = .ok s) : Hist (pointsOf g d) s := by
  refine .start ?_ h
  rw [pointsOf_of he]
  rw [DPI.start, guaranteedEdge_of he, Outcome.bind_ok] at hi
  unfold Edge.dartPts
  split_ifs at hi ⊢ with hd
  · cases hi
    left; simp
  · cases hi
    right; simp

section Witness

/-- A straight dart of length 2. -/
def straight : List (Pt ℝ) := [(0, 0), (2, 0)]

/-- The iterator at its start. -/
def straightIter : DPI ℝ := ⟨straight, 0, 1, 2⟩

theorem straight_start : DP.start straightIter = .ok ⟨⟨straight, 1, 1, 2⟩, 0, 0, 0, (0, 0), (2, 0), (0, 0)⟩ := by
  simp [DP.start, straightIter, DPI.deref, DPI.next, straight]

theorem straight_hist : Hist straight ⟨⟨straight, 1, 1, 2⟩, 0, 0, 0, (0, 0), (2, 0), (0, 0)⟩ :=
  .start (Or.inl ⟨rfl, rfl, by simp [straight, straightIter], rfl⟩) straight_start

theorem mag_x (x : ℝ) (hx : 0 ≤ x) : mag (x, 0) = x := by
  simp [mag, sqMag, Real.sqrt_mul_self hx]

theorem straight_len : pathLen straight = 2 := by
  simp only [straight, pathLen]
  rw [show ((2, 0) : Pt ℝ) - (0, 0) = (2, 0) by simp, mag_x _ (by norm_num)]
  norm_num

/-- intersecting a circle of radius 1 around the start -/
theorem straight_intersect : DP.intersectCircle (0, 0) 1 ⟨⟨straight, 1, 1, 2⟩, 0, 0, 0, (0, 0), (2, 0), (0, 0)⟩ =
    .ok (true, ⟨⟨straight, 1, 1, 2⟩, 0, 0, 1, (0, 0), (2, 0), (1, 0)⟩) := by
  have hl : lambda (0, 0) 1 (0, 0) (2, 0) = 1 / 2 := by
    have hr : radicand (0, 0) 1 (0, 0) (2, 0) = 4 := by norm_num [radicand, sqMag]
    have h4 : Real.sqrt 4 = 2 := by
      rw [show (4 : ℝ) = 2 * 2 by norm_num]; exact Real.sqrt_mul_self (by norm_num)
    rw [lambda, hr, h4]
    norm_num [sqMag, dot]
  have hm : mag ((1 / 2 : ℝ) • (((2, 0) : Pt ℝ) - (0, 0))) = 1 := by
    rw [show (1 / 2 : ℝ) • (((2, 0) : Pt ℝ) - (0, 0)) = (1, 0) by ext <;> norm_num]
    exact mag_x 1 zero_le_one
  rw [DP.intersectCircle, circleLoop, if_neg (by norm_num [sqMag])]
  simp only [Outcome.bind_ok, if_true, hl, hm]
  congr 3
  ext <;> norm_num

/-- then a circle of radius 3 -/
theorem straight_fail : DP.intersectCircle (0, 0) 9 ⟨⟨straight, 1, 1, 2⟩, 0, 0, 1, (0, 0), (2, 0), (1, 0)⟩ =
    .ok (false, ⟨⟨straight, 2, 1, 2⟩, 0, 2, 1, (2, 0), (2, 0), (2, 0)⟩) := by
  rw [DP.intersectCircle, circleLoop, if_pos (by norm_num [sqMag]), DP.next, if_neg (by simp [DPI.atEnd]),
    if_pos (by simp [DPI.atEnd, DPI.next])]
  simp only [Outcome.bind_ok, Bool.false_eq_true, if_false]
  rw [show ((2, 0) : Pt ℝ) - (0, 0) = (2, 0) by simp, mag_x 2 (by norm_num)]
  simp [DPI.next]

/-- **C64, finding.**  After a call of `intersectCircle` that reaches the end of the dart, `arcLength()` can be greater than the
length of the dart: the part of the last segment passed before is not reset. -/
theorem arcLength_violated : ∃ s, Hist straight s ∧ pathLen straight < s.arcLength := by
  have h1 : Hist straight _ := .call (.intersectCircle (0, 0) 1) straight_hist (by right; norm_num [sqMag]) straight_intersect
  refine ⟨_, .call (.intersectCircle (0, 0) 9) h1 (by right; norm_num [sqMag]) straight_fail, ?_⟩
  rw [straight_len]
  norm_num [DP.arcLength]

/-- **C64, finding.**  If the start of the current segment lies outside of the circle, `intersectCircle` may leave the dart: here it
goes to the point `(-1, 0)` of the line through the dart from `(0, 0)` to `(2, 0)`. -/
theorem intersectCircle_violated : ∃ s', DP.intersectCircle (-3, 0) 4 ⟨⟨straight, 1, 1, 2⟩, 0, 0, 0, (0, 0), (2, 0), (0, 0)⟩ = .ok (true, s') ∧
    s'.pos = (-1, 0) ∧ ∀ a, 0 ≤ a → along straight a ≠ s'.pos := by
  have hl : lambda (-3, 0) 4 (0, 0) (2, 0) = -1 / 2 := by
    have hr : radicand (-3, 0) 4 (0, 0) (2, 0) = 16 := by norm_num [radicand, sqMag]
    have h4 : Real.sqrt 16 = 4 := by
      rw [show (16 : ℝ) = 4 * 4 by norm_num]; exact Real.sqrt_mul_self (by norm_num)
    rw [lambda, hr, h4]
    norm_num [sqMag, dot]
  refine ⟨_, by rw [DP.intersectCircle, circleLoop, if_neg (by norm_num [sqMag])]; rfl, ?_, ?_⟩
  · simp only [hl]
    ext <;> norm_num
  · intro a ha
    simp only [hl, straight, along]
    intro h
    have h1 := congrArg Prod.fst h
    split_ifs at h1 with hc
    · have : 0 ≤ a / mag (((2, 0) : Pt ℝ) - (0, 0)) := div_nonneg ha (mag_nonneg _)
      simp at h1 this
      nlinarith
    · norm_num at h1

/-- The hypotheses of `gotoArcLength_violated` are met by a dart with a corner. -/
example : ∃ s s', Hist [(0, 0), (1, 0), (3, 0)] s ∧ s.gotoArcLength 0 = .ok (false, s') ∧
    s'.pos ≠ along [(0, 0), (1, 0), (3, 0)] 0 := by
  refine gotoArcLength_violated (i := ⟨[(0, 0), (1, 0), (3, 0)], 0, 1, 3⟩) (Or.inl ⟨rfl, rfl, by simp, rfl⟩)
    (by simp [DP.start, DPI.deref, DPI.next]; rfl) ?_ ?_
  · simp only [reach, pathLen, List.take]
    rw [show ((1, 0) : Pt ℝ) - (0, 0) = (1, 0) by simp, mag_x 1 zero_le_one]
    norm_num
  · simp only [reach, pathLen, List.take]
    rw [show ((1, 0) : Pt ℝ) - (0, 0) = (1, 0) by simp, mag_x 1 zero_le_one,
      show ((3, 0) : Pt ℝ) - (1, 0) = (2, 0) by ext <;> norm_num, mag_x 2 (by norm_num)]
    norm_num

/-- A history with a call: half-way along the straight dart. -/
example : ∃ s, Hist straight s ∧ s.pos = (1, 0) ∧ s.arcLength = 1 ∧ s.atEnd = false :=
  ⟨_, .call (.intersectCircle (0, 0) 1) straight_hist (by right; norm_num [sqMag]) straight_intersect, rfl,
    by norm_num [DP.arcLength], by simp [DP.atEnd, DPI.atEnd]⟩

end Witness

end Verif.DartPos
