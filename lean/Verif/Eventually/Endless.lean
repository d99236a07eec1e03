import Verif.Eventually.Clear

/-! # Darts all around a node: the recursion does not end (helper lemmas) -/

namespace Verif.Eventually
open Verif Verif.GeoMap Verif.PointIter Verif.DartPos Equiv

/-! ## the crossing is unique -/

theorem sqMag_convex {a b c : Pt ℝ} {r2 t u : ℝ} (h0 : sqMag (a - c) < r2) (ht : 0 ≤ t) (htu : t < u) (hu : sqMag (a + u • (b - a) - c) ≤ r2) :
    sqMag (a + t • (b - a) - c) < r2 := by
  obtain ⟨a1, a2⟩ := a
  obtain ⟨b1, b2⟩ := b
  obtain ⟨c1, c2⟩ := c
  simp only [sqMag, Prod.fst_sub, Prod.snd_sub, Prod.fst_add, Prod.snd_add, Prod.smul_fst, Prod.smul_snd, smul_eq_mul] at *
  set X := a1 - c1
  set Y := a2 - c2
  set P := b1 - a1
  set Q := b2 - a2
  have e : ∀ t : ℝ, (a1 + t * P - c1) * (a1 + t * P - c1) + (a2 + t * Q - c2) * (a2 + t * Q - c2) =
      (X * X + Y * Y) + 2 * t * (X * P + Y * Q) + t * t * (P * P + Q * Q) := by intro t; ring
  rw [e] at hu ⊢
  have hD : 0 ≤ P * P + Q * Q := by nlinarith [mul_self_nonneg P, mul_self_nonneg Q]
  have u0 : 0 < u := lt_of_le_of_lt ht htu
  -- u * f t = (u - t) * f 0 + t * f u - t u (u - t) D
  have key : u * (X * X + Y * Y + 2 * t * (X * P + Y * Q) + t * t * (P * P + Q * Q)) < u * r2 := by
    have h1 : (u - t) * (X * X + Y * Y) < (u - t) * r2 := mul_lt_mul_of_pos_left h0 (by linarith)
    have h2 : t * (X * X + Y * Y + 2 * u * (X * P + Y * Q) + u * u * (P * P + Q * Q)) ≤ t * r2 := mul_le_mul_of_nonneg_left hu ht
    have h3 : 0 ≤ t * u * (u - t) * (P * P + Q * Q) := mul_nonneg (mul_nonneg (mul_nonneg ht u0.le) (by linarith)) hD
    nlinarith
  exact lt_of_mul_lt_mul_left key u0.le

theorem Crossing.unique {L : List (Pt ℝ)} {c : Pt ℝ} {r2 : ℝ} {p q : Pt ℝ} (hp : Crossing L c r2 p) (hq : Crossing L c r2 q) : p = q := by
  rcases hp with ⟨k, a, b, t, ha, hb, hin, hout, t0, t1, rfl, hc⟩ | ⟨hin, hl⟩
  · rcases hq with ⟨k', a', b', t', ha', hb', hin', hout', t0', t1', rfl, hc'⟩ | ⟨hin', hl'⟩
    · have hk : k = k' := by
        rcases lt_trichotomy k k' with h | h | h
        · have := hin' (k + 1) b h hb; linarith
        · exact h
        · have := hin (k' + 1) b' h hb'; linarith
      subst hk
      rw [ha] at ha'
      rw [hb] at hb'
      cases ha'; cases hb'
      have h0 := hin k a le_rfl ha
      rcases lt_trichotomy t t' with h | h | h
      · have := sqMag_convex h0 t0 h hc'.le; linarith
      · rw [h]
      · have := sqMag_convex h0 t0' h hc.le; linarith
    · have := hin' b (List.mem_of_getElem? hb); linarith
  · rcases hq with ⟨k', a', b', t', ha', hb', hin', hout', t0', t1', rfl, hc'⟩ | ⟨hin', hl'⟩
    · have := hin b' (List.mem_of_getElem? hb'); linarith
    · rw [hl] at hl'; exact Option.some.inj hl'

/-! ## the circle is found again -/

theorem intersect_again {L : List (Pt ℝ)} {s s' : DP} {k : Nat} (h : Track L s k) {c : Pt ℝ} {r2 : ℝ} (e : s.intersectCircle c r2 = .ok (true, s')) :
    s'.intersectCircle c r2 = .ok (true, s') ∧ s'.atEnd = false := by
  obtain ⟨b, s1, e1, -, -, h1⟩ := h.circle (c := c) (r2 := r2) (n := L.length + 1) (by omega)
  rw [DP.intersectCircle, h.it.length, e1, Outcome.bind_ok] at e
  cases b with
  | false => simp at e
  | true =>
    simp only [if_true] at h1
    obtain ⟨k', -, t, ho, -⟩ := h1
    simp only [if_true] at e
    cases e
    refine ⟨?_, by rw [DP.atEnd]; exact t.atEnd⟩
    have hl : circleLoop c r2 (s1.it.pts.length + 1) { s1 with
        pos := s1.p1 + lambda c r2 s1.p1 s1.p2 • (s1.p2 - s1.p1), part := mag (lambda c r2 s1.p1 s1.p2 • (s1.p2 - s1.p1)) } =
        .ok (true, { s1 with
        pos := s1.p1 + lambda c r2 s1.p1 s1.p2 • (s1.p2 - s1.p1), part := mag (lambda c r2 s1.p1 s1.p2 • (s1.p2 - s1.p1)) }) := by
      rw [circleLoop, if_neg (by simpa using ho)]
    rw [DP.intersectCircle]
    simp only
    rw [hl, Outcome.bind_ok]
    simp

/-! ## one group -/

/-- Every entry has another one that follows at less than the angle `m`. -/
def Around (m : ℝ) (l : List DPA) : Prop :=
  ∀ x ∈ l, ∃ y ∈ l, ∃ (g : ℝ) (k : ℤ), 0 < g ∧ g < m ∧ y.absAngle = x.absAngle + g + k * (2 * Real.pi)

theorem Around.next {m : ℝ} (hm : m ≤ Real.pi) {l : List DPA} (h : Around m l) {ref : ℝ}
    (ha : ∀ x ∈ l, (-Real.pi ≤ x.angle ∧ x.angle < Real.pi) ∧ ∃ k : ℤ, x.angle = x.absAngle - ref + k * (2 * Real.pi)) {x : DPA} (hx : x ∈ l) :
    (∃ y ∈ l, x.angle < y.angle ∧ y.angle < x.angle + m) ∨ Real.pi < x.angle + m := by
  obtain ⟨y, hy, g, k, g0, g1, e⟩ := h x hx
  obtain ⟨rx, kx, ex⟩ := ha x hx
  obtain ⟨ry, ky, ey⟩ := ha y hy
  have pp := Real.pi_pos
  have e2 : y.angle = x.angle + g + ((k + ky - kx : ℤ) : ℝ) * (2 * Real.pi) := by
    rw [ey, ex, e]; push_cast; ring
  obtain ⟨K, hK⟩ : ∃ K : ℤ, K = k + ky - kx := ⟨_, rfl⟩
  rw [← hK] at e2
  rcases lt_trichotomy K 0 with h | h | h
  · right
    have : (K : ℝ) ≤ -1 := by exact_mod_cast (by omega : K ≤ -1)
    nlinarith [ry.1]
  · left
    refine ⟨y, hy, ?_, ?_⟩ <;> rw [e2, h] <;> push_cast <;> linarith
  · exfalso
    have : (1 : ℝ) ≤ K := by exact_mod_cast (by omega : 1 ≤ K)
    nlinarith [ry.2, rx.1]

theorem one_group {srt : List DPA → List DPA} (hs : Sorter srt) {m : ℝ} (hm : m ≤ Real.pi) {l : List DPA} (hne : l ≠ []) (h : Around m l) {ref : ℝ}
    (ha : ∀ x ∈ l, (-Real.pi ≤ x.angle ∧ x.angle < Real.pi) ∧ ∃ k : ℤ, x.angle = x.absAngle - ref + k * (2 * Real.pi)) :
    rotateGroups m (srt l) = srt l ∧ groups m (srt l) = [srt l] := by
  have hadj : ∀ p x z q, srt l = p ++ x :: z :: q → z.angle < x.angle + m := by
    intro p x z q e
    have hp := (hs l).1
    have hso := (hs l).2
    have hx : x ∈ l := hp.mem_iff.1 (by rw [e]; simp)
    have hz : z ∈ l := hp.mem_iff.1 (by rw [e]; simp)
    rcases h.next hm ha hx with ⟨y, hy, h1, h2⟩ | h1
    · have hy' := hp.mem_iff.2 hy
      rw [e] at hy' hso
      rw [List.pairwise_append, List.pairwise_cons, List.pairwise_cons] at hso
      obtain ⟨-, ⟨sx, sz, -⟩, sp⟩ := hso
      rcases List.mem_append.1 hy' with hy' | hy'
      · have := sp y hy' x (by simp); linarith
      · rcases List.mem_cons.1 hy' with rfl | hy'
        · linarith
        · rcases List.mem_cons.1 hy' with rfl | hy'
          · exact h2
          · have := sz y hy'; linarith
    · have := (ha z hz).1.2; linarith
  constructor
  · rw [rotateGroups]
    split_ifs
    · -- no decision is found
      rcases rotSearch_cases m (srt l) ((srt l).length - 2) with h' | ⟨k, h1, h2, h3, -⟩
      · exact h'
      · exfalso
        have hk : k + 1 < (srt l).length := by omega
        rw [ang_get hk, ang_get (by omega)] at h3
        have := hadj ((srt l).take k) (srt l)[k] (srt l)[k + 1] ((srt l).drop (k + 2)) (by
          conv_lhs => rw [← List.take_append_drop k (srt l)]
          rw [List.drop_eq_getElem_cons (by omega), List.drop_eq_getElem_cons hk])
        linarith
    · rfl
  · refine List.splitBy_of_isChain ?_ ?_
    · intro h
      have := (hs l).1
      rw [h] at this
      exact hne (List.nil_perm.1 this)
    · rw [List.isChain_iff_getElem]
      intro i hi
      have := hadj ((srt l).take i) (srt l)[i] (srt l)[i + 1] ((srt l).drop (i + 2)) (by
          conv_lhs => rw [← List.take_append_drop i (srt l)]
          rw [List.drop_eq_getElem_cons (by omega), List.drop_eq_getElem_cons hi])
      simpa using this

/-! ## the recursion -/

theorem meanPos_perm {l l' : List DPA} (h : (l.map (·.dp.pos)).Perm (l'.map (·.dp.pos))) : meanPos l = meanPos l' := by
  have hl : l.length = l'.length := by have := h.length_eq; simpa using this
  rw [meanPos, meanPos, h.sum_eq, hl]

theorem two_of_around {m : ℝ} (hm : m ≤ Real.pi) {l : List DPA} (hne : l ≠ []) (h : Around m l) : 2 ≤ l.length := by
  have pp := Real.pi_pos
  match l, hne with
  | [x], _ =>
    exfalso
    obtain ⟨y, hy, g, k, g0, g1, e⟩ := h x (by simp)
    rw [List.mem_singleton] at hy
    subst hy
    have e' : g = ((-k : ℤ) : ℝ) * (2 * Real.pi) := by push_cast; linarith
    obtain ⟨K, hK⟩ : ∃ K : ℤ, K = -k := ⟨_, rfl⟩
    rw [← hK] at e'
    rcases lt_or_ge 0 K with h | h
    · have : (1 : ℝ) ≤ K := by exact_mod_cast (by omega : 1 ≤ K)
      nlinarith
    · have : (K : ℝ) ≤ 0 := by exact_mod_cast h
      nlinarith
  | x :: y :: l, _ => simp

/-- the step from measured entries on -/
theorem endless_from {srt : List DPA → List DPA} (hs : Sorter srt) {m : ℝ} (hm : m ≤ Real.pi) {c : Pt ℝ} (rec : Pt ℝ → ℝ → List DPA → St → Outcome (List DPA × St))
    {l1 : List DPA} (hne : l1 ≠ []) (har : Around m l1) {ref : ℝ}
    (ha : ∀ x ∈ l1, (-Real.pi ≤ x.angle ∧ x.angle < Real.pi) ∧ ∃ k : ℤ, x.angle = x.absAngle - ref + k * (2 * Real.pi))
    (hmean : meanPos l1 = c) (hrec : ∀ st, rec c (refAngle (srt l1)) ((srt l1).map (·.setCommon)) st = .hang) (parallel : Bool) (st : St) :
    (planSplits (decide (1 < (groups m (rotateGroups m (srt l1))).length)) parallel (rotateGroups m (srt l1)) st).bind (fun st1 =>
      (sortGroups rec (groups m (rotateGroups m (srt l1))) st1).bind fun r =>
        .ok (r.1, if st.plans (decide (1 < (groups m (rotateGroups m (srt l1))).length)) parallel then
          storeOrder st.offset (r.1.map (·.label)) r.2 else r.2)) = .hang := by
  obtain ⟨h1, h2⟩ := one_group hs hm hne har ha
  rw [h1, h2]
  have hplan : planSplits (decide (1 < [srt l1].length)) parallel (srt l1) st = .ok st := by
    rw [planSplits]
    rcases e : st.splits with _ | sp
    · rfl
    · simp
  have hlen := two_of_around hm hne har
  rw [hplan, Outcome.bind_ok, sortGroups, if_pos (by rw [(hs l1).1.length_eq]; omega),
    meanPos_perm ((hs l1).1.map _), hmean, hrec]
  rfl

theorem sortInternal_endless {srt : List DPA → List DPA} (hs : Sorter srt) {r2 m : ℝ} (hm : m ≤ Real.pi) {c : Pt ℝ} :
    ∀ (fuel : Nat) (ref : ℝ) (parallel : Bool) (l : List DPA) (st : St), -Real.pi ≤ ref → ref ≤ Real.pi → l ≠ [] →
      (∀ x ∈ l, x.dp.intersectCircle c r2 = .ok (true, x.dp) ∧ x.dp.atEnd = false ∧ x.absAngle = atan2 (-x.dp.pos.2 + c.2) (x.dp.pos.1 - c.1)) →
      meanPos l = c → Around m l → sortInternal srt r2 m fuel c ref parallel l st = .hang := by
  intro fuel
  have pp := Real.pi_pos
  induction fuel with
  | zero => intros; rfl
  | succ fuel ih =>
    intro ref parallel l st hr1 hr2 hne hfix hmean har
    have hlen := two_of_around hm hne har
    rw [sortInternal, if_neg (by omega)]
    obtain ⟨f, hf⟩ : ∃ f : DPA → DPA, f = fun x => { x with
      angle := normAngle (x.absAngle - ref) } := ⟨_, rfl⟩
    have e1 : mapAll (measure c ref r2) l = .ok (l.map f) := by
      have : ∀ x ∈ l, measure c ref r2 x = .ok (f x) := by
        intro x hx
        obtain ⟨h1, h2, h3⟩ := hfix x hx
        rw [measure, if_neg (by rw [h2]; simp), h1, hf]
        simp only [Outcome.map, Outcome.bind_ok, ← h3]
      clear har hmean hfix hlen hne
      induction l with
      | nil => rfl
      | cons x l ih => rw [mapAll, this x (by simp), Outcome.bind_ok, ih (fun y hy => this y (by simp [hy]))]; rfl
    rw [e1, Outcome.bind_ok, if_neg (by
      rw [List.all_eq_true]
      intro hc
      obtain ⟨x, hx⟩ := List.exists_mem_of_ne_nil _ hne
      have := hc x hx
      rw [(hfix x hx).2.1] at this; cases this)]
    have hmem : ∀ y ∈ l.map f, ∃ x ∈ l, y.dp = x.dp ∧ y.absAngle = x.absAngle ∧ y.angle = normAngle (x.absAngle - ref) := by
      intro y hy
      obtain ⟨x, hx, rfl⟩ := List.mem_map.1 hy
      exact ⟨x, hx, by rw [hf], by rw [hf], by rw [hf]⟩
    have hdp : (l.map f).map (·.dp.pos) = l.map (·.dp.pos) := by simp [hf, List.map_map, Function.comp_def]
    have hmean1 : meanPos (l.map f) = c := by rw [← hmean]; exact meanPos_perm (by rw [hdp])
    have har1 : Around m (l.map f) := by
      intro x hx
      obtain ⟨x', hx', rfl⟩ := List.mem_map.1 hx
      obtain ⟨y, hy, g, k, h⟩ := har x' hx'
      exact ⟨f y, List.mem_map.2 ⟨y, hy, rfl⟩, g, k, by rw [hf]; exact h⟩
    have habs : ∀ x ∈ l, -Real.pi ≤ x.absAngle ∧ x.absAngle ≤ Real.pi := by
      intro x hx
      rw [(hfix x hx).2.2]; exact atan2_range _ _
    refine endless_from hs hm (c := c) (ref := ref) (fun c ref g st => sortInternal srt r2 m fuel c ref true g st) (by simpa using hne) har1 ?_ hmean1 ?_ parallel st
    · intro y hy
      obtain ⟨x, hx, h1, h2, h3⟩ := hmem y hy
      have := habs x hx
      rw [h3, h2]
      exact normAngle_wide (by linarith [this.1]) (by linarith [this.2])
    · intro st
      have hp := (hs (l.map f)).1
      have href := refAngle_range (g := srt (l.map f)) (fun y hy => by
        obtain ⟨x, hx, h1, h2, h3⟩ := hmem y (hp.mem_iff.1 hy)
        rw [h2]; exact habs x hx)
      refine ih _ true _ st href.1 href.2 ?_ ?_ ?_ ?_
      · intro h
        have h' : srt (l.map f) = [] := by simpa using h
        rw [h'] at hp
        have := List.nil_perm.1 hp
        simp at this
        exact hne this
      · intro z hz
        obtain ⟨y, hy, rfl⟩ := List.mem_map.1 hz
        obtain ⟨x, hx, h1, h2, h3⟩ := hmem y (hp.mem_iff.1 hy)
        have := hfix x hx
        simp only [DPA.setCommon, h1, h2]
        exact this
      · rw [← hmean1]
        refine meanPos_perm ?_
        have e : ((srt (l.map f)).map (·.setCommon)).map (·.dp.pos) = (srt (l.map f)).map (·.dp.pos) := by
          simp [List.map_map, DPA.setCommon, Function.comp_def]
        rw [e]
        exact hp.map _
      · intro z hz
        obtain ⟨y, hy, rfl⟩ := List.mem_map.1 hz
        obtain ⟨y', hy', g, k, h⟩ := har1 y (hp.mem_iff.1 hy)
        exact ⟨y'.setCommon, List.mem_map.2 ⟨y', hp.mem_iff.2 hy', rfl⟩, g, k, h⟩

theorem sum_sub_const (c : Pt ℝ) : ∀ l : List (Pt ℝ), (l.map fun q => q - c).sum = l.sum - (l.length : ℝ) • c
  | [] => by simp
  | q :: l => by
    rw [List.map_cons, List.sum_cons, sum_sub_const c l, List.sum_cons, List.length_cons]
    push_cast
    rw [add_smul, one_smul]
    abel

theorem angleOf_abs (c p : Pt ℝ) : ∃ k : ℤ, angleOf c p = atan2 (-p.2 + c.2) (p.1 - c.1) + k * (2 * Real.pi) := by
  have := atan2_range (c.2 - p.2) (p.1 - c.1)
  obtain ⟨-, k, h⟩ := normAngle_wide (x := atan2 (c.2 - p.2) (p.1 - c.1)) (by linarith [Real.pi_pos]) (by linarith [Real.pi_pos])
  exact ⟨k, by rw [angleOf, h, neg_add_eq_sub]⟩

theorem sortNode_endless {srt : List DPA → List DPA} (hs : Sorter srt) {r2 m : ℝ} (hr : 0 < r2) (hm : m ≤ Real.pi) (fuel : Nat) {s : GMap ℝ} {L : Finset Int} {π : Perm Int}
    (hg : GraphRep s L π) (hgeo : GeomOK s) (hlong : EdgesLong s) (st : St) {n : Nat} {nd : Node ℝ} {p : Int → Pt ℝ} (ha : AllAround s r2 m n nd p) :
    sortNode srt fuel r2 m s st n = .hang := by
  have pp := Real.pi_pos
  have h0 : nd.anchor ≠ 0 := by
    intro h
    obtain ⟨d, hd⟩ := ha.dart
    rcases hg.nodes n nd ha.node with ⟨h1, h2⟩ | ⟨h1, -⟩
    · exact h2 d ((hg.live d).2 (liveD_of_start hd)) hd
    · have := (hg.live _).1 h1
      rw [h] at this
      rw [GMap.liveD, Int.natAbs_zero, hg.labels.edge_zero] at this
      cases this
  obtain ⟨xs, e1, hfr, hnodup, hmem⟩ := node_darts hg hlong ha.node h0
  have hp1 : ∀ x ∈ xs, x.dp.p1 = nd.pos := by
    intro x hx
    have hst := (hmem x.label).1 (List.mem_map_of_mem hx)
    obtain ⟨e, he⟩ := liveD_exists (liveD_of_start hst)
    rw [startN?_of he] at hst
    have h1 := (hgeo.dart he).1
    rw [Option.some.inj hst, ha.node, ← pointsOf_of he, List.head?_eq_getElem?, (hfr x hx).track.p1] at h1
    exact Option.some.inj h1
  obtain ⟨l1, hl1, k1⟩ := mapAll_ok (l := xs) (f := measure nd.pos 0 r2) (R := fun x y => y.label = x.label ∧
      y.dp.intersectCircle nd.pos r2 = .ok (true, y.dp) ∧ y.dp.atEnd = false ∧ y.absAngle = atan2 (-y.dp.pos.2 + nd.pos.2) (y.dp.pos.1 - nd.pos.1) ∧
      y.angle = normAngle (y.absAngle - 0) ∧ y.dp.pos = p x.label) (fun x hx => by
    have hst := (hmem x.label).1 (List.mem_map_of_mem hx)
    obtain ⟨hc, hon⟩ := ha.leaves _ hst
    have t := (hfr x hx).track
    obtain ⟨y, hy, -⟩ := measure_ok (x := x) ⟨_, Or.inl ⟨_, t⟩⟩ nd.pos 0 r2
    obtain ⟨q1, q2, -⟩ := measure_fresh (hfr x hx) (hp1 x hx) hr hy
    have hpos := q2.unique hc
    obtain ⟨b, s', e, h1⟩ := t.intersect (c := nd.pos) (r2 := r2)
    have hb : b = true := by
      cases b with
      | true => rfl
      | false =>
        exfalso
        simp only [Bool.false_eq_true, if_false] at h1
        obtain ⟨-, -, -, h1⟩ := h1
        have hin : ∀ v ∈ pointsOf s x.label, sqMag (v - nd.pos) < r2 := by
          intro v hv
          obtain ⟨j, hj, rfl⟩ := List.mem_iff_getElem.1 hv
          rcases Nat.eq_zero_or_pos j with rfl | hj0
          · have := t.p1
            rw [List.getElem?_eq_getElem hj] at this
            rw [Option.some.inj this, hp1 x hx, sub_self]; simpa [sqMag] using hr
          · exact h1 j _ hj0 (List.getElem?_eq_getElem hj)
        rcases hc with ⟨k, a, b, _, _, hb, _, ho, _⟩ | ⟨-, hl⟩
        · have := hin b (List.mem_of_getElem? hb); linarith
        · have := hin _ (List.mem_of_getLast? hl); linarith
    subst hb
    rw [measure, if_neg (by rw [DP.atEnd, t.atEnd]; simp), e] at hy
    simp only [Outcome.map, Outcome.bind_ok] at hy
    cases hy
    obtain ⟨i1, i2⟩ := intersect_again t e
    refine ⟨{ x with
      dp := s', absAngle := atan2 (-s'.pos.2 + nd.pos.2) (s'.pos.1 - nd.pos.1),
      angle := normAngle (atan2 (-s'.pos.2 + nd.pos.2) (s'.pos.1 - nd.pos.1) - 0) }, ?_, rfl, i1, i2, rfl, rfl, hpos⟩
    rw [measure, if_neg (by rw [DP.atEnd, t.atEnd]; simp), e]
    simp only [Outcome.map, Outcome.bind_ok])
  have hlab : l1.map (·.label) = xs.map (·.label) := by
    have : List.Forall₂ (fun x y : DPA => y.label = x.label) xs l1 := k1.imp fun x y h => h.1
    clear k1 hl1 e1 hfr hnodup hmem hp1
    induction this with
    | nil => rfl
    | cons h _ ih => simp [h, ih]
  have hy : ∀ y ∈ l1, s.startN? y.label = some n ∧ y.dp.intersectCircle nd.pos r2 = .ok (true, y.dp) ∧ y.dp.atEnd = false ∧
      y.absAngle = atan2 (-y.dp.pos.2 + nd.pos.2) (y.dp.pos.1 - nd.pos.1) ∧ y.angle = normAngle (y.absAngle - 0) ∧ y.dp.pos = p y.label := by
    intro y hy
    obtain ⟨x, hx, h1, h2⟩ := forall2_mem k1 hy
    rw [← h1] at h2
    exact ⟨(hmem _).1 (by rw [h1]; exact List.mem_map_of_mem hx), h2⟩
  have hne1 : l1 ≠ [] := by
    rintro rfl
    obtain ⟨d, hd⟩ := ha.dart
    have := (hmem d).2 hd
    rw [← hlab] at this; simp at this
  have hmean : meanPos l1 = nd.pos := by
    have hsum := ha.mean (l1.map (·.label)) (by rw [hlab]; exact hnodup) (by rw [hlab]; exact hmem)
    have e : ((l1.map (·.label)).map fun d => p d - nd.pos) = (l1.map (·.dp.pos)).map fun q => q - nd.pos := by
      rw [List.map_map, List.map_map]
      refine List.map_congr_left fun y h => ?_
      simp only [Function.comp, (hy y h).2.2.2.2.2]
    rw [e, sum_sub_const, sub_eq_zero, List.length_map] at hsum
    rw [meanPos, hsum, smul_smul, one_div, inv_mul_cancel₀, one_smul]
    have : l1.length ≠ 0 := by simpa using hne1
    exact_mod_cast this
  have har : Around m l1 := by
    intro y h
    obtain ⟨d', hd', g, k, g0, g1, e⟩ := ha.around y.label (hy y h).1
    have := (hmem d').2 hd'
    rw [← hlab] at this
    obtain ⟨z, hz, rfl⟩ := List.mem_map.1 this
    obtain ⟨-, -, -, a1, -, b1⟩ := hy y h
    obtain ⟨-, -, -, a2, -, b2⟩ := hy z hz
    rw [← b1, ← b2] at e
    obtain ⟨k1, e1⟩ := angleOf_abs nd.pos y.dp.pos
    obtain ⟨k2, e2⟩ := angleOf_abs nd.pos z.dp.pos
    rw [← a1] at e1
    rw [← a2] at e2
    refine ⟨z, hz, g, k + k1 - k2, g0, g1, ?_⟩
    push_cast
    linarith
  have habs : ∀ y ∈ l1, -Real.pi ≤ y.absAngle ∧ y.absAngle ≤ Real.pi := by
    intro y h
    rw [(hy y h).2.2.2.1]; exact atan2_range _ _
  rw [sortNode, ha.node]
  simp only
  rw [if_neg h0, e1, Outcome.bind_ok]
  have hlen : l1.length = xs.length := by
    have := congrArg List.length hlab
    simpa using this
  have h2 := two_of_around hm hne1 har
  have : sortInternal srt r2 m fuel nd.pos 0 false xs st = .hang := by
    cases fuel with
    | zero => rfl
    | succ fuel =>
      rw [sortInternal, if_neg (by omega), hl1, Outcome.bind_ok, if_neg (by
        rw [List.all_eq_true]
        intro hc
        obtain ⟨x, hx⟩ := List.exists_mem_of_ne_nil xs (by rintro rfl; simp at hlen; exact hne1 hlen)
        have := hc x hx
        rw [DP.atEnd, (hfr x hx).track.atEnd] at this; cases this)]
      refine endless_from hs hm (c := nd.pos) (ref := 0) (fun c ref g st => sortInternal srt r2 m fuel c ref true g st) hne1 har ?_ hmean ?_ false st
      · intro y h
        have := habs y h
        rw [(hy y h).2.2.2.2.1]
        exact normAngle_wide (by linarith [this.1]) (by linarith [this.2])
      · intro st
        have hp := (hs l1).1
        have href := refAngle_range (g := srt l1) (fun y h => habs y (hp.mem_iff.1 h))
        refine sortInternal_endless hs hm fuel _ true _ st href.1 href.2 ?_ ?_ ?_ ?_
        · intro h
          have h' : srt l1 = [] := by simpa using h
          rw [h'] at hp
          exact hne1 (List.nil_perm.1 hp)
        · intro z hz
          obtain ⟨y, h, rfl⟩ := List.mem_map.1 hz
          obtain ⟨-, a, b, c, -⟩ := hy y (hp.mem_iff.1 h)
          exact ⟨a, b, c⟩
        · rw [← hmean]
          refine meanPos_perm ?_
          have e : ((srt l1).map (·.setCommon)).map (·.dp.pos) = (srt l1).map (·.dp.pos) := by
            simp [List.map_map, DPA.setCommon, Function.comp_def]
          rw [e]
          exact hp.map _
        · intro z hz
          obtain ⟨y, h, rfl⟩ := List.mem_map.1 hz
          obtain ⟨y', hy', g, k, h⟩ := har y (hp.mem_iff.1 h)
          exact ⟨y'.setCommon, List.mem_map.2 ⟨y', hp.mem_iff.2 hy', rfl⟩, g, k, h⟩
  rw [this]; rfl

theorem Same.around {s t : GMap ℝ} (h : Same s t) {r2 m : ℝ} {n : Nat} {nd : Node ℝ} {p : Int → Pt ℝ} (ha : AllAround s r2 m n nd p) : AllAround t r2 m n nd p := by
  refine ⟨by rw [h.node]; exact ha.node, by rw [h.start]; exact ha.dart, ?_, by rw [h.start]; exact ha.mean, by rw [h.start]; exact ha.around⟩
  intro d hd
  rw [h.start] at hd
  rw [h.points]; exact ha.leaves d hd

theorem sortNodes_endless {srt : List DPA → List DPA} (hs : Sorter srt) {r2 m : ℝ} (hr : 0 < r2) (hm0 : 0 < m) (hm : m ≤ Real.pi) (fuel : Nat)
    {n : Nat} {nd : Node ℝ} {p : Int → Pt ℝ} :
    ∀ (ns : List Nat) {s : GMap ℝ} {L : Finset Int} {π : Perm Int}, GraphRep s L π → GeomOK s → EdgesLong s → AllAround s r2 m n nd p → n ∈ ns → ∀ st : St,
    sortNodes srt fuel r2 m ns s st = .hang := by
  intro ns
  induction ns with
  | nil => intro s L π _ _ _ _ h; cases h
  | cons k ns ih =>
    intro s L π hg hgeo hlong ha hn st
    rw [sortNodes]
    by_cases hk : n = k
    · subst hk
      rw [sortNode_endless hs hr hm fuel hg hgeo hlong st ha]; rfl
    · have hn' : n ∈ ns := by
        rcases List.mem_cons.1 hn with h | h
        · exact absurd h hk
        · exact h
      rcases sortNode_spec hs hr hm0 fuel hg hgeo hlong st k with h | ⟨t, st', π', h1, h2, ⟨sg, sgi, h3⟩, -⟩
      · rw [h]; rfl
      · have hsame : Same s t := by rw [h3]; exact ⟨rfl, rfl⟩
        rw [h1, Outcome.bind_ok]
        exact ih h2 (hsame.geom hgeo) (hsame.long hlong) (hsame.around ha) hn' st'

end Verif.Eventually
