import Verif.Parallel.PlanNode
import Verif.Eventually.Total

/-! # Splits planned along one dart are nested (helper lemmas) -/

namespace Verif.Parallel
open Verif Verif.GeoMap Verif.Eventually Verif.DartPos Verif.PointIter Equiv

/-- `Placed`, with a valid arc length also at the end of the dart -/
def Placed2 (L : List (Pt ℝ)) (x : DPA) : Prop := (∃ k, Track L x.dp k ∧ InSeg x.dp) ∨ (DartPos.Done L x.dp ∧ x.dp.pos = x.dp.p1 ∧ 0 ≤ x.dp.part)

theorem Placed2.placed {L : List (Pt ℝ)} {x : DPA} (h : Placed2 L x) : Placed L x := by
  rcases h with h | ⟨h1, h2, -⟩
  exacts [Or.inl h, Or.inr ⟨h1, h2⟩]

theorem Placed2.on {L : List (Pt ℝ)} {x : DPA} (h : Placed2 L x) : On L x.dp := by
  rcases h with ⟨k, h, -⟩ | ⟨h1, -, -⟩
  exacts [Or.inl ⟨k, h⟩, Or.inr h1]

theorem InSeg.part_nonneg {s : DP} (h : InSeg s) : 0 ≤ s.part := by
  obtain ⟨u, h0, -, -, e⟩ := h
  rw [e]; exact mul_nonneg h0 (mag_nonneg _)

theorem measure_walk {L : List (Pt ℝ)} {x y : DPA} (h : Placed2 L x) {c : Pt ℝ} {ref r : ℝ} (hr : 0 < r) (hc : mag (x.dp.pos - c) < r)
    (e : Eventually.measure c ref (r * r) x = .ok y) : Placed2 L y ∧ mag (y.dp.pos - c) ≤ r ∧ y.absAngle = atan2 (-y.dp.pos.2 + c.2) (y.dp.pos.1 - c.1) ∧
      y.angle = normAngle (y.absAngle - ref) ∧ y.label = x.label ∧ y.common = x.common ∧ x.dp.arcLength ≤ y.dp.arcLength ∧
      (x.dp.arcLength < pathLen L → x.dp.arcLength < y.dp.arcLength) := by
  obtain ⟨y', e', a1, a2, a3, a4, a5, a6, a7⟩ := measure_placed h.placed (ref := ref) hr hc
  rw [e] at e'; cases e'
  have main : Placed2 L y ∧ x.dp.arcLength ≤ y.dp.arcLength ∧ (x.dp.arcLength < pathLen L → x.dp.arcLength < y.dp.arcLength) := by
    rcases a3 with a3 | ⟨a3, a3'⟩
    · obtain ⟨k, t, i⟩ := a3
      have := (a7 t.atEnd).2
      exact ⟨Or.inl ⟨k, t, i⟩, by linarith, fun _ => by linarith⟩
    · have hpart : 0 ≤ y.dp.part := by
        rw [Eventually.measure] at e
        rcases h with ⟨k, t, i⟩ | ⟨t, -, hp⟩
        · rw [if_neg (by rw [DP.atEnd, t.atEnd]; simp)] at e
          obtain ⟨b, s', e2, h1⟩ := t.intersect (c := c) (r2 := r * r)
          rw [e2] at e
          cases e
          cases b with
          | true =>
            simp only [if_true] at h1
            obtain ⟨k', -, t', -⟩ := h1
            have := t'.atEnd
            rw [a3.atEnd] at this; cases this
          | false =>
            simp only [Bool.false_eq_true, if_false] at h1
            simp only
            rw [h1.2.2.1]
            exact InSeg.part_nonneg i
        · rw [if_pos (show x.dp.atEnd = true from t.atEnd)] at e
          cases e; exact hp
      refine ⟨Or.inr ⟨a3, a3', hpart⟩, ?_, ?_⟩
      · rcases h with ⟨k, t, i⟩ | ⟨t, -, hp⟩
        · have := Placed.le (x := x) (Or.inl ⟨k, t, i⟩) t.atEnd
          have : y.dp.arcLength = pathLen L + y.dp.part := by rw [DP.arcLength, a3.arc]
          linarith
        · rw [Eventually.measure, if_pos (show x.dp.atEnd = true from t.atEnd)] at e
          cases e; exact le_rfl
      · intro hlt
        have : y.dp.arcLength = pathLen L + y.dp.part := by rw [DP.arcLength, a3.arc]
        linarith
  exact ⟨main.1, a4, a5, a6, a1, a2, main.2⟩

/-- the position of an entry -/
theorem pathLen_append (l : List (Pt ℝ)) (p q : Pt ℝ) : pathLen (l ++ [p, q]) = pathLen (l ++ [p]) + mag (q - p) := by
  induction l with
  | nil => simp [pathLen]
  | cons a l ih =>
    cases l with
    | nil => simp [pathLen]
    | cons b l => simp only [List.cons_append, pathLen] at ih ⊢; rw [ih]; ring

theorem mag_comm (p q : Pt ℝ) : mag (p - q) = mag (q - p) := by rw [← mag_neg, neg_sub]

theorem pathLen_reverse (L : List (Pt ℝ)) : pathLen L.reverse = pathLen L := by
  induction L with
  | nil => rfl
  | cons p l ih =>
    cases l with
    | nil => rfl
    | cons q l =>
      rw [List.reverse_cons, List.reverse_cons, List.append_assoc]
      rw [List.reverse_cons] at ih
      show pathLen (l.reverse ++ [q, p]) = _
      rw [pathLen_append, ih, pathLen, mag_comm]; ring

theorem on_pathLen {L : List (Pt ℝ)} {s : DP} (h : On L s) : pathLen s.it.pts = pathLen L := by
  have : s.it.pts = L ∨ s.it.pts = L.reverse := by
    rcases h with ⟨k, t⟩ | t
    · exact t.it.imp (fun h => h.1) (fun h => h.1)
    · exact t.it.imp (fun h => h.1) (fun h => h.1)
  rcases this with h | h
  · rw [h]
  · rw [h, pathLen_reverse]

theorem splitPos_walk {P : Int → List (Pt ℝ)} {x : DPA} {k : Nat} {v : SplitPos} (h : x.splitPos k = .ok v) {q : EdgePos} (hq : x.common = some q)
    (hlen : x.dp.it.pts.length = (P x.label).length) (hpl : pathLen x.dp.it.pts = pathLen (P x.label)) (hs : q.seg + 2 ≤ (P x.label).length) :
    v.label = x.label ∧ walk P v = q.arc ∧ walkSeg P v = q.seg ∧ v.at_.pos = q.pos := by
  rw [DPA.splitPos, hq] at h
  simp only at h
  cases h
  by_cases hx : x.label < 0
  · rw [if_pos hx]
    refine ⟨rfl, ?_, ?_, rfl⟩
    · rw [walk]; simp only; rw [if_pos hx, hpl]; ring
    · rw [walkSeg]; simp only; rw [if_pos hx, hlen]; omega
  · rw [if_neg hx]
    refine ⟨rfl, ?_, ?_, rfl⟩
    · rw [walk]; simp only; rw [if_neg hx]
    · rw [walkSeg]; simp only; rw [if_neg hx]

/-- the current position of an entry as an `EdgePos` -/
noncomputable def DPA.here (x : DPA) : EdgePos := ⟨x.dp.seg, x.dp.arcLength, x.dp.pos⟩

theorem walked_here {P : Int → List (Pt ℝ)} {x : DPA} (h : Placed2 (P x.label) x) {v : SplitPos} (h1 : v.label = x.label) (h2 : walk P v = x.dp.arcLength)
    (h3 : walkSeg P v = x.dp.seg) (h4 : v.at_.pos = x.dp.pos) : Walked P v := by
  rcases h with ⟨k, t, i⟩ | ⟨t, hp, hpart⟩
  · have ha := t.along i
    refine ⟨by rw [h2]; exact ha.2, by rw [h4, h1, h2]; exact ha.1, fun _ => ?_⟩
    rw [h1, h2, h3, t.seg]
    obtain ⟨u, u0, u1, -, hu⟩ := i
    rw [reach_succ t.p1 t.p2, DP.arcLength, t.arc, hu]
    have := mag_nonneg (x.dp.p2 - x.dp.p1)
    exact ⟨by nlinarith, by nlinarith⟩
  · have ha : x.dp.arcLength = pathLen (P x.label) + x.dp.part := by rw [DP.arcLength, t.arc]
    refine ⟨by rw [h2, ha]; have := pathLen_nonneg (P x.label); linarith, ?_, fun hc => ?_⟩
    · rw [h4, h1, h2, hp]
      exact (along_last t.p1 (by rw [ha]; linarith)).symm
    · rw [h1, h2, ha] at hc; linarith

/-- The splits `new` of darts of `l`: each lies behind the current position, and those of one dart are in the order of the dart. -/
structure Nest (P : Int → List (Pt ℝ)) (l : List DPA) (new : List SplitPos) : Prop where
  each : ∀ v ∈ new, Walked P v ∧ ∃ x ∈ l, x.label = v.label ∧ x.dp.arcLength ≤ walk P v
  order : new.Pairwise fun u v => u.label = v.label → walk P u < pathLen (P u.label) → walk P u < walk P v

theorem Nest.nil (P : Int → List (Pt ℝ)) (l : List DPA) : Nest P l [] := ⟨by simp, by simp⟩

/-- the planned splits of `st'` are those of `st` and then nested ones -/
def AddsN (P : Int → List (Pt ℝ)) (l : List DPA) (st st' : St) : Prop :=
  ∀ sp, st.splits = some sp → ∃ new cnt, st'.splits = some ⟨sp.list ++ new, cnt⟩ ∧ Nest P l new

theorem AddsN.refl (P : Int → List (Pt ℝ)) (l : List DPA) {st st' : St} (h : st'.splits = st.splits) : AddsN P l st st' :=
  fun sp e => ⟨[], sp.count, by rw [h, e]; simp, Nest.nil P l⟩

theorem sortGroups_nest {P : Int → List (Pt ℝ)} {rec : Pt ℝ → ℝ → List DPA → St → Outcome (List DPA × St)} :
    ∀ (gs : List (List DPA)) (st : St) (r : List DPA) (st' : St), sortGroups rec gs st = .ok (r, st') →
      (∀ g ∈ gs, g.length > 1 → ∀ st r st', rec (meanPos g) (refAngle g) (g.map (·.setCommon)) st = .ok (r, st') → AddsN P (g.map (·.setCommon)) st st') →
      (gs.flatten.map (·.label)).Nodup → AddsN P gs.flatten st st' := by
  intro gs
  induction gs with
  | nil =>
    intro st r st' h _ _
    cases h
    exact AddsN.refl _ _ rfl
  | cons g gs ih =>
    intro st r st' h hrec hn
    rw [sortGroups] at h
    obtain ⟨⟨r1, st1⟩, e1, h⟩ := Outcome.bind_eq_ok.1 h
    obtain ⟨⟨r2, st2⟩, e2, h⟩ := Outcome.bind_eq_ok.1 h
    cases h
    rw [List.flatten_cons, List.map_append, List.nodup_append] at hn
    have h2 := ih _ _ _ e2 (fun g hg => hrec g (by simp [hg])) hn.2.1
    simp only at h2 ⊢
    have h1 : AddsN P g st st1 := by
      split_ifs at e1 with hg
      · intro sp hsp
        obtain ⟨new, cnt, a, b⟩ := hrec g (by simp) hg _ _ _ e1 sp hsp
        refine ⟨new, cnt, a, fun v hv => ⟨(b.each v hv).1, ?_⟩, b.order⟩
        obtain ⟨x, hx, q⟩ := (b.each v hv).2
        obtain ⟨y, hy, rfl⟩ := List.mem_map.1 hx
        exact ⟨y, hy, q⟩
      · cases e1; exact AddsN.refl _ _ rfl
    intro sp hsp
    obtain ⟨n1, c1, a1, b1⟩ := h1 sp hsp
    obtain ⟨n2, c2, a2, b2⟩ := h2 _ a1
    refine ⟨n1 ++ n2, c2, by rw [a2]; simp, ?_, ?_⟩
    · intro v hv
      rw [List.flatten_cons]
      rcases List.mem_append.1 hv with hv | hv
      · obtain ⟨q, x, hx, q'⟩ := b1.each v hv
        exact ⟨q, x, by simp [hx], q'⟩
      · obtain ⟨q, x, hx, q'⟩ := b2.each v hv
        exact ⟨q, x, List.mem_append.2 (Or.inr hx), q'⟩
    · rw [List.pairwise_append]
      refine ⟨b1.order, b2.order, fun u hu v hv e => ?_⟩
      obtain ⟨-, x, hx, hxl, -⟩ := b1.each u hu
      obtain ⟨-, y, hy, hyl, -⟩ := b2.each v hv
      exact absurd (hxl.trans (e.trans hyl.symm)) (hn.2.2 _ (List.mem_map_of_mem hx) _ (List.mem_map_of_mem hy))

theorem sortInternal_nest {P : Int → List (Pt ℝ)} {srt : List DPA → List DPA} (hs : Sorter srt) {ρ m : ℝ} (hρ : 0 < ρ) (hm : 0 < m) {N : Nat} (hN1 : 0 < N)
    (hN : ((N : ℝ) - 1) * m ≤ Real.pi / 3) : ∀ (fuel : Nat) (c : Pt ℝ) (ref : ℝ) (parallel : Bool) (l : List DPA) (st : St) (r : List DPA) (st' : St),
    sortInternal srt (ρ * ρ) m fuel c ref parallel l st = .ok (r, st') → -Real.pi ≤ ref → ref ≤ Real.pi → l.length ≤ N →
    (∀ x ∈ l, Placed2 (P x.label) x ∧ mag (x.dp.pos - c) ≤ ρ - ρ / N) → (parallel = true → ∀ x ∈ l, x.common = some (DPA.here x)) →
    (l.map (·.label)).Nodup → AddsN P l st st' := by
  intro fuel
  have d0 : 0 < ρ / N := div_pos hρ (by exact_mod_cast hN1)
  induction fuel with
  | zero => intro c ref p l st r st' h; cases h
  | succ fuel ih =>
    intro c ref parallel l st r st' h href1 href2 hlN hpl hcm hn
    have hlenr : r.length = l.length := by
      rcases sortInternal_ok hs (r2 := ρ * ρ) (m := m) (fuel + 1) c ref parallel l st (fun x hx => ⟨_, (hpl x hx).1.on⟩)
        (fun hp x hx => by rw [hcm hp x hx]; rfl) with e | ⟨r0, st0, e, hres⟩
      · rw [h] at e; cases e
      · rw [h] at e; cases e
        simpa using hres.perm.length_eq
    rw [sortInternal] at h
    by_cases hlen : l.length < 2
    · rw [if_pos hlen] at h
      cases h; exact AddsN.refl _ _ rfl
    · rw [if_neg hlen] at h
      obtain ⟨l1, e1, h'⟩ := Outcome.bind_eq_ok.1 h
      clear h
      have k1 := mapAll_forall e1
      have hl1 : ∀ y ∈ l1, ∃ x ∈ l, Placed2 (P y.label) y ∧ mag (y.dp.pos - c) ≤ ρ ∧ y.absAngle = atan2 (-y.dp.pos.2 + c.2) (y.dp.pos.1 - c.1) ∧
          y.angle = normAngle (y.absAngle - ref) ∧ y.label = x.label ∧ y.common = x.common ∧ x.dp.arcLength ≤ y.dp.arcLength ∧
          (x.dp.arcLength < pathLen (P x.label) → x.dp.arcLength < y.dp.arcLength) := by
        intro y hy
        obtain ⟨x, hx, e⟩ := forall2_mem k1 hy
        have hp := hpl x hx
        obtain ⟨a1, a2, a3, a4, a5, a6⟩ := measure_walk hp.1 hρ (by linarith [hp.2]) e
        exact ⟨x, hx, by rw [a5]; exact a1, a2, a3, a4, a5, a6⟩
      have lab : l1.map (·.label) = l.map (·.label) := labels_eq (k1.imp fun x y h => measure_label h)
      split_ifs at h' with hall
      · cases h'; exact AddsN.refl _ _ rfl
      · simp only at h'
        obtain ⟨st1, e2, h''⟩ := Outcome.bind_eq_ok.1 h'
        clear h'
        obtain ⟨⟨r0, st2⟩, e3, h3⟩ := Outcome.bind_eq_ok.1 h''
        clear h''
        simp only [Outcome.ok.injEq, Prod.mk.injEq] at h3
        obtain ⟨rfl, hfin⟩ := h3
        have p2 : (rotateGroups m (srt l1)).Perm l1 := (rotateGroups_perm m _).trans (hs l1).1
        have hfl : (groups m (rotateGroups m (srt l1))).flatten = rotateGroups m (srt l1) := List.flatten_splitBy _ _
        have hn2 : ((rotateGroups m (srt l1)).map (·.label)).Nodup := by
          rw [(p2.map _).nodup_iff, lab]; exact hn
        have hlenl1 : l1.length = l.length := k1.length_eq.symm
        have hclose := groups_close hs hρ hm hN href1 href2 (hlenl1.trans_le hlN) (fun y hy => by
          obtain ⟨x, -, -, a1, a2, a3, -⟩ := hl1 y hy
          exact ⟨a1, a2, a3⟩)
        have hadd := sortGroups_nest (P := P) _ _ _ _ e3 (by
            intro g hg hg2 st r st' he
            obtain ⟨c1, c2, c3, c4⟩ := hclose g hg hg2
            refine ih _ _ true _ _ _ _ he c3 c4 (by simpa using c1) ?_ ?_ ?_
            · intro x hx
              obtain ⟨y, hy, rfl⟩ := List.mem_map.1 hx
              obtain ⟨-, -, a, -⟩ := hl1 y (c2 y hy).1
              exact ⟨a, (c2 y hy).2⟩
            · intro _ x hx
              obtain ⟨y, hy, rfl⟩ := List.mem_map.1 hx
              rfl
            · rw [setCommon_labels]
              obtain ⟨u, v, e⟩ := List.append_of_mem hg
              rw [← hfl, e] at hn2
              simp only [List.flatten_append, List.flatten_cons, List.map_append] at hn2
              exact (hn2.of_append_right).of_append_left) (by rw [hfl]; exact hn2)
        rw [hfl] at hadd
        -- later splits of the dart of an entry of `l`
        have lift : ∀ {new : List SplitPos}, Nest P (rotateGroups m (srt l1)) new → ∀ v ∈ new, Walked P v ∧ ∃ x ∈ l, x.label = v.label ∧
            x.dp.arcLength ≤ walk P v ∧ (x.dp.arcLength < pathLen (P x.label) → x.dp.arcLength < walk P v) := by
          intro new hnest v hv
          obtain ⟨q, y, hy, q1, q2⟩ := hnest.each v hv
          obtain ⟨x, hx, -, -, -, -, b1, -, b2, b3⟩ := hl1 y (p2.mem_iff.1 hy)
          exact ⟨q, x, hx, b1.symm.trans q1, b2.trans q2, fun hlt => lt_of_lt_of_le (b3 hlt) q2⟩
        intro sp hsp
        by_cases hp : decide (1 < (groups m (rotateGroups m (srt l1))).length) = true ∧ parallel = true
        · rw [planSplits, hsp] at e2
          simp only at e2
          rw [if_pos hp] at e2
          obtain ⟨own, e4, e2⟩ := Outcome.bind_eq_ok.1 e2
          cases e2
          have k4 := mapAll_forall e4
          have hown : List.Forall₂ (fun (y : DPA) (v : SplitPos) => v.label = y.label ∧ ∃ x ∈ l, x.label = v.label ∧ walk P v = x.dp.arcLength ∧ Walked P v)
              (rotateGroups m (srt l1)) own := by
            refine (List.forall₂_iff_get.2 ⟨k4.length_eq, fun i h1 h2 => ?_⟩)
            have e := (List.forall₂_iff_get.1 k4).2 i h1 h2
            obtain ⟨x, hx, b0, -, -, -, b1, b2, -⟩ := hl1 ((rotateGroups m (srt l1)).get ⟨i, h1⟩) (p2.mem_iff.1 (List.get_mem _ _))
            rw [hcm hp.2 x hx] at b2
            have hxp := (hpl x hx).1
            obtain ⟨a1, a2, a3, a4⟩ := splitPos_walk (P := P) e b2 (on_length b0.on) (on_pathLen b0.on) (by rw [b1]; exact on_seg hxp.on)
            exact ⟨a1, x, hx, (a1.trans b1).symm, a2, walked_here hxp (a1.trans b1) a2 a3 a4⟩
          obtain ⟨new, cnt, e5, k5⟩ := hadd _ rfl
          have hpl' : st.plans (decide (1 < (groups m (rotateGroups m (srt l1))).length)) parallel = true := by
            rw [St.plans, hsp, hp.1, hp.2]; rfl
          rw [if_pos hpl'] at hfin
          have hoff : st.offset = sp.list.length := by rw [St.offset, hsp]
          have hlenown : own.length = (r0.map (·.label)).length := by
            rw [List.length_map, hlenr, ← hlenl1, ← p2.length_eq, k4.length_eq]
          have holab : own.map (·.label) = (rotateGroups m (srt l1)).map (·.label) := labels_eq (hown.imp fun x y h => h.1)
          rw [hoff] at hfin
          have e6 := storeOrder_eq (labels := r0.map (·.label)) (a := sp.list) (b := own) (c := new) e5 rfl hlenown
          rw [hfin] at e6
          refine ⟨own.map (fun e => { e with sigmaPos := some ((r0.map (·.label)).idxOf e.label) }) ++ new, cnt, by rw [e6, List.append_assoc], ?_, ?_⟩
          · intro v hv
            rcases List.mem_append.1 hv with hv | hv
            · obtain ⟨w, hw, rfl⟩ := List.mem_map.1 hv
              obtain ⟨y, -, a1, x, hx, a2, a3, a4⟩ := forall2_mem hown hw
              exact ⟨⟨a4.nonneg, a4.pos, a4.seg⟩, x, hx, a2, a3.symm.le⟩
            · obtain ⟨q, x, hx, b1, b2, -⟩ := lift k5 v hv
              exact ⟨q, x, hx, b1, b2⟩
          · rw [List.pairwise_append]
            refine ⟨?_, k5.order, ?_⟩
            · rw [List.pairwise_map]
              have hno : (own.map (·.label)).Nodup := by rw [holab]; exact hn2
              rw [List.nodup_iff_pairwise_ne, List.pairwise_map] at hno
              exact hno.imp fun hne e => absurd e hne
            · intro u hu v hv e hlt
              obtain ⟨w, hw, rfl⟩ := List.mem_map.1 hu
              obtain ⟨y, -, a1, x, hx, a2, a3, -⟩ := forall2_mem hown hw
              obtain ⟨-, x', hx', b1, -, b3⟩ := lift k5 v hv
              have hxx : x = x' := List.inj_on_of_nodup_map hn hx hx' (a2.trans (e.trans b1.symm))
              subst hxx
              have hw' : walk P { w with sigmaPos := some ((r0.map (·.label)).idxOf w.label) } = x.dp.arcLength := a3
              rw [hw'] at hlt ⊢
              refine b3 ?_
              rw [a2]; exact hlt
        · have hst1 : st1 = st := by
            rw [planSplits, hsp] at e2
            simp only at e2
            rw [if_neg hp] at e2
            cases e2; rfl
          have hpl' : ¬ st.plans (decide (1 < (groups m (rotateGroups m (srt l1))).length)) parallel = true := by
            rw [St.plans, hsp]
            simpa [and_assoc] using hp
          rw [if_neg hpl'] at hfin
          subst hfin hst1
          obtain ⟨new, cnt, e5, k5⟩ := hadd sp hsp
          refine ⟨new, cnt, e5, fun v hv => ?_, k5.order⟩
          obtain ⟨q, x, hx, b1, b2, -⟩ := lift k5 v hv
          exact ⟨q, x, hx, b1, b2⟩

end Verif.Parallel
