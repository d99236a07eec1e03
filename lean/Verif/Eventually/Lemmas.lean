import Verif.Eventually.Model
import Verif.DartPos.Lemmas
import Mathlib.Data.List.Forall2

namespace Verif.Eventually
open Verif Verif.GeoMap Verif.PointIter Verif.DartPos

/-- The position stands somewhere on the dart with the points `L`. -/
def On (L : List (Pt ℝ)) (s : DP) : Prop := (∃ k, Track L s k) ∨ Done L s

/-- The position of the entry stands on its dart. -/
def Valid (x : DPA) : Prop := ∃ L, On L x.dp

theorem On.intersect {L : List (Pt ℝ)} {s : DP} (h : On L s) (c : Pt ℝ) (r2 : ℝ) : ∃ b s', s.intersectCircle c r2 = .ok (b, s') ∧ On L s' := by
  rcases h with ⟨k, t⟩ | t
  · obtain ⟨b, s', e, h1⟩ := t.intersect (c := c) (r2 := r2)
    refine ⟨b, s', e, ?_⟩
    cases b with
    | true =>
      simp only [if_true] at h1
      obtain ⟨k', -, t', -⟩ := h1
      exact Or.inl ⟨k', t'⟩
    | false =>
      simp only [Bool.false_eq_true, if_false] at h1
      exact Or.inr h1.1
  · obtain ⟨b, s', e, d, -⟩ := t.intersect (c := c) (r2 := r2)
    exact ⟨b, s', e, Or.inr d⟩

/-- What is kept by measuring. -/
structure Kept (x y : DPA) : Prop where
  label : y.label = x.label
  common : y.common = x.common
  valid : Valid y
  ended : x.dp.atEnd = true → y.dp = x.dp

theorem measure_ok {x : DPA} (h : Valid x) (c : Pt ℝ) (ref r2 : ℝ) : ∃ y, measure c ref r2 x = .ok y ∧ Kept x y := by
  obtain ⟨L, hL⟩ := h
  by_cases he : x.dp.atEnd = true
  · refine ⟨{ x with
      dp := x.dp, absAngle := atan2 (-x.dp.pos.2 + c.2) (x.dp.pos.1 - c.1),
      angle := normAngle (atan2 (-x.dp.pos.2 + c.2) (x.dp.pos.1 - c.1) - ref) }, ?_, rfl, rfl, ⟨L, hL⟩, fun _ => rfl⟩
    rw [measure, if_pos he]; rfl
  · obtain ⟨b, s', e, h'⟩ := hL.intersect c r2
    refine ⟨{ x with
      dp := s', absAngle := atan2 (-s'.pos.2 + c.2) (s'.pos.1 - c.1),
      angle := normAngle (atan2 (-s'.pos.2 + c.2) (s'.pos.1 - c.1) - ref) }, ?_, rfl, rfl, ⟨L, h'⟩, fun h => absurd h he⟩
    rw [measure, if_neg he, e]; rfl

theorem mapAll_ok {α β : Type} {f : α → Outcome β} {R : α → β → Prop} {l : List α} (h : ∀ x ∈ l, ∃ y, f x = .ok y ∧ R x y) :
    ∃ ys, mapAll f l = .ok ys ∧ List.Forall₂ R l ys := by
  induction l with
  | nil => exact ⟨[], rfl, .nil⟩
  | cons x l ih =>
    obtain ⟨y, e, r⟩ := h x (by simp)
    obtain ⟨ys, e', r'⟩ := ih (fun z hz => h z (by simp [hz]))
    exact ⟨y :: ys, by rw [mapAll, e, Outcome.bind_ok, e']; rfl, .cons r r'⟩

theorem rotateArray_perm {α : Type} (l : List α) (k : Nat) : (rotateArray l k).Perm l := by
  rw [rotateArray]
  exact List.perm_append_comm.trans (by rw [List.take_append_drop])

theorem rotSearch_rot (m : ℝ) (l : List DPA) (f : Nat) : ∃ k, rotSearch m l f = rotateArray l k := by
  induction f with
  | zero => exact ⟨0, by simp [rotSearch, rotateArray]⟩
  | succ f ih =>
    rw [rotSearch]
    split_ifs
    · exact ⟨_, rfl⟩
    · exact ih

theorem rotateGroups_rot (m : ℝ) (l : List DPA) : ∃ k, rotateGroups m l = rotateArray l k := by
  rw [rotateGroups]
  split_ifs
  · exact rotSearch_rot _ _ _
  · exact ⟨0, by simp [rotateArray]⟩

theorem rotateGroups_perm (m : ℝ) (l : List DPA) : (rotateGroups m l).Perm l := by
  obtain ⟨k, hk⟩ := rotateGroups_rot m l
  rw [hk]
  exact rotateArray_perm l k

/-- The groups `U` are disjoint blocks of the list `l`, in this order. -/
def Blocks : List (List Int) → List Int → Prop
  | [], _ => True
  | u :: us, l => ∃ p q, l = p ++ u ++ q ∧ Blocks us q

theorem Blocks.prepend : ∀ {U : List (List Int)} {l : List Int} (p : List Int), Blocks U l → Blocks U (p ++ l)
  | [], _, _, _ => trivial
  | _ :: _, _, p, ⟨a, b, e, h⟩ => ⟨p ++ a, b, by simp [e], h⟩

theorem Blocks.append : ∀ {U V : List (List Int)} {l m : List Int}, Blocks U l → Blocks V m → Blocks (U ++ V) (l ++ m)
  | [], _, l, _, _, h => h.prepend l
  | _ :: _, _, _, _, ⟨a, b, e, h⟩, h' => ⟨a, b ++ _, by simp [e], h.append h'⟩

/-- What a call of `sortEdgesInternal` on the array `l` with result `r` guarantees. -/
structure Result (l : List DPA) (st : St) (r : List DPA) (st' : St) : Prop where
  perm : (r.map (·.label)).Perm (l.map (·.label))
  valid : ∀ x ∈ r, Valid x
  uns : ∃ U, st'.unsortable = st.unsortable ++ U ∧ Blocks U (r.map (·.label)) ∧
    ∀ u ∈ U, 2 ≤ u.length ∧ ∀ d ∈ u, ∃ x ∈ r, x.label = d ∧ x.dp.atEnd = true
  splits : st'.splits.isSome = st.splits.isSome

theorem forall2_labels {l l1 : List DPA} (h : List.Forall₂ Kept l l1) : l1.map (·.label) = l.map (·.label) := by
  induction h with
  | nil => rfl
  | cons h _ ih => simp [h.label, ih]

theorem forall2_mem {α β : Type} {R : α → β → Prop} {l : List α} {l1 : List β} (h : List.Forall₂ R l l1) {y : β} (hy : y ∈ l1) :
    ∃ x ∈ l, R x y := by
  induction h with
  | nil => cases hy
  | cons h _ ih =>
    rcases List.mem_cons.1 hy with rfl | hy
    · exact ⟨_, by simp, h⟩
    · obtain ⟨x, hx, r⟩ := ih hy
      exact ⟨x, by simp [hx], r⟩

theorem setCommon_labels (g : List DPA) : (g.map (·.setCommon)).map (·.label) = g.map (·.label) := by
  simp [List.map_map, DPA.setCommon, Function.comp_def]

/-- the groups one after the other -/
theorem sortGroups_ok {rec : Pt ℝ → ℝ → List DPA → St → Outcome (List DPA × St)}
    (hrec : ∀ c ref g st, (∀ x ∈ g, Valid x) → (∀ x ∈ g, x.common.isSome) →
      rec c ref g st = .hang ∨ ∃ r st', rec c ref g st = .ok (r, st') ∧ Result g st r st') :
    ∀ (gs : List (List DPA)) (st : St), (∀ g ∈ gs, ∀ x ∈ g, Valid x) →
      sortGroups rec gs st = .hang ∨ ∃ r st', sortGroups rec gs st = .ok (r, st') ∧ Result gs.flatten st r st' := by
  intro gs
  induction gs with
  | nil => 
    intro st _
    exact Or.inr ⟨[], st, rfl, by simp, by simp, ⟨[], by simp, trivial, by simp⟩, rfl⟩
  | cons g gs ih =>
    intro st hv
    -- the first group
    have first : (if g.length > 1 then rec (meanPos g) (refAngle g) (g.map (·.setCommon)) st else .ok (g, st)) = .hang ∨
        ∃ r st', (if g.length > 1 then rec (meanPos g) (refAngle g) (g.map (·.setCommon)) st else .ok (g, st)) = .ok (r, st') ∧
          Result g st r st' := by
      split_ifs with hg
      · rcases hrec (meanPos g) (refAngle g) (g.map (·.setCommon)) st (by
          intro x hx
          obtain ⟨y, hy, rfl⟩ := List.mem_map.1 hx
          exact hv g (by simp) y hy) (by
          intro x hx
          obtain ⟨y, hy, rfl⟩ := List.mem_map.1 hx
          simp [DPA.setCommon]) with h | ⟨r, st', e, hr⟩
        · exact Or.inl h
        · refine Or.inr ⟨r, st', e, ?_, hr.valid, hr.uns, hr.splits⟩
          have := hr.perm
          rwa [setCommon_labels] at this
      · exact Or.inr ⟨g, st, rfl, List.Perm.refl _, hv g (by simp), ⟨[], by simp, trivial, by simp⟩, rfl⟩
    rw [sortGroups]
    rcases first with h | ⟨r1, st1, e1, h1⟩
    · left; rw [h]; rfl
    · rw [e1, Outcome.bind_ok]
      rcases ih st1 (fun g hg => hv g (by simp [hg])) with h | ⟨r2, st2, e2, h2⟩
      · left; simp only [h]; rfl
      · right
        refine ⟨r1 ++ r2, st2, by simp only [e2]; rfl, ?_, ?_, ?_, by rw [h2.splits, h1.splits]⟩
        · simp only [List.map_append, List.flatten_cons]
          exact h1.perm.append h2.perm
        · intro x hx
          rcases List.mem_append.1 hx with hx | hx
          exacts [h1.valid x hx, h2.valid x hx]
        · obtain ⟨U1, a1, b1, c1⟩ := h1.uns
          obtain ⟨U2, a2, b2, c2⟩ := h2.uns
          refine ⟨U1 ++ U2, by rw [a2, a1, List.append_assoc], by rw [List.map_append]; exact b1.append b2, ?_⟩
          intro u hu
          rcases List.mem_append.1 hu with hu | hu
          · refine ⟨(c1 u hu).1, fun d hd => ?_⟩
            obtain ⟨x, hx, h⟩ := (c1 u hu).2 d hd
            exact ⟨x, by simp [hx], h⟩
          · refine ⟨(c2 u hu).1, fun d hd => ?_⟩
            obtain ⟨x, hx, h⟩ := (c2 u hu).2 d hd
            exact ⟨x, by simp [hx], h⟩

theorem planSplits_ok {decision parallel : Bool} {l : List DPA} (hc : parallel = true → ∀ x ∈ l, x.common.isSome) (st : St) :
    ∃ st1, planSplits decision parallel l st = .ok st1 ∧ st1.unsortable = st.unsortable ∧ st1.splits.isSome = st.splits.isSome := by
  rcases e : st.splits with _ | sp
  · exact ⟨st, by rw [planSplits, e], rfl, by simp [e]⟩
  · rw [planSplits, e]
    simp only
    split_ifs with h
    · obtain ⟨ys, e', -⟩ := mapAll_ok (f := fun x : DPA => x.splitPos sp.count) (R := fun _ _ => True) (l := l) (by
        intro x hx
        obtain ⟨c, hcx⟩ := Option.isSome_iff_exists.1 (hc h.2 x hx)
        exact ⟨_, by rw [DPA.splitPos, hcx], trivial⟩)
      exact ⟨{ st with
        splits := some { sp with
          list := sp.list ++ ys, count := sp.count + 1 } }, by rw [e']; rfl, rfl, by simp⟩
    · exact ⟨st, rfl, rfl, by simp [e]⟩

theorem storeOrder_frame (o : Nat) (labels : List Int) (st : St) : (storeOrder o labels st).unsortable = st.unsortable ∧
    (storeOrder o labels st).splits.isSome = st.splits.isSome := by
  rw [storeOrder]
  cases e : st.splits <;> simp [e]

/-- `sortEdgesInternal` either recurses too deep or permutes the darts; it never throws and never misbehaves. -/
theorem sortInternal_ok {srt : List DPA → List DPA} (hs : Sorter srt) {r2 m : ℝ} : ∀ (fuel : Nat) (c : Pt ℝ) (ref : ℝ) (parallel : Bool)
    (l : List DPA) (st : St), (∀ x ∈ l, Valid x) → (parallel = true → ∀ x ∈ l, x.common.isSome) →
    sortInternal srt r2 m fuel c ref parallel l st = .hang ∨
      ∃ r st', sortInternal srt r2 m fuel c ref parallel l st = .ok (r, st') ∧ Result l st r st' := by
  intro fuel
  induction fuel with
  | zero => intros; exact Or.inl rfl
  | succ fuel ih =>
    intro c ref parallel l st hv hcm
    rw [sortInternal]
    by_cases hlen : l.length < 2
    · rw [if_pos hlen]
      exact Or.inr ⟨l, st, rfl, List.Perm.refl _, hv, ⟨[], by simp, trivial, by simp⟩, rfl⟩
    · rw [if_neg hlen]
      obtain ⟨l1, e1, k1⟩ := mapAll_ok (fun x hx => measure_ok (hv x hx) c ref r2)
      rw [e1, Outcome.bind_ok]
      have lab := forall2_labels k1
      have hv1 : ∀ x ∈ l1, Valid x := fun y hy => by
        obtain ⟨x, -, k⟩ := forall2_mem k1 hy
        exact k.valid
      split_ifs with hall
      · refine Or.inr ⟨_, _, rfl, by rw [lab], hv1, ⟨[l1.map (·.label)], rfl, ⟨[], [], by simp, trivial⟩, ?_⟩, rfl⟩
        intro u hu
        rw [List.mem_singleton] at hu
        subst hu
        refine ⟨by rw [lab]; simp; omega, fun d hd => ?_⟩
        obtain ⟨y, hy, rfl⟩ := List.mem_map.1 hd
        obtain ⟨x, hx, k⟩ := forall2_mem k1 hy
        have : x.dp.atEnd = true := by simpa using List.all_eq_true.1 hall x hx
        exact ⟨y, hy, rfl, by rw [k.ended this]; exact this⟩
      · have p2 : (rotateGroups m (srt l1)).Perm l1 := (rotateGroups_perm m _).trans (hs l1).1
        have hfl : (groups m (rotateGroups m (srt l1))).flatten = rotateGroups m (srt l1) := List.flatten_splitBy _ _
        simp only
        obtain ⟨st1, e2, u1, s1⟩ := planSplits_ok (decision := decide (1 < (groups m (rotateGroups m (srt l1))).length)) (parallel := parallel)
          (l := rotateGroups m (srt l1)) (by
            intro hp x hx
            obtain ⟨y, hy, k⟩ := forall2_mem k1 (p2.mem_iff.1 hx)
            rw [k.common]
            exact hcm hp y hy) st
        rw [e2, Outcome.bind_ok]
        rcases sortGroups_ok (rec := fun c ref g st => sortInternal srt r2 m fuel c ref true g st)
          (fun c ref g st h1 h2 => ih c ref true g st h1 (fun _ => h2)) (groups m (rotateGroups m (srt l1))) st1 (by
            intro g hg x hx
            refine hv1 x (p2.mem_iff.1 ?_)
            rw [← hfl]
            exact List.mem_flatten.2 ⟨g, hg, hx⟩) with h | ⟨r, st', e3, hr⟩
        · left; rw [h]; rfl
        · right
          refine ⟨_, _, by rw [e3]; rfl, ?_⟩
          rw [hfl] at hr
          refine ⟨?_, hr.valid, ?_, ?_⟩
          · refine hr.perm.trans ?_
            rw [← lab]
            exact p2.map _
          · obtain ⟨U, a, b, c⟩ := hr.uns
            refine ⟨U, ?_, b, c⟩
            split_ifs
            · rw [(storeOrder_frame _ _ _).1, a, u1]
            · rw [a, u1]
          · split_ifs
            · rw [(storeOrder_frame _ _ _).2, hr.splits, s1]
            · rw [hr.splits, s1]

/-- More fuel does not change the result. -/
theorem sortGroups_mono {f g : Pt ℝ → ℝ → List DPA → St → Outcome (List DPA × St)}
    (h : ∀ c ref l st r, f c ref l st = .ok r → g c ref l st = .ok r) : ∀ (gs : List (List DPA)) (st : St) (r : List DPA × St),
    sortGroups f gs st = .ok r → sortGroups g gs st = .ok r := by
  intro gs
  induction gs with
  | nil => intro st r h; exact h
  | cons x gs ih =>
    intro st r hr
    rw [sortGroups, Outcome.bind_eq_ok] at hr
    obtain ⟨a, ha, hr⟩ := hr
    rw [Outcome.bind_eq_ok] at hr
    obtain ⟨b, hb, hr⟩ := hr
    have ha' : (if x.length > 1 then g (meanPos x) (refAngle x) (x.map (·.setCommon)) st else .ok (x, st)) = .ok a := by
      split_ifs at ha ⊢ with hx
      · exact h _ _ _ _ _ ha
      · exact ha
    rw [sortGroups, ha', Outcome.bind_ok, ih _ _ hb, Outcome.bind_ok]
    exact hr

theorem sortInternal_mono {srt : List DPA → List DPA} {r2 m : ℝ} : ∀ (fuel : Nat) (c : Pt ℝ) (ref : ℝ) (parallel : Bool)
    (l : List DPA) (st : St) (r : List DPA × St), sortInternal srt r2 m fuel c ref parallel l st = .ok r →
    sortInternal srt r2 m (fuel + 1) c ref parallel l st = .ok r := by
  intro fuel
  induction fuel with
  | zero => intro c ref par l st r h; simp [sortInternal] at h
  | succ fuel ih =>
    intro c ref par l st r h
    rw [sortInternal] at h ⊢
    by_cases hl : l.length < 2
    · rw [if_pos hl] at h ⊢
      exact h
    · rw [if_neg hl] at h ⊢
      rw [Outcome.bind_eq_ok] at h
      obtain ⟨l1, e1, h⟩ := h
      rw [e1, Outcome.bind_ok]
      split_ifs at h ⊢ with ha
      · exact h
      · simp only at h ⊢
        rw [Outcome.bind_eq_ok] at h
        obtain ⟨st1, e2, h⟩ := h
        rw [Outcome.bind_eq_ok] at h
        obtain ⟨q, e3, h⟩ := h
        rw [e2, Outcome.bind_ok, sortGroups_mono (fun c ref l st r hh => ih c ref true l st r hh) _ _ _ e3, Outcome.bind_ok]
        exact h

end Verif.Eventually
