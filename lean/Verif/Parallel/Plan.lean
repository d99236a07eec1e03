import Verif.Parallel.Spec
import Verif.Eventually.Node

/-! # The splits planned by `sortEdgesEventually` (helper lemmas) -/

namespace Verif.Parallel
open Verif Verif.GeoMap Verif.Eventually Verif.DartPos Equiv

/-- A group planned while darts were sorted to the order `labels`; `P d` are the points of the dart `d`. -/
structure PlanGroup (P : Int → List (Pt ℝ)) (labels : List Int) (k : Nat) (g : List SplitPos) : Prop where
  two : 2 ≤ g.length
  group : ∀ v ∈ g, v.group = k
  order : ∃ ord : List Int, ord <:+: labels ∧ ord.Perm (g.map (·.label)) ∧ ∀ v ∈ g, v.sigmaPos = some (ord.idxOf v.label)
  seg : ∀ v ∈ g, v.at_.seg + 2 ≤ (P v.label).length

theorem PlanGroup.mono {P : Int → List (Pt ℝ)} {a b : List Int} (h : a <:+: b) {k : Nat} {g : List SplitPos} (hp : PlanGroup P a k g) : PlanGroup P b k g := by
  obtain ⟨ord, h1, h2⟩ := hp.order
  exact ⟨hp.two, hp.group, ⟨ord, h1.trans h, h2⟩, hp.seg⟩

/-- The planned splits of `st'` are those of `st` and then further groups. -/
def Adds (P : Int → List (Pt ℝ)) (labels : List Int) (st st' : St) : Prop :=
  ∀ sp, st.splits = some sp → ∃ gs : List (List SplitPos), st'.splits = some ⟨sp.list ++ gs.flatten, sp.count + gs.length⟩ ∧
    ∀ (i : Nat) (g : List SplitPos), gs[i]? = some g → PlanGroup P labels (sp.count + i) g

theorem Adds.refl (P : Int → List (Pt ℝ)) (labels : List Int) {st st' : St} (h : st'.splits = st.splits) : Adds P labels st st' :=
  fun sp e => ⟨[], by rw [h, e]; simp, by simp⟩

theorem Adds.trans {P : Int → List (Pt ℝ)} {a b c : List Int} (ha : a <:+: c) (hb : b <:+: c) {st st' st'' : St} (h1 : Adds P a st st')
    (h2 : Adds P b st' st'') : Adds P c st st'' := by
  intro sp e
  obtain ⟨g1, e1, k1⟩ := h1 sp e
  obtain ⟨g2, e2, k2⟩ := h2 _ e1
  refine ⟨g1 ++ g2, by rw [e2]; simp [Nat.add_assoc], fun i g hg => ?_⟩
  by_cases hi : i < g1.length
  · rw [List.getElem?_append_left hi] at hg
    exact (k1 i g hg).mono ha
  · rw [List.getElem?_append_right (by omega)] at hg
    have := (k2 _ g hg).mono hb
    simp only at this
    rwa [show sp.count + g1.length + (i - g1.length) = sp.count + i by omega] at this

theorem on_seg {L : List (Pt ℝ)} {s : DP} (h : On L s) : s.seg + 2 ≤ L.length := by
  rcases h with ⟨k, t⟩ | t
  · rw [t.seg]; exact t.lt
  · exact t.seg.le

theorem on_length {L : List (Pt ℝ)} {s : DP} (h : On L s) : s.it.pts.length = L.length := by
  rcases h with ⟨k, t⟩ | t
  · exact t.it.length
  · exact t.it.length

/-- what is kept by measuring -/
theorem measure_on {L : List (Pt ℝ)} {x y : DPA} (h : On L x.dp) {c : Pt ℝ} {ref r2 : ℝ} (e : measure c ref r2 x = .ok y) :
    y.label = x.label ∧ y.common = x.common ∧ On L y.dp := by
  rw [Eventually.measure] at e
  obtain ⟨dp, e1, e⟩ := Outcome.bind_eq_ok.1 e
  cases e
  refine ⟨rfl, rfl, ?_⟩
  split_ifs at e1
  · cases e1; exact h
  · obtain ⟨b, s', e2, h'⟩ := h.intersect c r2
    rw [e2] at e1
    cases e1; exact h'

theorem mapAll_forall {α β : Type} {f : α → Outcome β} : ∀ {l : List α} {ys : List β}, mapAll f l = .ok ys → List.Forall₂ (fun x y => f x = .ok y) l ys
  | [], _, h => by cases h; exact .nil
  | x :: l, ys, h => by
    rw [mapAll] at h
    obtain ⟨y, e1, h⟩ := Outcome.bind_eq_ok.1 h
    obtain ⟨zs, e2, h⟩ := Outcome.bind_eq_ok.1 h
    cases h
    exact .cons e1 (mapAll_forall e2)

theorem labels_eq {α β : Type} {f : α → Int} {g : β → Int} {l : List α} {l1 : List β} (h : List.Forall₂ (fun x y => g y = f x) l l1) : l1.map g = l.map f := by
  induction h with
  | nil => rfl
  | cons h _ ih => simp [h, ih]

theorem measure_label {c : Pt ℝ} {ref r2 : ℝ} {x y : DPA} (h : Eventually.measure c ref r2 x = .ok y) : y.label = x.label := by
  rw [Eventually.measure] at h
  obtain ⟨dp, -, h⟩ := Outcome.bind_eq_ok.1 h
  cases h; rfl

theorem sortGroups_plan {P : Int → List (Pt ℝ)} {rec : Pt ℝ → ℝ → List DPA → St → Outcome (List DPA × St)}
    (hrec : ∀ c ref g st r st', rec c ref g st = .ok (r, st') → (∀ x ∈ g, On (P x.label) x.dp) →
      (∀ x ∈ g, ∃ q : EdgePos, x.common = some q ∧ q.seg + 2 ≤ (P x.label).length) → (g.map (·.label)).Nodup → Adds P (r.map (·.label)) st st') :
    ∀ (gs : List (List DPA)) (st : St) (r : List DPA) (st' : St), sortGroups rec gs st = .ok (r, st') →
      (∀ g ∈ gs, ∀ x ∈ g, On (P x.label) x.dp) → (∀ g ∈ gs, (g.map (·.label)).Nodup) → Adds P (r.map (·.label)) st st' := by
  intro gs
  induction gs with
  | nil =>
    intro st r st' h _ _
    cases h
    exact Adds.refl _ _ rfl
  | cons g gs ih =>
    intro st r st' h hv hn
    rw [sortGroups] at h
    obtain ⟨⟨r1, st1⟩, e1, h⟩ := Outcome.bind_eq_ok.1 h
    obtain ⟨⟨r2, st2⟩, e2, h⟩ := Outcome.bind_eq_ok.1 h
    cases h
    have h2 := ih _ _ _ e2 (fun g hg => hv g (by simp [hg])) (fun g hg => hn g (by simp [hg]))
    simp only at h2 ⊢
    have h1 : Adds P (r1.map (·.label)) st st1 := by
      split_ifs at e1 with hg
      · refine hrec _ _ _ _ _ _ e1 ?_ ?_ (by rw [setCommon_labels]; exact hn g (by simp))
        · intro x hx
          obtain ⟨y, hy, rfl⟩ := List.mem_map.1 hx
          exact hv g (by simp) y hy
        · intro x hx
          obtain ⟨y, hy, rfl⟩ := List.mem_map.1 hx
          exact ⟨_, rfl, on_seg (hv g (by simp) y hy)⟩
      · cases e1; exact Adds.refl _ _ rfl
    rw [List.map_append]
    exact Adds.trans ⟨[], r2.map (·.label), by simp⟩ ⟨r1.map (·.label), [], by simp⟩ h1 h2

/-- what `splitPos` writes -/
theorem splitPos_eq {x : DPA} {k : Nat} {v : SplitPos} (h : x.splitPos k = .ok v) {L : List (Pt ℝ)} (hon : On L x.dp) {q : EdgePos} (hq : x.common = some q)
    (hs : q.seg + 2 ≤ L.length) : v.label = x.label ∧ v.group = k ∧ v.at_.seg + 2 ≤ L.length := by
  rw [DPA.splitPos, hq] at h
  have hl := on_length hon
  simp only at h
  cases h
  split_ifs
  · refine ⟨rfl, rfl, ?_⟩
    simp only [hl]
    omega
  · exact ⟨rfl, rfl, hs⟩

theorem storeOrder_eq {labels : List Int} {st : St} {sp : Splits} {a b c : List SplitPos} (h : st.splits = some sp) (e : sp.list = a ++ b ++ c)
    (hb : b.length = labels.length) : (storeOrder a.length labels st).splits = some ⟨a ++ b.map (fun e => { e with
      sigmaPos := some (labels.idxOf e.label) }) ++ c, sp.count⟩ := by
  rw [storeOrder, h]
  simp only [e, List.append_assoc, List.take_left, List.drop_left, ← hb]

theorem sortInternal_plan {P : Int → List (Pt ℝ)} {srt : List DPA → List DPA} (hs : Sorter srt) {r2 m : ℝ} : ∀ (fuel : Nat) (c : Pt ℝ) (ref : ℝ) (parallel : Bool)
    (l : List DPA) (st : St) (r : List DPA) (st' : St), sortInternal srt r2 m fuel c ref parallel l st = .ok (r, st') →
    (∀ x ∈ l, On (P x.label) x.dp) → (parallel = true → ∀ x ∈ l, ∃ q : EdgePos, x.common = some q ∧ q.seg + 2 ≤ (P x.label).length) →
    (l.map (·.label)).Nodup → Adds P (r.map (·.label)) st st' := by
  intro fuel
  induction fuel with
  | zero => intro c ref p l st r st' h; cases h
  | succ fuel ih =>
    intro c ref parallel l st r st' h hv hcm hn
    -- the order is a permutation
    have hperm : (r.map (·.label)).Perm (l.map (·.label)) := by
      rcases sortInternal_ok hs (r2 := r2) (m := m) (fuel + 1) c ref parallel l st (fun x hx => ⟨_, hv x hx⟩)
        (fun hp x hx => by obtain ⟨q, hq, -⟩ := hcm hp x hx; rw [hq]; rfl) with e | ⟨r0, st0, e, hres⟩
      · rw [h] at e; cases e
      · rw [h] at e; cases e
        exact hres.perm
    rw [sortInternal] at h
    by_cases hlen : l.length < 2
    · rw [if_pos hlen] at h
      cases h; exact Adds.refl _ _ rfl
    · rw [if_neg hlen] at h
      obtain ⟨l1, e1, h⟩ := Outcome.bind_eq_ok.1 h
      have k1 := mapAll_forall e1
      have hl1 : ∀ y ∈ l1, On (P y.label) y.dp ∧ (parallel = true → ∃ q : EdgePos, y.common = some q ∧ q.seg + 2 ≤ (P y.label).length) := by
        intro y hy
        obtain ⟨x, hx, e⟩ := forall2_mem k1 hy
        obtain ⟨a, b, c⟩ := measure_on (hv x hx) e
        rw [a, b]
        exact ⟨c, fun hp => hcm hp x hx⟩
      have lab : l1.map (·.label) = l.map (·.label) := labels_eq (k1.imp fun x y h => measure_label h)
      split_ifs at h with hall
      · cases h; exact Adds.refl _ _ rfl
      · simp only at h
        obtain ⟨st1, e2, h'⟩ := Outcome.bind_eq_ok.1 h
        clear h
        obtain ⟨⟨r0, st2⟩, e3, h''⟩ := Outcome.bind_eq_ok.1 h'
        clear h'
        simp only [Outcome.ok.injEq, Prod.mk.injEq] at h''
        obtain ⟨rfl, hfin⟩ := h''
        have p2 : (rotateGroups m (srt l1)).Perm l1 := (rotateGroups_perm m _).trans (hs l1).1
        have hfl : (groups m (rotateGroups m (srt l1))).flatten = rotateGroups m (srt l1) := List.flatten_splitBy _ _
        have hn2 : ((rotateGroups m (srt l1)).map (·.label)).Nodup := by
          rw [(p2.map _).nodup_iff, lab]; exact hn
        have hadd := sortGroups_plan (P := P) (fun c ref g st r st' h1 h2 h3 h4 => ih c ref true g st r st' h1 h2 (fun _ => h3) h4) _ _ _ _ e3 (by
            intro g hg x hx
            refine (hl1 x (p2.mem_iff.1 ?_)).1
            rw [← hfl]
            exact List.mem_flatten.2 ⟨g, hg, hx⟩) (by
            intro g hg
            obtain ⟨u, v, e⟩ := List.append_of_mem hg
            rw [← hfl, e] at hn2
            simp only [List.flatten_append, List.flatten_cons, List.map_append] at hn2
            exact (hn2.of_append_right).of_append_left)
        intro sp hsp
        have hsp' := hsp
        -- did this call plan splits?
        by_cases hp : decide (1 < (groups m (rotateGroups m (srt l1))).length) = true ∧ parallel = true
        · rw [planSplits, hsp] at e2
          simp only at e2
          rw [if_pos hp] at e2
          obtain ⟨new, e4, e2⟩ := Outcome.bind_eq_ok.1 e2
          cases e2
          have k4 := mapAll_forall e4
          have hnew : List.Forall₂ (fun (x : DPA) (v : SplitPos) => v.label = x.label ∧ v.group = sp.count ∧ v.at_.seg + 2 ≤ (P v.label).length)
              (rotateGroups m (srt l1)) new := by
            refine (List.forall₂_iff_get.2 ⟨k4.length_eq, fun i h1 h2 => ?_⟩)
            have e := (List.forall₂_iff_get.1 k4).2 i h1 h2
            have hm := hl1 ((rotateGroups m (srt l1)).get ⟨i, h1⟩) (p2.mem_iff.1 (List.get_mem _ _))
            obtain ⟨q, hq, hqs⟩ := hm.2 hp.2
            obtain ⟨a, b, c⟩ := splitPos_eq e hm.1 hq hqs
            exact ⟨a, b, by rw [a]; exact c⟩
          obtain ⟨gs, e5, k5⟩ := hadd _ rfl
          have hpl : st.plans (decide (1 < (groups m (rotateGroups m (srt l1))).length)) parallel = true := by
            rw [St.plans, hsp, hp.1, hp.2]; rfl
          rw [if_pos hpl] at hfin
          have hoff : st.offset = sp.list.length := by rw [St.offset, hsp]
          have hlenew : new.length = (r0.map (·.label)).length := by
            rw [hperm.length_eq, ← lab, List.length_map, ← p2.length_eq, k4.length_eq]
          have hnlab : new.map (·.label) = (rotateGroups m (srt l1)).map (·.label) := labels_eq (hnew.imp fun x y h => h.1)
          rw [hoff] at hfin
          have e6 := storeOrder_eq (labels := r0.map (·.label)) (a := sp.list) (b := new) (c := gs.flatten) e5 rfl hlenew
          rw [hfin] at e6
          refine ⟨new.map (fun e => { e with sigmaPos := some ((r0.map (·.label)).idxOf e.label) }) :: gs, by
            rw [e6]; simp only [List.flatten_cons, List.append_assoc, List.length_cons, Option.some.injEq, Splits.mk.injEq, true_and]; omega, ?_⟩
          intro i g hg
          cases i with
          | zero =>
            simp only [List.getElem?_cons_zero, Option.some.injEq] at hg
            subst hg
            refine ⟨?_, ?_, ⟨r0.map (·.label), List.infix_rfl, ?_, ?_⟩, ?_⟩
            · rw [List.length_map, hlenew, hperm.length_eq, List.length_map]; omega
            · intro v hv
              obtain ⟨w, hw, rfl⟩ := List.mem_map.1 hv
              obtain ⟨x, -, h⟩ := forall2_mem hnew hw
              exact h.2.1
            · refine hperm.trans ?_
              rw [← lab]
              refine (p2.map _).symm.trans ?_
              rw [← hnlab, List.map_map]
              exact List.Perm.refl _
            · intro v hv
              obtain ⟨w, hw, rfl⟩ := List.mem_map.1 hv
              rfl
            · intro v hv
              obtain ⟨w, hw, rfl⟩ := List.mem_map.1 hv
              obtain ⟨x, -, h⟩ := forall2_mem hnew hw
              exact h.2.2
          | succ i =>
            rw [List.getElem?_cons_succ] at hg
            have := k5 i g hg
            simp only at this
            rwa [show sp.count + 1 + i = sp.count + (i + 1) by omega] at this
        · have hst1 : st1 = st := by
            rw [planSplits, hsp] at e2
            simp only at e2
            rw [if_neg hp] at e2
            cases e2; rfl
          have hpl : ¬ st.plans (decide (1 < (groups m (rotateGroups m (srt l1))).length)) parallel = true := by
            rw [St.plans, hsp]
            simpa [and_assoc] using hp
          rw [if_neg hpl] at hfin
          subst hfin hst1
          exact hadd sp hsp

end Verif.Parallel
