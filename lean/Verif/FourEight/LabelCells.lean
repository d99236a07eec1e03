import Verif.FourEight.LabelLoops

/-!
# Labelling all cells of an image: lemmas
-/

namespace Verif.FourEight
open Verif Verif.CellImage

theorem foldO_total {α β : Type} {f : β → α → Outcome β} {l : List α} {P : List α → β → Prop}
    (step : ∀ pre a post b, l = pre ++ a :: post → P pre b → ∃ b', f b a = .ok b' ∧ P (pre ++ [a]) b') :
    ∀ (rest pre : List α) (b : β), l = pre ++ rest → P pre b → ∃ b', foldO f rest b = .ok b' ∧ P l b' := by
  intro rest
  induction rest with
  | nil =>
    intro pre b hl hp
    exact ⟨b, rfl, by rw [hl, List.append_nil]; exact hp⟩
  | cons a rest ih =>
    intro pre b hl hp
    obtain ⟨b1, h1, h2⟩ := step pre a rest b hl hp
    obtain ⟨b', h3, h4⟩ := ih (pre ++ [a]) b1 (by rw [hl]; simp) h2
    exact ⟨b', by rw [foldO, h1, Outcome.bind_ok]; exact h3, h4⟩

section
variable {m : Map}

/-- what labelling closed edges changes: pixels of edges without label get labels or become nodes with new labels -/
structure Grown (m : Map) (N n : Nat) (m' : Map) (N' n' : Nat) : Prop where
  rest : m' = { m with px := m'.px }
  kept : ∀ q : Int × Int, m.label q ≠ 0 ∨ (m.px q.1 q.2).1 ≠ .line → m'.px q.1 q.2 = m.px q.1 q.2
  kinds : ∀ q : Int × Int, (m'.px q.1 q.2).1 = (m.px q.1 q.2).1 ∨
    (m.isLine q ∧ m.label q = 0 ∧ (m'.px q.1 q.2).1 = .vertex ∧ N < m'.label q ∧ m'.label q ≤ N')
  once : ∀ q r : Int × Int, (m'.px q.1 q.2).1 = .vertex → (m.px q.1 q.2).1 = .line → (m'.px r.1 r.2).1 = .vertex →
    (m.px r.1 r.2).1 = .line → m'.label q = m'.label r → q = r
  used : ∀ l, N < l → l ≤ N' → ∃ q, m.isLine q ∧ m'.px q.1 q.2 = (.vertex, l)
  count : n' + N = n + N' ∧ N ≤ N'

theorem Grown.refl (N n : Nat) : Grown m N n m N n :=
  ⟨rfl, fun _ _ => rfl, fun _ => Or.inl rfl, fun q r h1 h2 => absurd (h1.symm.trans h2) (by decide), fun l h1 h2 => by omega, by omega⟩

theorem Grown.step {N n N' n' : Nat} {m' m'' : Map} (h : Grown m N n m' N' n') {p : Int × Int} (hp : m'.isLine p) (h0 : m'.label p = 0)
    (hrest : m'' = { m' with px := m''.px }) (hpx : m''.px p.1 p.2 = (.vertex, N' + 1))
    (hty : ∀ q : Int × Int, q ≠ p → (m''.px q.1 q.2).1 = (m'.px q.1 q.2).1)
    (hkeep : ∀ q : Int × Int, m'.label q ≠ 0 ∨ (m'.px q.1 q.2).1 ≠ .line → m''.px q.1 q.2 = m'.px q.1 q.2) : Grown m N n m'' (N' + 1) (n' + 1) := by
  have hw : m'.w = m.w := by rw [h.rest]
  have hh : m'.h = m.h := by rw [h.rest]
  have hpm : m.isLine p ∧ m.label p = 0 := by
    have hline : (m.px p.1 p.2).1 = .line := by
      rcases h.kinds p with e | e
      · exact e.symm.trans hp.2
      · exact absurd (hp.2.symm.trans e.2.2.1) (by decide)
    refine ⟨⟨?_, hline⟩, ?_⟩
    · have := hp.1
      unfold Map.inside at this ⊢
      rwa [hw, hh] at this
    · by_contra hne
      have := h.kept p (Or.inl hne)
      unfold Map.label at h0 hne
      rw [this] at h0
      exact hne h0
  have hnew : ∀ q : Int × Int, q ≠ p → (m''.px q.1 q.2).1 = .vertex → (m.px q.1 q.2).1 = .line →
      (m'.px q.1 q.2).1 = .vertex ∧ m''.px q.1 q.2 = m'.px q.1 q.2 ∧ N < m'.label q ∧ m'.label q ≤ N' := by
    intro q hq hv hl
    have hv' := (hty q hq).symm.trans hv
    rcases h.kinds q with e | e
    · exact absurd (hv'.symm.trans (e.trans hl)) (by decide)
    · exact ⟨hv', hkeep q (Or.inl (by omega)), e.2.2.2.1, e.2.2.2.2⟩
  refine ⟨?_, ?_, ?_, ?_, ?_, by have := h.count; omega⟩
  · rw [hrest, h.rest]
  · intro q hq
    have e := h.kept q hq
    rw [hkeep q (by unfold Map.label; rw [e]; exact hq), e]
  · intro q
    by_cases hq : q = p
    · subst hq
      refine Or.inr ⟨hpm.1, hpm.2, by rw [hpx], ?_, ?_⟩
      · unfold Map.label; rw [hpx]; have := h.count; show N < N' + 1; omega
      · unfold Map.label; rw [hpx]
    · rcases h.kinds q with e | e
      · exact Or.inl ((hty q hq).trans e)
      · obtain ⟨g1, g2, g3, g4⟩ := hnew q hq ((hty q hq).trans e.2.2.1) e.1.2
        refine Or.inr ⟨e.1, e.2.1, (hty q hq).trans e.2.2.1, ?_, ?_⟩
        · unfold Map.label; rw [g2]; exact g3
        · unfold Map.label; rw [g2]; exact g4.trans (by omega)
  · intro q r hq hql hr hrl hlab
    unfold Map.label at hlab
    by_cases hqp : q = p <;> by_cases hrp : r = p
    · rw [hqp, hrp]
    · exfalso
      obtain ⟨g1, g2, g3, g4⟩ := hnew r hrp hr hrl
      rw [hqp, hpx, g2] at hlab
      unfold Map.label at g4
      have : N' + 1 = _ := hlab
      omega
    · exfalso
      obtain ⟨g1, g2, g3, g4⟩ := hnew q hqp hq hql
      rw [hrp, hpx, g2] at hlab
      unfold Map.label at g4
      have : _ = N' + 1 := hlab
      omega
    · obtain ⟨g1, g2, g3, g4⟩ := hnew r hrp hr hrl
      obtain ⟨f1, f2, f3, f4⟩ := hnew q hqp hq hql
      rw [f2, g2] at hlab
      exact h.once q r f1 hql g1 hrl hlab
  · intro l h1 h2
    by_cases hl : l = N' + 1
    · exact ⟨p, hpm.1, by rw [hpx, hl]⟩
    · obtain ⟨q, g1, g2⟩ := h.used l h1 (by omega)
      refine ⟨q, g1, ?_⟩
      rw [hkeep q (Or.inl (by unfold Map.label; rw [g2]; show l ≠ 0; omega)), g2]

/-- `labelSelfLoops` -/
theorem labelSelfLoops_all {N n : Nat} (hr : Ready m N n) :
    ∃ m' N' n', labelSelfLoops m N n = .ok (m', N', n') ∧ Ready m' N' n' ∧ Grown m N n m' N' n' ∧
      ∀ x y, Inner m.w m.h x y → (m'.px x y).2 ≠ 0 := by
  let P : List (Int × Int) → Map × Nat × Nat → Prop := fun pre st =>
    Ready st.1 st.2.1 st.2.2 ∧ Grown m N n st.1 st.2.1 st.2.2 ∧ ∀ q ∈ pre, st.1.label q ≠ 0
  have hstep : ∀ pre a post b, innerPixels m.w m.h = pre ++ a :: post → P pre b →
      ∃ b', labelSelfLoop b a = .ok b' ∧ P (pre ++ [a]) b' := by
    rintro pre p post ⟨m1, N1, n1⟩ hl ⟨h1, h2, h3⟩
    dsimp only at h1 h2 h3
    have hw : m1.w = m.w := by rw [h2.rest]
    have hh : m1.h = m.h := by rw [h2.rest]
    by_cases hz : m1.label p = 0
    swap
    · refine ⟨(m1, N1, n1), ?_, h1, h2, ?_⟩
      · unfold labelSelfLoop
        dsimp only
        have hz' : (m1.px p.1 p.2).2 ≠ 0 := hz
        rw [if_pos hz']
      · intro q hq
        rcases List.mem_append.1 hq with h | h
        · exact h3 q h
        · rw [List.mem_singleton] at h; rw [h]; exact hz
    · have hin : Inner m1.w m1.h p.1 p.2 := by
        rw [hw, hh]; exact mem_inner (by rw [hl]; simp)
      have hins : m1.inside p.1 p.2 := by
        unfold Inner at hin; unfold Map.inside; omega
      have hline : m1.isLine p := by
        refine ⟨hins, ?_⟩
        rcases h1.clean.types _ _ hins with e | e | e
        · have := (h1.node _ _ hins e).1
          unfold Map.label at hz
          omega
        · exact e
        · exact absurd hz (h1.face _ _ hin e)
      have hearly : ∀ q : Int × Int, Inner m1.w m1.h q.1 q.2 → Raster q p → m1.label q ≠ 0 := by
        intro q hq hqp
        rw [hw, hh] at hq
        have hmem : q ∈ innerPixels m.w m.h := inner_mem hq
        rw [hl] at hmem
        rcases List.mem_append.1 hmem with hm | hm
        · exact h3 q hm
        · exfalso
          have hsorted := innerPixels_sorted m.w m.h
          rw [hl, List.pairwise_append] at hsorted
          unfold Raster at hqp
          rcases List.mem_cons.1 hm with hm | hm
          · rw [hm] at hqp; omega
          · have := (List.pairwise_cons.1 hsorted.2.1).1 _ hm
            unfold Raster at this
            omega
      obtain ⟨m', g1, g2, g3, g4, g5, g6⟩ := loop_step h1 hline hz hearly
      refine ⟨_, g1, g2, h2.step hline hz g3 g4 g5 g6, ?_⟩
      intro q hq
      dsimp only
      rcases List.mem_append.1 hq with h | h
      · have := h3 q h
        unfold Map.label at this ⊢
        rw [g6 q (Or.inl this)]; exact this
      · rw [List.mem_singleton] at h
        rw [h]
        unfold Map.label
        rw [g4]
        exact Nat.succ_ne_zero _
  obtain ⟨⟨m', N', n'⟩, h1, h2, h3, h4⟩ := foldO_total (P := P) hstep _ [] (m, N, n) rfl ⟨hr, Grown.refl N n, by simp⟩
  exact ⟨m', N', n', h1, h2, h3, fun x y hi => h4 (x, y) (inner_mem hi)⟩

/-- labelled faces, and edges at nodes labelled -/
theorem ready_faces (hc : Clean m) (ht : Traceable m) (hno : NoCorner m) (hin : m.init = false) (hnl : NodesLabelled m)
    {N : Nat} (hnode : ∀ x y, m.inside x y → (m.px x y).1 = .vertex → 1 ≤ (m.px x y).2 ∧ (m.px x y).2 ≤ N)
    {r : EdgeState} (hp : Prog (m, 0) r) (hall : ∀ d, IsDart m d → r.1.label d.front ≠ 0) {f : Int → Int → Nat}
    (hf : ∀ x y, Inner m.w m.h x y → (m.px x y).1 = .region → f x y ≠ 0) :
    SameKinds m (labelFaces f r.1) ∧ Ready (labelFaces f r.1) N r.2 ∧
      (∀ x y, (m.px x y).1 ≠ .region → (labelFaces f r.1).px x y = r.1.px x y) := by
  have hk : SameKinds m r.1 := hp.kinds
  have hk2 : SameKinds r.1 (labelFaces f r.1) := by
    refine ⟨rfl, rfl, fun x y => ?_⟩
    unfold labelFaces
    dsimp only
    split
    · rename_i h; exact h.1.symm
    · rfl
  have hs := hk.trans hk2
  have hpx : ∀ x y, (m.px x y).1 ≠ .region → (labelFaces f r.1).px x y = r.1.px x y := by
    intro x y hn
    unfold labelFaces
    dsimp only
    rw [if_neg]
    rintro ⟨h1, -⟩
    rw [hk.px] at h1
    exact hn h1
  have hlab : ∀ p, m.isLine p → (labelFaces f r.1).label p = r.1.label p := fun p hp => by
    unfold Map.label; rw [hpx _ _ (by rw [hp.2]; decide)]
  have hver : ∀ x y, (m.px x y).1 = .vertex → (labelFaces f r.1).px x y = m.px x y := fun x y hv => by
    rw [hpx _ _ (by rw [hv]; decide)]
    exact hp.others (x, y) (by dsimp only; rw [hv]; decide)
  refine ⟨hs, ⟨hs.clean hc, hs.traceable ht, hs.noCorner hno, ?_, ?_, ?_, ?_, ?_, ?_⟩, hpx⟩
  · intro x y k hi h1 h2
    rw [hs.px] at h1
    rw [hs.look] at h2
    show ((labelFaces f r.1).px _ _).2 = _
    rw [hver _ _ h1, hver _ _ h2]
    exact hnl x y k ((hs.inside _ _).1 hi) h1 h2
  · have hm := hp.marked
    refine ⟨fun p hp' => ?_, fun l h1 h2 => ?_, fun p q hp' hpq => ?_, fun p q hp' hq' h1 h2 => ?_, fun p hp' h1 => ?_⟩
    · rw [hlab p (hs.isLine.1 hp')]; exact hm.le p (hk2.isLine.1 hp')
    · obtain ⟨p, g1, g2⟩ := hm.used l h1 h2
      exact ⟨p, hk2.isLine.2 g1, by rw [hlab p (hk.isLine.1 g1)]; exact g2⟩
    · rw [hk2.sameEdge] at hpq
      have hq := SameEdge.isLine (hk.clean hc) (hk2.isLine.1 hp') hpq
      rw [hlab p (hs.isLine.1 hp'), hlab q (hk.isLine.1 hq)]
      exact hm.closed p q (hk2.isLine.1 hp') hpq
    · rw [hk2.sameEdge]
      rw [hlab p (hs.isLine.1 hp')] at h1
      rw [hlab p (hs.isLine.1 hp'), hlab q (hs.isLine.1 hq')] at h2
      exact hm.apart p q (hk2.isLine.1 hp') (hk2.isLine.1 hq') h1 h2
    · rw [hlab p (hs.isLine.1 hp')] at h1
      obtain ⟨d, g1, g2⟩ := hm.anchored p (hk2.isLine.1 hp') h1
      exact ⟨d, hk2.isDart g1, by rw [hk2.sameEdge]; exact g2⟩
  · show r.1.init = false
    rw [hp.rest]; exact hin
  · intro d hd hl h0
    have hdm := hs.symm.link hd
    rw [hs.px] at hl
    rw [hs.look]
    rcases hc.look_types hdm.inside hdm.here d.dir with e | e | e
    · exfalso
      have hsw := hdm.swap hc
      have hdart : IsDart m d.swap := ⟨hsw.inside, e, by rw [look_swap]; exact hl, hsw.between⟩
      have := hall _ hdart
      have hfr : d.swap.front = (d.x, d.y) := by
        have := swap_swap d
        exact Prod.ext (congrArg Dart.x this) (congrArg Dart.y this)
      rw [hfr] at this
      unfold Map.label at this
      rw [hpx _ _ (by rw [hl]; decide)] at h0
      exact this h0
    · exact e
    · exact absurd e hdm.there
  · intro x y hi hv
    rw [hs.px] at hv
    rw [hver _ _ hv]
    exact hnode x y ((hs.inside _ _).1 hi) hv
  · intro x y hi hr
    rw [hs.px] at hr
    rw [hs.w, hs.h] at hi
    have hi' : -2 < x ∧ x < (r.1.w : Int) - 3 ∧ -2 < y ∧ y < (r.1.h : Int) - 3 := by
      unfold Inner at hi
      rw [hk.w, hk.h]; exact hi
    have : (labelFaces f r.1).px x y = (.region, f x y) := by
      unfold labelFaces
      dsimp only
      rw [if_pos ⟨by rw [hk.px]; exact hr, hi'⟩]
    rw [this]
    exact hf x y hi hr

end

end Verif.FourEight
