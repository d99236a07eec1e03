import Verif.Eventually.Spec
import Verif.Eventually.Lemmas

/-! # The order found by one call of `sortEdgesInternal` (helper lemmas) -/

namespace Verif.Eventually
open Verif Verif.GeoMap Verif.PointIter Verif.DartPos

theorem normAngle_range {x : ℝ} (h1 : -Real.pi ≤ x) (h2 : x ≤ Real.pi) : -Real.pi ≤ normAngle x ∧ normAngle x < Real.pi := by
  have := Real.pi_pos
  rw [normAngle]
  simp only [if_neg (not_lt.2 h1)]
  split_ifs with h
  · constructor <;> linarith
  · exact ⟨h1, by linarith⟩

theorem angleOf_range (c p : Pt ℝ) : -Real.pi ≤ angleOf c p ∧ angleOf c p < Real.pi :=
  normAngle_range (Complex.neg_pi_lt_arg _).le (Complex.arg_le_pi _)

/-! ## the rotation -/

theorem rotSearch_cases (m : ℝ) (l : List DPA) (f : Nat) : rotSearch m l f = l ∨
    ∃ k, k + 1 ≤ f + 1 ∧ 1 ≤ k ∧ m ≤ ang l (k + 1) - ang l k ∧ rotSearch m l f = rotateArray l (k + 1) := by
  induction f with
  | zero => exact Or.inl rfl
  | succ f ih =>
    rw [rotSearch]
    split_ifs with h
    · exact Or.inr ⟨f + 1, by omega, by omega, h, rfl⟩
    · rcases ih with h | ⟨k, h1, h2⟩
      · exact Or.inl h
      · exact Or.inr ⟨k, by omega, h2⟩

theorem rotateGroups_cases (m : ℝ) (l : List DPA) : rotateGroups m l = l ∨
    ∃ k, k + 1 < l.length ∧ m ≤ ang l (k + 1) - ang l k ∧ ang l (l.length - 1) + m - 2 * Real.pi > ang l 0 ∧
      rotateGroups m l = rotateArray l (k + 1) := by
  rw [rotateGroups]
  split_ifs with h
  · rcases rotSearch_cases m l (l.length - 2) with h' | ⟨k, h1, h2, h3, h4⟩
    · exact Or.inl h'
    · exact Or.inr ⟨k, by omega, h3, h, h4⟩
  · exact Or.inl rfl

theorem ang_get {l : List DPA} {i : Nat} (h : i < l.length) : ang l i = l[i].angle := by
  simp [ang, List.getElem?_eq_getElem h]

/-- The rotated list is ordered by the unwrapped angles `w`, and neighbours that are grouped together are closer than `m`. -/
theorem rotated_sorted {m : ℝ} (hm : 0 < m) {l : List DPA} (hs : l.Pairwise (fun x y => x.angle ≤ y.angle))
    (hr : ∀ x ∈ l, -Real.pi ≤ x.angle ∧ x.angle < Real.pi) :
    ∃ (w : ℝ → ℝ) (cut : ℝ), (∀ x ∈ l, (w x.angle = x.angle ∨ w x.angle = x.angle + 2 * Real.pi) ∧ cut ≤ w x.angle ∧ w x.angle < cut + 2 * Real.pi) ∧
      (rotateGroups m l).Pairwise (fun x y => w x.angle ≤ w y.angle) ∧
      ∀ p x y q, rotateGroups m l = p ++ x :: y :: q → y.angle < x.angle + m → w y.angle < w x.angle + m := by
  rcases rotateGroups_cases m l with h | ⟨k, hk, hgap, hseam, h⟩
  · refine ⟨id, -Real.pi, fun x hx => ⟨Or.inl rfl, (hr x hx).1, by have := (hr x hx).2; simp; linarith⟩, by rw [h]; exact hs, fun p x y q _ hxy => hxy⟩
  · obtain ⟨A, hA⟩ : ∃ A, A = l.take (k + 1) := ⟨_, rfl⟩
    obtain ⟨B, hB⟩ : ∃ B, B = l.drop (k + 1) := ⟨_, rfl⟩
    have hl : l = A ++ B := by rw [hA, hB, List.take_append_drop]
    have hlA : A.length = k + 1 := by rw [hA, List.length_take]; omega
    rw [ang_get (by omega), ang_get (by omega)] at hgap hseam
    have hmono : ∀ i j (hi : i < l.length) (hj : j < l.length), i ≤ j → l[i].angle ≤ l[j].angle := by
      intro i j hi hj hij
      rcases Nat.lt_or_eq_of_le hij with h | h
      · exact List.pairwise_iff_getElem.mp hs i j hi hj h
      · subst h; exact le_rfl
    have hAle : ∀ x ∈ A, x.angle < l[k + 1].angle := by
      intro x hx
      obtain ⟨i, hi, rfl⟩ := List.mem_iff_getElem.1 hx
      have e : A[i] = l[i]'(by omega) := by simp [hA]
      rw [e]
      have := hmono i k (by omega) (by omega) (by omega)
      linarith
    have hBge : ∀ x ∈ B, l[k + 1].angle ≤ x.angle := by
      intro x hx
      obtain ⟨i, hi, rfl⟩ := List.mem_iff_getElem.1 hx
      have hi' : k + 1 + i < l.length := by rw [hB, List.length_drop] at hi; omega
      have e : B[i] = l[k + 1 + i] := by simp [hB]
      rw [e]
      exact hmono (k + 1) (k + 1 + i) hk hi' (by omega)
    have hrot : rotateGroups m l = B ++ A := by rw [h, rotateArray, hA, hB]
    have mA : ∀ x ∈ A, x ∈ l := fun x hx => by rw [hl]; simp [hx]
    have mB : ∀ x ∈ B, x ∈ l := fun x hx => by rw [hl]; simp [hx]
    have hkr := hr _ (List.getElem_mem hk)
    obtain ⟨θ, hθ⟩ : ∃ θ, θ = l[k + 1].angle := ⟨_, rfl⟩
    rw [← hθ] at hAle hBge hkr
    have wA : ∀ x ∈ A, (if x.angle < θ then x.angle + 2 * Real.pi else x.angle) = x.angle + 2 * Real.pi := fun x hx => if_pos (hAle x hx)
    have wB : ∀ x ∈ B, (if x.angle < θ then x.angle + 2 * Real.pi else x.angle) = x.angle := fun x hx => if_neg (not_lt.2 (hBge x hx))
    rw [hl, List.pairwise_append] at hs
    obtain ⟨sA, sB, -⟩ := hs
    refine ⟨fun a => if a < θ then a + 2 * Real.pi else a, θ, ?_, ?_, ?_⟩
    · intro x hx
      rw [hl, List.mem_append] at hx
      rcases hx with hx | hx
      · simp only [wA x hx]
        have := hr x (mA x hx)
        have := hAle x hx
        exact ⟨Or.inr trivial, by linarith, by linarith⟩
      · simp only [wB x hx]
        have := hr x (mB x hx)
        exact ⟨Or.inl trivial, hBge x hx, by linarith⟩
    · rw [hrot, List.pairwise_append]
      refine ⟨?_, ?_, ?_⟩
      · exact sB.imp_of_mem (fun hx hy h => by simp only [wB _ hx, wB _ hy]; exact h)
      · exact sA.imp_of_mem (fun hx hy h => by simp only [wA _ hx, wA _ hy]; linarith)
      · intro x hx y hy
        simp only [wB _ hx, wA _ hy]
        have := hr x (mB x hx)
        have := hr y (mA y hy)
        linarith
    · intro p x y q e hxy
      rw [hrot] at e
      -- where is the boundary?
      rcases List.append_eq_append_iff.1 e with ⟨u, e1, e2⟩ | ⟨u, e1, e2⟩
      · -- x and y in A
        have hx : x ∈ A := by rw [e2]; simp
        have hy : y ∈ A := by rw [e2]; simp
        simp only [wA _ hx, wA _ hy]; linarith
      · -- B = p ++ u
        match u, e1, e2 with
        | [], e1, e2 =>
          have hx : x ∈ A := by simp at e2; rw [← e2]; simp
          have hy : y ∈ A := by simp at e2; rw [← e2]; simp
          simp only [wA _ hx, wA _ hy]; linarith
        | [z], e1, e2 =>
          simp only [List.cons_append, List.nil_append, List.cons.injEq] at e2
          obtain ⟨rfl, e2⟩ := e2
          have hx : x ∈ B := by rw [e1]; simp
          have hy : y ∈ A := by rw [← e2]; simp
          simp only [wB _ hx, wA _ hy]
          -- x is the last of l, y the first
          have ex : l[l.length - 1] = x := by
            have : l.getLast? = some x := by rw [hl, e1]; simp
            rw [List.getLast?_eq_getElem?, List.getElem?_eq_getElem (by omega)] at this
            exact Option.some.inj this
          have ey : l[0] = y := by
            have : l.head? = some y := by rw [hl, ← e2]; simp
            rw [List.head?_eq_getElem?, List.getElem?_eq_getElem (by omega)] at this
            exact Option.some.inj this
          rw [ex, ey] at hseam
          linarith
        | z :: z' :: u, e1, e2 =>
          simp only [List.cons_append, List.cons.injEq] at e2
          obtain ⟨rfl, rfl, e2⟩ := e2
          have hx : x ∈ B := by rw [e1]; simp
          have hy : y ∈ B := by rw [e1]; simp
          simp only [wB _ hx, wB _ hy]; exact hxy

/-! ## the groups -/

theorem one_side {w : DPA → ℝ} {m a : ℝ} (hm : 0 < m) : ∀ {g : List DPA}, g.IsChain (fun x y => w x ≤ w y ∧ w y < w x + m) → 
    (∀ x ∈ g, w x ≤ a ∨ a + m ≤ w x) → (∀ x ∈ g, w x ≤ a) ∨ ∀ x ∈ g, a + m ≤ w x
  | [], _, _ => Or.inl (by simp)
  | [x], _, h => by
    rcases h x (by simp) with h | h
    · exact Or.inl (by simpa using h)
    · exact Or.inr (by simpa using h)
  | x :: y :: g, hc, h => by
    rw [List.isChain_cons_cons] at hc
    obtain ⟨⟨h1, h2⟩, hc⟩ := hc
    rcases one_side hm hc (fun z hz => h z (by simp [hz])) with ih | ih
    · left
      intro z hz
      rcases List.mem_cons.1 hz with rfl | hz
      · exact h1.trans (ih y (by simp))
      · exact ih z hz
    · right
      intro z hz
      rcases List.mem_cons.1 hz with rfl | hz
      · rcases h z (by simp) with h | h
        · have := ih y (by simp); linarith
        · exact h
      · exact ih z hz

/-- a property of neighbours of the whole list holds for neighbours in a block -/
theorem chain_of_neighbours {α : Type} {R S : α → α → Prop} {l : List α} (h : ∀ p x y q, l = p ++ x :: y :: q → R x y → S x y) :
    ∀ (u v g : List α), l = u ++ g ++ v → g.IsChain R → g.IsChain S
  | _, _, [], _, _ => .nil
  | _, _, [x], _, _ => .singleton _
  | u, v, x :: y :: g, e, hc => by
    rw [List.isChain_cons_cons] at hc ⊢
    exact ⟨h u x y (g ++ v) (by simp [e]) hc.1, chain_of_neighbours h (u ++ [x]) v (y :: g) (by simp [e]) hc.2⟩

/-- the arrays of the groups after the recursion -/
def Pieces (rs : List (List Int)) (gs : List (List DPA)) : Prop := List.Forall₂ (fun r g => r.Perm (g.map (·.label))) rs gs

theorem Pieces.perm {rs : List (List Int)} {gs : List (List DPA)} (h : Pieces rs gs) : rs.flatten.Perm (gs.flatten.map (·.label)) := by
  induction h with
  | nil => simp
  | cons h _ ih =>
    rw [List.flatten_cons, List.flatten_cons, List.map_append]
    exact h.append ih

theorem Pieces.agree {rs : List (List Int)} {gs : List (List DPA)} (h : Pieces rs gs) {m : ℝ} (hm : 0 < m) {w : DPA → ℝ} {v : Int → ℝ}
    (hv : ∀ x ∈ gs.flatten, v x.label = w x)
    (hs : gs.flatten.Pairwise (fun x y => w x ≤ w y)) (hc : ∀ g ∈ gs, g.IsChain (fun x y => w x ≤ w y ∧ w y < w x + m)) :
    AgreesAcrossGaps m v rs.flatten := by
  intro a
  induction h with
  | nil => intro _; simp
  | @cons r g rs gs hp _ ih =>
    intro ha
    have mr : ∀ d ∈ r, ∃ x ∈ g, x.label = d := by
      intro d hd
      simpa using hp.mem_iff.1 hd
    have mrs : ∀ d ∈ rs.flatten, ∃ x ∈ gs.flatten, x.label = d := by
      intro d hd
      exact List.mem_map.1 ((Pieces.perm ‹_›).mem_iff.1 hd)
    rw [List.flatten_cons, List.pairwise_append] at hs ⊢
    obtain ⟨sg, sgs, sx⟩ := hs
    have hvg : ∀ x ∈ g, v x.label = w x := fun x hx => hv x (by simp [hx])
    have hvgs : ∀ x ∈ gs.flatten, v x.label = w x := fun x hx => hv x (by rw [List.flatten_cons]; exact List.mem_append_right _ hx)
    refine ⟨?_, ih hvgs sgs (fun g hg => hc g (by simp [hg])) (fun d hd => ha d (by rw [List.flatten_cons]; exact List.mem_append_right _ hd)), ?_⟩
    · refine List.pairwise_of_forall_mem_list ?_
      intro d hd d' hd'
      obtain ⟨x, hx, rfl⟩ := mr d hd
      obtain ⟨y, hy, rfl⟩ := mr d' hd'
      rw [hvg x hx, hvg y hy]
      rcases one_side (a := a) hm (hc g (by simp)) (fun z hz => by
        rw [← hvg z hz]
        exact ha z.label (by
          rw [List.flatten_cons]
          exact List.mem_append_left _ (hp.mem_iff.2 (List.mem_map.2 ⟨z, hz, rfl⟩)))) with h | h
      · have := h x hx
        rintro ⟨-, h2⟩; linarith
      · have := h y hy
        rintro ⟨h1, -⟩; linarith
    · intro d hd d' hd'
      obtain ⟨x, hx, rfl⟩ := mr d hd
      obtain ⟨y, hy, rfl⟩ := mrs d' hd'
      rw [hvg x hx, hvgs y hy]
      have := sx x hx y hy
      rintro ⟨h1, h2⟩; linarith

theorem sortGroups_pieces {rec : Pt ℝ → ℝ → List DPA → St → Outcome (List DPA × St)}
    (hrec : ∀ c ref g st, (∀ x ∈ g, Valid x) → (∀ x ∈ g, x.common.isSome) →
      rec c ref g st = .hang ∨ ∃ r st', rec c ref g st = .ok (r, st') ∧ Result g st r st') :
    ∀ (gs : List (List DPA)) (st : St) (r : List DPA × St), (∀ g ∈ gs, ∀ x ∈ g, Valid x) →
      sortGroups rec gs st = .ok r → ∃ rs, r.1.map (·.label) = rs.flatten ∧ Pieces rs gs := by
  intro gs
  induction gs with
  | nil => intro st r _ h; cases h; exact ⟨[], rfl, .nil⟩
  | cons g gs ih =>
    intro st r hv h
    rw [sortGroups, Outcome.bind_eq_ok] at h
    obtain ⟨q, hq, h⟩ := h
    rw [Outcome.bind_eq_ok] at h
    obtain ⟨q', hq', h⟩ := h
    cases h
    obtain ⟨rs, e, hp⟩ := ih _ _ (fun g hg => hv g (by simp [hg])) hq'
    refine ⟨q.1.map (·.label) :: rs, by simp [e], .cons ?_ hp⟩
    split_ifs at hq with hg
    · rcases hrec (meanPos g) (refAngle g) (g.map (·.setCommon)) st (by
        intro x hx
        obtain ⟨y, hy, rfl⟩ := List.mem_map.1 hx
        exact hv g (by simp) y hy) (by
        intro x hx
        obtain ⟨y, hy, rfl⟩ := List.mem_map.1 hx
        simp [DPA.setCommon]) with h | ⟨r', st', e', hr⟩
      · rw [h] at hq; cases hq
      · rw [e'] at hq
        cases hq
        have := hr.perm
        rwa [setCommon_labels] at this
    · cases hq; exact List.Perm.refl _

/-- The order found by a call with at least two darts, one of which is not at its end: it agrees with the measured angles. -/
theorem sortInternal_order {srt : List DPA → List DPA} (hs : Sorter srt) {r2 m : ℝ} (hm : 0 < m) {fuel : Nat} {c : Pt ℝ} {ref : ℝ} {parallel : Bool}
    {l : List DPA} {st : St} {r : List DPA × St} (hv : ∀ x ∈ l, Valid x) {l1 : List DPA} (hl1 : mapAll (measure c ref r2) l = .ok l1)
    (hran : ∀ x ∈ l1, -Real.pi ≤ x.angle ∧ x.angle < Real.pi)
    (h2 : 2 ≤ l.length) (he : ∃ x ∈ l, x.dp.atEnd = false) (h : sortInternal srt r2 m fuel c ref parallel l st = .ok r)
    {θ : Int → ℝ} (hθ : ∀ x ∈ l1, θ x.label = x.angle) :
    ∃ w, Unwrapped θ w (r.1.map (·.label)) ∧ AgreesAcrossGaps m w (r.1.map (·.label)) := by
  cases fuel with
  | zero => cases h
  | succ fuel =>
  rw [sortInternal, if_neg (by omega), hl1, Outcome.bind_ok, if_neg (by
    rw [List.all_eq_true]
    intro hc
    obtain ⟨x, hx, e⟩ := he
    have := hc x hx
    rw [e] at this; cases this)] at h
  simp only at h
  obtain ⟨st1, e1, h⟩ := Outcome.bind_eq_ok.1 h
  obtain ⟨q, e2, h⟩ := Outcome.bind_eq_ok.1 h
  cases h
  simp only
  obtain ⟨l1', e', k1⟩ := mapAll_ok (fun x hx => measure_ok (hv x hx) c ref r2)
  rw [hl1] at e'
  cases e'
  have lab := forall2_labels k1
  have hv1 : ∀ x ∈ l1, Valid x := fun y hy => by
    obtain ⟨x, -, k⟩ := forall2_mem k1 hy
    exact k.valid
  have p2 : (rotateGroups m (srt l1)).Perm l1 := (rotateGroups_perm m _).trans (hs l1).1
  have hfl : (groups m (rotateGroups m (srt l1))).flatten = rotateGroups m (srt l1) := List.flatten_splitBy _ _
  obtain ⟨rs, er, hp⟩ := sortGroups_pieces (fun c ref g st h1 h2 => sortInternal_ok hs fuel c ref true g st h1 (fun _ => h2)) _ _ _ (by
    intro g hg x hx
    refine hv1 x (p2.mem_iff.1 ?_)
    rw [← hfl]
    exact List.mem_flatten.2 ⟨g, hg, hx⟩) e2
  obtain ⟨w, cut, hw, hsort, hnb⟩ := rotated_sorted hm (hs l1).2 (fun x hx => hran x ((hs l1).1.mem_iff.1 hx))
  have hmem : ∀ d ∈ q.1.map (·.label), ∃ x ∈ l1, x.label = d := by
    intro d hd
    have : d ∈ ((rotateGroups m (srt l1)).map (·.label)) := by
      rw [er] at hd
      rw [← hfl]
      exact hp.perm.mem_iff.1 hd
    obtain ⟨x, hx, e⟩ := List.mem_map.1 this
    exact ⟨x, p2.mem_iff.1 hx, e⟩
  refine ⟨fun d => w (θ d), ⟨cut, ?_⟩, ?_⟩
  · intro d hd
    obtain ⟨x, hx, rfl⟩ := hmem d hd
    simp only [hθ x hx]
    exact hw x ((hs l1).1.mem_iff.2 hx)
  · rw [er]
    refine hp.agree hm (w := fun x => w x.angle) ?_ ?_ ?_
    · intro x hx
      rw [hfl] at hx
      simp only [hθ x (p2.mem_iff.1 hx)]
    · rw [hfl]; exact hsort
    · intro g hg
      obtain ⟨u, v, e⟩ : ∃ u v, rotateGroups m (srt l1) = u ++ g ++ v := by
        rw [← hfl]
        obtain ⟨u, v, e⟩ := List.append_of_mem hg
        exact ⟨u.flatten, v.flatten, by rw [e]; simp⟩
      refine chain_of_neighbours (R := fun x y => y.angle < x.angle + m) ?_ u v g e ?_
      · intro p x y q e hxy
        refine ⟨?_, hnb p x y q e hxy⟩
        rw [e, List.pairwise_append] at hsort
        exact (List.pairwise_cons.1 hsort.2.1).1 y (by simp)
      · have := List.isChain_of_mem_splitBy hg
        exact this.imp (fun x y h => by simpa using h)

end Verif.Eventually
