import Verif.GeoMap.RemoveBridge

/-! # `mergeFaces`: contours and face labels -/

namespace Verif.GeoMap
open Equiv Equiv.Perm Verif.PermLemmas

variable {K : Type}

/-- left face labels after the merge of `ml` into `sl` -/
def mergeLeft (lf : Int → Option Nat) (sl ml : Nat) : Int → Option Nat :=
  fun x => if lf x = some ml then some sl else lf x

theorem ContourList.congr_iff {L : Finset Int} {ψ : Perm Int} {lf lf' : Int → Option Nat} {f : Nat} {as : List Int}
    (h : ContourList L ψ lf f as) (he : ∀ d ∈ L, lf' d = some f ↔ lf d = some f) : ContourList L ψ lf' f as where
  left := fun a ha => ⟨(h.left a ha).1, (he a (h.left a ha).1).mpr (h.left a ha).2⟩
  cover := fun d hd hl => h.cover d hd ((he d hd).mp hl)
  unique := h.unique

section Contours
variable {L : Finset Int} {f finv : Int → Int} {ψ : Perm Int} {lf : Int → Option Nat} {r : Int} {sl ml : Nat}

/-- the anchor of the joined contour -/
def JoinAnchor (L : Finset Int) (ψ : Perm Int) (r : Int) (C : List Int) : Prop :=
  (C = [] ∧ ψ r = r ∧ ψ (-r) = -r) ∨
    ∃ c, C = [c] ∧ c ∈ L ∧ c ≠ r ∧ c ≠ -r ∧ (SameCycle ψ r c ∨ SameCycle ψ (-r) c)

/-- The anchors of the survivor: those of the two faces, with number `i1` of the survivor replaced (or removed if nothing is left of the joined
contour) and number `i2` of the merged face removed. -/
def MergeList (ψ : Perm Int) (r : Int) (i1 i2 : Nat) (as1 as2 as : List Int) : Prop :=
  ∃ as1', as = as1' ++ as2.eraseIdx i2 ∧
    ((ψ r = r ∧ ψ (-r) = -r ∧ as1' = as1.eraseIdx i1) ∨ ∃ c, as1' = as1.set i1 c ∧ ¬ (ψ r = r ∧ ψ (-r) = -r))

theorem merge_contour_join (hr : Rep L f finv ψ) (hrL : r ∈ L) (hinv : ∀ x ∈ L, ∀ y, SameCycle ψ x y → lf y = lf x)
    (hsL : -r ∈ L) (hl1 : lf r = some sl) (hl2 : lf (-r) = some ml) (hne : sl ≠ ml) {a1 a2 : Int} {A B C : List Int}
    (hc1 : ContourList L ψ lf sl (a1 :: A)) (ha1 : SameCycle ψ a1 r)
    (hc2 : ContourList L ψ lf ml (a2 :: B)) (ha2 : SameCycle ψ a2 (-r)) (hC : JoinAnchor L ψ r C) :
    ContourList (eraseEdge L r) (phiRemoved ψ r) (mergeLeft lf sl ml) sl (C ++ A ++ B) := by
  have hnc : ¬ SameCycle ψ r (-r) := by
    intro h
    have := hinv r hrL _ h
    rw [hl1, hl2] at this; exact hne (Option.some.inj this).symm
  have join := fun {u v} => sameCycle_swap_mul_join (u := u) (v := v) (hr.finCycle hrL) hnc
  have hu1 := hc1.unique
  have hu2 := hc2.unique
  rw [List.pairwise_cons] at hu1 hu2
  have hA : ∀ b ∈ A, b ∈ L ∧ lf b = some sl ∧ ¬ SameCycle ψ r b ∧ ¬ SameCycle ψ (-r) b := by
    intro b hb
    obtain ⟨h1, h2⟩ := hc1.left b (by simp [hb])
    refine ⟨h1, h2, fun h => hu1.1 b hb (ha1.trans h), fun h => ?_⟩
    have := hinv _ hsL _ h
    rw [hl2, h2] at this; exact hne (Option.some.inj this)
  have hB : ∀ b ∈ B, b ∈ L ∧ lf b = some ml ∧ ¬ SameCycle ψ r b ∧ ¬ SameCycle ψ (-r) b := by
    intro b hb
    obtain ⟨h1, h2⟩ := hc2.left b (by simp [hb])
    refine ⟨h1, h2, fun h => ?_, fun h => hu2.1 b hb (ha2.trans h)⟩
    have := hinv _ hrL _ h
    rw [hl1, h2] at this; exact hne (Option.some.inj this).symm
  have hAB : ∀ b ∈ A ++ B, b ∈ L ∧ (lf b = some sl ∨ lf b = some ml) ∧ ¬ SameCycle ψ r b ∧ ¬ SameCycle ψ (-r) b := by
    intro b hb
    rw [List.mem_append] at hb
    rcases hb with hb | hb
    · obtain ⟨h1, h2, h3⟩ := hA b hb; exact ⟨h1, Or.inl h2, h3⟩
    · obtain ⟨h1, h2, h3⟩ := hB b hb; exact ⟨h1, Or.inr h2, h3⟩
  have hABn : ∀ b ∈ A ++ B, b ≠ r ∧ b ≠ -r := by
    intro b hb
    obtain ⟨-, -, h3, h4⟩ := hAB b hb
    exact ⟨by rintro rfl; exact h3 (SameCycle.refl _ _), by rintro rfl; exact h4 (SameCycle.refl _ _)⟩
  have hCm : ∀ c ∈ C, c ∈ L ∧ c ≠ r ∧ c ≠ -r ∧ (SameCycle ψ r c ∨ SameCycle ψ (-r) c) := by
    intro c hc
    rcases hC with ⟨rfl, -⟩ | ⟨c', rfl, h⟩
    · simp at hc
    · simp at hc; subst hc; exact h
  have hlf' : ∀ x, (lf x = some sl ∨ lf x = some ml) → mergeLeft lf sl ml x = some sl := by
    intro x hx
    unfold mergeLeft
    rcases hx with hx | hx
    · rw [hx]; simp [hne]
    · rw [if_pos hx]
  rw [List.append_assoc]
  refine ⟨?_, ?_, ?_⟩
  · intro x hx
    rw [List.mem_append] at hx
    rcases hx with hx | hx
    · obtain ⟨h1, h2, h3, h4⟩ := hCm x hx
      refine ⟨mem_eraseEdge.mpr ⟨h3, h2, h1⟩, hlf' x ?_⟩
      rcases h4 with h4 | h4
      · left; rw [hinv _ hrL _ h4, hl1]
      · right; rw [hinv _ hsL _ h4, hl2]
    · obtain ⟨h1, h2, -⟩ := hAB x hx
      obtain ⟨n1, n2⟩ := hABn x hx
      exact ⟨mem_eraseEdge.mpr ⟨n2, n1, h1⟩, hlf' x h2⟩
  · intro d hd hdl
    obtain ⟨d1, d2, d3⟩ := mem_eraseEdge.mp hd
    have hjoined : (SameCycle ψ r d ∨ SameCycle ψ (-r) d) →
        ∃ a ∈ C ++ (A ++ B), SameCycle (phiRemoved ψ r) a d := by
      intro h
      rcases hC with ⟨rfl, e1, e2⟩ | ⟨c, rfl, c1, c2, c3, c4⟩
      · rw [sameCycle_fixed e1, sameCycle_fixed e2] at h
        rcases h with h | h
        · exact absurd h.symm d2
        · exact absurd h.symm d1
      · refine ⟨c, by simp, ?_⟩
        rw [phiRemoved_sameCycle c2 c3 d2 d1, join]
        exact Or.inr ⟨c4, h⟩
    have hold : ∀ b ∈ A ++ B, SameCycle ψ b d → ∃ a ∈ C ++ (A ++ B), SameCycle (phiRemoved ψ r) a d := by
      intro b hb h
      obtain ⟨n1, n2⟩ := hABn b hb
      refine ⟨b, by rw [List.mem_append]; exact Or.inr hb, ?_⟩
      rw [phiRemoved_sameCycle n1 n2 d2 d1, join]
      exact Or.inl h
    unfold mergeLeft at hdl
    split_ifs at hdl with hm
    · obtain ⟨b, hb, hbd⟩ := hc2.cover d d3 hm
      rw [List.mem_cons] at hb
      rcases hb with rfl | hb
      · exact hjoined (Or.inr (ha2.symm.trans hbd))
      · exact hold b (by simp [hb]) hbd
    · obtain ⟨b, hb, hbd⟩ := hc1.cover d d3 hdl
      rw [List.mem_cons] at hb
      rcases hb with rfl | hb
      · exact hjoined (Or.inl (ha1.symm.trans hbd))
      · exact hold b (by simp [hb]) hbd
  · rw [List.pairwise_append]
    refine ⟨?_, ?_, ?_⟩
    · rcases hC with ⟨rfl, -⟩ | ⟨c, rfl, -⟩ <;> simp
    · have hcore : (A ++ B).Pairwise (fun a b => ¬ SameCycle ψ a b) := by
        rw [List.pairwise_append]
        refine ⟨hu1.2, hu2.2, ?_⟩
        intro a ha b hb h
        have := hinv a (hA a ha).1 b h
        rw [(hA a ha).2.1, (hB b hb).2.1] at this
        exact hne (Option.some.inj this).symm
      refine List.Pairwise.imp_of_mem ?_ hcore
      intro a b ha hb hab h
      obtain ⟨a1', a2'⟩ := hABn a ha
      obtain ⟨b1', b2'⟩ := hABn b hb
      rw [phiRemoved_sameCycle a1' a2' b1' b2', join] at h
      rcases h with h | ⟨h, -⟩
      · exact hab h
      · obtain ⟨-, -, x, y⟩ := hAB a ha
        rcases h with h | h
        · exact x h
        · exact y h
    · intro c hc b hb h
      obtain ⟨-, c1, c2, c3⟩ := hCm c hc
      obtain ⟨b1', b2'⟩ := hABn b hb
      obtain ⟨-, -, x, y⟩ := hAB b hb
      rw [phiRemoved_sameCycle c1 c2 b1' b2', join] at h
      rcases h with h | ⟨-, h⟩
      · rcases c3 with c3 | c3
        · exact x (c3.trans h)
        · exact y (c3.trans h)
      · rcases h with h | h
        · exact x h
        · exact y h

theorem merge_lefts (hr : Rep L f finv ψ) (hrL : r ∈ L) (hinv : ∀ x ∈ L, ∀ y, SameCycle ψ x y → lf y = lf x)
    (hsL : -r ∈ L) (hl1 : lf r = some sl) (hl2 : lf (-r) = some ml) (hne : sl ≠ ml) {x y : Int} (hx : x ∈ eraseEdge L r)
    (hy : y ∈ eraseEdge L r) (h : SameCycle (phiRemoved ψ r) x y) : mergeLeft lf sl ml y = mergeLeft lf sl ml x := by
  have hnc : ¬ SameCycle ψ r (-r) := by
    intro h
    have := hinv r hrL _ h
    rw [hl1, hl2] at this; exact hne (Option.some.inj this).symm
  obtain ⟨x1, x2, x3⟩ := mem_eraseEdge.mp hx
  obtain ⟨y1, y2, -⟩ := mem_eraseEdge.mp hy
  rw [phiRemoved_sameCycle x2 x1 y2 y1, sameCycle_swap_mul_join (hr.finCycle hrL) hnc] at h
  rcases h with h | ⟨h1, h2⟩
  · unfold mergeLeft; rw [hinv x x3 y h]
  · have key : ∀ z, (SameCycle ψ r z ∨ SameCycle ψ (-r) z) → mergeLeft lf sl ml z = some sl := by
      intro z hz
      unfold mergeLeft
      rcases hz with hz | hz
      · rw [hinv r hrL z hz, hl1]; simp [hne]
      · rw [hinv _ hsL z hz, hl2]; simp
    rw [key x h1, key y h2]

/-- evaluation of the anchor list of the survivor -/
theorem mergedAnchors_eq {s : GMap K} {ψ : Perm Int} {L : Finset Int} {lf : Int → Option Nat} {r : Int} {sl ml : Nat}
    (hr : Rep L s.phi s.phiInv ψ) (hrL : r ∈ L) (hsL : -r ∈ L) (h0 : r ≠ 0)
    (hinv : ∀ x ∈ L, ∀ y, SameCycle ψ x y → lf y = lf x)
    (hl1 : lf r = some sl) (hl2 : lf (-r) = some ml) (hne : sl ≠ ml) {as1 as2 : List Int} {i1 i2 : Nat} {a1 a2 : Int}
    (h1 : as1[i1]? = some a1) (h2 : as2[i2]? = some a2)
    (hr1 : SameCycle ψ a1 r) (hr2 : SameCycle ψ a2 (-r)) :
    ∃ as C, s.mergedAnchors r.natAbs as1 as2 i1 i2 = .ok as ∧ JoinAnchor L ψ r C ∧
      as.Perm (C ++ as1.eraseIdx i1 ++ as2.eraseIdx i2) ∧ MergeList ψ r i1 i2 as1 as2 as := by
  obtain ⟨hi1, e1⟩ := List.getElem?_eq_some_iff.mp h1
  obtain ⟨hi2, e2⟩ := List.getElem?_eq_some_iff.mp h2
  have m1 : a1 ∈ L := hr.mem_of_sameCycle hrL hr1.symm
  have m2 : a2 ∈ L := hr.mem_of_sameCycle hsL hr2.symm
  have l1 : ∀ {x}, SameCycle ψ r x → x.natAbs = r.natAbs → x = r := by
    intro x hx hn
    have := hinv r hrL x hx
    rcases (by omega : x = r ∨ x = -r) with h | h
    · exact h
    · rw [h, hl1, hl2] at this; exact absurd (Option.some.inj this).symm hne
  have l2 : ∀ {x}, SameCycle ψ (-r) x → x.natAbs = r.natAbs → x = -r := by
    intro x hx hn
    have := hinv _ hsL x hx
    rcases (by omega : x = r ∨ x = -r) with h | h
    · rw [h, hl1, hl2] at this; exact absurd (Option.some.inj this) hne
    · exact h
  have hb1 : SameCycle ψ r (s.phi a1) := by rw [hr.eq _ m1]; exact sameCycle_apply_right.mpr hr1.symm
  have hb2 : SameCycle ψ (-r) (s.phi a2) := by rw [hr.eq _ m2]; exact sameCycle_apply_right.mpr hr2.symm
  have nn : ∀ {x}, x.natAbs ≠ r.natAbs → x ≠ r ∧ x ≠ -r := by
    intro x hx; exact ⟨by rintro rfl; exact hx rfl, by rintro rfl; simp at hx⟩
  have f1 : ∀ {x}, SameCycle ψ r x → x.natAbs ≠ r.natAbs → ¬ (ψ r = r ∧ ψ (-r) = -r) := fun hx hn h =>
    (nn hn).1 (SameCycle.eq_of_left hx h.1).symm
  have f2 : ∀ {x}, SameCycle ψ (-r) x → x.natAbs ≠ r.natAbs → ¬ (ψ r = r ∧ ψ (-r) = -r) := fun hx hn h =>
    (nn hn).2 (SameCycle.eq_of_left hx h.2).symm
  -- the first part
  obtain ⟨as1', C, hA, hC, hP, hF⟩ : ∃ as1' C, (if a1.natAbs = r.natAbs then
        if (s.phi a1).natAbs = r.natAbs then
          if a2.natAbs = r.natAbs then
            if (s.phi a2).natAbs = r.natAbs then as1.eraseIdx i1
            else as1.set i1 (s.phi a2)
          else as1.set i1 a2
        else as1.set i1 (s.phi a1)
      else as1) = as1' ∧ JoinAnchor L ψ r C ∧ as1'.Perm (C ++ as1.eraseIdx i1) ∧
      ((ψ r = r ∧ ψ (-r) = -r ∧ as1' = as1.eraseIdx i1) ∨ ∃ c, as1' = as1.set i1 c ∧ ¬ (ψ r = r ∧ ψ (-r) = -r)) := by
    by_cases c1 : a1.natAbs = r.natAbs
    · rw [if_pos c1]
      have ea1 := l1 hr1.symm c1
      by_cases c2 : (s.phi a1).natAbs = r.natAbs
      · rw [if_pos c2]
        have eb1 := l1 hb1 c2
        by_cases c3 : a2.natAbs = r.natAbs
        · rw [if_pos c3]
          have ea2 := l2 hr2.symm c3
          by_cases c4 : (s.phi a2).natAbs = r.natAbs
          · rw [if_pos c4]
            have eb2 := l2 hb2 c4
            have k1 : ψ r = r := by rw [← hr.eq _ hrL]; rw [ea1] at eb1; exact eb1
            have k2 : ψ (-r) = -r := by rw [← hr.eq _ hsL]; rw [ea2] at eb2; exact eb2
            exact ⟨_, [], rfl, Or.inl ⟨rfl, k1, k2⟩, List.Perm.refl _, Or.inl ⟨k1, k2, rfl⟩⟩
          · rw [if_neg c4]
            exact ⟨_, [s.phi a2], rfl, Or.inr ⟨_, rfl, hr.f_mem m2, (nn c4).1, (nn c4).2, Or.inr hb2⟩, set_perm hi1 _, Or.inr ⟨_, rfl, f2 hb2 c4⟩⟩
        · rw [if_neg c3]
          exact ⟨_, [a2], rfl, Or.inr ⟨_, rfl, m2, (nn c3).1, (nn c3).2, Or.inr hr2.symm⟩, set_perm hi1 _, Or.inr ⟨_, rfl, f2 hr2.symm c3⟩⟩
      · rw [if_neg c2]
        exact ⟨_, [s.phi a1], rfl, Or.inr ⟨_, rfl, hr.f_mem m1, (nn c2).1, (nn c2).2, Or.inl hb1⟩, set_perm hi1 _, Or.inr ⟨_, rfl, f1 hb1 c2⟩⟩
    · rw [if_neg c1]
      refine ⟨_, [a1], rfl, Or.inr ⟨_, rfl, m1, (nn c1).1, (nn c1).2, Or.inl hr1.symm⟩, ?_, Or.inr ⟨a1, by rw [← e1, List.set_getElem_self], f1 hr1.symm c1⟩⟩
      have := List.getElem_cons_eraseIdx_perm hi1
      rw [e1] at this
      exact this.symm
  refine ⟨as1' ++ as2.eraseIdx i2, C, ?_, hC, hP.append_right _, as1', rfl, hF⟩
  unfold GMap.mergedAnchors
  rw [h1, h2]
  simp only [hA]
  congr 1
  split_ifs with hlen
  · rw [List.eraseIdx_eq_take_drop_succ, List.append_assoc]
  · have : as2.length = 1 := by omega
    obtain ⟨x, rfl⟩ := List.length_eq_one_iff.mp this
    have : i2 = 0 := by simp at hi2; exact hi2
    subst this
    simp

end Contours

/-! ## the state -/

theorem GraphRep.relabel {s : GMap K} {L : Finset Int} {π : Perm Int} (h : GraphRep s L π) (P : Finset Int) (S : Nat) :
    GraphRep (s.relabel P S) L π := by
  have hsome : ∀ l, ((s.relabel P S).edge l).isSome = (s.edge l).isSome := by
    intro l; simp [GMap.relabel]
  have hst : (s.relabel P S).startN? = s.startN? := by
    funext d
    simp only [GMap.startN?, GMap.relabel, Option.map_map]
    rfl
  refine ⟨⟨h.labels.edges_pos, ?_, h.labels.node_lt, ?_, h.labels.face_lt, h.labels.node_count, ?_, h.labels.face_count, ?_⟩,
    ?_, h.rep, ?_, ?_⟩
  · simp [GMap.relabel, h.labels.edge_zero]
  · intro l hl; rw [hsome] at hl; exact h.labels.edge_lt l hl
  · rw [liveEdges_congr (t := s.relabel P S) (s := s) rfl hsome]; exact h.labels.edge_count
  · intro l e hl
    simp only [GMap.relabel, Option.map_eq_some_iff] at hl
    obtain ⟨e', h1, h2⟩ := hl
    have := h.labels.pts_ne l e' h1
    rw [← h2]; exact this
  · intro d
    rw [h.live]; unfold GMap.liveD; rw [hsome]
  · rw [hst]; exact h.starts
  · rw [hst]; exact h.nodes

theorem GraphRep.uninitFace {s : GMap K} {L : Finset Int} {π : Perm Int} (h : GraphRep s L π) {f : Nat}
    (hf : (s.face f).isSome = true) : GraphRep (s.uninitFace f) L π := by
  have hlt := h.labels.face_lt f hf
  refine ⟨⟨h.labels.edges_pos, h.labels.edge_zero, h.labels.node_lt, h.labels.edge_lt, ?_, h.labels.node_count, h.labels.edge_count,
    ?_, h.labels.pts_ne⟩, h.live, h.rep, h.starts, h.nodes⟩
  · intro m hm
    simp only [GMap.uninitFace, GMap.setFace] at hm
    by_cases hmn : m = f
    · subst hmn; simp at hm
    · rw [Function.update_of_ne hmn] at hm; exact h.labels.face_lt m hm
  · obtain ⟨-, e, -⟩ := card_liveFaces_update_none (s := s) (t := s.uninitFace f) (n := f) rfl rfl hlt hf
    rw [e, ← h.labels.face_count]; rfl

/-- changing only cached areas keeps everything -/
theorem ContoursRep.setArea {s : GMap K} {L : Finset Int} {ψ : Perm Int} (h : ContoursRep s L ψ) {f : Nat} {F : Face K}
    (hf : s.face f = some F) (x : Option K) : ContoursRep (s.setFace f (some { F with area := x })) L ψ := by
  refine ⟨h.rep, ?_, ?_, ?_⟩
  · intro d hd
    obtain ⟨g, h1, h2, h3⟩ := h.lefts d hd
    refine ⟨g, h1, ?_, h3⟩
    simp only [GMap.setFace]
    by_cases hg : g = f
    · subst hg; simp
    · rw [Function.update_of_ne hg]; exact h2
  · intro g G hG
    simp only [GMap.setFace] at hG
    by_cases hg : g = f
    · subst hg; simp at hG; subst hG; exact h.faces g F hf
    · rw [Function.update_of_ne hg] at hG; exact h.faces g G hG
  · simp only [GMap.setFace]
    by_cases hg : 0 = f
    · subst hg; simp
    · rw [Function.update_of_ne hg]; exact h.face_zero

section Area
variable [Field K]
open Classical in
/-- `Face::area()` on a consistent map -/
theorem faceArea_eq {s : GMap K} {L : Finset Int} {π ψ : Perm Int} (hg : GraphRep s L π) (hc : ContoursRep s L ψ)
    {f : Nat} {F : Face K} (hF : s.face f = some F) :
    ∃ x, s.faceArea (some f) = .ok (x, s.setFace f (some { F with area := some x })) ∧
      (F.area = some x ∨ (F.area = none ∧ x = ∑ d ∈ L.filter (fun d => s.left? d = some f), s.areaTerm d)) := by
  unfold GMap.faceArea
  rw [derefFace_of hg.labels hF]
  simp only [bind, Outcome.bind_ok]
  cases hA : F.area with
  | some a =>
    refine ⟨a, ?_, Or.inl rfl⟩
    simp only
    congr 2
    have : some { F with area := some a } = s.face f := by rw [hF, ← hA]
    unfold GMap.setFace
    rw [this, Function.update_eq_self]
  | none =>
    have cl := hc.faces f F hF
    simp only
    rw [sumContourAreas_eq hc.rep (fun d hd => (hg.live d).mp hd) hg.card_le (fun a ha => (cl.left a ha).1) cl.unique, Outcome.bind_ok]
    refine ⟨_, rfl, Or.inr ⟨trivial, ?_⟩⟩
    rw [zero_add]
    congr 1
    ext d
    simp only [Finset.mem_filter]
    constructor
    · rintro ⟨hd, a, ha, hc'⟩
      exact ⟨hd, by rw [left_of_sameCycle hc.rep hc.lefts (cl.left a ha).1 hc', (cl.left a ha).2]⟩
    · rintro ⟨hd, h⟩
      exact ⟨hd, cl.cover d hd h⟩

end Area

end Verif.GeoMap
