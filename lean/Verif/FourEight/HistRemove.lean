import Verif.FourEight.HistLemmas

/-!
# Removing edges and isolated nodes
-/

namespace Verif.FourEight
open Verif Verif.CellImage

section
variable {m m' : Map}

theorem Whole.label (_ : Whole m) {d : Dart} (hd : IsDart m d) : m.look d.x d.y d.dir = (.line, (m.look d.x d.y d.dir).2) := Prod.ext hd.edge rfl

/-- the edge of a dart -/
theorem Whole.edge (hm : Whole m) {d : Dart} (hd : IsDart m d) : ∃ l E, m.look d.x d.y d.dir = (.line, l) ∧ m.edges[l]? = some E ∧ E.live = true ∧
    (d = E.start ∨ d = E.stop) := by
  obtain ⟨a, h1, h2⟩ := hm.cons.edges.owner _ _ _ (hm.clean.near hd.inside hd.rim.nonregion d.dir) (hm.label hd)
  rw [List.getElem?_map] at h1
  obtain ⟨E, h3, rfl⟩ := Option.map_eq_some_iff.1 h1
  exact ⟨_, E, hm.label hd, h3, h2, hm.owner _ E h3 h2 d hd (hm.label hd)⟩

theorem Whole.nb (hm : Whole m) {d : Dart} (hd : IsDart m d) (k : Fin 8) : m.nb d k = .ok (m.look d.x d.y (d.dir + k)) :=
  hm.clean.nb hd.inside hd.rim.nonregion k

theorem Whole.leftFace (hm : Whole m) {d : Dart} (hd : IsDart m d) : leftFace m d = .ok (leftL m d) :=
  leftFace_eq hm.clean hd.inside hd.rim.nonregion

theorem Whole.rightFace (hm : Whole m) {d : Dart} (hd : IsDart m d) : rightFace m d = .ok (rightL m d) :=
  rightFace_eq hm.clean hd.inside hd.rim.nonregion

theorem Whole.leftCell (hm : Whole m) {d : Dart} (hd : IsDart m d) : ∃ j, m.look d.x d.y j = (.region, leftL m d) := by
  unfold leftL
  by_cases h1 : (m.look d.x d.y (d.dir + 1)).1 = .region
  · exact ⟨d.dir + 1, by rw [if_pos h1]; exact Prod.ext h1 rfl⟩
  · refine ⟨d.dir + 2, ?_⟩
    rw [if_neg h1]
    exact Prod.ext (hm.left d hd (fun ho => h1 (hd.between ho).1) h1) rfl

theorem Whole.rightCell (hm : Whole m) {d : Dart} (hd : IsDart m d) : ∃ j, m.look d.x d.y j = (.region, rightL m d) := by
  unfold rightL
  by_cases h1 : (m.look d.x d.y (d.dir + 7)).1 = .region
  · exact ⟨d.dir + 7, by rw [if_pos h1]; exact Prod.ext h1 rfl⟩
  · refine ⟨d.dir + 6, ?_⟩
    rw [if_neg h1]
    exact Prod.ext (hm.right d hd (fun ho => h1 (hd.between ho).2) h1) rfl

/-- stored ends fit -/
theorem Whole.endsFit (hm : Whole m) {d : Dart} (hd : IsDart m d) : EndsFit m d := by
  obtain ⟨l, E, h1, h2, h3, h4⟩ := hm.edge hd
  obtain ⟨e1, e2, e3, e4, e5⟩ := hm.ends l E h2 h3
  obtain ⟨f1, f2⟩ := hm.fit l E h2 h3
  have hcell : ∀ j f, m.look E.start.x E.start.y j = (.region, f) → (m.cell (.region, f)).Nonempty := by
    intro j f hf
    exact ⟨(E.start.x + dx j, E.start.y + dy j), mem_cell.2 ⟨hm.clean.near e1.inside e1.rim.nonregion j, hf⟩⟩
  obtain ⟨j, hj⟩ := hm.leftCell e1
  obtain ⟨j', hj'⟩ := hm.rightCell e1
  refine ⟨hm.init, l, E, leftL m E.start, rightL m E.start, ?_, h2, h3, h4, ?_, ?_, hm.leftFace e1, hm.rightFace e1, ?_, ?_, hcell _ _ hj,
    hcell _ _ hj'⟩
  · rw [hm.nb hd, add_zero, h1]
  · rw [hm.nb e1, add_zero, e4]
  · rw [hm.nb e2, add_zero, e5]
  · rw [hm.leftFace e2, f2]
  · rw [hm.rightFace e2, f1]

/-- the other end -/
theorem Whole.alpha (hm : Whole m) {d : Dart} (hd : IsDart m d) {l : Nat} {E : Edge} (h1 : m.look d.x d.y d.dir = (.line, l))
    (h2 : m.edges[l]? = some E) (h3 : E.live = true) : alpha m d = .ok (if d = E.start then E.stop else E.start) :=
  alpha_ends hm.init (by rw [hm.nb hd, add_zero, h1]) h2 h3

theorem card_without (S : Set Dart) (hS : S.Finite) (d : Dart) [Decidable (d ∈ S)] :
    (S \ {d}).ncard + (if d ∈ S then 1 else 0) = S.ncard := by
  by_cases h : d ∈ S
  · rw [if_pos h, Set.ncard_sdiff_singleton_add_one h hS]
  · rw [if_neg h, Set.sdiff_singleton_eq_self h]; rfl

/-- how the image changes if an edge is removed -/
theorem Whole.removeEdge_change (hm : Whole m) {e s g : Nat} (hw : m'.w = m.w) (hh : m'.h = m.h)
    (hpx : ∀ x y, m.inside x y → m'.px x y = if m.px x y = (.line, e) ∨ m.px x y = (.region, g) then (.region, s) else m.px x y) :
    Change m m' (fun _ => True) (fun l => l ≠ e) (fun l => if l = g then s else l) id := by
  refine ⟨hw, hh, ?_, ?_, ?_, ?_, ?_, ?_⟩
  · intro x y l hi
    rw [hpx x y hi]
    constructor
    · intro h
      split at h
      · exact absurd h (by simp)
      · exact ⟨h, trivial⟩
    · rintro ⟨h, -⟩
      rw [h, if_neg (by simp)]
  · intro x y l hi h hq
    rw [hpx x y hi, h, if_neg (by simp [hq])]; rfl
  · intro x y l hi h hq
    rw [hpx x y hi, h, if_pos (by left; rw [not_not.1 hq])]
  · intro x y hi h
    rw [hpx x y hi] at h
    split at h
    · exact absurd h (by simp)
    · rename_i hc
      exact Or.inl ⟨(m.px x y).2, Prod.ext h rfl, fun e' => hc (Or.inl (Prod.ext h e'))⟩
  · intro x y l hi h
    rw [hpx x y hi, h]
    by_cases hg : l = g
    · rw [if_pos (by right; rw [hg]), if_pos hg]
    · rw [if_neg (by simp [hg]), if_neg hg]
  · intro x y hi
    rw [hpx x y hi]
    split
    · exact Or.inr (Or.inr rfl)
    · exact hm.clean.types x y hi

/-- an edge is removed, and the faces on its sides become one -/
theorem Whole.removeEdge (hm : Whole m) {e s g : Nat} {E : Edge} (hE : m.edges[e]? = some E) (hl : E.live = true)
    (hsg : leftL m E.start = s ∧ rightL m E.start = g ∨ leftL m E.start = g ∧ rightL m E.start = s) (hw : m'.w = m.w) (hh : m'.h = m.h)
    (hpx : ∀ x y, m.inside x y → m'.px x y = if m.px x y = (.line, e) ∨ m.px x y = (.region, g) then (.region, s) else m.px x y)
    (hedges : m'.edges = m.edges.modify e fun E => { E with live := false }) (hdeg : EndsLowered m m' E) (hinit : m'.init = m.init)
    (hcons : Consistent m') (houter : Outer m') : Whole m' := by
  have hch := hm.removeEdge_change hw hh hpx
  have hlive : ∀ {l : Nat} {F : Edge}, m'.edges[l]? = some F → F.live = true → l ≠ e ∧ m.edges[l]? = some F := by
    intro l F h1 h2
    rw [hedges] at h1
    by_cases hle : l = e
    · subst hle
      rw [List.getElem?_modify_eq, hE] at h1
      cases h1
      cases h2
    · exact ⟨hle, by rw [modify_ne (fun e => hle e.symm)] at h1; exact h1⟩
  have hlineEq : ∀ x y l, m.inside x y → m'.px x y = (.line, l) → m.px x y = (.line, l) ∧ l ≠ e := by
    intro x y l hi h
    rw [hpx x y hi] at h
    split at h
    · exact absurd h (by simp)
    · rename_i hc
      exact ⟨h, fun e' => hc (Or.inl (by rw [h, e']))⟩
  obtain ⟨b1, b2, b3, b4, b5⟩ := hm.ends e E hE hl
  -- faces beside the removed edge
  have hbes : ∀ x y (k : Fin 8) f, m.inside x y → m.px x y = (.line, e) → k.val % 2 = 0 → m.look x y k = (.region, f) →
      (if f = g then s else f) = s := by
    intro x y k f hi hx hk hf
    have := hm.beside e E hE hl x y k f hi hx hk hf
    by_cases hg : f = g
    · rw [if_pos hg]
    · rw [if_neg hg]
      rcases hsg with ⟨q1, q2⟩ | ⟨q1, q2⟩ <;> rcases this with t | t <;> omega
  have back : ∀ k : Fin 8, k.val % 2 = 0 → ∃ j : Fin 8, j.val % 2 = 0 ∧ dx k + dx j = 0 ∧ dy k + dy j = 0 := by decide
  have hreg : ∀ x y, m.inside x y → (m'.px x y).1 = .region → m.px x y = (.line, e) ∧ m'.px x y = (.region, s) ∨
      ∃ f, m.px x y = (.region, f) ∧ m'.px x y = (.region, if f = g then s else f) := by
    intro x y hi h
    by_cases hc : m.px x y = (.line, e)
    · exact Or.inl ⟨hc, by rw [hpx x y hi, if_pos (Or.inl hc)]⟩
    · right
      have hr : (m.px x y).1 = .region := by
        rw [hpx x y hi] at h
        by_cases hc2 : m.px x y = (.line, e) ∨ m.px x y = (.region, g)
        · rcases hc2 with q | q
          · exact absurd q hc
          · rw [q]
        · rw [if_neg hc2] at h; exact h
      exact ⟨(m.px x y).2, Prod.ext hr rfl, hch.region x y _ hi (Prod.ext hr rfl)⟩
  have hdart : ∀ {d : Dart} {l : Nat}, IsDart m d → m.look d.x d.y d.dir = (.line, l) → l ≠ e → IsDart m' d := by
    intro d l h1 h2 h3
    exact (hch.isDart hm d).2 ⟨h1, trivial, by rw [h2]; exact h3⟩
  have hend : ∀ {l : Nat} {F : Edge}, m'.edges[l]? = some F → F.live = true → IsDart m' F.start ∧ IsDart m' F.stop := by
    intro l F h1 h2
    obtain ⟨h3, h4⟩ := hlive h1 h2
    obtain ⟨c1, c2, c3, c4, c5⟩ := hm.ends l F h4 h2
    exact ⟨hdart c1 c4 h3, hdart c2 c5 h3⟩
  have hlk : ∀ {d : Dart} {l : Nat}, IsDart m' d → m'.look d.x d.y d.dir = (.line, l) → m.look d.x d.y d.dir = (.line, l) := by
    intro d l h1 h2
    obtain ⟨l', q1, -, q3⟩ := hch.edgeAt hm h1
    rw [h2] at q3
    rw [q1]; exact q3.symm
  refine ⟨hcons, houter, by rw [hinit]; exact hm.init, hch.clean hm.clean, hch.noCorner hm.clean hm.nodes hm.noCorner,
    hch.nodes hm.clean hm.nodes, ?_, hch.noHoles hm.clean hm.nodes hm.noHoles, hch.left' hm, hch.right' hm, ?_, ?_, ?_, ?_, ?_, ?_⟩
  · intro x y k hk hi hi' h1 h2
    have hi := (hch.inside _ _).1 hi
    have hi' := (hch.inside _ _).1 hi'
    rcases hreg x y hi h1 with ⟨a1, a2⟩ | ⟨f, a1, a2⟩ <;> rcases hreg _ _ hi' h2 with ⟨c1, c2⟩ | ⟨f', c1, c2⟩ <;>
      show (m'.px _ _).2 = _ <;> rw [a2, c2]
    · exact hbes x y k f' hi a1 hk c1
    · obtain ⟨j, j1, j2⟩ := back k hk
      refine (hbes _ _ j f hi' c1 j1 ?_).symm
      rw [look_back j2]; exact a1
    · have : (m.look x y k).2 = (m.px x y).2 := hm.faces x y k hk hi hi' (by rw [a1]) (show (m.px _ _).1 = _ by rw [c1])
      change (m.px _ _).2 = _ at this
      rw [a1, c1] at this
      dsimp only at this ⊢
      rw [this]
  · intro x y k hk hi h1 h2
    have hi := (hch.inside _ _).1 hi
    obtain ⟨a1, a2⟩ := hlineEq x y _ hi (Prod.ext h1 rfl)
    have hi' := hm.clean.near hi (by rw [a1]; exact fun q => by cases q) k
    obtain ⟨c1, c2⟩ := hlineEq _ _ (m'.look x y k).2 hi' (Prod.ext h2 rfl)
    have : (m.look x y k).2 = (m.px x y).2 := hm.lines x y k hk hi (by rw [a1]) (show (m.px _ _).1 = _ by rw [c1])
    change (m.px _ _).2 = _ at this
    rw [a1, c1] at this
    exact this
  · intro l F h1 h2
    obtain ⟨h3, h4⟩ := hlive h1 h2
    obtain ⟨c1, c2, c3, c4, c5⟩ := hm.ends l F h4 h2
    refine ⟨hdart c1 c4 h3, hdart c2 c5 h3, c3, ?_, ?_⟩
    · exact hch.line _ _ l (hm.clean.near c1.inside c1.rim.nonregion _) c4 h3
    · exact hch.line _ _ l (hm.clean.near c2.inside c2.rim.nonregion _) c5 h3
  · intro l F h1 h2 d hd hlook
    obtain ⟨h3, h4⟩ := hlive h1 h2
    exact hm.owner l F h4 h2 d ((hch.isDart hm d).1 hd).1 (hlk hd hlook)
  · intro l F h1 h2
    obtain ⟨h3, h4⟩ := hlive h1 h2
    obtain ⟨c1, c2⟩ := hend h1 h2
    obtain ⟨f1, f2⟩ := hm.fit l F h4 h2
    rw [hch.leftL hm c1, hch.leftL hm c2, hch.rightL hm c1, hch.rightL hm c2, f1, f2]
    exact ⟨rfl, rfl⟩
  · intro l F h1 h2 x y k f hi hx hk hf
    have hi := (hch.inside _ _).1 hi
    obtain ⟨h3, h4⟩ := hlive h1 h2
    obtain ⟨c1, c2⟩ := hend h1 h2
    obtain ⟨a1, a2⟩ := hlineEq x y l hi hx
    have hi' := hm.clean.near hi (by rw [a1]; exact fun q => by cases q) k
    rw [hch.leftL hm c1, hch.rightL hm c1]
    rcases hreg _ _ hi' (show (m'.look x y k).1 = _ by rw [hf]) with ⟨q1, q2⟩ | ⟨f', q1, q2⟩
    · exfalso
      have : (m.look x y k).2 = (m.px x y).2 := hm.lines x y k hk hi (by rw [a1]) (show (m.px _ _).1 = _ by rw [q1])
      change (m.px _ _).2 = _ at this
      rw [q1, a1] at this
      exact a2 this.symm
    · have e1 : f = if f' = g then s else f' := by
        have := hf.symm.trans q2
        exact (Prod.mk.inj this).2
      rw [e1]
      rcases hm.beside l F h4 h2 x y k f' hi a1 hk q1 with t | t
      · left; rw [t]
      · right; rw [t]
  · intro l A hA hAl
    classical
    obtain ⟨n1, n2, L, g1, g2, g3, g4⟩ := hdeg
    obtain ⟨B, hB, hB1, hB2⟩ := g4 l A hA
    obtain ⟨C, hC, hC1, hC2⟩ := g3 l B hB
    have hdC := hm.degree l C hC (by rw [hC1, hB1]; exact hAl)
    have hn1 : m.px E.start.x E.start.y = (.vertex, n1) := by
      unfold nodeLabel Map.get at g1
      rw [if_pos b1.inside] at g1
      exact Prod.ext b1.node (Outcome.ok.inj g1)
    have hn2 : m.px E.stop.x E.stop.y = (.vertex, n2) := by
      unfold nodeLabel Map.get at g2
      rw [if_pos b2.inside] at g2
      exact Prod.ext b2.node (Outcome.ok.inj g2)
    have m1 : E.start ∈ dartsAt m l ↔ l = n1 := by
      show _ ∧ _ ↔ _
      rw [hn1]
      exact ⟨fun q => (Prod.mk.inj q.2).2.symm, fun q => ⟨b1, by rw [q]⟩⟩
    have m2 : E.stop ∈ dartsAt m l \ {E.start} ↔ l = n2 := by
      show (_ ∧ _) ∧ _ ↔ _
      rw [hn2]
      exact ⟨fun q => (Prod.mk.inj q.1.2).2.symm, fun q => ⟨⟨b2, by rw [q]⟩, fun q' => b3 q'.symm⟩⟩
    have hset : dartsAt m' l = (dartsAt m l \ {E.start}) \ {E.stop} := by
      rw [hch.dartsAt hm trivial]
      ext d
      constructor
      · rintro ⟨q1, q2⟩
        exact ⟨⟨q1, fun q => q2 (by rw [Set.mem_singleton_iff.1 q, b4])⟩, fun q => q2 (by rw [Set.mem_singleton_iff.1 q, b5])⟩
      · rintro ⟨⟨q1, q2⟩, q3⟩
        refine ⟨q1, fun q => ?_⟩
        rcases hm.owner e E hE hl d q1.1 (Prod.ext q1.1.edge q) with r | r
        · exact q2 r
        · exact q3 r
    have k1 := card_without (dartsAt m l) (dartsAt_finite m l) E.start
    have k2 := card_without (dartsAt m l \ {E.start}) ((dartsAt_finite m l).subset Set.sdiff_subset) E.stop
    rw [← hset] at k2
    simp only [m1] at k1
    simp only [m2] at k2
    rw [hB2, hC2, hdC]
    generalize (dartsAt m' l).ncard = a at *
    generalize (dartsAt m l \ {E.start}).ncard = b at *
    generalize (dartsAt m l).ncard = c at *
    clear hset hdC hB2 hC2
    split_ifs at k1 k2 ⊢ <;> omega

end

end Verif.FourEight
