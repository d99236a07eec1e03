import Verif.FourEight.HistRemove

/-!
# Removing isolated nodes
-/

namespace Verif.FourEight
open Verif Verif.CellImage

section
variable {m m' : Map}

theorem Crack.rim {d : Dart} (h : Crack m d) : Rim m d := ⟨h.inside, h.node, h.out, fun ho => absurd h.even (by omega)⟩

/-- all cracks and darts of a node are on one walk -/
theorem Whole.on_walk (hm : Whole m) {c d : Dart} (hc : Crack m c) (hd : Crack m d ∨ IsDart m d)
    (hl : (m.px d.x d.y).2 = (m.px c.x c.y).2) : ∃ i, (walk m 1)^[i] c = d := by
  obtain ⟨x, y, hf, e⟩ := firstOf_exists hm.clean hc.inside hc.node
  obtain ⟨hr, -⟩ := mkDart_walk hm.clean hm.noCorner hm.nodes hf
  have h4 : (4 : Fin 8).val % 2 = 0 := by decide
  have hcr : ∀ {d : Dart}, Crack m d → (m.px d.x d.y).2 = (m.px x y).2 → ∃ i, (walk m 1)^[i] ⟨x, y, 4⟩ = d := by
    intro d hd hl
    obtain ⟨n, hn⟩ := hm.noHoles x y d hf hd hl
    obtain ⟨j, hj⟩ := cracks_walk (m := m) n (d := ⟨x, y, 4⟩) h4
    exact ⟨j, by rw [← hj, hn]⟩
  obtain ⟨i, hi⟩ := hcr hc e
  obtain ⟨a, ha⟩ := walk_back hm.clean hr hi
  have : ∃ j, (walk m 1)^[j] ⟨x, y, 4⟩ = d := by
    rcases hd with hd | hd
    · exact hcr hd (hl.trans e)
    · exact (oneRim_walk hm.clean hm.noCorner hm.nodes).1 (oneRim_of_noHoles hm.clean hm.noCorner hm.nodes hm.noHoles) x y d hf hd (hl.trans e)
  obtain ⟨j, hj⟩ := this
  exact ⟨j + a, by rw [Function.iterate_add_apply, ha, hj]⟩

theorem Whole.walk_label (hm : Whole m) {c : Dart} (hc : Rim m c) (i : Nat) :
    m.px ((walk m 1)^[i] c).x ((walk m 1)^[i] c).y = m.px c.x c.y :=
  chain_label hm.clean hm.nodes hc.inside hc.node _ (Props.iter_chain hm.clean (Or.inl rfl) i hc)

/-- around a node without darts there is one face -/
theorem Whole.one_face (hm : Whole m) {c d : Dart} (hc : Crack m c) (hd : Crack m d) (hl : (m.px d.x d.y).2 = (m.px c.x c.y).2)
    (hfree : ∀ d', IsDart m d' → (m.px d'.x d'.y).2 ≠ (m.px c.x c.y).2) {f : Nat} (hf : m.look c.x c.y c.dir = (.region, f)) :
    m.look d.x d.y d.dir = (.region, f) := by
  obtain ⟨i, rfl⟩ := hm.on_walk hc (Or.inl hd) hl
  exact free_iter hm.clean hm.faces hc.rim hf (fun i hi => hfree _ hi (by rw [hm.walk_label hc.rim])) i

theorem fin_12 (δ : Fin 8) : δ + 1 + 1 = δ + 2 := by revert δ; decide
theorem even_of_odd {δ : Fin 8} (h : δ.val % 2 = 1) : (δ + 1).val % 2 = 0 := by revert h; revert δ; decide
theorem even_two {δ : Fin 8} (h : δ.val % 2 = 0) : (δ + 2).val % 2 = 0 := by revert h; revert δ; decide
theorem corner_dir {δ : Fin 8} (h : δ.val % 2 = 1) : ∃ k : Fin 8, k.val % 2 = 0 ∧ dx (δ + 1) + dx k = dx (δ + 2) ∧ dy (δ + 1) + dy k = dy (δ + 2) := by
  revert h; revert δ; decide

/-- a position at an isolated node -/
theorem Whole.isolated (hm : Whole m) {d : Dart} (h : AtIsolated m d) : Isolated m (m.px d.x d.y).2 (leftL m d) := by
  have hn : (m.px d.x d.y).1 ≠ .region := by rw [h.node]; decide
  -- no neighbour of the node belongs to an edge
  have noLine : ∀ x y (k : Fin 8), m.inside x y → m.px x y = (.vertex, (m.px d.x d.y).2) → k.val % 2 = 0 → (m.look x y k).1 ≠ .line := by
    intro x y k hi hp hk hl
    refine h.free ⟨x, y, k⟩ ⟨hi, by rw [hp], hl, fun ho => absurd ho ?_⟩ (by dsimp only; rw [hp])
    dsimp only; omega
  have hp : m.px d.x d.y = (.vertex, (m.px d.x d.y).2) := Prod.ext h.node rfl
  -- a crack that sees the face on the left
  have hc : ∃ c, Crack m c ∧ (m.px c.x c.y).2 = (m.px d.x d.y).2 ∧ m.look c.x c.y c.dir = (.region, leftL m d) := by
    have hring := ring_label hm.clean hm.faces h.inside hn
    unfold leftL
    by_cases ho : d.dir.val % 2 = 1
    · by_cases h1 : (m.look d.x d.y (d.dir + 1)).1 = .region
      · rw [if_pos h1]
        exact ⟨⟨d.x, d.y, d.dir + 1⟩, ⟨h.inside, h.node, even_of_odd ho, by dsimp only; rw [h1]; decide⟩, rfl, Prod.ext h1 rfl⟩
      · rw [if_neg h1]
        have h2 : (m.look d.x d.y (d.dir + 2)).1 = .region := h.left.resolve_left h1
        have hv : (m.look d.x d.y (d.dir + 1)).1 = .vertex := by
          rcases hm.clean.look_types h.inside hn (d.dir + 1) with e | e | e
          · exact e
          · exact absurd e (noLine _ _ _ h.inside hp (even_of_odd ho))
          · exact absurd e h1
        obtain ⟨k, k1, k2⟩ := corner_dir ho
        have hlk : m.look (d.x + dx (d.dir + 1)) (d.y + dy (d.dir + 1)) k = m.look d.x d.y (d.dir + 2) := look_shift k2
        refine ⟨⟨d.x + dx (d.dir + 1), d.y + dy (d.dir + 1), k⟩, ⟨hm.clean.near h.inside hn _, hv, k1, ?_⟩, ?_, ?_⟩
        · dsimp only; rw [hlk, h2]; decide
        · exact hm.nodes _ _ _ h.inside h.node hv
        · dsimp only; rw [hlk]; exact Prod.ext h2 rfl
    · have he : d.dir.val % 2 = 0 := by omega
      by_cases h1 : (m.look d.x d.y (d.dir + 1)).1 = .region
      · rw [if_pos h1, hring _ h.face h1]
        exact ⟨d, ⟨h.inside, h.node, he, by rw [h.face]; decide⟩, rfl, Prod.ext h.face rfl⟩
      · rw [if_neg h1]
        have h2 : (m.look d.x d.y (d.dir + 2)).1 = .region := h.left.resolve_left h1
        exact ⟨⟨d.x, d.y, d.dir + 2⟩, ⟨h.inside, h.node, even_two he, by dsimp only; rw [h2]; decide⟩, rfl, Prod.ext h2 rfl⟩
  obtain ⟨c, c1, c2, c3⟩ := hc
  intro x y hi hx k hk
  have hnx : (m.px x y).1 ≠ .region := by rw [hx]; exact fun q => by cases q
  refine ⟨hm.clean.near hi hnx k, ?_⟩
  rcases hm.clean.look_types hi hnx k with e | e | e
  · left
    exact Prod.ext e (by show (m.look x y k).2 = _; rw [hm.nodes x y k hi (by rw [hx]) e, hx])
  · exact absurd e (noLine x y k hi hx hk)
  · right
    refine hm.one_face c1 (d := ⟨x, y, k⟩) ⟨hi, by rw [hx], hk, by dsimp only; rw [e]; decide⟩ ?_ ?_ c3
    · dsimp only; rw [hx, c2]
    · intro d' hd'; rw [c2]; exact h.free d' hd'

/-- how the image changes -/
theorem Whole.removeNode_change (hm : Whole m) {n f : Nat} (hw : m'.w = m.w) (hh : m'.h = m.h)
    (hpx : ∀ x y, m.inside x y → m'.px x y = if m.px x y = (.vertex, n) then (.region, f) else m.px x y) :
    Change m m' (fun l => l ≠ n) (fun _ => True) id id := by
  refine ⟨hw, hh, ?_, ?_, ?_, ?_, ?_, ?_⟩
  · intro x y l hi
    rw [hpx x y hi]
    constructor
    · intro h
      split at h
      · exact absurd h (by simp)
      · rename_i hc
        exact ⟨h, fun e => hc (by rw [h, e])⟩
    · rintro ⟨h, h2⟩
      rw [h, if_neg (by simp [h2])]
  · intro x y l hi h _
    rw [hpx x y hi, h, if_neg (by simp)]; rfl
  · intro x y l hi h hq
    exact absurd trivial hq
  · intro x y hi h
    rw [hpx x y hi] at h
    split at h
    · exact absurd h (by simp)
    · exact Or.inl ⟨(m.px x y).2, Prod.ext h rfl, trivial⟩
  · intro x y l hi h
    rw [hpx x y hi, h, if_neg (by simp)]; rfl
  · intro x y hi
    rw [hpx x y hi]
    split
    · exact Or.inr (Or.inr rfl)
    · exact hm.clean.types x y hi

/-- an isolated node is removed -/
theorem Whole.removeNode (hm : Whole m) {n f : Nat} (hiso : Isolated m n f) (hw : m'.w = m.w) (hh : m'.h = m.h)
    (hpx : ∀ x y, m.inside x y → m'.px x y = if m.px x y = (.vertex, n) then (.region, f) else m.px x y)
    (hnodes : m'.nodes = m.nodes.modify n fun N => { N with live := false }) (hedges : m'.edges = m.edges) (hinit : m'.init = m.init)
    (hfree : ∀ d, IsDart m d → (m.px d.x d.y).2 ≠ n)
    (hcons : Consistent m') (houter : Outer m') : Whole m' := by
  have hch := hm.removeNode_change hw hh hpx
  have hlineEq : ∀ x y l, m.inside x y → m'.px x y = (.line, l) → m.px x y = (.line, l) := by
    intro x y l hi h
    rw [hpx x y hi] at h
    split at h
    · exact absurd h (by simp)
    · exact h
  have hreg : ∀ x y f', m.inside x y → m'.px x y = (.region, f') → m.px x y = (.vertex, n) ∧ f' = f ∨ m.px x y = (.region, f') := by
    intro x y f' hi h
    rw [hpx x y hi] at h
    split at h
    · rename_i hc
      exact Or.inl ⟨hc, (Prod.mk.inj h).2.symm⟩
    · exact Or.inr h
  have back : ∀ k : Fin 8, k.val % 2 = 0 → ∃ j : Fin 8, j.val % 2 = 0 ∧ dx k + dx j = 0 ∧ dy k + dy j = 0 := by decide
  have hisoR : ∀ x y (k : Fin 8) f', m.inside x y → m.px x y = (.vertex, n) → k.val % 2 = 0 → m.look x y k = (.region, f') → f' = f := by
    intro x y k f' hi hx hk hf
    rcases (hiso x y hi hx k hk).2 with e | e
    · exact absurd (hf.symm.trans e) (by simp)
    · exact (Prod.mk.inj (hf.symm.trans e)).2
  have hdart : ∀ {d : Dart}, IsDart m' d ↔ IsDart m d := by
    intro d
    rw [hch.isDart hm d]
    exact ⟨fun q => q.1, fun q => ⟨q, hfree d q, trivial⟩⟩
  have hlk : ∀ {d : Dart} {l : Nat}, IsDart m d → (m'.look d.x d.y d.dir = (.line, l) ↔ m.look d.x d.y d.dir = (.line, l)) := by
    intro d l h1
    have hi := hm.clean.near h1.inside h1.rim.nonregion d.dir
    exact ⟨hlineEq _ _ _ hi, fun h => hch.line _ _ _ hi h trivial⟩
  refine ⟨hcons, houter, by rw [hinit]; exact hm.init, hch.clean hm.clean, hch.noCorner hm.clean hm.nodes hm.noCorner,
    hch.nodes hm.clean hm.nodes, ?_, hch.noHoles hm.clean hm.nodes hm.noHoles, hch.left' hm, hch.right' hm, ?_, ?_, ?_, ?_, ?_, ?_⟩
  · intro x y k hk hi hi' h1 h2
    have hi := (hch.inside _ _).1 hi
    have hi' := (hch.inside _ _).1 hi'
    obtain ⟨j, j1, j2⟩ := back k hk
    rcases hreg x y _ hi (Prod.ext h1 rfl) with ⟨a1, a2⟩ | a1 <;> rcases hreg _ _ (m'.look x y k).2 hi' (Prod.ext h2 rfl) with ⟨c1, c2⟩ | c1
    · exact c2.trans a2.symm
    · exact (hisoR x y k _ hi a1 hk c1).trans a2.symm
    · rw [c2]
      exact (hisoR _ _ j _ hi' c1 j1 (by rw [look_back j2]; exact a1)).symm
    · have : (m.look x y k).2 = (m.px x y).2 := hm.faces x y k hk hi hi' (by rw [a1]) (show (m.px _ _).1 = _ by rw [c1])
      change (m.px _ _).2 = _ at this
      rw [a1, c1] at this
      exact this
  · intro x y k hk hi h1 h2
    have hi := (hch.inside _ _).1 hi
    have a1 := hlineEq x y _ hi (Prod.ext h1 rfl)
    have hi' := hm.clean.near hi (by rw [a1]; exact fun q => by cases q) k
    have c1 := hlineEq _ _ (m'.look x y k).2 hi' (Prod.ext h2 rfl)
    have : (m.look x y k).2 = (m.px x y).2 := hm.lines x y k hk hi (by rw [a1]) (show (m.px _ _).1 = _ by rw [c1])
    change (m.px _ _).2 = _ at this
    rw [a1, c1] at this
    exact this
  · intro l F h1 h2
    rw [hedges] at h1
    obtain ⟨c1, c2, c3, c4, c5⟩ := hm.ends l F h1 h2
    exact ⟨hdart.2 c1, hdart.2 c2, c3, (hlk c1).2 c4, (hlk c2).2 c5⟩
  · intro l F h1 h2 d hd hlook
    rw [hedges] at h1
    exact hm.owner l F h1 h2 d (hdart.1 hd) ((hlk (hdart.1 hd)).1 hlook)
  · intro l F h1 h2
    rw [hedges] at h1
    obtain ⟨c1, c2, c3, c4, c5⟩ := hm.ends l F h1 h2
    obtain ⟨f1, f2⟩ := hm.fit l F h1 h2
    rw [hch.leftL hm (hdart.2 c1), hch.leftL hm (hdart.2 c2), hch.rightL hm (hdart.2 c1), hch.rightL hm (hdart.2 c2), f1, f2]
    exact ⟨rfl, rfl⟩
  · intro l F h1 h2 x y k f' hi hx hk hf
    rw [hedges] at h1
    have hi := (hch.inside _ _).1 hi
    obtain ⟨c1, c2, c3, c4, c5⟩ := hm.ends l F h1 h2
    have a1 := hlineEq x y l hi hx
    have hi' := hm.clean.near hi (by rw [a1]; exact fun q => by cases q) k
    rw [hch.leftL hm (hdart.2 c1), hch.rightL hm (hdart.2 c1)]
    rcases hreg _ _ _ hi' hf with ⟨q1, q2⟩ | q1
    · exfalso
      obtain ⟨j, j1, j2⟩ := back k hk
      have := (hiso _ _ hi' q1 j j1).2
      change m.look (x + dx k) (y + dy k) j = _ ∨ m.look (x + dx k) (y + dy k) j = _ at this
      rw [look_back j2, a1] at this
      rcases this with t | t <;> exact absurd t (by simp)
    · exact hm.beside l F h1 h2 x y k f' hi a1 hk q1
  · intro l A hA hAl
    rw [hnodes] at hA
    by_cases hl : l = n
    · subst hl
      rw [List.getElem?_modify_eq] at hA
      obtain ⟨B, -, rfl⟩ := Option.map_eq_some_iff.1 hA
      cases hAl
    · rw [modify_ne (fun e => hl e.symm)] at hA
      rw [hm.degree l A hA hAl, hch.dartsAt hm hl]
      congr 2
      ext d
      exact ⟨fun q => ⟨q, trivial⟩, fun q => q.1⟩

end

end Verif.FourEight
