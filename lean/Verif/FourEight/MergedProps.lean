import Verif.FourEight.MergedLemmas
import Verif.FourEight.PyrProps

/-!
# Protection of merged edges after any history of operations (C98)
-/

namespace Verif.FourEight
open Verif Verif.CellImage Verif.Outcome

section
variable {m m' m0 : Map}

/-- two edges become one -/
structure EdgesJoined (m m' : Map) (n s g : Nat) : Prop where
  ne : s ≠ g
  survivor : (m.cell (.line, s)).Nonempty
  merged : (m.cell (.line, g)).Nonempty
  w : m'.w = m.w
  h : m'.h = m.h
  px : ∀ x y, m.inside x y → m'.px x y = if m.px x y = (.vertex, n) ∨ m.px x y = (.line, g) then (.line, s) else m.px x y

theorem Whole.line_nonempty (hm : Whole m) {d : Dart} (hd : IsDart m d) {l : Nat} (h : edgeLabel m d = .ok l) : (m.cell (.line, l)).Nonempty := by
  rw [hm.edgeLabel_eq hd] at h
  obtain rfl := Outcome.ok.inj h
  exact ⟨(d.x + dx d.dir, d.y + dy d.dir), mem_cell.2 ⟨hm.clean.near hd.inside hd.rim.nonregion d.dir, hm.label hd⟩⟩

theorem Whole.mergeEdges_joined (hm : Whole m) {d : Dart} {s : Nat} (hd : IsDart m d) (h : mergeEdges m d = .ok (m', s)) :
    ∃ d1 e1 e2 g n, sigma m 1 d = .ok d1 ∧ edgeLabel m d = .ok e1 ∧ edgeLabel m d1 = .ok e2 ∧ (s = e1 ∧ g = e2 ∨ s = e2 ∧ g = e1) ∧
      EdgesJoined m m' n s g := by
  obtain ⟨d1, b, a, g, n, N, G, hd1, -, hg, hn, hab, hs, hsame, res, -⟩ := mergeEdges_full hm.cons h
  obtain ⟨d1', t1, hd1d, -, -⟩ := Props.sigma_inverse hm.clean hm.noCorner hd (k := 1) (Or.inl rfl)
  rw [hd1] at t1
  obtain rfl := Outcome.ok.inj t1
  have key : IsDart m a ∧ IsDart m b ∧ (a = d ∧ b = d1 ∨ a = d1 ∧ b = d) := by
    rcases hsame with ⟨heq, rfl⟩ | ⟨heq, hb⟩
    · obtain ⟨a', t1, ha, -, -⟩ := Props.sigma_inverse hm.clean hm.noCorner hd1d (k := 1) (Or.inl rfl)
      rw [hab] at t1
      obtain rfl := Outcome.ok.inj t1
      rw [dartEq_line (by rw [hm.nb ha, add_zero]; exact congrArg _ (hm.label ha))] at heq
      obtain rfl : a = d := by simpa using heq
      exact ⟨ha, hd1d, Or.inl ⟨rfl, rfl⟩⟩
    · obtain ⟨b', t1, hbd, -, -⟩ := Props.sigma_inverse hm.clean hm.noCorner hd1d (k := 1) (Or.inl rfl)
      rw [hb] at t1
      obtain rfl := Outcome.ok.inj t1
      rw [dartEq_line (by rw [hm.nb hbd, add_zero]; exact congrArg _ (hm.label hbd))] at heq
      obtain rfl : b = d := by simpa using heq
      rw [hd1] at hab
      obtain rfl := Outcome.ok.inj hab
      exact ⟨hd1d, hd, Or.inr ⟨rfl, rfl⟩⟩
  obtain ⟨ha, hb, hkey⟩ := key
  obtain ⟨px, i1, i2⟩ := res.image
  refine ⟨d1, (m.look d.x d.y d.dir).2, (m.look d1.x d1.y d1.dir).2, g, n, hd1, hm.edgeLabel_eq hd, hm.edgeLabel_eq hd1d, ?_,
    res.ne, hm.line_nonempty ha hs, hm.line_nonempty hb hg, res.w, res.h, ?_⟩
  · rw [hm.edgeLabel_eq ha] at hs
    rw [hm.edgeLabel_eq hb] at hg
    have hs := Outcome.ok.inj hs
    have hg := Outcome.ok.inj hg
    rcases hkey with ⟨rfl, rfl⟩ | ⟨rfl, rfl⟩
    · exact Or.inl ⟨hs.symm, hg.symm⟩
    · exact Or.inr ⟨hs.symm, hg.symm⟩
  · intro x y hxy
    have h1 := i1.px x y hxy
    dsimp only at h1
    have h2 := i2.px x y hxy
    simp only [h1] at h2
    rw [h2]
    by_cases c1 : m.px x y = (.vertex, n)
    · simp [c1, res.ne]
    · simp [c1]

/-- the links lead from every edge of `m` through the edges of `m0` it consists of -/
structure Linked (m0 m : Map) (mg : List Nat) (ch : Nat → List Nat) : Prop where
  w : m.w = m0.w
  h : m.h = m0.h
  len : mg.length = m0.edges.length + 1
  chain : ∀ e, (m.cell (.line, e)).Nonempty → ∃ r, ch e = e :: r ∧ IsChain mg (e :: r) ∧ (e :: r).Nodup
  disj : ∀ e e', (m.cell (.line, e)).Nonempty → (m.cell (.line, e')).Nonempty → e ≠ e' → List.Disjoint (ch e) (ch e')
  orig : ∀ e, (m.cell (.line, e)).Nonempty → ∀ l ∈ ch e, (m0.cell (.line, l)).Nonempty
  all : ∀ e, (m.cell (.line, e)).Nonempty → ∀ l ∈ ch e, ∀ x y, m0.inside x y → m0.px x y = (.line, l) → m.px x y = (.line, e)
  back : ∀ x y l e, m0.inside x y → m0.px x y = (.line, l) → m.px x y = (.line, e) → l ∈ ch e

theorem Linked.inside {mg : List Nat} {ch : Nat → List Nat} (h : Linked m0 m mg ch) {x y : Int} : m.inside x y ↔ m0.inside x y := by
  simp only [Map.inside, h.w, h.h]

theorem linked_init (hm : Consistent m0) : Linked m0 m0 (initMerged m0) fun e => [e] := by
  refine ⟨rfl, rfl, by simp [initMerged], ?_, ?_, ?_, ?_, ?_⟩
  · intro e he
    obtain ⟨p, hp⟩ := he
    obtain ⟨p1, p2⟩ := mem_cell.1 hp
    obtain ⟨a, o1, -⟩ := hm.edges.owner _ _ _ p1 p2
    have hlt := (List.getElem?_eq_some_iff.1 o1).1
    rw [List.length_map] at hlt
    refine ⟨[], rfl, ?_, by simp⟩
    show (initMerged m0)[e]? = some e
    unfold initMerged
    rw [List.getElem?_range (by omega)]
  · intro e e' _ _ hne x h1 h2
    rw [List.mem_singleton] at h1 h2
    exact hne (h1.symm.trans h2)
  · intro e he l hl
    rw [List.mem_singleton] at hl
    exact hl ▸ he
  · intro e _ l hl x y _ hp
    rw [List.mem_singleton] at hl
    rw [hp, hl]
  · intro x y l e _ h1 h2
    rw [h1] at h2
    rw [List.mem_singleton]
    exact (Prod.ext_iff.1 h2).2

/-- operations that only remove an edge, or none -/
theorem Linked.removed {mg : List Nat} {ch : Nat → List Nat} (h : Linked m0 m mg ch) (hw : m'.w = m.w) (hh : m'.h = m.h) {k : Option Nat}
    (hpx : ∀ x y, m.inside x y → ∀ e, m'.px x y = (.line, e) ↔ m.px x y = (.line, e) ∧ some e ≠ k) : Linked m0 m' mg ch := by
  have hin : ∀ x y, m'.inside x y ↔ m.inside x y := fun x y => by simp only [Map.inside, hw, hh]
  have old : ∀ e, (m'.cell (.line, e)).Nonempty → (m.cell (.line, e)).Nonempty ∧ some e ≠ k := by
    rintro e ⟨p, hp⟩
    obtain ⟨p1, p2⟩ := mem_cell.1 hp
    have p1 := (hin _ _).1 p1
    obtain ⟨q1, q2⟩ := (hpx _ _ p1 e).1 p2
    exact ⟨⟨p, mem_cell.2 ⟨p1, q1⟩⟩, q2⟩
  refine ⟨hw.trans h.w, hh.trans h.h, h.len, fun e he => h.chain e (old e he).1, fun e e' he he' => h.disj e e' (old e he).1 (old e' he').1,
    fun e he => h.orig e (old e he).1, ?_, ?_⟩
  · intro e he l hl x y hi hp
    exact (hpx x y (h.inside.2 hi) e).2 ⟨h.all e (old e he).1 l hl x y hi hp, (old e he).2⟩
  · intro x y l e hi h1 h2
    exact h.back x y l e hi h1 ((hpx x y (h.inside.2 hi) e).1 h2).1

/-- two edges become one -/
theorem Linked.joined {mg : List Nat} {ch : Nat → List Nat} (h : Linked m0 m mg ch) {n s g : Nat} (q : EdgesJoined m m' n s g)
    (hn : ∀ x y l, m0.inside x y → m0.px x y = (.line, l) → m.px x y ≠ (.vertex, n)) {e1 e2 : Nat} (he : s = e1 ∧ g = e2 ∨ s = e2 ∧ g = e1) :
    ∃ mg', postMergeEdges mg s e1 e2 = .ok mg' ∧ Linked m0 m' mg' fun e => if e = s then ch s ++ ch g else ch e := by
  obtain ⟨rs, s1, s2, s3⟩ := h.chain s q.survivor
  obtain ⟨rg, g1, g2, g3⟩ := h.chain g q.merged
  have hdis := h.disj s g q.survivor q.merged q.ne
  rw [s1, g1] at hdis
  have hin : ∀ x y, m'.inside x y ↔ m.inside x y := fun x y => by simp only [Map.inside, q.w, q.h]
  have hval : (if s = e1 then e2 else e1) = g := by
    have := q.ne
    rcases he with ⟨rfl, rfl⟩ | ⟨rfl, rfl⟩
    · rw [if_pos rfl]
    · rw [if_neg this]
  have hpx : ∀ x y, m.inside x y → ∀ e, e ≠ s → (m'.px x y = (.line, e) ↔ m.px x y = (.line, e) ∧ e ≠ g) := by
    intro x y hi e hes
    rw [q.px x y hi]
    by_cases c : m.px x y = (.vertex, n) ∨ m.px x y = (.line, g)
    · rw [if_pos c]
      constructor
      · intro h; exact absurd (Prod.ext_iff.1 h).2.symm hes
      · rintro ⟨h1, h2⟩
        rcases c with c | c
        · rw [c] at h1; cases h1
        · rw [c] at h1; exact absurd (Prod.ext_iff.1 h1).2.symm h2
    · rw [if_neg c]
      constructor
      · intro h; exact ⟨h, fun e' => c (Or.inr (e' ▸ h))⟩
      · exact And.left
  have old : ∀ e, e ≠ s → (m'.cell (.line, e)).Nonempty → (m.cell (.line, e)).Nonempty ∧ e ≠ g := by
    rintro e hes ⟨p, hp⟩
    obtain ⟨p1, p2⟩ := mem_cell.1 hp
    have p1 := (hin _ _).1 p1
    obtain ⟨q1, q2⟩ := (hpx _ _ p1 e hes).1 p2
    exact ⟨⟨p, mem_cell.2 ⟨p1, q1⟩⟩, q2⟩
  refine ⟨mg.set ((s :: rs).getLast (by simp)) g, ?_, ?_⟩
  · unfold postMergeEdges
    rw [lastOf_chain rs _ s s2 (by have := length_le_of_nodup s3 s2.lt; omega), bind_ok, hval]
  · refine ⟨q.w.trans h.w, q.h.trans h.h, by rw [List.length_set, h.len], ?_, ?_, ?_, ?_, ?_⟩
    · intro e hne
      by_cases hes : e = s
      · subst hes
        refine ⟨rs ++ g :: rg, by rw [if_pos rfl, s1, g1]; rfl, ?_, ?_⟩
        · exact IsChain.append g2 rs e s2 s3 hdis
        · exact List.nodup_append.2 ⟨s3, g3, fun a ha b hb hab => hdis ha (hab ▸ hb)⟩
      · obtain ⟨o1, o2⟩ := old e hes hne
        obtain ⟨r, r1, r2, r3⟩ := h.chain e o1
        refine ⟨r, by rw [if_neg hes, r1], r2.set ?_, r3⟩
        intro hm
        have := h.disj s e q.survivor o1 (Ne.symm hes)
        rw [s1, r1] at this
        exact this (List.getLast_mem _) hm
    · have hs : ∀ e, e ≠ s → (m'.cell (.line, e)).Nonempty → List.Disjoint (ch s ++ ch g) (ch e) := by
        intro e hes hne x h1 h2
        obtain ⟨o1, o2⟩ := old e hes hne
        rcases List.mem_append.1 h1 with h1 | h1
        · exact h.disj s e q.survivor o1 (Ne.symm hes) h1 h2
        · exact h.disj g e q.merged o1 (Ne.symm o2) h1 h2
      intro e e' he he' hee
      by_cases hes : e = s
      · have hes' : e' ≠ s := fun h => hee (hes.trans h.symm)
        rw [if_pos hes, if_neg hes']
        exact hs e' hes' he'
      · by_cases hes' : e' = s
        · rw [if_neg hes, if_pos hes']
          exact (hs e hes he).symm
        · rw [if_neg hes, if_neg hes']
          exact h.disj e e' (old e hes he).1 (old e' hes' he').1 hee
    · intro e hne l hl
      by_cases hes : e = s
      · rw [if_pos hes] at hl
        rcases List.mem_append.1 hl with hl | hl
        · exact h.orig s q.survivor l hl
        · exact h.orig g q.merged l hl
      · rw [if_neg hes] at hl
        exact h.orig e (old e hes hne).1 l hl
    · intro e hne l hl x y hi hp
      by_cases hes : e = s
      · subst hes
        rw [if_pos rfl] at hl
        rw [q.px x y (h.inside.2 hi)]
        rcases List.mem_append.1 hl with hl | hl
        · rw [h.all e q.survivor l hl x y hi hp]
          split <;> rfl
        · rw [h.all g q.merged l hl x y hi hp, if_pos (Or.inr rfl)]
      · rw [if_neg hes] at hl
        exact (hpx x y (h.inside.2 hi) e hes).2 ⟨h.all e (old e hes hne).1 l hl x y hi hp, (old e hes hne).2⟩
    · intro x y l e hi h1 h2
      by_cases hes : e = s
      · rw [if_pos hes]
        rw [hes, q.px x y (h.inside.2 hi)] at h2
        split at h2
        · rename_i hc
          rcases hc with hc | hc
          · exact absurd hc (hn x y l hi h1)
          · exact List.mem_append_right _ (h.back x y l g hi h1 hc)
        · exact List.mem_append_left _ (h.back x y l s hi h1 h2)
      · rw [if_neg hes]
        exact h.back x y l e hi h1 ((hpx x y (h.inside.2 hi) e hes).1 h2).1

/-- pixels of edges do not become pixels of nodes -/
def LinesStay (m0 m : Map) : Prop := ∀ x y l, m0.inside x y → m0.px x y = (.line, l) → (m.px x y).1 ≠ .vertex

/-- One operation, with the links. -/
theorem Whole.mergedStep (hm : Whole m) {op : Op} (hcall : DartCall m op) {l : Nat} (hrun : run m op = .ok (m', l)) {mg : List Nat}
    {ch : Nat → List Nat} (h : Linked m0 m mg ch) (hs : LinesStay m0 m) :
    ∃ mg' ch', runMerged m mg op = .ok (m', mg') ∧ Linked m0 m' mg' ch' ∧ LinesStay m0 m' := by
  cases op with
  | removeIsolatedNode d =>
    have hrun' : removeIsolatedNode m d = .ok (m', l) := hrun
    obtain ⟨_, n, N, hn, hf, res⟩ := removeIsolatedNode_result hm.cons hrun'
    have hpx := res.image.px
    refine ⟨mg, ch, ?_, h.removed (k := none) res.image.w res.image.h ?_, ?_⟩
    · unfold runMerged
      dsimp only
      rw [hrun]; rfl
    · intro x y hi e
      rw [hpx x y hi]
      split
      · rename_i hc
        rw [hc]
        constructor
        · intro h; cases h
        · rintro ⟨h, -⟩; cases h
      · exact ⟨fun h => ⟨h, by simp⟩, And.left⟩
    · intro x y k hi hp
      rw [hpx x y (h.inside.2 hi)]
      split
      · simp
      · exact hs x y k hi hp
  | mergeFaces d =>
    have hrun' : mergeFaces m d = .ok (m', l) := hrun
    obtain ⟨e, g, E, q, -⟩ := hm.mergeFaces_removed hcall hrun'
    refine ⟨mg, ch, ?_, h.removed (k := some e) q.w q.h (edge_gone q), ?_⟩
    · unfold runMerged
      dsimp only
      rw [hrun]; rfl
    · intro x y k hi hp
      rw [q.px x y (h.inside.2 hi)]
      split
      · simp
      · exact hs x y k hi hp
  | removeBridge d =>
    have hrun' : removeBridge m d = .ok (m', l) := hrun
    obtain ⟨e, g, E, q, -⟩ := hm.removeBridge_removed hcall hrun'
    refine ⟨mg, ch, ?_, h.removed (k := some e) q.w q.h (edge_gone q), ?_⟩
    · unfold runMerged
      dsimp only
      rw [hrun]; rfl
    · intro x y k hi hp
      rw [q.px x y (h.inside.2 hi)]
      split
      · simp
      · exact hs x y k hi hp
  | mergeEdges d =>
    have hrun' : mergeEdges m d = .ok (m', l) := hrun
    obtain ⟨d1, e1, e2, g, n, q1, q2, q3, q4, q⟩ := hm.mergeEdges_joined hcall hrun'
    obtain ⟨mg', p1, p2⟩ := h.joined q (fun x y k hi hp hv => hs x y k hi hp (by rw [hv])) q4
    refine ⟨mg', _, ?_, p2, ?_⟩
    · unfold runMerged
      dsimp only
      rw [q1, bind_ok, q2, bind_ok, q3, bind_ok, hrun', bind_ok, p1, bind_ok]
    · intro x y k hi hp
      rw [q.px x y (h.inside.2 hi)]
      split
      · simp
      · exact hs x y k hi hp
where
  edge_gone {m m' : Map} {e s g : Nat} {E : Edge} (q : EdgeRemoved m m' e s g E) : ∀ x y, m.inside x y → ∀ k,
      m'.px x y = (.line, k) ↔ m.px x y = (.line, k) ∧ some k ≠ some e := by
    intro x y hi k
    rw [q.px x y hi]
    by_cases c : m.px x y = (.line, e) ∨ m.px x y = (.region, g)
    · rw [if_pos c]
      constructor
      · intro h; cases h
      · rintro ⟨h1, h2⟩
        rcases c with c | c
        · rw [c] at h1; exact absurd (congrArg some (Prod.ext_iff.1 h1).2.symm) h2
        · rw [c] at h1; cases h1
    · rw [if_neg c]
      constructor
      · intro h; exact ⟨h, fun e' => c (Or.inl ((Option.some.inj e') ▸ h))⟩
      · exact And.left

end

namespace Props

/-- `MergedReach m0 m mg`: links were constructed for `m0`, and a history of operations, called with darts of the map they are applied to
and returning normally, lead to map `m` and links `mg`. -/
inductive MergedReach (m0 : Map) : Map → List Nat → Prop
  | init : MergedReach m0 m0 (initMerged m0)
  | step {m m' mg mg'} (op : Op) (hr : MergedReach m0 m mg) (hc : DartCall m op) (h : runMerged m mg op = .ok (m', mg')) : MergedReach m0 m' mg'

theorem runMerged_run {m m' : Map} {mg mg' : List Nat} {op : Op} (h : runMerged m mg op = .ok (m', mg')) : ∃ l, run m op = .ok (m', l) := by
  cases op with
  | mergeEdges d =>
    unfold runMerged at h
    obtain ⟨d2, -, h⟩ := bind_eq_ok.1 h
    obtain ⟨e1, -, h⟩ := bind_eq_ok.1 h
    obtain ⟨e2, -, h⟩ := bind_eq_ok.1 h
    obtain ⟨⟨m1, s⟩, h1, h⟩ := bind_eq_ok.1 h
    obtain ⟨mg1, -, h⟩ := bind_eq_ok.1 h
    cases h
    exact ⟨s, h1⟩
  | removeIsolatedNode d =>
    obtain ⟨⟨m1, s⟩, h1, h⟩ := bind_eq_ok.1 h
    cases h
    exact ⟨s, h1⟩
  | mergeFaces d =>
    obtain ⟨⟨m1, s⟩, h1, h⟩ := bind_eq_ok.1 h
    cases h
    exact ⟨s, h1⟩
  | removeBridge d =>
    obtain ⟨⟨m1, s⟩, h1, h⟩ := bind_eq_ok.1 h
    cases h
    exact ⟨s, h1⟩

theorem mergedReach_inv {m0 : Map} (h0 : Whole m0) {m : Map} {mg : List Nat} (h : MergedReach m0 m mg) :
    DartReach m0 m ∧ Whole m ∧ LinesStay m0 m ∧ ∃ ch, Linked m0 m mg ch := by
  induction h with
  | init =>
    refine ⟨Relation.ReflTransGen.refl, h0, fun x y l _ hp => ?_, _, linked_init h0.cons⟩
    rw [hp]; simp
  | step op hr hc h ih =>
    obtain ⟨a1, a2, a3, ch, a4⟩ := ih
    obtain ⟨l, hl⟩ := runMerged_run h
    obtain ⟨mg1, ch', b1, b2, b3⟩ := a2.mergedStep hc hl a4 a3
    rw [h] at b1
    cases b1
    exact ⟨a1.tail ⟨op, l, hc, hl⟩, a2.step ⟨op, l, hc, hl⟩, b3, ch', b2⟩

/-- edge `l` of `m0` is a part of edge `e` of `m`: some pixel of `l` belongs to `e` now -/
def PartOf (m0 m : Map) (l e : Nat) : Prop := ∃ x y, m0.inside x y ∧ m0.px x y = (.line, l) ∧ m.px x y = (.line, e)

/-- **C98.** In a map from the constructor, for a source image of any size that is accepted with nodes at corners, if no node has a hole and
VIGRA's functions keep their promises: no history of operations makes the bookkeeping of merged edges fail or run forever.  After every
history and for every existing edge `e`, an edge of the first map belongs to `e` with all of its pixels or with none.  `edgeProtected(e)`
tells whether one of these parts has a flag.  `protectEdge(e, flag, b)`, for a flag of one bit, gives this bit the value `b` at all of
the parts, changes nothing else, and tells whether it changed anything.  Missing for the full property: the rethinning of edges, and flags of
several bits. -/
theorem protection_exact_partial {w h : Nat} {src : Int → Int → Bool} {cells : Int → Int → CellType}
    (hi : initCellImage .vertex (w + 4) (h + 4) (contourImage w h src) = .ok cells) {v : Components} (hv : v.Sane (w + 4) (h + 4) cells)
    (hn : NoHoles (typedMap (w + 4) (h + 4) cells v)) {mL : Map} {N n : Nat} (hr : labelCells (w + 4) (h + 4) cells v = .ok (mL, N, n))
    {o : Oracle} (hholes : ∀ l, (mL.cell (.vertex, l)).Nonempty → o.crackArea l = (mL.cell (.vertex, l)).card % 2 ^ 32)
    {m0 : Map} (h0 : initMap .vertex w h src v o = .ok m0) {m : Map} {mg : List Nat} (hm : MergedReach m0 m mg) :
    DartReach m0 m ∧
    (∀ op m' l, DartCall m op → run m op = .ok (m', l) → ∃ mg', runMerged m mg op = .ok (m', mg')) ∧
    ∀ (e : Nat) (E : Edge), m.edges[e]? = some E → E.live = true →
      (∀ l, PartOf m0 m l e → ∀ x y, m0.inside x y → m0.px x y = (.line, l) → m.px x y = (.line, e)) ∧
      ∀ prot : List Nat, m0.edges.length < prot.length →
        (∃ b, edgeProtected mg prot (mg.length + 1) e = .ok b ∧ (b = true ↔ ∃ l f, PartOf m0 m l e ∧ prot[l]? = some f ∧ f ≠ 0)) ∧
        ∀ (k : Nat) (b : Bool), ∃ prot' r, protectEdge mg (mg.length + 1) prot e (2 ^ k) b = .ok (prot', r) ∧ prot'.length = prot.length ∧
          (∀ l f, prot[l]? = some f → ∃ f', prot'[l]? = some f' ∧ (PartOf m0 m l e → ∀ j, f'.testBit j = if j = k then b else f.testBit j) ∧
            (¬PartOf m0 m l e → f' = f)) ∧
          (r = true ↔ prot' ≠ prot) := by
  have hw := initMap_whole hi hv hn hr hholes h0
  obtain ⟨a1, a2, a3, ch, a4⟩ := mergedReach_inv hw hm
  refine ⟨a1, fun op m' l hc hl => ?_, fun e E hE hlive => ?_⟩
  · obtain ⟨mg', -, b1, -⟩ := a2.mergedStep hc hl a4 a3
    exact ⟨mg', b1⟩
  · obtain ⟨c1, -, -, c2, -⟩ := a2.ends e E hE hlive
    have hne : (m.cell (.line, e)).Nonempty :=
      ⟨(E.start.x + dx E.start.dir, E.start.y + dy E.start.dir), mem_cell.2 ⟨a2.clean.near c1.inside c1.rim.nonregion _, c2⟩⟩
    obtain ⟨r, r1, r2, r3⟩ := a4.chain e hne
    have hpart : ∀ l, l ∈ e :: r ↔ PartOf m0 m l e := by
      intro l
      rw [← r1]
      constructor
      · intro hl
        obtain ⟨p, hp⟩ := a4.orig e hne l hl
        obtain ⟨p1, p2⟩ := mem_cell.1 hp
        exact ⟨p.1, p.2, p1, p2, a4.all e hne l hl _ _ p1 p2⟩
      · rintro ⟨x, y, p1, p2, p3⟩
        exact a4.back x y l e p1 p2 p3
    refine ⟨fun l hl x y p1 p2 => ?_, fun prot hprot => ?_⟩
    · have := (hpart l).2 hl
      rw [← r1] at this
      exact a4.all e hne l this x y p1 p2
    · have hlt : ∀ l ∈ e :: r, l < prot.length := fun l hl => by
        have h1 := r2.lt l hl
        have h2 := a4.len
        omega
      have hlen : (e :: r).length ≤ mg.length + 1 := by
        have := length_le_of_nodup r3 r2.lt
        omega
      constructor
      · obtain ⟨b, b1, b2⟩ := edgeProtected_chain r _ e r2 hlen hlt
        refine ⟨b, b1, b2.trans ?_⟩
        constructor
        · rintro ⟨l, q1, f, q2⟩; exact ⟨l, f, (hpart l).1 q1, q2⟩
        · rintro ⟨l, f, q1, q2⟩; exact ⟨l, (hpart l).2 q1, f, q2⟩
      · intro k b
        obtain ⟨p', c, q1, q2, q3, q4⟩ := protectEdge_chain (k := k) (b := b) r _ e prot r2 hlen r3 hlt
        refine ⟨p', c, q1, q2, fun l f hf => ⟨_, q3 l f hf, fun hp j => ?_, fun hp => ?_⟩, q4⟩
        · rw [if_pos ((hpart l).2 hp), setFlag_bit]
        · rw [if_neg (fun hc => hp ((hpart l).1 hc))]

/-! ## Examples -/

/-- edges 1 (to the right) and 2 (downwards) of the frame around one pixel become one -/
def frameMerged : Outcome (Map × List Nat) := runMerged frame0 (initMerged frame0) (.mergeEdges ⟨-1, -1, 6⟩)

def mergedLinks : Outcome (Map × List Nat) → Option (List Nat)
  | .ok p => some p.2
  | _ => none

theorem frameMerged_checks : (dartCheck frame0 (-1) (-1) 6 && decide (theLabel (run frame0 (.mergeEdges ⟨-1, -1, 6⟩)) = some 1) &&
    decide (mergedLinks frameMerged = some [0, 2, 2, 3, 4, 5]) && decide (frame0.px 0 (-1) = (.line, 2) ∧ frame0.px (-1) 0 = (.line, 1) ∧
      frame1.px 0 (-1) = (.line, 1) ∧ frame1.px (-1) 0 = (.line, 1) ∧ frame0.w = 5 ∧ frame0.h = 5 ∧ frame0.edges.length = 5 ∧
      (frame1.edges[1]?).map Edge.live = some true)) = true := by
  decide +kernel

/-- The frame around one pixel meets the hypotheses.  Edge 2 became a part of edge 1, and a flag of edge 2 protects edge 1. -/
theorem frame_protection : MergedReach frame0 frame1 [0, 2, 2, 3, 4, 5] ∧ PartOf frame0 frame1 2 1 ∧ PartOf frame0 frame1 1 1 ∧
    edgeProtected [0, 2, 2, 3, 4, 5] [0, 0, 4, 0, 0, 0] 7 1 = .ok true ∧
    ∃ f' prot', protectEdge [0, 2, 2, 3, 4, 5] 7 [0, 0, 4, 0, 0, 0] 1 (2 ^ 0) true = .ok (prot', true) ∧ prot'[2]? = some f' ∧
      f'.testBit 0 = true ∧ f'.testBit 2 = true := by
  have h := frameMerged_checks
  simp only [Bool.and_eq_true] at h
  obtain ⟨⟨⟨a1, a2⟩, a3⟩, a4⟩ := h
  have b := of_decide_eq_true a4
  have c := of_decide_eq_true a3
  have hcall : DartCall frame0 (.mergeEdges ⟨-1, -1, 6⟩) := dartCheck_spec a1
  have hrun : run frame0 (.mergeEdges ⟨-1, -1, 6⟩) = .ok (frame1, 1) := theMap_spec (of_decide_eq_true a2)
  obtain ⟨hi, hv, hn, N, n, hr, hholes, h0⟩ := frame_meets
  have key := fun m mg => protection_exact_partial (m := m) (mg := mg) hi hv hn hr hholes h0
  obtain ⟨mg, hmg⟩ := (key _ _ .init).2.1 _ _ _ hcall hrun
  have e : mg = [0, 2, 2, 3, 4, 5] := by
    rw [frameMerged, hmg] at c
    exact Option.some.inj c
  subst e
  have hreach : MergedReach frame0 frame1 _ := .step _ .init hcall hmg
  have k := key _ _ hreach
  clear key hi hv hn hr hholes h0 hcall hrun hmg a1 a2 a3 a4 c
  generalize frame0 = m0 at *
  generalize frame1 = m1 at *
  obtain ⟨b1, b2, b3, b4, b5, b6, b7, b8⟩ := b
  have hin : ∀ x y : Int, -2 ≤ x ∧ x < 3 ∧ -2 ≤ y ∧ y < 3 → m0.inside x y := by
    intro x y hxy
    unfold Map.inside
    rw [b5, b6]
    exact hxy
  have p2 : PartOf m0 m1 2 1 := ⟨0, -1, hin _ _ (by norm_num), b1, b3⟩
  refine ⟨hreach, p2, ⟨-1, 0, hin _ _ (by norm_num), b2, b4⟩, ?_⟩
  obtain ⟨E, hE, hlive⟩ : ∃ E, m1.edges[1]? = some E ∧ E.live = true := by
    cases hE : m1.edges[1]? with
    | none => rw [hE] at b8; cases b8
    | some E => rw [hE] at b8; exact ⟨E, rfl, Option.some.inj b8⟩
  obtain ⟨⟨v, v1, v2⟩, w⟩ := (k.2.2 1 E hE hlive).2 [0, 0, 4, 0, 0, 0] (by rw [b7]; decide)
  obtain ⟨p', r, w1, -, w2, w3⟩ := w 0 true
  obtain ⟨f', w4, w5, -⟩ := w2 2 4 rfl
  refine ⟨?_, f', p', ?_, w4, ?_, ?_⟩
  · rw [v2.2 ⟨2, 4, p2, rfl, by decide⟩] at v1
    exact v1
  · have : r = true := w3.2 fun hp => by
      rw [hp] at w4
      have h4 : f' = 4 := (Option.some.inj w4).symm
      have := w5 p2 0
      rw [h4] at this
      revert this
      decide
    rw [this] at w1
    exact w1
  · rw [w5 p2]; rfl
  · rw [w5 p2]; rfl

/-- **C98, violated for several flags at once.**  Taking away the flags `EPBorder | EPCanny` from an edge protected with `EPBorder` gives it
the flag `EPCanny`; it stays protected, and giving both to it changes nothing. -/
theorem protectEdge_violated : protectEdge [0, 1] 3 [0, 1] 1 3 false = .ok ([0, 2], true) ∧ edgeProtected [0, 1] [0, 2] 3 1 = .ok true ∧
    protectEdge [0, 1] 3 [0, 1] 1 3 true = .ok ([0, 1], false) := by
  decide

end Props

end Verif.FourEight
