import Verif.FourEight.HistJoin

/-!
# One operation
-/

namespace Verif.FourEight
open Verif Verif.CellImage Verif.Outcome

section
variable {m m' : Map}

theorem Whole.nodeLabel (_ : Whole m) {d : Dart} (hd : IsDart m d) : nodeLabel m d = .ok (m.px d.x d.y).2 := by
  unfold FourEight.nodeLabel Map.get
  rw [if_pos hd.inside]; rfl

/-- a call with a dart is allowed -/
theorem Whole.allowed (hm : Whole m) {op : Op} (h : DartCall m op) : Allowed m op := by
  cases op with
  | removeIsolatedNode d =>
    intro n f hn hf
    have h : AtIsolated m d := h
    have e1 : FourEight.nodeLabel m d = .ok (m.px d.x d.y).2 := by
      unfold FourEight.nodeLabel Map.get
      rw [if_pos h.inside]; rfl
    have e2 := leftFace_eq hm.clean h.inside (by rw [h.node]; decide)
    rw [e1] at hn
    rw [e2] at hf
    cases hn; cases hf
    exact hm.isolated h
  | mergeFaces d => exact hm.endsFit h
  | removeBridge d => exact trivial
  | mergeEdges d => exact trivial

/-- edge `e` is removed, and face `g` becomes part of face `s` -/
structure EdgeRemoved (m m' : Map) (e s g : Nat) (E : Edge) : Prop where
  edge : m.edges[e]? = some E
  live : E.live = true
  sides : leftL m E.start = s ∧ rightL m E.start = g ∨ leftL m E.start = g ∧ rightL m E.start = s
  w : m'.w = m.w
  h : m'.h = m.h
  px : ∀ x y, m.inside x y → m'.px x y = if m.px x y = (.line, e) ∨ m.px x y = (.region, g) then (.region, s) else m.px x y
  edges : m'.edges = m.edges.modify e fun E => { E with live := false }
  degrees : EndsLowered m m' E
  calls : EndsCalled m m' E
  init : m'.init = m.init

theorem Whole.mergeFaces_removed (hm : Whole m) {d : Dart} {l : Nat} (hd : IsDart m d) (h : mergeFaces m d = .ok (m', l)) :
    ∃ e g E, EdgeRemoved m m' e l g E ∧ (d = E.start ∨ d = E.stop) := by
  obtain ⟨l1, L, r, R, rd, e, E, g, G, hl, hL, hr, hR, hrd, he, hs, hg, res⟩ := mergeFaces_result hm.cons h
  obtain ⟨e0, E0, q1, q2, q3, q4⟩ := hm.edge hd
  obtain ⟨c1, c2, c3, c4, c5⟩ := hm.ends e0 E0 q2 q3
  have hrd' : rd = E0.start ∨ rd = E0.stop := by
    split at hrd
    · rw [hm.alpha hd q1 q2 q3] at hrd
      cases hrd
      split
      · right; rfl
      · left; rfl
    · cases hrd; exact q4
  obtain ⟨f1, f2⟩ := hm.fit e0 E0 q2 q3
  have hfin : e = e0 ∧ (leftL m E0.start = l ∧ rightL m E0.start = g ∨ leftL m E0.start = g ∧ rightL m E0.start = l) := by
    rcases hrd' with rfl | rfl
    · rw [edgeLabel_line (by rw [hm.nb c1, add_zero, c4])] at he
      rw [hm.leftFace c1] at hs
      rw [hm.rightFace c1] at hg
      exact ⟨(Outcome.ok.inj he).symm, Or.inl ⟨Outcome.ok.inj hs, Outcome.ok.inj hg⟩⟩
    · rw [edgeLabel_line (by rw [hm.nb c2, add_zero, c5])] at he
      rw [hm.leftFace c2] at hs
      rw [hm.rightFace c2] at hg
      exact ⟨(Outcome.ok.inj he).symm, Or.inr ⟨f1.trans (Outcome.ok.inj hg), f2.trans (Outcome.ok.inj hs)⟩⟩
  obtain ⟨rfl, hfin⟩ := hfin
  obtain rfl : E0 = E := by
    have := res.edge.1
    rw [q2] at this
    exact Option.some.inj this
  obtain ⟨px, i1, i2⟩ := res.image
  refine ⟨e, g, E0, ⟨q2, q3, hfin, res.w, res.h, ?_, res.edges, res.degrees, res.calls, res.init⟩, q4⟩
  intro x y hxy
  have h1 := i1.px x y hxy
  dsimp only at h1
  have h2 := i2.px x y hxy
  simp only [h1] at h2
  rw [h2]
  by_cases c1 : m.px x y = (.line, e)
  · simp [c1, res.ne]
  · simp [c1]

theorem Whole.removeBridge_removed (hm : Whole m) {d : Dart} {l : Nat} (hd : IsDart m d) (h : removeBridge m d = .ok (m', l)) :
    ∃ e g E, EdgeRemoved m m' e l g E ∧ (d = E.start ∨ d = E.stop) := by
  obtain ⟨_, e, E, he, hl, hr, res⟩ := removeBridge_result hm.cons h
  obtain ⟨e0, E0, q1, q2, q3, q4⟩ := hm.edge hd
  rw [edgeLabel_line (by rw [hm.nb hd, add_zero, q1])] at he
  cases he
  obtain rfl : E0 = E := by
    have := res.edge.1
    rw [q2] at this
    exact Option.some.inj this
  rw [hm.leftFace hd] at hl
  rw [hm.rightFace hd] at hr
  have hl := Outcome.ok.inj hl
  have hr := Outcome.ok.inj hr
  obtain ⟨f1, f2⟩ := hm.fit _ E0 q2 q3
  refine ⟨e, l, E0, ⟨q2, q3, ?_, res.image.w, res.image.h, ?_, res.edges, res.degrees, res.calls, res.init⟩, q4⟩
  · left
    rcases q4 with rfl | rfl
    · exact ⟨hl, hr⟩
    · exact ⟨f1.trans hr, f2.trans hl⟩
  · intro x y hxy
    rw [res.image.px x y hxy]
    by_cases c1 : m.px x y = (.line, e)
    · rw [if_pos c1, if_pos (Or.inl c1)]
    · rw [if_neg c1]
      by_cases c2 : m.px x y = (.region, l)
      · rw [if_pos (Or.inr c2), c2]
      · rw [if_neg (fun q => q.elim c1 c2)]

/-- One operation. -/
theorem Whole.step (hm : Whole m) (h : DartStep m m') : Whole m' := by
  obtain ⟨op, l, hcall, h⟩ := h
  obtain ⟨hcons, houter⟩ := Props.step_keeps hm.cons hm.outer ⟨op, l, hm.allowed hcall, h⟩
  cases op with
  | removeIsolatedNode d =>
    have hc : AtIsolated m d := hcall
    have hall : Allowed m (.removeIsolatedNode d) := hm.allowed hcall
    obtain ⟨_, n, N, hn, hf, res⟩ := removeIsolatedNode_result hm.cons h
    have e1 : FourEight.nodeLabel m d = .ok (m.px d.x d.y).2 := by
      unfold FourEight.nodeLabel Map.get
      rw [if_pos hc.inside]; rfl
    have e2 : n = (m.px d.x d.y).2 := by rw [e1] at hn; cases hn; rfl
    exact hm.removeNode (hall n _ hn hf) res.image.w res.image.h res.image.px res.nodes res.edges res.init
      (fun d' hd' => by rw [e2]; exact hc.free d' hd') hcons houter
  | mergeFaces d =>
    obtain ⟨e, g, E, q, -⟩ := hm.mergeFaces_removed hcall h
    exact hm.removeEdge q.edge q.live q.sides q.w q.h q.px q.edges q.degrees q.init hcons houter
  | removeBridge d =>
    obtain ⟨e, g, E, q, -⟩ := hm.removeBridge_removed hcall h
    exact hm.removeEdge q.edge q.live q.sides q.w q.h q.px q.edges q.degrees q.init hcons houter
  | mergeEdges d =>
    have hd : IsDart m d := hcall
    obtain ⟨d1, b, a, g, n, N, G, hd1, -, hg, hn, hab, hs, hsame, res, s1, s2, hs1, hs2, hj⟩ := mergeEdges_full hm.cons h
    obtain ⟨d1', t1, hd1d, -, -⟩ := Props.sigma_inverse hm.clean hm.noCorner hd (k := 1) (Or.inl rfl)
    rw [hd1] at t1
    obtain rfl := Outcome.ok.inj t1
    have key : IsDart m a ∧ IsDart m b ∧ sigma m 1 a = .ok b := by
      rcases hsame with ⟨heq, rfl⟩ | ⟨heq, hb⟩
      · obtain ⟨a', t1, ha, -, -⟩ := Props.sigma_inverse hm.clean hm.noCorner hd1d (k := 1) (Or.inl rfl)
        rw [hab] at t1
        obtain rfl := Outcome.ok.inj t1
        rw [dartEq_line (by rw [hm.nb ha, add_zero]; exact congrArg _ (hm.label ha))] at heq
        obtain rfl : a = d := by simpa using heq
        exact ⟨ha, hd1d, hd1⟩
      · obtain ⟨b', t1, hbd, -, -⟩ := Props.sigma_inverse hm.clean hm.noCorner hd1d (k := 1) (Or.inl rfl)
        rw [hb] at t1
        obtain rfl := Outcome.ok.inj t1
        rw [dartEq_line (by rw [hm.nb hbd, add_zero]; exact congrArg _ (hm.label hbd))] at heq
        obtain rfl : b = d := by simpa using heq
        rw [hd1] at hab
        obtain rfl := Outcome.ok.inj hab
        exact ⟨hd1d, hd, hb⟩
    obtain ⟨ha, hb, hba⟩ := key
    have hla : m.look a.x a.y a.dir = (.line, l) := by
      rw [edgeLabel_line (by rw [hm.nb ha, add_zero])] at hs
      rw [hm.label ha, Outcome.ok.inj hs]
    have hlb : m.look b.x b.y b.dir = (.line, g) := by
      rw [edgeLabel_line (by rw [hm.nb hb, add_zero])] at hg
      rw [hm.label hb, Outcome.ok.inj hg]
    have hna : m.px a.x a.y = (.vertex, n) := by
      obtain ⟨e, q1, -, -, q4⟩ := Props.sigma_inverse hm.clean hm.noCorner hb (k := 1) (Or.inl rfl)
      rw [hab] at q1
      obtain rfl := Outcome.ok.inj q1
      rw [chain_label hm.clean hm.nodes hb.inside hb.node _ q4]
      rw [hm.nodeLabel hb] at hn
      exact Prod.ext hb.node (Outcome.ok.inj hn)
    obtain ⟨px, i1, i2⟩ := res.image
    refine hm.join ha hb hba hab hna hla hlb res.ne hs1 hs2 res.w res.h ?_ res.nodes hj res.init hcons houter
    intro x y hxy
    have h1 := i1.px x y hxy
    dsimp only at h1
    have h2 := i2.px x y hxy
    simp only [h1] at h2
    rw [h2]
    by_cases c1 : m.px x y = (.vertex, n)
    · simp [c1, res.ne]
    · simp [c1]

/-- Histories. -/
theorem Whole.reach (hm : Whole m) (h : DartReach m m') : Whole m' := by
  induction h with
  | refl => exact hm
  | tail _ h ih => exact ih.step h

end

end Verif.FourEight
