import Verif.FourEight.PyrProps
import Verif.Pyramid.Props

/-!
# Levels of the pyramid over the pixel based map (C96)

The pyramid (`Verif.Pyramid`, C38) with the pixel based map in place of its template parameter.
-/

namespace Verif.FourEight.Props
open Verif Verif.CellImage Verif.Outcome Verif.FourEight Verif.Pyramid

/-- `CellPyramid<FourEightSegmentation, ...>` (cellpyramid.hxx:40-48): the operations are the recorded ones, a level is a map and its
`subIndex_`.  `tick` is what an operation adds to `subIndex_` (194, 203, 212, 221), which only decides about checkpoints.  Simplified: an
operation that does not return leaves the map as it was; the theorems below are about calls that return. -/
def pixelSys (tick : PyrOp → Map → Nat) : Sys (PyrOp × Nat) (Map × Nat) where
  exec o s := match FourEight.perform s.1 o.1 o.2 with
    | .ok r => ((r.1, s.2 + tick o.1 s.1), true)
    | _ => (s, false)
  sub s := s.2
  cells s := s.1.nodeCount + s.1.edgeCount + s.1.faceCount

/-- the number is that of a dart of the map the operation may be called with -/
def Called (m : Map) (o : PyrOp × Nat) : Prop := ∃ d, PyrCall m o.1 d ∧ serialize d = .ok o.2

/-- Sessions with a pyramid: legal calls that return (`Reach` of C38), operations called with darts of the top level. -/
inductive Session (tick : PyrOp → Map → Nat) (base : Map × Nat) : World (PyrOp × Nat) (Map × Nat) → Prop where
  | init : Session tick base ⟨Pyramid.init (pixelSys tick) base, [], ⟨[], 0, []⟩⟩
  | step {w w'} (c : Cmd (PyrOp × Nat)) (h : Session tick base w) (hl : c.legal w.log w.idx)
      (hc : ∀ o, c = .op o → Called w.pyr.top.st.1 o) (hr : c.run (pixelSys tick) w = (w', .ok ())) : Session tick base w'

/-- the conclusion of C95 for one map -/
def MapExact (m : Map) : Prop :=
    Consistent m ∧ Outer m ∧
    (∀ d, IsDart m d → EndsFit m d ∧ ∃ d', alpha m d = .ok d' ∧ IsDart m d' ∧ d' ≠ d ∧ alpha m d' = .ok d ∧ edgeLabel m d' = edgeLabel m d ∧
      leftFace m d' = rightFace m d ∧ rightFace m d' = leftFace m d) ∧
    (∀ d e, IsDart m d → IsDart m e → edgeLabel m e = edgeLabel m d → e = d ∨ alpha m d = .ok e) ∧
    (∀ d, IsDart m d → ∃ d', sigma m 1 d = .ok d' ∧ IsDart m d' ∧ sigma m 7 d' = .ok d ∧ nodeLabel m d' = nodeLabel m d ∧
      rightFace m d' = leftFace m d) ∧
    (∀ d e, IsDart m d → IsDart m e → nodeLabel m e = nodeLabel m d → ∃ i, sigmas m i d = .ok e) ∧
    (∀ (l : Nat) (A : Node), m.nodes[l]? = some A → A.live = true →
      A.degree = { d | IsDart m d ∧ m.px d.x d.y = (.vertex, l) }.ncard ∧
      (A.degree ≠ 0 → IsDart m A.anchor ∧ m.px A.anchor.x A.anchor.y = (.vertex, l)))

section
variable {tick : PyrOp → Map → Nat} {base : Map × Nat} {w : World (PyrOp × Nat) (Map × Nat)}

theorem Session.reach (h : Session tick base w) : Pyramid.Reach (pixelSys tick) base w := by
  induction h with
  | init => exact .init
  | step c _ hl _ hr ih => exact .step c ih hl hr

/-- every operation of a list is called with a dart when its turn has come -/
def AllCalled (tick : PyrOp → Map → Nat) (base : Map × Nat) (l : List (PyrOp × Nat)) : Prop :=
  ∀ l1 o l2 s, l = l1 ++ o :: l2 → Replay (pixelSys tick) base l1 s → Called s.1 o

theorem AllCalled.left {l1 l2 : List (PyrOp × Nat)} (h : AllCalled tick base (l1 ++ l2)) : AllCalled tick base l1 := by
  intro a o b s e hr
  exact h a o (b ++ l2) s (by rw [e]; simp) hr

theorem AllCalled.snoc {l : List (PyrOp × Nat)} {o : PyrOp × Nat} {s : Map × Nat} (h : AllCalled tick base l)
    (hr : Replay (pixelSys tick) base l s) (ho : Called s.1 o) : AllCalled tick base (l ++ [o]) := by
  intro a o' b t e hr'
  rcases List.eq_nil_or_concat b with rfl | ⟨b', z, rfl⟩
  · obtain ⟨rfl, e2⟩ := List.append_inj' e rfl
    cases e2
    rw [hr'.det hr]
    exact ho
  · have e' : l ++ [o] = (a ++ o' :: b') ++ [z] := by rw [e]; simp
    obtain ⟨rfl, -⟩ := List.append_inj' e' rfl
    exact h a o' b' t rfl hr'

theorem Session.called (h : Session tick base w) : AllCalled tick base (w.log.levels.flatten ++ w.log.cur) := by
  induction h with
  | init =>
    intro a o b s e
    simp at e
  | @step w w' c h hl hc hr ih =>
    have hg := (reach_good h.reach).pyr
    have hg' := (reach_good (Session.step c h hl hc hr).reach).pyr
    have hlog : w'.log = c.logged w.log w.idx ∨ w'.log = w.log := by
      cases c <;> simp only [Cmd.run] at hr
      case cutAboveHeld j => split at hr <;> simp only [Prod.mk.injEq] at hr <;> [exact absurd hr.2 (by simp); exact .inl (by rw [← hr.1])]
      case getLevel i => split at hr <;> simp only [Prod.mk.injEq] at hr <;> first | (cases hr.2; done) | exact .inl (by rw [← hr.1])
      case gotoLevel j i => split at hr <;> simp only [Prod.mk.injEq] at hr <;> [exact absurd hr.2 (by simp); exact .inl (by rw [← hr.1])]
      case approachLevel j i n => split at hr <;> simp only [Prod.mk.injEq] at hr <;> [exact absurd hr.2 (by simp); exact .inl (by rw [← hr.1])]
      all_goals
        simp only [Prod.mk.injEq] at hr
        exact .inl (by rw [← hr.1])
    rcases hlog with e | e
    swap
    · rw [e]; exact ih
    have hcut : ∀ i, w.log.depth = 0 → w'.log = { w.log with levels := w.log.levels.take i } →
        AllCalled tick base (w'.log.levels.flatten ++ w'.log.cur) := by
      intro i hd e
      have hcur := hg.cur hd
      rw [e]
      dsimp only
      rw [hcur, List.append_nil]
      rw [hcur, List.append_nil, ← List.take_append_drop i w.log.levels, List.flatten_append] at ih
      exact ih.left
    cases c with
    | op o =>
      have key := ih.snoc hg.top (hc o rfl)
      rw [e]
      dsimp only [Cmd.logged]
      split
      case isTrue hd => rw [hg.cur hd] at key ⊢; simpa using key
      case isFalse hd => simpa using key
    | beginComposite => rw [e]; exact ih
    | endComposite =>
      rw [e]
      dsimp only [Cmd.logged]
      split
      · simpa using ih
      · exact ih
    | cutAbove i =>
      refine hcut i (cut_depth hg fun hne => ?_) e
      simp only [Cmd.run, Pyramid.cutAbove, if_pos hne, Prod.mk.injEq] at hr
      exact absurd hr.2 (by simp)
    | cutAboveHeld j =>
      refine hcut _ (cut_depth hg fun hne => ?_) e
      simp only [Cmd.run, Pyramid.cutAboveLevel, if_pos hne] at hr
      split at hr <;> simp only [Prod.mk.injEq] at hr <;> exact absurd hr.2 (by simp)
    | _ => rw [e]; exact ih

theorem Replay.pyrReach {s t : Map × Nat} {l : List (PyrOp × Nat)} (h : Replay (pixelSys tick) s l t) (hc : AllCalled tick s l) :
    PyrReach s.1 t.1 := by
  induction h with
  | nil => exact .refl
  | @cons s t u o l h r ih =>
    have hstep : PyrStep s.1 t.1 := by
      obtain ⟨d, h1, h2⟩ := hc [] o l s rfl (.nil s)
      have h' : (match FourEight.perform s.1 o.1 o.2 with
        | .ok r => ((r.1, s.2 + tick o.1 s.1), true)
        | _ => (s, false)) = (t, true) := h
      cases hp : FourEight.perform s.1 o.1 o.2 with
      | ok r =>
        rw [hp] at h'
        simp only [Prod.mk.injEq, and_true] at h'
        refine ⟨o.1, d, o.2, r.2, h1, h2, ?_⟩
        rw [hp, ← h']
      | _ => rw [hp] at h'; simp at h'
    refine (Relation.ReflTransGen.single hstep).trans (ih ?_)
    intro a o' b v e hr
    exact hc (o :: a) o' b v (by rw [e]; rfl) (.cons h hr)

end

/-- **C96.** In every session with a pyramid over a constructed map, every level `getLevel` returns, the top level and the levels the client
keeps are exact maps.

Partial: hypotheses of C95; the statistics are not modelled. -/
theorem levels_exact_partial {w h : Nat} (hw : w + 4 ≤ 2 ^ 14) (hh : h + 4 ≤ 2 ^ 14) {src : Int → Int → Bool} {cells : Int → Int → CellType}
    (hi : initCellImage .vertex (w + 4) (h + 4) (contourImage w h src) = .ok cells) {v : Components} (hv : v.Sane (w + 4) (h + 4) cells)
    (hn : NoHoles (typedMap (w + 4) (h + 4) cells v)) {mL : Map} {N n : Nat} (hr : labelCells (w + 4) (h + 4) cells v = .ok (mL, N, n))
    {o : Oracle} (hholes : ∀ l, (mL.cell (.vertex, l)).Nonempty → o.crackArea l = (mL.cell (.vertex, l)).card % 2 ^ 32)
    {m0 : Map} (h0 : initMap .vertex w h src v o = .ok m0)
    (hfew : ∀ l, { d | IsDart m0 d ∧ m0.px d.x d.y = (.vertex, l) }.ncard < 2 ^ 16)
    {tick : PyrOp → Map → Nat} {W : World (PyrOp × Nat) (Map × Nat)} (hW : Session tick (m0, 0) W) :
    (∀ i, i ≤ W.log.levels.length → ∃ m k, getLevel (pixelSys tick) W.pyr i = .ok ⟨i, m, k⟩ ∧ PyrReach m0 m ∧ MapExact m) ∧
    MapExact W.pyr.top.st.1 ∧ (∀ L ∈ W.held, MapExact L.st.1) := by
  have hx : ∀ m, PyrReach m0 m → MapExact m := by
    intro m hm
    obtain ⟨q1, q2, q3, q4, q5, q6, q7, -⟩ := pyramid_exact_partial hw hh hi hv hn hr hholes h0 hfew hm
    exact ⟨q1, q2, q3, q4, q5, q6, q7⟩
  have hg := reach_good hW.reach
  have hcall := hW.called
  have hup : ∀ i, AllCalled tick (m0, 0) (W.log.upTo i) := by
    intro i
    rw [← List.take_append_drop i W.log.levels, List.flatten_append, List.append_assoc] at hcall
    exact hcall.left
  refine ⟨fun i hi => ?_, hx _ (Replay.pyrReach hg.pyr.top hcall), fun L hL => hx _ (Replay.pyrReach (hg.held L hL).at_ (hup _))⟩
  obtain ⟨⟨m, k⟩, h1, h2⟩ := getLevel_replays hW.reach hi
  have h3 := Replay.pyrReach h2 (hup i)
  exact ⟨m, k, h1, h3, hx m h3⟩

/-! ## A concrete session -/

/-- the upper edge removed, then the left one and the one on the right within a composite; level 1 and the top level are kept -/
def pixelSession : List (Cmd (PyrOp × Nat)) :=
  [.op (.removeEdgeWithEnds, 16385), .beginComposite, .op (.removeEdgeWithEnds, 6 * 2 ^ 28 + 16385), .op (.removeEdge, 6 * 2 ^ 28 + 49153),
    .endComposite, .getLevel 1, .copyTop]

/-- the first dart of a number -/
def calledCheck (m : Map) (s : Nat) : Bool :=
  match deserialize s with
  | .ok d => dartCheck m d.x d.y d.dir && decide (serialize d = .ok s)
  | _ => false

/-- all calls are legal and return, and operations other than `removeIsolatedNode` are called with darts -/
def pixelFine (tick : PyrOp → Map → Nat) : List (Cmd (PyrOp × Nat)) → World (PyrOp × Nat) (Map × Nat) → Bool
  | [], _ => true
  | c :: l, w =>
    decide (c.legal w.log w.idx) && decide ((c.run (pixelSys tick) w).2 = .ok ()) &&
    (match c with
      | .op o => decide (o.1 ≠ .removeIsolatedNode) && calledCheck w.pyr.top.st.1 o.2
      | _ => true) && pixelFine tick l (c.run (pixelSys tick) w).1

theorem calledCheck_spec {m : Map} {op : PyrOp} {s : Nat} (hop : op ≠ .removeIsolatedNode) (h : calledCheck m s = true) : Called m (op, s) := by
  unfold calledCheck at h
  split at h
  · rename_i d hd
    obtain ⟨h1, h2⟩ := Bool.and_eq_true_iff.1 h
    refine ⟨d, ?_, of_decide_eq_true h2⟩
    cases op
    case removeIsolatedNode => exact absurd rfl hop
    all_goals exact dartCheck_spec h1
  · cases h

theorem session_runs {tick : PyrOp → Map → Nat} {base : Map × Nat} {l : List (Cmd (PyrOp × Nat))} {w : World (PyrOp × Nat) (Map × Nat)}
    (h : Session tick base w) (hf : pixelFine tick l w = true) : Session tick base (runs (pixelSys tick) l w) := by
  induction l generalizing w with
  | nil => exact h
  | cons c l ih =>
    unfold pixelFine at hf
    simp only [Bool.and_eq_true, decide_eq_true_eq] at hf
    obtain ⟨⟨⟨h1, h2⟩, h3⟩, h4⟩ := hf
    refine ih (.step c h h1 ?_ ?_) h4
    · rintro ⟨op, s⟩ rfl
      simp only [Bool.and_eq_true, decide_eq_true_eq] at h3
      exact calledCheck_spec h3.1 h3.2
    · rw [← h2]

theorem pixel_checks : (pixelFine (fun _ _ => 1) pixelSession (new (pixelSys fun _ _ => 1) (frame0, 0)) &&
    decide ((runs (pixelSys fun _ _ => 1) pixelSession (new (pixelSys fun _ _ => 1) (frame0, 0))).log.levels.length = 2) &&
    decide ((runs (pixelSys fun _ _ => 1) pixelSession (new (pixelSys fun _ _ => 1) (frame0, 0))).held.map
      (fun L => (L.index, L.st.1.nodeCount, L.st.1.edgeCount, L.st.1.faceCount)) = [(1, 4, 3, 1), (2, 3, 1, 1)])) = true := by
  decide +kernel

/-- The session meets the hypotheses; the theorem speaks about its levels. -/
theorem pixel_session_exact : ∃ W, Session (fun _ _ => 1) (frame0, 0) W ∧ W.log.levels.length = 2 ∧
    W.held.map (fun L => (L.index, L.st.1.nodeCount, L.st.1.edgeCount, L.st.1.faceCount)) = [(1, 4, 3, 1), (2, 3, 1, 1)] ∧
    ∃ m k, getLevel (pixelSys fun _ _ => 1) W.pyr 2 = .ok ⟨2, m, k⟩ ∧ MapExact m := by
  have hc := pixel_checks
  simp only [Bool.and_eq_true, decide_eq_true_eq] at hc
  obtain ⟨⟨h1, h2⟩, h3⟩ := hc
  have hs := session_runs .init h1
  change Session _ _ (runs _ pixelSession (new (pixelSys fun _ _ => 1) (frame0, 0))) at hs
  generalize runs (pixelSys fun _ _ => 1) pixelSession (new (pixelSys fun _ _ => 1) (frame0, 0)) = W at h2 h3 hs
  refine ⟨_, hs, h2, h3, ?_⟩
  obtain ⟨hi, hv, hn, N, n, hr, hholes, h0⟩ := frame_meets
  have hf := of_decide_eq_true (Bool.and_eq_true_iff.1 pyr_checks).2
  obtain ⟨m, k, q1, -, q2⟩ := (levels_exact_partial (by norm_num) (by norm_num) hi hv hn hr hholes h0
    (fun l => few_of_small l (by rw [hf.1, hf.2]; norm_num)) hs).1 2 (le_of_eq h2.symm)
  exact ⟨m, k, q1, q2⟩

end Verif.FourEight.Props
