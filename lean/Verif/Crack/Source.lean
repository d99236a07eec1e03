import Verif.Crack.Sorted
import Verif.GeoMap.Init
import Mathlib.Algebra.Order.Floor.Ring
import Mathlib.Algebra.Order.Floor.Semiring

/-! # Source labels of the faces of a crack edge map -/

set_option linter.unusedSectionVars false

namespace Verif.Crack
open Verif Verif.GeoMap

section Model
variable {α : Type} {K : Type} [Field K] [LinearOrder K] [FloorRing K]

/-- the conversion `(int)v`: truncation towards zero -/
def toInt (v : K) : Int := if 0 ≤ v then ⌊v⌋ else ⌈v⌉

/-- crackedgemap.hxx:162-190: the pixel to the left of the step from `p1` to `p2` -/
def leftPos (p1 p2 : Pt K) : Pos :=
  let x := toInt (p1.1 + 1)
  let y := toInt (p1.2 + 1)
  if p1.1 = p2.1 then (if p1.2 < p2.2 then (x, y) else (x - 1, y - 1))
  else if p1.1 < p2.1 then (x, y - 1)
  else (x - 1, y)

/-- crackedgemap.hxx:160-192: one face; reading a pixel outside of the image or points that do not exist is undefined -/
def sourceLabel (lab : Pos → α) (w h : Nat) (m : GMap K) (F : Face K) : Outcome α :=
  match F.anchors with
  | [] => .ub
  | d :: _ => (m.guaranteedEdge d).bind fun e =>
    match e.dartPts d with
    | p1 :: p2 :: _ =>
      let q := leftPos p1 p2
      if 0 ≤ q.1 ∧ q.1 < w ∧ 0 ≤ q.2 ∧ q.2 < h then .ok (lab q) else .ub
    | _ => .ub

/-- crackedgemap.hxx:158-193: the loop over the faces; labels without a face are skipped -/
def sourceLabelLoop (lab : Pos → α) (w h : Nat) (m : GMap K) : List Nat → (Nat → α) → Outcome (Nat → α)
  | [], out => .ok out
  | f :: fs, out =>
    match m.face f with
    | none => sourceLabelLoop lab w h m fs out
    | some F => (sourceLabel lab w h m F).bind fun a => sourceLabelLoop lab w h m fs (Function.update out f a)

/-- crackedgemap.hxx:149-194 `getSourceLabels` into an array of the given size -/
def getSourceLabels (lab : Pos → α) (w h : Nat) (m : GMap K) (size : Nat) (out : Nat → α) : Outcome (Nat → α) :=
  if ¬ m.initialized then .precond
  else if size < m.nFaces then .precond
  else sourceLabelLoop lab w h m (List.range' 1 (m.nFaces - 1)) out

end Model

variable {α : Type} [LinearOrder α] {K : Type} [Field K] [LinearOrder K] [IsStrictOrderedRing K]

theorem floor_half [FloorRing K] (n : Int) (hn : 0 ≤ n) : toInt ((n : K) - 1 / 2 + 1) = n := by
  have h0 : (0 : K) ≤ n := by exact_mod_cast hn
  unfold toInt
  rw [if_pos (by linarith)]
  rw [Int.floor_eq_iff]
  constructor <;> linarith

theorem leftPos_vec [FloorRing K] {p : Pos} {x : Dir} (hp : 0 ≤ p.1 ∧ 0 ≤ p.2) : leftPos (vec p : Pt K) (vec (p + x.diff)) = leftPix p x := by
  unfold leftPos
  rw [← vec_step]
  simp only [vec, floor_half _ hp.1, floor_half _ hp.2]
  cases x <;> simp [dirVec, leftPix]

/-- the border of the image with the outside to the left: a segment encloses negative area -/
theorem border_area {lab : Pos → α} {w h : Nat} {p : Pos} {x : Dir} (hc : IsCrack lab w h p x) (hl : pix lab w h (leftPix p x) = none) :
    (vec (p + x.diff) : Pt K).1 * (vec p : Pt K).2 - (vec (p + x.diff) : Pt K).2 * (vec p : Pt K).1 < 0 := by
  have hr : pix lab w h (rightPix p x) ≠ none := fun h => hc (hl.trans h.symm)
  have hout : ∀ {q : Pos}, pix lab w h q = none → ¬ (0 ≤ q.1 ∧ q.1 < w ∧ 0 ≤ q.2 ∧ q.2 < h) := fun {q} h hin => by rw [pix_in hin] at h; cases h
  have hin : ∀ {q : Pos}, pix lab w h q ≠ none → (0 ≤ q.1 ∧ q.1 < w ∧ 0 ≤ q.2 ∧ q.2 < h) := fun {q} h => by
    by_contra hc
    exact h (pix_out hc)
  have h1 := hout hl
  have h2 := hin hr
  obtain ⟨a, b⟩ := p
  rw [← vec_step]
  cases x <;> simp only [leftPix, rightPix] at h1 h2 <;> simp only [vec, dirVec, Prod.fst_add, Prod.snd_add]
  · have : b = 0 := by omega
    subst this
    simp only [Int.cast_zero]
    linarith
  · have : a = 0 := by omega
    subst this
    simp only [Int.cast_zero]
    linarith
  · have hb : (1 : K) ≤ b := by
      have : (1 : Int) ≤ b := by omega
      exact_mod_cast this
    linarith
  · have ha : (1 : K) ≤ a := by
      have : (1 : Int) ≤ a := by omega
      exact_mod_cast this
    linarith

theorem area2_steps {l : List Dart} (hl : Linked l) (f : ∀ a ∈ l, (vec (al a).1 : Pt K).1 * (vec a.1 : Pt K).2 - (vec (al a).1 : Pt K).2 * (vec a.1 : Pt K).1 < 0) :
    area2 (ptsOf (K := K) l) ≤ 0 := by
  induction l with
  | nil => simp [ptsOf, area2]
  | cons a l ih =>
    have ha := f a (by simp)
    cases l with
    | nil =>
      simp only [ptsOf, List.map_cons, List.map_nil, area2]
      linarith
    | cons b l =>
      have h1 := ih (by unfold Linked at hl ⊢; rw [List.isChain_cons_cons] at hl; exact hl.2) (fun c hc => f c (by simp [hc]))
      have hb : b.1 = (al a).1 := by unfold Linked at hl; rw [List.isChain_cons_cons] at hl; exact hl.1
      simp only [ptsOf, List.map_cons, area2] at h1 ⊢
      rw [hb] at h1
      linarith

variable {lab : Pos → α} {w h : Nat} {eight : Bool} {m : GMap K} {ns : List Pos} {es : List Path}

/-- the label to the left of the dart, for all its segments -/
def LeftIs (lab : Pos → α) (w h : Nat) (m : GMap K) (d : Int) (v : Option α) : Prop :=
  ∀ i p x, Step m d i p x → pix lab w h (leftPix p x) = v

/-- an initialized copy of the map -/
structure Ready2 (m t u : GMap K) : Prop where
  sorted : Sorted m t
  same : SameGraph t u
  map : MapOK u
  init : u.initialized
  signed : ContoursSigned u

theorem Ready2.edge {t u : GMap K} (R : Ready2 m t u) (l : Nat) : (u.edge l).map (·.pts) = (m.edge l).map (·.pts) := by
  have h1 := congrArg (Option.map (fun x : Nat × Nat × List (Pt K) × Nat => x.2.2.1)) (R.same.edge l)
  simp only [Option.map_map, Function.comp_def] at h1
  rw [h1]
  obtain ⟨sg, sgi, e⟩ := R.sorted.same
  rw [e]

theorem step_congr {m u : GMap K} (hp : ∀ l, (u.edge l).map (·.pts) = (m.edge l).map (·.pts)) {d : Int} {i : Nat} {p : Pos} {x : Dir} :
    Step u d i p x ↔ Step m d i p x := by
  have key : ∀ {m u : GMap K}, (∀ l, (u.edge l).map (·.pts) = (m.edge l).map (·.pts)) → Step u d i p x → Step m d i p x := by
    rintro m u hp ⟨e, h1, h2, h3⟩
    have := hp d.natAbs
    rw [h1] at this
    obtain ⟨e', g1, g2⟩ := Option.map_eq_some_iff.mp this.symm
    have : e'.dartPts d = e.dartPts d := by unfold Edge.dartPts; rw [g2]
    exact ⟨e', g1, by rw [this]; exact h2, by rw [this]; exact h3⟩
  exact ⟨key hp, key fun l => (hp l).symm⟩

theorem Done.leftIs (D : Done lab w h eight m ns es) {d : Int} {P : Path} (h1 : es[d.natAbs - 1]? = some P) {a : Dart} (ha : a ∈ P.dir d) :
    LeftIs lab w h m d (pix lab w h (leftPix a.1 a.2)) := by
  intro i p x hs
  obtain ⟨-, P', g1, g2⟩ := D.step.mp hs
  rw [h1] at g1
  cases g1
  exact (D.side h1 (List.mem_of_getElem? g2) ha).1

/-- the label to the left does not change along a contour -/
theorem Done.contour (D : Done lab w h eight m ns es) {t : GMap K} (T : Sorted m t) {d d' : Int} (hd : t.liveD d) (hr : t.phiReach d d') :
    ∃ v, LeftIs lab w h m d v ∧ LeftIs lab w h m d' v := by
  obtain ⟨k, rfl⟩ := hr
  induction k with
  | zero =>
    obtain ⟨P, -, a, -, h1, -, -, -, h2, -, -⟩ := D.phi T hd
    have := D.leftIs h1 h2
    exact ⟨_, this, this⟩
  | succ k ih =>
    obtain ⟨v, h1, h2⟩ := ih
    refine ⟨v, h1, ?_⟩
    have hlive : ∀ k, t.liveD (t.phi^[k] d) := by
      intro k
      induction k with
      | zero => exact hd
      | succ k ih =>
        rw [Function.iterate_succ_apply']
        have : t.liveD (-(t.phi^[k] d)) := by unfold GMap.liveD at *; simpa using ih
        exact (T.graph.sigmaInv_live _ this).1
    rw [Function.iterate_succ_apply']
    obtain ⟨P, P', a, b, g1, g2, g3, g4, g5, g6, g7⟩ := D.phi T (hlive k)
    have e := h2
    obtain ⟨i, hi⟩ := List.mem_iff_getElem?.mp g5
    have := h2 i a.1 a.2 (D.step.mpr ⟨g3, P, g1, hi⟩)
    rw [← this, ← g7]
    exact D.leftIs g2 g6

theorem Done.dartArea_border (D : Done lab w h eight m ns es) {u : GMap K} (hp : ∀ l, (u.edge l).map (·.pts) = (m.edge l).map (·.pts)) {d : Int}
    (hl : LeftIs lab w h m d none) : u.dartArea d ≤ 0 := by
  unfold GMap.dartArea
  cases he : u.edge d.natAbs with
  | none => exact le_refl _
  | some e =>
    simp only
    have h0 := hp d.natAbs
    rw [he] at h0
    obtain ⟨e', h1, h2⟩ := Option.map_eq_some_iff.mp h0.symm
    obtain ⟨hd, P, h3, rfl⟩ := D.built.edge_iff.mp h1
    have hok := D.paths P (List.mem_of_getElem? h3)
    have e2 : e.areaOf d = area2 (ptsOf (K := K) (P.dir d)) / 2 := by
      rw [← hok.dartPts d]
      unfold Edge.areaOf partialArea
      have h2' : P.pts = e.pts := h2
      rw [h2']
      split
      · rfl
      · rw [area2_reverse]; ring
    rw [e2]
    have := area2_steps (K := K) (hok.linked d) (by
      intro a ha
      obtain ⟨i, hi⟩ := List.mem_iff_getElem?.mp ha
      exact border_area (K := K) ((D.mem a).mpr (dir_mem h3 hi)) (hl i a.1 a.2 (D.step.mpr ⟨hd, P, h3, hi⟩)))
    linarith

/-- the outside of the image is not to the left of the outer contour of a face -/
theorem Done.outer_inside (D : Done lab w h eight m ns es) {t u : GMap K} (R : Ready2 m t u) {f : Nat} {F : Face K} (hF : u.face f = some F) (hf : f ≠ 0) :
    ∃ a rest v, F.anchors = a :: rest ∧ u.liveD a ∧ ∀ d, u.phiReach a d → LeftIs lab w h m d (some v) := by
  obtain ⟨a, rest, h1, h2, -⟩ := R.signed.outer f F hF hf
  have hphi : u.phi = t.phi := by funext d; unfold GMap.phi; rw [R.same.sigmaInv]
  have hla : u.liveD a := by
    have := (R.map.contours R.init).anchor_left f F a hF (by rw [h1]; simp)
    unfold GMap.liveD
    unfold GMap.left? at this
    cases he : u.edge a.natAbs with
    | none => rw [he] at this; cases this
    | some e => rfl
  have hlt : t.liveD a := by
    have := R.same.edge a.natAbs
    unfold GMap.liveD at *
    cases he : t.edge a.natAbs with
    | none =>
      rw [he] at this
      simp only [Option.map_none, Option.map_eq_none_iff] at this
      rw [this] at hla
      cases hla
    | some e => rfl
  have hcont : ∀ d, u.phiReach a d → ∃ v, LeftIs lab w h m a v ∧ LeftIs lab w h m d v := by
    intro d hd
    apply D.contour R.sorted hlt
    unfold GMap.phiReach at *
    rwa [hphi] at hd
  -- a segment of the anchor
  have hma : m.liveD a := by
    obtain ⟨sg, sgi, e⟩ := R.sorted.same
    rw [e] at hlt
    exact hlt
  obtain ⟨P, δ, n, g0, g1, g2, -⟩ := D.leaves hma
  have hstep : Step m a 0 δ.1 δ.2 := D.step.mpr ⟨g0, P, g1, g2⟩
  have huniq : ∀ {v v' : Option α}, LeftIs lab w h m a v → LeftIs lab w h m a v' → v = v' := fun h h' => (h _ _ _ hstep).symm.trans (h' _ _ _ hstep)
  cases hv : pix lab w h (leftPix δ.1 δ.2) with
  | some v =>
    refine ⟨a, rest, v, h1, hla, fun d hd => ?_⟩
    obtain ⟨v', k1, k2⟩ := hcont d hd
    have := k1 _ _ _ hstep
    rw [hv] at this
    rw [this]
    exact k2
  | none =>
    exfalso
    have : u.orbitArea a ≤ 0 := by
      classical
      unfold GMap.orbitArea
      apply Finset.sum_nonpos
      intro d hd
      rw [Finset.mem_filter] at hd
      obtain ⟨v', k1, k2⟩ := hcont d hd.2
      have := k1 _ _ _ hstep
      rw [hv] at this
      subst this
      exact D.dartArea_border R.edge k2
    linarith

theorem sourceLabelLoop_spec [FloorRing K] {u : GMap K} (fs : List Nat) (hn : fs.Nodup) (val : Nat → α)
    (hval : ∀ f ∈ fs, ∀ F, u.face f = some F → sourceLabel lab w h u F = .ok (val f)) (out : Nat → α) :
    ∃ out', sourceLabelLoop lab w h u fs out = .ok out' ∧
      ∀ f, out' f = if f ∈ fs ∧ (u.face f).isSome = true then val f else out f := by
  induction fs generalizing out with
  | nil => exact ⟨out, rfl, fun f => by simp⟩
  | cons f fs ih =>
    rw [List.nodup_cons] at hn
    unfold sourceLabelLoop
    cases hf : u.face f with
    | none =>
      obtain ⟨out', h1, h2⟩ := ih hn.2 (fun g hg => hval g (by simp [hg])) out
      refine ⟨out', h1, fun g => ?_⟩
      rw [h2]
      by_cases e : g = f
      · subst e
        simp [hf]
      · simp [e]
    | some F =>
      simp only
      rw [hval f (by simp) F hf, Outcome.bind_ok]
      obtain ⟨out', h1, h2⟩ := ih hn.2 (fun g hg => hval g (by simp [hg])) (Function.update out f (val f))
      refine ⟨out', h1, fun g => ?_⟩
      rw [h2]
      by_cases e : g = f
      · subst e
        simp [hf, hn.1]
      · simp [e]

theorem Done.sourceLabel [FloorRing K] (D : Done lab w h eight m ns es) {t u : GMap K} (R : Ready2 m t u) {f : Nat} {F : Face K} (hF : u.face f = some F) (hf : f ≠ 0) :
    ∃ v, sourceLabel lab w h u F = .ok v ∧ ∃ a rest, F.anchors = a :: rest ∧ ∀ d, u.phiReach a d → LeftIs lab w h m d (some v) := by
  obtain ⟨a, rest, v, h1, h2, h3⟩ := D.outer_inside R hF hf
  refine ⟨v, ?_, a, rest, h1, h3⟩
  obtain ⟨e, he⟩ := Option.isSome_iff_exists.mp h2
  have h0 := R.edge a.natAbs
  rw [he] at h0
  obtain ⟨e', h4, h5⟩ := Option.map_eq_some_iff.mp h0.symm
  obtain ⟨hd, P, h6, rfl⟩ := D.built.edge_iff.mp h4
  have hok := D.paths P (List.mem_of_getElem? h6)
  have hpts : e.dartPts a = ptsOf (K := K) (P.dir a) := by
    rw [← hok.dartPts a]
    unfold Edge.dartPts
    rw [show e.pts = P.pts from h5.symm]
  unfold Crack.sourceLabel
  rw [h1]
  simp only
  have hge : u.guaranteedEdge a = .ok e := by
    exact guaranteedEdge_of he
  rw [hge, Outcome.bind_ok, hpts]
  cases hl : P.dir a with
  | nil => exact absurd hl (P.dir_ne a)
  | cons δ l =>
    have hδ : (P.dir a)[0]? = some δ := by rw [hl]; rfl
    have hs := h3 a ⟨0, rfl⟩ 0 δ.1 δ.2 (D.step.mpr ⟨hd, P, h6, hδ⟩)
    have hc := (D.mem δ).mpr (dir_mem h6 hδ)
    have hins := isCrack_inside hc
    simp only [ptsOf, List.map_cons]
    have e1 : (vec (al δ).1 : Pt K) = vec (δ.1 + δ.2.diff) := rfl
    rw [e1, leftPos_vec (K := K) ⟨hins.1, hins.2.2.1⟩]
    unfold pix at hs
    split at hs
    · rename_i hin
      rw [if_pos hin, Option.some.inj hs]
    · cases hs

end Verif.Crack
