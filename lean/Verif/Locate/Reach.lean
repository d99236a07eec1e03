import Verif.Locate.Steps
import Verif.LabelImage.Props

/-! # The faces of points along histories -/

set_option linter.unusedSectionVars false

namespace Verif.Locate
open Verif Verif.GeoMap Verif.Polygon Verif.Scan Verif.PermLemmas Verif.LabelImage

variable {K : Type} [Field K] [LinearOrder K] [IsStrictOrderedRing K]

/-- The invariant. -/
structure Placed (s : GMap K) : Prop where
  good : Good s
  geom : GoodGeom s
  init : s.initialized
  sub : Subdivision s

theorem Placed.next {s t : GMap K} (hs : Placed s) (hg : Good t) (hG : GoodGeom t) (hi : t.initialized) {ren : Nat → Nat} (h : Moves s t ren) : Placed t :=
  ⟨hg, hG, hi, hs.sub.transfer hg.map hi hG.geom ren h.loc h.edge⟩

/-- What a removal does: `sl` survives. -/
theorem mergeFaces_moves {s t : GMap K} (hs : Good s) {h : Hooks K} {d : Int} {sl : Nat} (hMt : MapOK t) (e : s.mergeFaces h d = .ok (some sl, t)) :
    ∃ ml, MergeFacesEffect s t d sl ml ∧ Moves s t (fun f => if f = ml then sl else f) := by
  obtain ⟨ml, E⟩ := mergeFaces_effect hs e
  exact ⟨ml, E, moves_mergeFaces hs.map hMt E⟩

theorem mergeFaces_moves_none {s t : GMap K} (hs : Good s) {h : Hooks K} {d : Int} (hMt : MapOK t) (e : s.mergeFaces h d = .ok (none, t)) :
    Moves s t id ∧ t.nFaces = s.nFaces ∧ ∀ f, (t.face f).isSome = (s.face f).isSome := by
  have hA := mergeFaces_vetoed hs.map e
  obtain ⟨face', hf'⟩ := hA.eq
  have hp : ∀ f, (t.face f).isSome = (s.face f).isSome := by
    intro f
    rcases hA.faces f with h1 | ⟨F, a1, a2, a3⟩
    · rw [h1]
    · rw [a1, a3]; rfl
  exact ⟨moves_same hs.map hMt (by rw [hf']) (fun l => by rw [hf']) (fun d => by rw [hf']; rfl) hp, by rw [hf'], hp⟩

/-- One call: points stay in their faces as long as these exist. -/
theorem call_moves {s t : GMap K} (hs : Good s) (hG : GoodGeom s) (hi : s.initialized) {h : Hooks K} {op : LOp K} (hl : op.op.legal s) (hf : op.fits s)
    (e : op.op.run h s = .ok t) :
    Good t ∧ GoodGeom t ∧ t.initialized ∧ ∃ ren, Moves s t ren ∧ ∀ f, (t.face f).isSome = true → ren f = f := by
  have hni : ¬ s.initialized → t.initialized → PlanarOK t := fun hn => absurd hi hn
  have hg : Good t := by
    rcases call_safe hs h op.op hl with e' | ⟨t', e', hg⟩
    · rw [e'] at e; cases e
    · rw [e'] at e; cases e; exact hg hni
  refine ⟨hg, call_geom hs hG h op.op hl (LOp.fits_op hf) e hni, ?_⟩
  have plain : t.nEdges = s.nEdges → t.nFaces = s.nFaces → (∀ l, (t.edge l).map (·.pts) = (s.edge l).map (·.pts)) →
      (∀ d, t.left? d = s.left? d) → (∀ f, (t.face f).isSome = (s.face f).isSome) →
      t.initialized ∧ ∃ ren, Moves s t ren ∧ ∀ f, (t.face f).isSome = true → ren f = f := by
    intro h1 h2 h3 h4 h5
    refine ⟨?_, id, moves_same hs.map hg.map h1 h3 h4 h5, fun _ _ => rfl⟩
    unfold GMap.initialized at hi ⊢; rw [h2]; exact hi
  have hsz : t.nFaces = s.nFaces → t.initialized := fun h => by unfold GMap.initialized at hi ⊢; rw [h]; exact hi
  have bridge : ∀ d, (s.removeBridge h d).map (·.2) = .ok t →
      t.initialized ∧ ∃ ren, Moves s t ren ∧ ∀ f, (t.face f).isSome = true → ren f = f := by
    intro d e
    obtain ⟨⟨r, t'⟩, e2, rfl⟩ := map_ok e
    cases r with
    | none =>
      have := removeBridge_vetoed hs e2
      simp only at this hg ⊢
      subst this
      exact ⟨hi, id, moves_same hg.map hg.map rfl (fun _ => rfl) (fun _ => rfl) (fun _ => rfl), fun _ _ => rfl⟩
    | some f =>
      have E := removeBridge_effect hs e2
      exact ⟨hsz E.sizes.2.2, id, moves_removeBridge hs.map hg.map E, fun _ _ => rfl⟩
  have faces : ∀ d, (s.mergeFaces h d).map (·.2) = .ok t →
      t.initialized ∧ ∃ ren, Moves s t ren ∧ ∀ f, (t.face f).isSome = true → ren f = f := by
    intro d e
    obtain ⟨⟨r, t'⟩, e2, rfl⟩ := map_ok e
    cases r with
    | none =>
      obtain ⟨h1, h2, -⟩ := mergeFaces_moves_none hs hg.map e2
      exact ⟨hsz h2, id, h1, fun _ _ => rfl⟩
    | some f =>
      obtain ⟨ml, E, h1⟩ := mergeFaces_moves hs hg.map e2
      refine ⟨hsz E.sizes.2.2, _, h1, fun f hf => if_neg ?_⟩
      rintro rfl
      rw [E.face_gone.2] at hf; cases hf
  cases op with
  | addNode p label =>
    cases e
    exact plain rfl rfl (fun _ => rfl) (fun _ => rfl) (fun _ => rfl)
  | removeIsolatedNode n =>
    obtain ⟨⟨r, t'⟩, e2, rfl⟩ := map_ok (show (s.removeIsolatedNode h n).map (·.2) = .ok t from e)
    obtain ⟨h1, h2, h3, h4⟩ := removeIsolatedNode_same e2
    exact plain h1 h2 (fun l => by simp only; rw [h3]) (fun d => by unfold GMap.left?; simp only; rw [h3]) (fun f => by simp only; rw [h4])
  | area f =>
    obtain ⟨x, t', e2, -, hA⟩ := area_step hs.map (f := f) hl
    have e : (s.faceArea (some f)).map (·.2) = .ok t := e
    rw [e2] at e
    cases e
    obtain ⟨face', hf'⟩ := hA.eq
    refine plain (by rw [hf']) (by rw [hf']) (fun l => by rw [hf']) (fun d => by rw [hf']; rfl) (fun f => ?_)
    rcases hA.faces f with h1 | ⟨F, a1, a2, a3⟩
    · rw [h1]
    · rw [a1, a3]; rfl
  | setFlags l flags =>
    have e : s.setFlags l flags = .ok t := e
    unfold GMap.setFlags GMap.guaranteedEdge at e
    rw [Int.natAbs_natCast] at e
    cases he : s.edge l with
    | none => rw [he] at e; cases e
    | some a =>
      rw [he] at e
      cases e
      have hk : ∀ k, (s.setEdge l (some { a with flags := flags })).edge k = if k = l then some { a with flags := flags } else s.edge k := by
        intro k
        simp only [GMap.setEdge]
        by_cases hk : k = l
        · subst hk; rw [Function.update_self, if_pos rfl]
        · rw [Function.update_of_ne hk, if_neg hk]
      refine plain rfl rfl (fun k => ?_) (fun d => ?_) (fun _ => rfl)
      · rw [hk]
        split_ifs with h1
        · subst h1; rw [he]; rfl
        · rfl
      · unfold GMap.left?
        rw [hk]
        split_ifs with h1
        · rw [h1, he]; rfl
        · rfl
  | mergeEdges d =>
    obtain ⟨⟨r, t'⟩, e2, rfl⟩ := map_ok (show (s.mergeEdges h d).map (·.2) = .ok t from e)
    simp only at hg ⊢
    by_cases hp : ¬ s.liveD d ∨ (s.sigma d).natAbs = d.natAbs ∨ s.sigma (s.sigma d) ≠ d
    · rw [mergeEdges_precond h s d hp] at e2; cases e2
    push Not at hp
    cases r with
    | none =>
      obtain ⟨hA, -⟩ := mergeEdges_vetoed hs.map e2
      obtain ⟨face', hf'⟩ := hA.eq
      refine plain (by simp only; rw [hf']) (by simp only; rw [hf']) (fun l => by simp only; rw [hf']) (fun d => by simp only; rw [hf']; rfl) (fun f => ?_)
      have := congrArg Option.isSome (hA.face f)
      simpa using this
    | some l =>
      obtain ⟨d1, d2, m, h12, -, E⟩ := mergeEdges_effect hs.map e2
      refine ⟨hsz E.sizes.2.2, id, ?_, fun _ _ => rfl⟩
      rcases h12 with ⟨rfl, rfl⟩ | ⟨rfl, rfl⟩
      · exact moves_mergeEdges hs.map hi hG.geom hg.map rfl hp.2.2 E
      · exact moves_mergeEdges hs.map hi hG.geom hg.map hp.2.2 rfl E
  | splitEdge l i np =>
    obtain ⟨⟨r, t'⟩, e2, rfl⟩ := map_ok (show (s.splitEdge l i np).map (·.2) = .ok t from e)
    simp only at hg ⊢
    have E := splitEdge_effect hs.map e2
    refine ⟨hsz E.sizes.2.2, id, moves_splitEdge hs.map hg.map hf ?_ E, fun _ _ => rfl⟩
    intro ed he
    by_contra hi'
    have hpts := hs.map.graph.pts_ne l ed he
    have hge : s.guaranteedEdge (l : Int) = .ok ed := guaranteedEdge_of (by simpa using he)
    unfold GMap.splitEdge at e2
    simp only [hge, bind, Outcome.bind_ok, if_neg hpts, hi', not_false_eq_true, if_true] at e2
    cases e2
  | removeBridge d => exact bridge d e
  | mergeFaces d => exact faces d e
  | removeEdge d =>
    have e : (s.removeEdge h d).map (·.2) = .ok t := e
    unfold GMap.removeEdge at e
    rw [if_pos hi] at e
    cases he : s.edge d.natAbs with
    | none => simp [GMap.guaranteedEdge, he, bind, Outcome.map, Outcome.bind] at e
    | some a =>
      simp only [guaranteedEdge_of he, bind, Outcome.bind_ok] at e
      split_ifs at e
      · exact bridge d e
      · exact faces d e

/-- `mergeEdges`, `splitEdge` and the calls that change no edge keep all edge points and all faces. -/
theorem call_keeps {s t : GMap K} (hs : Good s) (hG : GoodGeom s) {h : Hooks K} {op : LOp K} (hl : op.op.legal s) (hf : op.fits s)
    (e : op.op.run h s = .ok t)
    (hop : (∃ d, op = .mergeEdges d) ∨ (∃ l i np, op = .splitEdge l i np) ∨ (∃ p n, op = .addNode p n) ∨ (∃ n, op = .removeIsolatedNode n) ∨
      (∃ f, op = .area f) ∨ ∃ l x, op = .setFlags l x) :
    (∀ c, OnEdge s c → OnEdge t c) ∧ ∀ f, (t.face f).isSome = (s.face f).isSome := by
  have plain : (∀ l, (t.edge l).map (·.pts) = (s.edge l).map (·.pts)) → ∀ c, OnEdge s c → OnEdge t c := by
    rintro h3 c ⟨l, a, ha, hq⟩
    have := h3 l
    rw [ha] at this
    obtain ⟨b, hb, hp⟩ := Option.map_eq_some_iff.mp this
    exact ⟨l, b, hb, by rw [hp]; exact hq⟩
  rcases hop with ⟨d, rfl⟩ | ⟨l, i, np, rfl⟩ | ⟨p, n, rfl⟩ | ⟨n, rfl⟩ | ⟨f, rfl⟩ | ⟨l, x, rfl⟩
  · obtain ⟨⟨r, t'⟩, e2, rfl⟩ := map_ok (show (s.mergeEdges h d).map (·.2) = .ok t from e)
    cases r with
    | none =>
      obtain ⟨hA, -⟩ := mergeEdges_vetoed hs.map e2
      obtain ⟨face', hf'⟩ := hA.eq
      refine ⟨plain fun l => by simp only; rw [hf'], fun f => ?_⟩
      have := congrArg Option.isSome (hA.face f)
      simpa using this
    | some l =>
      obtain ⟨d1, d2, m, -, -, E⟩ := mergeEdges_effect hs.map e2
      exact ⟨fun c => onEdge_mergeEdges hs.map hG.geom E, fun f => by
        have := congrArg Option.isSome (E.faces f)
        simpa using this⟩
  · obtain ⟨⟨r, t'⟩, e2, rfl⟩ := map_ok (show (s.splitEdge l i np).map (·.2) = .ok t from e)
    have E := splitEdge_effect hs.map e2
    refine ⟨fun c => onEdge_splitEdge hs.map hf ?_ E, fun f => by rw [E.faces]⟩
    intro ed he
    by_contra hi'
    have hpts := hs.map.graph.pts_ne l ed he
    have hge : s.guaranteedEdge (l : Int) = .ok ed := guaranteedEdge_of (by simpa using he)
    unfold GMap.splitEdge at e2
    simp only [hge, bind, Outcome.bind_ok, if_neg hpts, hi', not_false_eq_true, if_true] at e2
    cases e2
  · cases e
    exact ⟨plain fun _ => rfl, fun _ => rfl⟩
  · obtain ⟨⟨r, t'⟩, e2, rfl⟩ := map_ok (show (s.removeIsolatedNode h n).map (·.2) = .ok t from e)
    obtain ⟨h1, h2, h3, h4⟩ := removeIsolatedNode_same e2
    exact ⟨plain fun l => by simp only; rw [h3], fun f => by simp only; rw [h4]⟩
  · obtain ⟨x, t', e2, -, hA⟩ := area_step hs.map (f := f) hl
    have e : (s.faceArea (some f)).map (·.2) = .ok t := e
    rw [e2] at e
    cases e
    obtain ⟨face', hf'⟩ := hA.eq
    refine ⟨plain fun l => by rw [hf'], fun f => ?_⟩
    rcases hA.faces f with h1 | ⟨F, a1, a2, a3⟩
    · rw [h1]
    · rw [a1, a3]; rfl
  · have e : s.setFlags l x = .ok t := e
    unfold GMap.setFlags GMap.guaranteedEdge at e
    rw [Int.natAbs_natCast] at e
    cases he : s.edge l with
    | none => rw [he] at e; cases e
    | some a =>
      rw [he] at e
      cases e
      refine ⟨plain fun k => ?_, fun _ => rfl⟩
      simp only [GMap.setEdge]
      by_cases hk : k = l
      · subst hk; rw [Function.update_self, he]; rfl
      · rw [Function.update_of_ne hk]

end Verif.Locate
