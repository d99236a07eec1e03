import Verif.Crack.Source
import Mathlib.Logic.Relation

/-! # The border of the image in a crack edge map -/

set_option linter.unusedSectionVars false

namespace Verif.Crack
open Verif Verif.GeoMap

variable {α : Type} [LinearOrder α]

/-- a crack of the border, with the outside to the left -/
def Bd (lab : Pos → α) (w h : Nat) (δ : Dart) : Prop := IsCrack lab w h δ.1 δ.2 ∧ pix lab w h (leftPix δ.1 δ.2) = none

theorem bd_iff {lab : Pos → α} {w h : Nat} {a b : Int} {x : Dir} : Bd lab w h ((a, b), x) ↔
    (match x with
     | .E => b = 0 ∧ 0 ≤ a ∧ a < w ∧ 0 < h
     | .N => a = 0 ∧ 1 ≤ b ∧ b ≤ h ∧ 0 < w
     | .W => b = h ∧ 1 ≤ a ∧ a ≤ w ∧ 0 < h
     | .S => a = w ∧ 0 ≤ b ∧ b < h ∧ 0 < w) := by
  have hout : ∀ {q : Pos}, pix lab w h q = none ↔ ¬ (0 ≤ q.1 ∧ q.1 < w ∧ 0 ≤ q.2 ∧ q.2 < h) := fun {q} => by
    unfold pix
    split <;> simp_all
  have hcr : Bd lab w h ((a, b), x) ↔ pix lab w h (leftPix (a, b) x) = none ∧ ¬ pix lab w h (rightPix (a, b) x) = none := by
    unfold Bd IsCrack
    constructor
    · rintro ⟨h1, h2⟩
      exact ⟨h2, fun h3 => h1 (h2.trans h3.symm)⟩
    · rintro ⟨h1, h2⟩
      exact ⟨fun h3 => h2 (h3.symm.trans h1), h1⟩
  rw [hcr, hout, hout]
  cases x <;> simp only [leftPix, rightPix] <;> omega

/-- at most one crack of the border leaves a corner -/
theorem bd_unique {lab : Pos → α} {w h : Nat} {q : Pos} {x y : Dir} (h1 : Bd lab w h (q, x)) (h2 : Bd lab w h (q, y)) : x = y := by
  obtain ⟨a, b⟩ := q
  rw [bd_iff] at h1 h2
  cases x <;> cases y <;> first | rfl | (simp only at h1 h2; omega)

/-- the border, clockwise from the upper left corner -/
def border (w h : Nat) (k : Nat) : Dart :=
  if k < w then (((k : Int), 0), .E)
  else if k < w + h then (((w : Int), (k : Int) - w), .S)
  else if k < w + h + w then (((w : Int) - ((k : Int) - w - h), (h : Int)), .W)
  else ((0, (h : Int) - ((k : Int) - w - h - w)), .N)

theorem bd_border {lab : Pos → α} {w h : Nat} (hw : 0 < w) (hh : 0 < h) {k : Nat} (hk : k < 2 * (w + h)) : Bd lab w h (border w h k) := by
  unfold border
  split_ifs <;> rw [bd_iff] <;> simp only [true_and] <;> omega

theorem border_bd {lab : Pos → α} {w h : Nat} {δ : Dart} (hd : Bd lab w h δ) : ∃ k < 2 * (w + h), border w h k = δ := by
  obtain ⟨⟨a, b⟩, x⟩ := δ
  rw [bd_iff] at hd
  cases x <;> simp only at hd
  · refine ⟨a.toNat, by omega, ?_⟩
    unfold border
    rw [if_pos (by omega)]
    simp only [Prod.mk.injEq, and_true]
    omega
  · refine ⟨w + h + w + (h - b.toNat), by omega, ?_⟩
    unfold border
    rw [if_neg (by omega), if_neg (by omega), if_neg (by omega)]
    simp only [Prod.mk.injEq, and_true]
    omega
  · refine ⟨w + h + (w - a.toNat), by omega, ?_⟩
    unfold border
    rw [if_neg (by omega), if_neg (by omega), if_pos (by omega)]
    simp only [Prod.mk.injEq, and_true]
    omega
  · refine ⟨w + b.toNat, by omega, ?_⟩
    unfold border
    rw [if_neg (by omega), if_pos (by omega)]
    simp only [Prod.mk.injEq, and_true]
    omega

theorem border_next {w h : Nat} {k : Nat} (hk : k + 1 < 2 * (w + h)) : (border w h (k + 1)).1 = (al (border w h k)).1 := by
  unfold border al
  split_ifs <;> simp only [Dir.diff, Prod.mk_add_mk, Prod.mk.injEq] <;> omega

theorem border_last {w h : Nat} (hw : 0 < w) (hh : 0 < h) : (border w h 0).1 = (al (border w h (2 * (w + h) - 1))).1 := by
  unfold border al
  rw [if_pos hw, if_neg (by omega), if_neg (by omega), if_neg (by omega)]
  simp only [Dir.diff, Prod.mk_add_mk, Prod.mk.injEq]
  omega

/-- a set of border cracks that contains with a crack the next one contains all -/
theorem border_closed {lab : Pos → α} {w h : Nat} (hw : 0 < w) (hh : 0 < h) {S : Dart → Prop} {δ : Dart} (hS : S δ) (hδ : Bd lab w h δ)
    (hc : ∀ a b, S a → Bd lab w h a → Bd lab w h b → b.1 = (al a).1 → S b) {ε : Dart} (hε : Bd lab w h ε) : S ε := by
  obtain ⟨i, hi, rfl⟩ := border_bd hδ
  obtain ⟨j, hj, rfl⟩ := border_bd hε
  have up : ∀ k i, i + k < 2 * (w + h) → S (border w h i) → S (border w h (i + k)) := by
    intro k
    induction k with
    | zero => exact fun i _ h => h
    | succ k ih =>
      intro i hlt h0
      exact hc _ _ (ih i (by omega) h0) (bd_border hw hh (by omega)) (bd_border hw hh hlt) (border_next hlt)
  have h1 := up (2 * (w + h) - 1 - i) i (by omega) hS
  rw [show i + (2 * (w + h) - 1 - i) = 2 * (w + h) - 1 by omega] at h1
  have h2 : S (border w h 0) := hc _ _ h1 (bd_border hw hh (by omega)) (bd_border hw hh (by omega)) (border_last hw hh)
  have := up j 0 (by omega) h2
  simpa using this

variable {K : Type} [Field K] [LinearOrder K] [IsStrictOrderedRing K]
variable {lab : Pos → α} {w h : Nat} {eight : Bool} {m : GMap K} {ns : List Pos} {es : List Path}

/-- the next dart of a contour leaves the corner where the dart ends -/
theorem Done.phi_corner (D : Done lab w h eight m ns es) {t : GMap K} (T : Sorted m t) {d : Int} (hd : t.liveD d) :
    ∃ P P' a b, es[d.natAbs - 1]? = some P ∧ es[(t.phi d).natAbs - 1]? = some P' ∧ d ≠ 0 ∧ t.phi d ≠ 0 ∧ t.liveD (t.phi d) ∧
      (P.dir d)[P.darts.length - 1]? = some a ∧ (P'.dir (t.phi d))[0]? = some b ∧ b.1 = (al a).1 := by
  obtain ⟨sg, sgi, hs⟩ := T.same
  have hedge : t.edge = m.edge := by rw [hs]
  have hlive : ∀ x, t.liveD x ↔ m.liveD x := fun x => by unfold GMap.liveD; rw [hedge]
  have hstart : ∀ x, t.startN? x = m.startN? x := fun x => by unfold GMap.startN?; rw [hedge]
  have hdn : t.liveD (-d) := by unfold GMap.liveD at *; simpa using hd
  obtain ⟨hpl, hps⟩ := T.graph.sigmaInv_live _ hdn
  have hst := T.graph.start_sigma _ hpl
  rw [hps] at hst
  have hphi : t.phi d = t.prevSigma (-d) := rfl
  rw [← hphi] at hpl hps hst
  obtain ⟨P, β, n, h0, h1, h2, h3, h4, -⟩ := D.leaves ((hlive _).mp hdn)
  obtain ⟨P', χ, n2, g0, g1, g2, g3, g4, -⟩ := D.leaves ((hlive _).mp hpl)
  rw [hstart, hstart, h3, g3] at hst
  cases hst
  rw [h4] at g4
  have hlast := dir_neg h0 h2
  rw [neg_neg] at hlast
  exact ⟨P, P', al β, χ, by simpa using h1, g1, by omega, g0, hpl, by simpa using hlast, g2, by rw [al_al]; exact (Option.some.inj g4).symm⟩

/-- All darts with the outside of the image to their left are on one contour. -/
theorem Done.border_contour (D : Done lab w h eight m ns es) (hw : 0 < w) (hh : 0 < h) {t : GMap K} (T : Sorted m t) {d d' : Int} (hd : t.liveD d)
    (hd' : t.liveD d') (hl : LeftIs lab w h m d none) (hl' : LeftIs lab w h m d' none) : t.phiReach d d' := by
  obtain ⟨sg, sgi, hs⟩ := T.same
  have hedge : t.edge = m.edge := by rw [hs]
  have hlive : ∀ x, t.liveD x ↔ m.liveD x := fun x => by unfold GMap.liveD; rw [hedge]
  have horb : ∀ k, t.liveD (t.phi^[k] d) ∧ LeftIs lab w h m (t.phi^[k] d) none := by
    intro k
    have hk : t.liveD (t.phi^[k] d) := by
      induction k with
      | zero => exact hd
      | succ k ih =>
        rw [Function.iterate_succ_apply']
        obtain ⟨-, -, -, -, -, -, -, -, h, -⟩ := D.phi_corner T ih
        exact h
    refine ⟨hk, ?_⟩
    obtain ⟨v, h1, h2⟩ := D.contour T hd ⟨k, rfl⟩
    obtain ⟨P, δ, n, g0, g1, g2, -⟩ := D.leaves ((hlive _).mp hd)
    have hst := D.step.mpr ⟨g0, P, g1, g2⟩
    rw [← hl _ _ _ hst, h1 _ _ _ hst]
    exact h2
  have hbd : ∀ {x : Int} {P : Path} {i : Nat} {a : Dart}, x ≠ 0 → es[x.natAbs - 1]? = some P → (P.dir x)[i]? = some a → LeftIs lab w h m x none → Bd lab w h a :=
    fun {x P i a} h0 h1 h2 h3 => ⟨(D.mem a).mpr (dir_mem h1 h2), h3 _ _ _ (D.step.mpr ⟨h0, P, h1, h2⟩)⟩
  obtain ⟨P, δ, n, g0, g1, g2, -⟩ := D.leaves ((hlive _).mp hd)
  obtain ⟨P', δ', n', k0, k1, k2, -⟩ := D.leaves ((hlive _).mp hd')
  have key := border_closed (lab := lab) hw hh (S := fun a => ∃ k P i, t.phi^[k] d ≠ 0 ∧ es[(t.phi^[k] d).natAbs - 1]? = some P ∧ (P.dir (t.phi^[k] d))[i]? = some a)
    ⟨0, P, 0, g0, g1, g2⟩ (hbd g0 g1 g2 hl) (by
      rintro a b ⟨k, P, i, a0, a1, a2⟩ - hb hab
      obtain ⟨c1, c2⟩ := horb k
      have hi := (List.getElem?_eq_some_iff.mp a2).1
      by_cases hlt : i + 1 < (P.dir (t.phi^[k] d)).length
      · obtain ⟨c, hc⟩ : ∃ c, (P.dir (t.phi^[k] d))[i + 1]? = some c := ⟨_, List.getElem?_eq_getElem hlt⟩
        have e1 : c.1 = (al a).1 := ((D.paths P (List.mem_of_getElem? a1)).linked _).get a2 hc
        have hcb := hbd a0 a1 hc c2
        have e : c = b := by
          obtain ⟨q, y⟩ := c
          obtain ⟨q', y'⟩ := b
          simp only at e1 hab
          subst e1
          subst hab
          rw [bd_unique hcb hb]
        rw [← e]
        exact ⟨k, P, i + 1, a0, a1, hc⟩
      · obtain ⟨Q, Q', a', c, q1, q2, q3, q4, q5, q6, q7, q8⟩ := D.phi_corner T c1
        rw [a1] at q1
        cases q1
        rw [P.dir_length] at hlt hi
        rw [show P.darts.length - 1 = i by omega, a2] at q6
        cases q6
        have hcb := hbd q4 q2 q7 (by have := (horb (k + 1)).2; rwa [Function.iterate_succ_apply'] at this)
        have e : c = b := by
          obtain ⟨q, y⟩ := c
          obtain ⟨q', y'⟩ := b
          simp only at q8 hab
          subst q8
          subst hab
          rw [bd_unique hcb hb]
        rw [← e]
        refine ⟨k + 1, Q', 0, ?_⟩
        rw [Function.iterate_succ_apply']
        exact ⟨q4, q2, q7⟩) (hbd k0 k1 k2 hl')
  obtain ⟨k, Q, i, a0, a1, a2⟩ := key
  exact ⟨k, (dir_index D.once a0 k0 a1 k1 a2 k2).1⟩

/-- crackedgemap.cxx:231-237 `CrackEdgeMapGenerator::initializeMap` up to the marking of the border; `pick` stands for the
search of the enclosing face of a contour -/
def initMap [DecidableEq K] (pick : GMap K → Int → Option Nat) (m : GMap K) : Outcome (GMap K) :=
  m.sortEdgesDirectly.bind fun t => t.initializeMap pick

theorem Done.ready (D : Done lab w h eight m ns es) (pick : GMap K → Int → Option Nat) :
    ∃ t u, initMap pick m = .ok u ∧ Ready2 m t u := by
  obtain ⟨t, h1, h2⟩ := D.sort
  obtain ⟨sg, sgi, hs⟩ := h2.same
  have hr : ReachG t := .call Hooks.none .sortEdgesDirectly D.built.reach trivial trivial h1
    (fun hn hi => absurd (by rw [hs] at hi; exact hi) hn)
  have hn : ¬ t.initialized := fun hi => D.built.fresh (by rw [hs] at hi; exact hi)
  have ht : t.edgesSorted = true := by rw [hs]
  rcases initializeMap_spec pick hr.reach.good.map hn hr.reach.good.fresh with ⟨-, h, -⟩ | ⟨s1, u, h3, h4, h5, h6, h7, -, h8⟩
  · rw [ht] at h
    cases h
  · have : s1 = t := by
      rcases h3 with ⟨-, h⟩ | ⟨h, -⟩
      · exact h
      · rw [ht] at h
        cases h
    subst this
    refine ⟨s1, u, ?_, h2, h7, h5, h6, h8⟩
    unfold initMap
    rw [h1, Outcome.bind_ok, h4]

theorem CrackMap.congr {m u : GMap K} (M : CrackMap lab w h eight m) (hn : u.node = m.node)
    (he : ∀ l, (u.edge l).map (fun e => (e.startN, e.endN, e.pts)) = (m.edge l).map (fun e => (e.startN, e.endN, e.pts))) : CrackMap lab w h eight u := by
  have hp : ∀ l, (u.edge l).map (·.pts) = (m.edge l).map (·.pts) := fun l => by
    have := congrArg (Option.map (fun x : Nat × Nat × List (Pt K) => x.2.2)) (he l)
    simpa only [Option.map_map, Function.comp_def] using this
  have hex : ∀ {l : Nat} {e : Edge K}, u.edge l = some e → ∃ e', m.edge l = some e' ∧ e'.startN = e.startN ∧ e'.endN = e.endN ∧ e'.pts = e.pts := by
    intro l e h
    have := he l
    rw [h] at this
    obtain ⟨e', g1, g2⟩ := Option.map_eq_some_iff.mp this.symm
    simp only [Prod.mk.injEq] at g2
    exact ⟨e', g1, g2⟩
  have hex' : ∀ {l : Nat} {e : Edge K}, m.edge l = some e → ∃ e', u.edge l = some e' ∧ e'.startN = e.startN ∧ e'.endN = e.endN ∧ e'.pts = e.pts := by
    intro l e h
    have := he l
    rw [h] at this
    obtain ⟨e', g1, g2⟩ := Option.map_eq_some_iff.mp this
    simp only [Prod.mk.injEq] at g2
    exact ⟨e', g1, g2⟩
  constructor
  · simpa only [step_congr hp] using M.each_crack
  · intro d e h
    obtain ⟨e', g1, -, -, g2⟩ := hex h
    have := M.only_cracks d e' g1
    simpa only [step_congr hp, g2] using this
  · rw [hn]
    exact M.junctions
  · intro n nd h
    rw [hn] at h
    obtain ⟨p, h1, h2, h3⟩ := M.nodes n nd h
    refine ⟨p, h1, h2, h3.imp_right ?_⟩
    rintro ⟨l, e, k1, k2, k3⟩
    obtain ⟨e', g1, g2, g3, -⟩ := hex' k1
    exact ⟨l, e', g1, g2.trans k2, g3.trans k3⟩
  · rw [hn]
    exact M.distinct
  · intro l e h
    obtain ⟨e', g1, g2, g3, g4⟩ := hex h
    have := M.ends l e' g1
    rw [hn]
    rwa [g2, g3, g4] at this
  · intro l e i p h
    obtain ⟨e', g1, g2, g3, g4⟩ := hex h
    have := M.inner l e' i p g1
    rwa [g4] at this
  · simpa only [step_congr hp] using M.sides

theorem Ready2.crackMap {t u : GMap K} (R : Ready2 m t u) (M : CrackMap lab w h eight m) : CrackMap lab w h eight u := by
  obtain ⟨sg, sgi, e⟩ := R.sorted.same
  apply M.congr
  · rw [R.same.node, e]
  · intro l
    have := congrArg (Option.map (fun x : Nat × Nat × List (Pt K) × Nat => (x.1, x.2.1, x.2.2.1))) (R.same.edge l)
    simp only [Option.map_map, Function.comp_def] at this
    rw [this, e]

theorem Step.live {m : GMap K} {d : Int} {i : Nat} {p : Pos} {x : Dir} (hs : Step m d i p x) : m.liveD d := by
  obtain ⟨e, h, -⟩ := hs
  unfold GMap.liveD
  rw [h]
  rfl

end Verif.Crack
