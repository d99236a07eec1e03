import Verif.Outer.Step
import Verif.Outer.Spec

/-! # When the first contour of a face is its outer contour -/

set_option linter.unusedSectionVars false

namespace Verif.Outer
open Verif Verif.GeoMap Verif.Polygon Verif.Scan Verif.Locate Equiv Equiv.Perm Verif.PermLemmas Verif.LabelImage

variable {K : Type} [Field K] [LinearOrder K] [IsStrictOrderedRing K]

/-- The first contour is the one with positive area if no other is. -/
theorem first_of_others {t : GMap K} (hs : Reach t) (hp : Placed t) {f : Nat} {F : Face K} (hF : t.face f = some F) (h0 : f ≠ 0) {c : Int} {as : List Int}
    (e : F.anchors = c :: as) (h : ∀ b ∈ as, 0 < t.orbitArea b → 0 < t.orbitArea c) : 0 < t.orbitArea c := by
  obtain ⟨l, a, r, e1, h2, h3⟩ := one_positive hs hp hF h0
  rw [e] at e1
  cases l with
  | nil => simp only [List.nil_append, List.cons.injEq] at e1; rw [e1.1]; exact h2
  | cons b l =>
    simp only [List.cons_append, List.cons.injEq] at e1
    exact h a (by rw [e1.2]; simp) h2

/-- Not two contours of a face have positive area. -/
theorem not_two {t : GMap K} (hs : Reach t) (hp : Placed t) {f : Nat} {F : Face K} (hF : t.face f = some F) (h0 : f ≠ 0) {c b : Int} {as : List Int}
    (e : F.anchors = c :: as) (hb : b ∈ as) (h1 : 0 < t.orbitArea c) (h2 : 0 < t.orbitArea b) : False := by
  obtain ⟨l, a, r, e1, -, h3⟩ := one_positive hs hp hF h0
  rw [e] at e1
  cases l with
  | nil =>
    simp only [List.nil_append, List.cons.injEq] at e1
    exact absurd h2 (not_lt.mpr (h3 b (by rw [← e1.2]; simpa using hb)))
  | cons b' l =>
    simp only [List.cons_append, List.cons.injEq] at e1
    rw [e1.1] at h1
    exact absurd h1 (not_lt.mpr (h3 b' (by simp)))

/-- The contours of the face with number other than `i` do not contain the darts of contour `i`. -/
theorem other_contour {L : Finset Int} {ψ : Perm Int} {lf : Int → Option Nat} {f : Nat} {as : List Int} (h : ContourList L ψ lf f as) {i j : Nat} {a b d : Int}
    (ha : as[i]? = some a) (hb : as[j]? = some b) (hij : i ≠ j) (had : SameCycle ψ a d) : ¬ SameCycle ψ b d := by
  intro hbd
  obtain ⟨h1, e1⟩ := List.getElem?_eq_some_iff.mp ha
  obtain ⟨h2, e2⟩ := List.getElem?_eq_some_iff.mp hb
  have hu := List.pairwise_iff_getElem.mp h.unique
  rcases lt_or_gt_of_ne hij with h' | h'
  · exact hu i j h1 h2 h' (by rw [e1, e2]; exact had.trans hbd.symm)
  · exact hu j i h2 h1 h' (by rw [e1, e2]; exact hbd.trans had.symm)

/-- The sum used by `removeBridge` is the area of the contour. -/
theorem areaTerm_orbit {t u : GMap K} (ht : Good t) (hi : t.initialized) {π ψ : Perm Int} {L : Finset Int} (hg : GraphRep t L π) (hc : ContoursRep t L ψ)
    (he : ∀ x ∈ L, u.edge x.natAbs = t.edge x.natAbs) {a : Int} (ha : a ∈ L) [DecidablePred (SameCycle ψ a)] :
    ∑ x ∈ L.filter (SameCycle ψ a), u.areaTerm x = t.orbitArea a := by
  classical
  have e1 : ∑ x ∈ L.filter (SameCycle ψ a), u.areaTerm x = ∑ x ∈ L.filter (SameCycle ψ a), t.areaTerm x := by
    refine Finset.sum_congr rfl fun x hx => ?_
    unfold GMap.areaTerm
    rw [he x (Finset.mem_filter.mp hx).1]
  rw [e1, sum_areaTerm, orbitArea_sum hg.darts_eq hc.rep ha, Finset.sum_filter]
  · refine Finset.sum_congr rfl fun x _ => ?_
    by_cases h : SameCycle ψ a x <;> simp [h]
  · intro d hd
    exact hg.ne_zero (Finset.mem_filter.mp hd).1
  · intro d hd hb
    rw [Finset.mem_filter] at hd ⊢
    refine ⟨hg.symm d hd.1, hd.2.trans ?_⟩
    exact (hc.rep.sameCycle_iff hd.1).mpr ((ht.planar hi).bridges ht.map hi d ((hg.live d).mp hd.1) hb)

theorem bridge_first {s t s2 : GMap K} {h : Hooks K} {d : Int} {f : Nat} {F : Face K} {e : Edge K} (R : BridgeResult h s d f F e s2 t)
    (hs : Reach s) (hp : Placed s) (ht : Reach t) (hpt : Placed t) (hd : s.liveD d) (hb : s.left? d = s.left? (-d)) (hf : s.left? d = some f)
    (hF : s.face f = some F) (h1 : FirstPositive s) : FirstPositive t := by
  classical
  have hM := hp.good.map
  have hi := hp.init
  obtain ⟨π, hg⟩ := hM.graph.exists_rep
  obtain ⟨ψ, hc⟩ := (hM.contours hi).exists_rep hg
  obtain ⟨G, C⟩ := R.reps π ψ hg hc
  obtain ⟨i, a, as, hia, had, hface, hlist⟩ := R.list π ψ hg hc
  have hdL := (hg.live d).mpr hd
  have hcy : SameCycle ψ d (-d) := (hc.rep.sameCycle_iff hdL).mpr ((hp.good.planar hi).bridges hM hi d hd hb)
  have hw : ∀ x ∈ eraseEdge s.darts d, t.dartArea x = s.dartArea x := by
    intro x hx
    have : x.natAbs ≠ d.natAbs := by rw [mem_eraseEdge] at hx; omega
    unfold GMap.dartArea
    rw [R.edge, Function.update_of_ne this]
  have keep : ∀ b ∈ s.darts, ¬ SameCycle ψ b d → t.orbitArea b = s.orbitArea b := fun b hbL h =>
    erase_orbit hc.rep C.rep G.darts_eq hw hbL h fun h' => h (h'.trans hcy.symm)
  have hsg := h1.signed hs hp
  intro g F' hF' h0
  rw [hface, Function.update_apply] at hF'
  split_ifs at hF' with hgf
  · subst hgf
    cases hF'
    have hcl := hc.faces g F hF
    obtain ⟨a0, rest, e0, hpos, hneg⟩ := hsg.outer g F hF h0
    have hrest : i = 0 → ∀ b ∈ rest, t.orbitArea b ≤ 0 := by
      rintro rfl b hbr
      obtain ⟨j, hj⟩ := List.mem_iff_getElem?.mp hbr
      have hj' : F.anchors[j + 1]? = some b := by rw [e0]; exact hj
      rw [keep b (hcl.left b (by rw [e0]; simp [hbr])).1 (other_contour hcl hia hj' (by omega) had)]
      exact hneg b hbr
    have hface' : t.face g = some { F with anchors := as } := by rw [hface, Function.update_self]
    simp only
    cases i with
    | succ i =>
      have ha0 : 0 < t.orbitArea a0 := by
        rw [keep a0 (hcl.left a0 (by rw [e0]; simp)).1 (other_contour (j := 0) hcl hia (by rw [e0]; rfl) (by omega) had)]
        exact hpos
      rcases hlist with ⟨-, -, rfl⟩ | ⟨b, rfl⟩ | ⟨b1, b2, rfl, -⟩ <;> rw [e0]
      · exact ⟨a0, _, rfl, ha0⟩
      · exact ⟨a0, _, rfl, ha0⟩
      · exact ⟨a0, _, rfl, ha0⟩
    | zero =>
      rcases hlist with ⟨-, -, rfl⟩ | ⟨b, rfl⟩ | ⟨b1, b2, rfl, m1, m2, hle⟩
      · exfalso
        obtain ⟨l, c, r, e1, h2, -⟩ := one_positive ht hpt hface' h0
        rw [e0] at e1
        simp only [List.eraseIdx_cons_zero] at e1
        exact absurd h2 (not_lt.mpr (hrest rfl c (by rw [e1]; simp)))
      · refine ⟨b, rest, by rw [e0]; rfl, first_of_others ht hpt hface' h0 (c := b) (as := rest) (by rw [e0]; rfl) ?_⟩
        intro c hcr hc0
        exact absurd hc0 (not_lt.mpr (hrest rfl c hcr))
      · refine ⟨b1, rest ++ [b2], by rw [e0]; rfl, first_of_others ht hpt hface' h0 (c := b1) (as := rest ++ [b2]) (by rw [e0]; rfl) ?_⟩
        intro c hcr hc0
        rcases List.mem_append.mp hcr with hcr | hcr
        · exact absurd hc0 (not_lt.mpr (hrest rfl c hcr))
        · rw [List.mem_singleton] at hcr
          subst hcr
          have he : ∀ x ∈ eraseEdge s.darts d, s2.edge x.natAbs = t.edge x.natAbs := by
            intro x hx
            have : x.natAbs ≠ d.natAbs := by rw [mem_eraseEdge] at hx; omega
            rw [R.edge, Function.update_of_ne this]
            obtain ⟨_, _, _, h2⟩ := R.ex
            rw [h2]
          have := hle rfl h0
          rw [areaTerm_orbit hpt.good hpt.init G C he m1, areaTerm_orbit hpt.good hpt.init G C he m2] at this
          exact lt_of_lt_of_le hc0 this
  · obtain ⟨a0, rest, e0, hpos⟩ := h1 g F' hF' h0
    refine ⟨a0, rest, e0, ?_⟩
    obtain ⟨k1, k2⟩ := (hc.faces g F' hF').left a0 (by rw [e0]; simp)
    rw [keep a0 k1]
    · exact hpos
    · intro h'
      have := left_of_sameCycle hc.rep hc.lefts k1 h'
      rw [hf, k2] at this
      exact hgf (Option.some.inj this).symm

theorem merge_first {s t s2 : GMap K} {h : Hooks K} {r : Int} {sl ml : Nat} {S M : Face K} {e : Edge K} (R : MergeResult h s r sl ml S M e s2 t)
    (hM : MapOK s) (hi : s.initialized) (hr : s.liveD r) (gl : s.left? r = some sl) (gr : s.left? (-r) = some ml) (hne : sl ≠ ml)
    (hS : s.face sl = some S) (hMf : s.face ml = some M) (hml : ml ≠ 0) (hsg : ContoursSigned s) (ht : Reach t) (hpt : Placed t) :
    FirstPositive t ↔ (sl ≠ 0 → OnFirst s sl r → OnFirst s ml (-r) ∨ Disc s sl r) := by
  classical
  obtain ⟨π, hg⟩ := hM.graph.exists_rep
  obtain ⟨ψ, hc⟩ := (hM.contours hi).exists_rep hg
  obtain ⟨G, C⟩ := R.reps π ψ hg hc
  obtain ⟨i1, i2, a1, a2, T, g1, c1, g2, c2, hT, as1', hTa, hlist⟩ := R.list π ψ hg hc
  have hrL := (hg.live r).mpr hr
  have hmL := hg.symm r hrL
  have hw : ∀ x ∈ eraseEdge s.darts r, t.dartArea x = s.dartArea x := by
    intro x hx
    have : x.natAbs ≠ r.natAbs := by rw [mem_eraseEdge] at hx; omega
    unfold GMap.dartArea
    rw [R.edge, Function.update_of_ne this]
    simp only [GMap.relabel]
    cases s.edge x.natAbs <;> rfl
  have keep : ∀ b ∈ s.darts, ¬ SameCycle ψ b r → ¬ SameCycle ψ b (-r) → t.orbitArea b = s.orbitArea b := fun b hbL h h' =>
    erase_orbit hc.rep C.rep G.darts_eq hw hbL h h'
  have clS := hc.faces sl S hS
  have clM := hc.faces ml M hMf
  have lf := fun {x y} (hx : x ∈ s.darts) (h : SameCycle ψ x y) => left_of_sameCycle hc.rep hc.lefts hx h
  have keepS : ∀ j b, S.anchors[j]? = some b → i1 ≠ j → t.orbitArea b = s.orbitArea b := by
    intro j b hj hij
    obtain ⟨k1, k2⟩ := clS.left b (List.mem_of_getElem? hj)
    refine keep b k1 (other_contour clS g1 hj hij c1) fun h' => ?_
    have := lf k1 h'
    rw [gr, k2] at this
    exact hne (Option.some.inj this).symm
  have keepM : ∀ j b, M.anchors[j]? = some b → i2 ≠ j → t.orbitArea b = s.orbitArea b := by
    intro j b hj hij
    obtain ⟨k1, k2⟩ := clM.left b (List.mem_of_getElem? hj)
    refine keep b k1 (fun h' => ?_) (other_contour clM g2 hj hij c2)
    have := lf k1 h'
    rw [gl, k2] at this
    exact hne (Option.some.inj this)
  obtain ⟨m0, mrest, em, mpos, mneg⟩ := hsg.outer ml M hMf hml
  -- faces other than the survivor keep their first contours
  have others : ∀ g F', t.face g = some F' → g ≠ 0 → g ≠ sl → ∃ a as, F'.anchors = a :: as ∧ 0 < t.orbitArea a := by
    intro g F' hF' h0 hgs
    obtain ⟨as', hface⟩ := R.face g
    rw [hface] at hF'
    split_ifs at hF' with h1 h2
    obtain ⟨a0, rest, e0, hpos, -⟩ := hsg.outer g F' hF' h0
    obtain ⟨k1, k2⟩ := (hc.faces g F' hF').left a0 (by rw [e0]; simp)
    refine ⟨a0, rest, e0, ?_⟩
    rw [keep a0 k1]
    · exact hpos
    · intro h'
      have := lf k1 h'
      rw [gl, k2] at this
      exact hgs (Option.some.inj this).symm
    · intro h'
      have := lf k1 h'
      rw [gr, k2] at this
      exact h1 (Option.some.inj this).symm
  -- hence only the survivor counts
  have only : FirstPositive t ↔ (sl ≠ 0 → ∃ a as, T.anchors = a :: as ∧ 0 < t.orbitArea a) := by
    constructor
    · intro hfp h0
      exact hfp sl T hT h0
    · intro h' g F' hF' h0
      by_cases hgs : g = sl
      · subst hgs
        rw [hT] at hF'; cases hF'
        exact h' h0
      · exact others g F' hF' h0 hgs
  rw [only]
  refine forall_congr' fun h0 => ?_
  obtain ⟨a0, rest, e0, spos, sneg⟩ := hsg.outer sl S hS h0
  have onS : OnFirst s sl r ↔ i1 = 0 := by
    constructor
    · rintro ⟨F, a, as, k1, k2, k3⟩
      rw [hS] at k1; cases k1
      by_contra hi0
      have k0 : S.anchors[0]? = some a := by rw [k2]; rfl
      exact other_contour clS g1 k0 hi0 c1 ((hc.rep.sameCycle_iff (clS.left a (by rw [k2]; simp)).1).mpr k3)
    · rintro rfl
      rw [e0] at g1
      obtain rfl : a0 = a1 := Option.some.inj g1
      exact ⟨S, a0, rest, hS, e0, (hc.rep.sameCycle_iff (clS.left a0 (by rw [e0]; simp)).1).mp c1⟩
  have onM : OnFirst s ml (-r) ↔ i2 = 0 := by
    constructor
    · rintro ⟨F, a, as, k1, k2, k3⟩
      rw [hMf] at k1; cases k1
      by_contra hi0
      have k0 : M.anchors[0]? = some a := by rw [k2]; rfl
      exact other_contour clM g2 k0 hi0 c2 ((hc.rep.sameCycle_iff (clM.left a (by rw [k2]; simp)).1).mpr k3)
    · rintro rfl
      rw [em] at g2
      obtain rfl : m0 = a2 := Option.some.inj g2
      exact ⟨M, m0, mrest, hMf, em, (hc.rep.sameCycle_iff (clM.left m0 (by rw [em]; simp)).1).mp c2⟩
  rw [onS, onM]
  have hp1 : s.phi r = r ↔ ψ r = r := by rw [hc.rep.eq r hrL]
  have hp2 : s.phi (-r) = -r ↔ ψ (-r) = -r := by rw [hc.rep.eq _ hmL]
  have hrestS : i1 = 0 → ∀ b ∈ rest, t.orbitArea b ≤ 0 := by
    rintro h1 b hbr
    obtain ⟨j, hj⟩ := List.mem_iff_getElem?.mp hbr
    rw [keepS (j + 1) b (by rw [e0]; exact hj) (by omega)]
    exact sneg b hbr
  cases i1 with
  | succ i =>
    simp only [Nat.add_eq_zero_iff, one_ne_zero, and_false, false_imp_iff, iff_true]
    have ha0 : 0 < t.orbitArea a0 := by
      rw [keepS 0 a0 (by rw [e0]; rfl) (by omega)]; exact spos
    rcases hlist with ⟨-, -, rfl⟩ | ⟨c, rfl, -⟩
    · exact ⟨a0, rest.eraseIdx i ++ M.anchors.eraseIdx i2, by rw [hTa, e0]; rfl, ha0⟩
    · exact ⟨a0, rest.set i c ++ M.anchors.eraseIdx i2, by rw [hTa, e0]; rfl, ha0⟩
  | zero =>
    simp only [true_imp_iff]
    cases i2 with
    | zero =>
      simp only [true_or, iff_true]
      have hrestM : ∀ b ∈ mrest, t.orbitArea b ≤ 0 := by
        intro b hbr
        obtain ⟨j, hj⟩ := List.mem_iff_getElem?.mp hbr
        rw [keepM (j + 1) b (by rw [em]; exact hj) (by omega)]
        exact mneg b hbr
      have hneg : ∀ b ∈ rest ++ mrest, t.orbitArea b ≤ 0 := by
        intro b hb
        rcases List.mem_append.mp hb with h | h
        · exact hrestS rfl b h
        · exact hrestM b h
      rcases hlist with ⟨-, -, rfl⟩ | ⟨c, rfl, -⟩
      · exfalso
        obtain ⟨l, c, r', e1, h2, -⟩ := one_positive ht hpt hT h0
        rw [hTa, e0, em] at e1
        simp only [List.eraseIdx_cons_zero] at e1
        exact absurd h2 (not_lt.mpr (hneg c (by rw [e1]; simp)))
      · have e1 : T.anchors = c :: (rest ++ mrest) := by rw [hTa, e0, em]; rfl
        exact ⟨c, _, e1, first_of_others ht hpt hT h0 e1 fun b hb hb0 => absurd hb0 (not_lt.mpr (hneg b hb))⟩
    | succ i =>
      have hm0 : 0 < t.orbitArea m0 := by
        rw [keepM 0 m0 (by rw [em]; rfl) (by omega)]; exact mpos
      simp only [Nat.add_eq_zero_iff, one_ne_zero, and_false, false_or]
      have em' : M.anchors.eraseIdx (i + 1) = m0 :: mrest.eraseIdx i := by rw [em]; rfl
      rcases hlist with ⟨k1, k2, rfl⟩ | ⟨c, rfl, n1⟩
      · rw [e0, List.eraseIdx_cons_zero, em'] at hTa
        constructor
        · rintro ⟨a, as, e1, hpos⟩
          cases rest with
          | nil => exact ⟨hp1.mpr k1, hp2.mpr k2, S, a0, hS, e0⟩
          | cons b rest =>
            rw [hTa] at e1
            simp only [List.cons_append, List.cons.injEq] at e1
            exact absurd hpos (not_lt.mpr (hrestS rfl a (by rw [e1.1]; simp)))
        · rintro ⟨-, -, F, a, k1, k2⟩
          rw [hS] at k1; cases k1
          rw [e0] at k2
          simp only [List.cons.injEq] at k2
          rw [k2.2] at hTa
          exact ⟨m0, _, hTa, hm0⟩
      · have e1 : T.anchors = c :: (rest ++ m0 :: mrest.eraseIdx i) := by rw [hTa, e0, em']; rfl
        constructor
        · rintro ⟨a, as, e2, hpos⟩
          rw [e1] at e2
          simp only [List.cons.injEq] at e2
          rw [← e2.1] at hpos
          exact (not_two ht hpt hT h0 e1 (b := m0) (by simp) hpos hm0).elim
        · rintro ⟨k1, k2, -⟩
          exact absurd ⟨hp1.mp k1, hp2.mp k2⟩ n1

end Verif.Outer
