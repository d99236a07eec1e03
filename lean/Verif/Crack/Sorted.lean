import Verif.Crack.Result
import Verif.GeoMap.Sort

/-! # Sorting the edges of a crack edge map -/

set_option linter.unusedSectionVars false

namespace Verif.Crack
open Verif Verif.GeoMap

/-- the angles of the four directions -/
def angZ : Dir → Int
  | .E => 0 | .N => 1 | .W => 2 | .S => -1

theorem angZ_inj {x y : Dir} (h : angZ x = angZ y) : x = y := by
  cases x <;> cases y <;> first | rfl | (simp [angZ] at h)

section
variable {K : Type} [Field K] [LinearOrder K] [IsStrictOrderedRing K]

theorem angleTheta_dir (p : Pos) (x : Dir) : angleTheta (-(vec (p + x.diff) : Pt K).2 + (vec p : Pt K).2) ((vec (p + x.diff) : Pt K).1 - (vec p : Pt K).1) =
    (angZ x : K) := by
  rw [← vec_step]
  generalize (vec p : Pt K) = v
  obtain ⟨a, b⟩ := v
  have hn : ¬ (1 : K) < 0 := not_lt.mpr zero_le_one
  have hn : (-1 : K) < 0 := by simp
  cases x <;> simp [dirVec, angleTheta, angZ, hn]

/-- between two consecutive directions there are no cracks, so the pixels agree -/
theorem between {β : Type} (crack : Dir → Prop) (nw ne se sw : β) (hq : ∀ y, ¬ crack y → lq nw ne se sw y = rq nw ne se sw y)
    (x m : Dir) (hx : crack x) (hm : crack m)
    (h : (angZ x < angZ m ∧ ∀ y, crack y → angZ y ≤ angZ x ∨ angZ m ≤ angZ y) ∨ ∀ y, crack y → angZ m ≤ angZ y ∧ angZ y ≤ angZ x) :
    lq nw ne se sw x = rq nw ne se sw m := by
  have key : ∀ y, ((angZ x < angZ m ∧ ¬ (angZ y ≤ angZ x ∨ angZ m ≤ angZ y)) ∨ (¬ angZ x < angZ m ∧ ¬ (angZ m ≤ angZ y ∧ angZ y ≤ angZ x))) → ¬ crack y := by
    rintro y hy hc
    rcases h with ⟨h1, h2⟩ | h1
    · have := h2 y hc
      omega
    · have := h1 y hc
      have := h1 x hx
      omega
  have hE := fun h => hq .E (key .E h)
  have hN := fun h => hq .N (key .N h)
  have hW := fun h => hq .W (key .W h)
  have hS := fun h => hq .S (key .S h)
  clear key h hq
  cases x <;> cases m <;> simp [angZ, lq, rq] at hE hN hW hS ⊢ <;> grind

variable {α : Type} [LinearOrder α] {lab : Pos → α} {w h : Nat} {eight : Bool} {m : GMap K} {ns : List Pos} {es : List Path}

/-- the first crack of a dart -/
theorem Done.leaves (D : Done lab w h eight m ns es) {d : Int} (hd : m.liveD d) : ∃ P δ n, d ≠ 0 ∧ es[d.natAbs - 1]? = some P ∧ (P.dir d)[0]? = some δ ∧
    m.startN? d = some n ∧ ns[n]? = some δ.1 ∧ m.angle? d = some (angZ δ.2 : K) := by
  obtain ⟨e, he⟩ := Option.isSome_iff_exists.mp hd
  obtain ⟨h0, P, h1, rfl⟩ := D.built.edge_iff.mp he
  have hok := D.paths P (List.mem_of_getElem? h1)
  obtain ⟨δ, hδ⟩ : ∃ δ, (P.dir d)[0]? = some δ := ⟨_, List.getElem?_eq_getElem (by rw [P.dir_length]; simp [Path.darts])⟩
  refine ⟨P, δ, _, h0, h1, hδ, by simp only [GMap.startN?, he, Option.map_some]; rfl, ?_, ?_⟩
  · unfold Edge.startOf
    unfold Path.dir at hδ
    by_cases hp : 0 < d
    · rw [if_pos hp] at hδ ⊢
      have : δ = P.first := by simpa [Path.darts] using hδ.symm
      rw [this]
      exact hok.start
    · rw [if_neg hp] at hδ ⊢
      obtain ⟨z, z1, z2, -⟩ := hok.fin
      have : δ = al z := by
        rw [← List.head?_eq_getElem?, List.head?_reverse, List.getLast?_map, z1] at hδ
        exact (Option.some.inj hδ).symm
      rw [this]
      exact z2
  · simp only [GMap.angle?, he, Option.bind_some]
    unfold Edge.dartPts
    simp only [hok.dartPts d]
    cases hl : P.dir d with
    | nil => exact absurd hl (P.dir_ne d)
    | cons a l =>
      rw [hl] at hδ
      simp only [List.getElem?_cons_zero, Option.some.injEq] at hδ
      subst hδ
      simp only [ptsOf, List.map_cons, firstAngle, Option.some.injEq]
      exact angleTheta_dir a.1 a.2

theorem Done.distinct (D : Done lab w h eight m ns es) (n : Nat) : m.DistinctAngles n := by
  intro d d' a hd hd' ha ha'
  obtain ⟨P, δ, k, h0, h1, h2, h3, h4, h5⟩ := D.leaves (liveD_of_start hd)
  obtain ⟨P', δ', k', g0, g1, g2, g3, g4, g5⟩ := D.leaves (liveD_of_start hd')
  rw [hd] at h3
  rw [hd'] at g3
  cases h3
  cases g3
  rw [h4] at g4
  rw [ha] at h5
  rw [ha'] at g5
  have : (angZ δ.2 : K) = angZ δ'.2 := (Option.some.inj h5).symm.trans (Option.some.inj g5)
  have e2 := angZ_inj (Int.cast_injective this)
  have e : δ = δ' := Prod.ext (Option.some.inj g4) e2
  subst e
  exact (dir_index D.once h0 g0 h1 g1 h2 g2).1

/-- a sorted copy of the map -/
structure Sorted (m t : GMap K) : Prop where
  same : ∃ sg sgi, t = { m with sigma := sg, sigmaInv := sgi, edgesSorted := true }
  graph : GraphOK t
  sorted : ∀ n, t.SortedAt n

theorem Done.sort (D : Done lab w h eight m ns es) : ∃ t, m.sortEdgesDirectly = .ok t ∧ Sorted m t := by
  obtain ⟨π, hg⟩ := D.built.reach.reach.good.map.graph.exists_rep
  rcases sortEdgesDirectly_spec hg D.built.fresh with ⟨-, n, ⟨d, h1, h2⟩ | hn⟩ | ⟨t, π', h1, h2, h3, h4⟩
  · obtain ⟨P, δ, k, -, -, -, -, -, h5⟩ := D.leaves (liveD_of_start h1)
    rw [h2] at h5
    cases h5
  · exact absurd (D.distinct n) hn
  · exact ⟨t, h1, h3, h2.graphOK, fun n => (h4 n).1⟩

/-- a crack at a corner starts a dart or is passed by one -/
theorem Done.leaves_or_pass (D : Done lab w h eight m ns es) {q : Pos} {y : Dir} (hc : IsCrack lab w h q y) :
    (∃ d P, d ≠ 0 ∧ es[Int.natAbs d - 1]? = some P ∧ (P.dir d)[0]? = some (q, y)) ∨
    ((marked lab w h eight q).node = false ∧ ∃ d P i, d ≠ 0 ∧ es[Int.natAbs d - 1]? = some P ∧ (P.dir d)[i + 1]? = some (q, y)) := by
  obtain ⟨d, i, P, h0, h1, h2⟩ := mem_dir_iff ((D.mem (q, y)).mp hc)
  cases i with
  | zero => exact .inl ⟨d, P, h0, h1, h2⟩
  | succ i =>
    right
    obtain ⟨a, ha⟩ : ∃ a, (P.dir d)[i]? = some a := ⟨_, List.getElem?_eq_getElem (by have := (List.getElem?_eq_some_iff.mp h2).1; omega)⟩
    exact ⟨(D.pass h1 ha h2).2, d, P, i, h0, h1, h2⟩

theorem dir_neg {P : Path} {d : Int} (hd : d ≠ 0) {i : Nat} {a : Dart} (h : (P.dir d)[i]? = some a) : (P.dir (-d))[P.darts.length - 1 - i]? = some (al a) := by
  have hi : i < P.darts.length := by rw [← P.dir_length d]; exact (List.getElem?_eq_some_iff.mp h).1
  unfold Path.dir at *
  by_cases hp : 0 < d
  · rw [if_pos hp] at h
    rw [if_neg (by omega), List.getElem?_reverse (by simp; omega), List.getElem?_map, List.length_map,
      show P.darts.length - 1 - (P.darts.length - 1 - i) = i by omega, h]
    rfl
  · rw [if_neg hp, List.getElem?_reverse (by simp; omega), List.getElem?_map, List.length_map] at h
    rw [if_pos (by omega)]
    obtain ⟨b, hb, rfl⟩ := Option.map_eq_some_iff.mp h
    rw [hb, al_al]

/-- the label to the left does not change where a contour passes a node -/
theorem Done.phi (D : Done lab w h eight m ns es) {t : GMap K} (T : Sorted m t) {d : Int} (hd : t.liveD d) :
    ∃ P P' a b, es[d.natAbs - 1]? = some P ∧ es[(t.phi d).natAbs - 1]? = some P' ∧ d ≠ 0 ∧ t.phi d ≠ 0 ∧
      a ∈ P.dir d ∧ b ∈ P'.dir (t.phi d) ∧ pix lab w h (leftPix b.1 b.2) = pix lab w h (leftPix a.1 a.2) := by
  obtain ⟨sg, sgi, hs⟩ := T.same
  have hedge : t.edge = m.edge := by rw [hs]
  have hlive : ∀ x, t.liveD x ↔ m.liveD x := fun x => by unfold GMap.liveD; rw [hedge]
  have hstart : ∀ x, t.startN? x = m.startN? x := fun x => by unfold GMap.startN?; rw [hedge]
  have hang : ∀ x, t.angle? x = m.angle? x := fun x => by unfold GMap.angle?; rw [hedge]
  have hdn : t.liveD (-d) := by unfold GMap.liveD at *; simpa using hd
  obtain ⟨hpl, hps⟩ := T.graph.sigmaInv_live _ hdn
  have hst := T.graph.start_sigma _ hpl
  rw [hps] at hst
  have hphi : t.phi d = t.prevSigma (-d) := rfl
  rw [← hphi] at hpl hps hst
  obtain ⟨P, β, n, h0, h1, h2, h3, h4, h5⟩ := D.leaves ((hlive _).mp hdn)
  obtain ⟨P', χ, n2, g0, g1, g2, g3, g4, g5⟩ := D.leaves ((hlive _).mp hpl)
  rw [hstart, hstart, h3, g3] at hst
  cases hst
  rw [h4] at g4
  have eq := Option.some.inj g4
  obtain ⟨q, mm⟩ := β
  obtain ⟨q', x⟩ := χ
  simp only at eq h4 h5 g5
  subst eq
  have hcm : IsCrack lab w h q mm := (D.mem (q, mm)).mpr (dir_mem h1 h2)
  have hcx : IsCrack lab w h q x := (D.mem (q, x)).mpr (dir_mem g1 g2)
  have k1 : es[d.natAbs - 1]? = some P := by simpa using h1
  have hlast := dir_neg h0 h2
  rw [neg_neg] at hlast
  refine ⟨P, P', al (q, mm), (q, x), k1, g1, by omega, g0, List.mem_of_getElem? hlast, List.mem_of_getElem? g2, ?_⟩
  rw [left_al]
  show pix lab w h (leftPix q x) = pix lab w h (rightPix q mm)
  -- the order around the node
  have hD : ∀ {d' : Int} {P'' : Path} {y : Dir}, d' ≠ 0 → es[d'.natAbs - 1]? = some P'' → (P''.dir d')[0]? = some (q, y) →
      t.startN? d' = some n ∧ t.angle? d' = some (angZ y : K) := by
    intro d' P'' y a0 a1 a2
    have hl : m.liveD d' := by
      unfold GMap.liveD
      rw [D.built.edge_iff.mpr ⟨a0, P'', a1, rfl⟩]
      rfl
    obtain ⟨P3, δ, n3, b0, b1, b2, b3, b4, b5⟩ := D.leaves hl
    rw [a1] at b1
    cases b1
    rw [a2] at b2
    cases b2
    have : n3 = n := by
      obtain ⟨c1, c2⟩ := List.getElem?_eq_some_iff.mp b4
      obtain ⟨e1, e2⟩ := List.getElem?_eq_some_iff.mp h4
      exact (D.nodup.getElem_inj_iff).mp (c2.trans e2.symm)
    subst this
    rw [hstart, hang]
    exact ⟨b3, b5⟩
  have hso : ∀ (y : Dir) {d' : Int} {P'' : Path}, d' ≠ 0 → es[d'.natAbs - 1]? = some P'' → (P''.dir d')[0]? = some (q, y) →
      (angZ x < angZ mm ∧ (angZ y ≤ angZ x ∨ angZ mm ≤ angZ y)) ∨ ((¬ angZ x < angZ mm) ∧ angZ mm ≤ angZ y ∧ angZ y ≤ angZ x) := by
    intro y d' P'' a0 a1 a2
    obtain ⟨r1, r2⟩ := hD a0 a1 a2
    obtain ⟨a, b, s1, s2, s3⟩ := T.sorted n (t.phi d) (by rw [hstart]; exact g3)
    rw [hang, g5] at s1
    rw [hps, hang, h5] at s2
    cases s1
    cases s2
    rcases s3 with ⟨s3, s4⟩ | s3
    · left
      have := s4 _ _ r1 r2
      simp only [Int.cast_le, Int.cast_lt] at this s3
      exact ⟨s3, this⟩
    · right
      have h6 := s3 _ _ r1 r2
      obtain ⟨r1', r2'⟩ := hD g0 g1 g2
      have h7 := s3 _ _ r1' r2'
      simp only [Int.cast_le] at h6 h7
      exact ⟨by omega, h6⟩
  have hv := marked_valid lab w h eight q
  by_cases hall : ∀ y, IsCrack lab w h q y → ∃ d P, d ≠ 0 ∧ es[Int.natAbs d - 1]? = some P ∧ (P.dir d)[0]? = some (q, y)
  · rw [leftPix_match (pix lab w h), rightPix_match (pix lab w h)]
    refine between (fun y => IsCrack lab w h q y) _ _ _ _ ?_ x mm hcx hcm ?_
    · intro y hy
      rw [← leftPix_match (pix lab w h), ← rightPix_match (pix lab w h)]
      exact not_not.mp hy
    · by_cases hlt : angZ x < angZ mm
      · left
        refine ⟨hlt, fun y hy => ?_⟩
        obtain ⟨d', P'', a0, a1, a2⟩ := hall y hy
        rcases hso y a0 a1 a2 with h | h
        · exact h.2
        · exact absurd hlt h.1
      · right
        intro y hy
        obtain ⟨d', P'', a0, a1, a2⟩ := hall y hy
        rcases hso y a0 a1 a2 with h | h
        · exact absurd h.1 hlt
        · exact h.2
  · push Not at hall
    obtain ⟨y, hy, hno⟩ := hall
    have hnode : (marked lab w h eight q).node = false := by
      rcases D.leaves_or_pass hy with ⟨d', P'', a0, a1, a2⟩ | h
      · exact absurd a2 (hno d' P'' a0 a1)
      · exact h.1
    have hb : ∀ {z}, IsCrack lab w h q z ↔ (marked lab w h eight q).has z = true := (marked_has _ _ _ _ _ _).symm
    -- passing cracks come in pairs
    have hpair : ∀ z, IsCrack lab w h q z → (∀ d P, d ≠ 0 → es[Int.natAbs d - 1]? = some P → (P.dir d)[0]? ≠ some (q, z)) →
        ∀ d P, d ≠ 0 → es[Int.natAbs d - 1]? = some P → (P.dir d)[0]? ≠ some (q, (marked lab w h eight q).tau z) := by
      intro z hz hzno d' P'' a0 a1 a2
      rcases D.leaves_or_pass hz with ⟨d2, P2, b0, b1, b2⟩ | ⟨-, d2, P2, i, b0, b1, b2⟩
      · exact hzno d2 P2 b0 b1 b2
      · obtain ⟨a, ha⟩ : ∃ a, (P2.dir d2)[i]? = some a := ⟨_, List.getElem?_eq_getElem (by have := (List.getElem?_eq_some_iff.mp b2).1; omega)⟩
        have hp := (D.pass b1 ha b2).1
        have hneg := dir_neg b0 ha
        rw [hp] at hneg
        have := dir_index D.once (d' := -d2) a0 (by omega) a1 (by simpa using b1) a2 hneg
        have hlen := (List.getElem?_eq_some_iff.mp b2).1
        rw [P2.dir_length] at hlen
        omega
    have hym : y ≠ mm := fun e => hno (-d) P h0 h1 (e ▸ h2)
    have hyx : y ≠ x := fun e => hno (t.phi d) P' g0 g1 (e ▸ g2)
    have hty := hpair y hy hno
    have htm : (marked lab w h eight q).tau y ≠ mm := fun e => hty (-d) P h0 h1 (e ▸ h2)
    have htx : (marked lab w h eight q).tau y ≠ x := fun e => hty (t.phi d) P' g0 g1 (e ▸ g2)
    -- both remaining cracks leave the corner
    have hmt : ∃ d P, d ≠ 0 ∧ es[Int.natAbs d - 1]? = some P ∧ (P.dir d)[0]? = some (q, (marked lab w h eight q).tau mm) := by
      by_contra hc
      push Not at hc
      have hctm : IsCrack lab w h q ((marked lab w h eight q).tau mm) := hb.mpr (tau_has _ hv hnode _ (hb.mp hcm))
      have := hpair _ hctm (fun d P a b => hc d P a b) (-d) P h0 h1
      rw [tau_tau _ hv hnode _ (hb.mp hcm)] at this
      exact this h2
    have hdiag : (marked lab w h eight q).diag = true := by
      by_contra hdg
      rcases tau_two _ hv hnode (by simpa using hdg) y (hb.mp hy) mm (hb.mp hcm) with e | e
      · exact hym e.symm
      · exact htm e.symm
    have hx : x = (marked lab w h eight q).tau mm := by
      have four : ∀ c : Conn, c.valid = true → c.diag = true → ∀ y m x, y ≠ m → y ≠ x → c.tau y ≠ m → c.tau y ≠ x → x = m ∨ x = c.tau m := by
        decide +kernel
      rcases four _ hv hdiag y mm x hym hyx htm htx with e | e
      · obtain ⟨d', P'', a0, a1, a2⟩ := hmt
        have := hso _ a0 a1 a2
        rw [e] at this
        have : angZ ((marked lab w h eight q).tau mm) = angZ mm := by omega
        exact absurd (angZ_inj this) (tau_ne _ hv hnode _ (hb.mp hcm))
      · exact e
    rw [hx]
    exact (tau_pix lab w h eight q hnode mm hcm).1

end
end Verif.Crack
