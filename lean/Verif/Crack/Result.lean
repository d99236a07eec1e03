import Verif.Crack.Graph

/-! # The finished crack edge map -/

set_option linter.unusedSectionVars false

namespace Verif.Crack
open Verif Verif.GeoMap

variable {α : Type} [LinearOrder α] {K : Type} [Field K] [LinearOrder K] [IsStrictOrderedRing K]

/-- everything known about the result -/
structure Done (lab : Pos → α) (w h : Nat) (eight : Bool) (m : GMap K) (ns : List Pos) (es : List Path) : Prop where
  built : Built m ns es
  nodup : ns.Nodup
  once : (allOf es).Nodup
  paths : ∀ P ∈ es, PathOK (marked lab w h eight) ns P
  nodes : ∀ p ∈ ns, ∃ x, IsCrack lab w h p x
  starts : ∀ p ∈ ns, (marked lab w h eight p).node = true ∨ ∃ P ∈ es, P.first.1 = p
  mem : ∀ δ : Dart, IsCrack lab w h δ.1 δ.2 ↔ δ ∈ allOf es
  junction : ∀ q, (marked lab w h eight q).node = true → q ∈ ns

theorem generate_done (lab : Pos → α) {w h : Nat} (hw : 0 < w) (hh : 0 < h) (eight : Bool) :
    ∃ (g : Gen K) (ns : List Pos) (es : List Path), generate lab w h eight = .ok g ∧ Done lab w h eight g.map ns es := by
  obtain ⟨im, e1, h1⟩ := crackConnectionImage_get lab hw hh
  obtain ⟨cc, e2, h2⟩ := markNodes_marked lab eight h1
  obtain ⟨g, ns, es, V, e3, I, hV, hJ⟩ := followAll_spec (K := K) (marked_graph lab w h eight) h2
  refine ⟨g, ns, es, ?_, ⟨I.built, I.nodup, I.once, I.paths, ?_, ?_, ?_, hJ⟩⟩
  · unfold generate
    rw [e1, Outcome.bind_ok]
    simp only
    rw [e2, Outcome.bind_ok]
    exact e3
  · intro p hp
    obtain ⟨x, hx⟩ := I.nodes p hp
    exact ⟨x, (marked_has _ _ _ _ _ _).mp hx⟩
  · intro p hp
    rcases I.starts p hp with h | h | h
    · exact .inl h
    · exact absurd h id
    · exact .inr h
  · intro δ
    rw [← I.mem, ← hV]
    exact (marked_has _ _ _ _ _ _).symm

variable {lab : Pos → α} {w h : Nat} {eight : Bool} {m : GMap K} {ns : List Pos} {es : List Path}

theorem Path.dir_length (P : Path) (d : Int) : (P.dir d).length = P.darts.length := by
  unfold Path.dir
  split <;> simp

theorem Path.pts_length (P : Path) : (P.pts (K := K)).length = P.darts.length + 1 := by simp [Path.pts]

theorem Done.step (D : Done lab w h eight m ns es) {d : Int} {i : Nat} {p : Pos} {x : Dir} :
    Step m d i p x ↔ d ≠ 0 ∧ ∃ P, es[d.natAbs - 1]? = some P ∧ (P.dir d)[i]? = some (p, x) := step_iff D.built D.paths

theorem PathOK.side {P : Path} (hok : PathOK (marked lab w h eight) ns P) (hmem : ∀ δ ∈ P.darts, IsCrack lab w h δ.1 δ.2) :
    P.darts.Pairwise fun a b => pix lab w h (leftPix a.1 a.2) = pix lab w h (leftPix b.1 b.2) ∧
      pix lab w h (rightPix a.1 a.2) = pix lab w h (rightPix b.1 b.2) := by
  have : IsTrans Dart (fun a b => pix lab w h (leftPix a.1 a.2) = pix lab w h (leftPix b.1 b.2) ∧
      pix lab w h (rightPix a.1 a.2) = pix lab w h (rightPix b.1 b.2)) := ⟨fun a b c h1 h2 => ⟨h1.1.trans h2.1, h1.2.trans h2.2⟩⟩
  rw [← List.isChain_iff_pairwise]
  have h1 := hok.chain
  refine List.IsChain.imp_of_mem_imp ?_ h1
  intro a b ha _ hab
  obtain ⟨e, hn, -⟩ := hab
  have hc : IsCrack lab w h (al a).1 (al a).2 := (isCrack_alpha lab w h a.1 a.2).mpr (hmem a ha)
  obtain ⟨t1, t2⟩ := tau_pix lab w h eight (al a).1 hn (al a).2 hc
  rw [e]
  simp only
  rw [t1, t2, right_al, left_al]
  exact ⟨rfl, rfl⟩

theorem Done.side (D : Done lab w h eight m ns es) {d : Int} {P : Path} (h1 : es[d.natAbs - 1]? = some P) {a b : Dart} (ha : a ∈ P.dir d) (hb : b ∈ P.dir d) :
    pix lab w h (leftPix a.1 a.2) = pix lab w h (leftPix b.1 b.2) ∧ pix lab w h (rightPix a.1 a.2) = pix lab w h (rightPix b.1 b.2) := by
  have hP := List.mem_of_getElem? h1
  have hs := (D.paths P hP).side fun δ hδ => (D.mem δ).mpr (List.mem_append_left _ (List.mem_flatMap.mpr ⟨P, hP, hδ⟩))
  have hs' : ∀ a ∈ P.darts, ∀ b ∈ P.darts, pix lab w h (leftPix a.1 a.2) = pix lab w h (leftPix b.1 b.2) ∧
      pix lab w h (rightPix a.1 a.2) = pix lab w h (rightPix b.1 b.2) := by
    intro a ha b hb
    have hR : Std.Symm (fun a b : Dart => pix lab w h (leftPix a.1 a.2) = pix lab w h (leftPix b.1 b.2) ∧
      pix lab w h (rightPix a.1 a.2) = pix lab w h (rightPix b.1 b.2)) := ⟨fun _ _ h => ⟨h.1.symm, h.2.symm⟩⟩
    exact hs.forall_of_forall (fun _ _ => ⟨rfl, rfl⟩) ha hb
  unfold Path.dir at ha hb
  by_cases hd : 0 < d
  · rw [if_pos hd] at ha hb
    exact hs' a ha b hb
  · rw [if_neg hd] at ha hb
    obtain ⟨a', ha', rfl⟩ := List.mem_map.mp (List.mem_reverse.mp ha)
    obtain ⟨b', hb', rfl⟩ := List.mem_map.mp (List.mem_reverse.mp hb)
    rw [left_al, left_al, right_al, right_al]
    exact (hs' a' ha' b' hb').symm

theorem Done.inner (D : Done lab w h eight m ns es) {P : Path} (hP : P ∈ es) {i : Nat} {a b : Dart} (ha : P.darts[i]? = some a)
    (hb : P.darts[i + 1]? = some b) : Next (marked lab w h eight) P.first.1 a b := by
  have := (D.paths P hP).chain
  rw [List.isChain_iff_getElem] at this
  obtain ⟨h1, rfl⟩ := List.getElem?_eq_some_iff.mp ha
  obtain ⟨h2, rfl⟩ := List.getElem?_eq_some_iff.mp hb
  exact this i h2

theorem Done.crackMap (D : Done lab w h eight m ns es) : CrackMap lab w h eight m := by
  have B := D.built
  have hnode : ∀ {n : Nat} {nd : Node K}, m.node n = some nd → ∃ p, ns[n]? = some p ∧ nd.pos = vec p := by
    intro n nd hn
    have := B.node n
    rw [hn] at this
    obtain ⟨p, h1, h2⟩ := Option.map_eq_some_iff.mp this.symm
    exact ⟨p, h1, h2.symm⟩
  have hedge : ∀ {l : Nat} {e : Edge K}, m.edge l = some e → l ≠ 0 ∧ ∃ P, es[l - 1]? = some P ∧ e = ⟨P.a, P.b, none, none, P.pts, 0⟩ := by
    intro l e he
    have := (B.edge_iff (d := (l : Int)) (e := e)).mp (by simpa using he)
    exact ⟨by omega, by simpa using this.2⟩
  refine ⟨?_, ?_, ?_, ?_, ?_, ?_, ?_, ?_⟩
  · intro p x hc
    obtain ⟨d, i, P, h1, h2, h3⟩ := mem_dir_iff ((D.mem (p, x)).mp hc)
    refine ⟨(d, i), D.step.mpr ⟨h1, P, h2, h3⟩, ?_⟩
    rintro ⟨d', i'⟩ hs
    obtain ⟨g1, P', g2, g3⟩ := D.step.mp hs
    obtain ⟨e1, e2⟩ := dir_index D.once g1 h1 g2 h2 g3 h3
    exact Prod.ext e1 e2
  · intro d e he
    obtain ⟨hd, P, h1, rfl⟩ := B.edge_iff.mp he
    have hlen := P.pts_length (K := K)
    refine ⟨by simp only [hlen, Path.darts, List.length_cons]; omega, ?_⟩
    intro i hi
    simp only [hlen] at hi
    obtain ⟨δ, hδ⟩ : ∃ δ, (P.dir d)[i]? = some δ := ⟨_, List.getElem?_eq_getElem (by rw [P.dir_length]; omega)⟩
    exact ⟨δ.1, δ.2, D.step.mpr ⟨hd, P, h1, hδ⟩, (D.mem δ).mpr (dir_mem h1 hδ)⟩
  · intro p hp
    obtain ⟨n, hn⟩ := List.mem_iff_getElem?.mp (D.junction p ((junction_iff lab w h eight p).mpr hp))
    obtain ⟨nd, h1, h2⟩ := B.node_of hn
    exact ⟨n, nd, h1, h2⟩
  · intro n nd hn
    obtain ⟨p, h1, h2⟩ := hnode hn
    have hp := List.mem_of_getElem? h1
    refine ⟨p, h2, D.nodes p hp, ?_⟩
    by_cases hj : (marked lab w h eight p).node = true
    · exact .inl ((junction_iff lab w h eight p).mp hj)
    · right
      rcases D.starts p hp with h | ⟨P, hP, e⟩
      · exact absurd h hj
      · obtain ⟨k, hk⟩ := List.mem_iff_getElem?.mp hP
        obtain ⟨z, -, z2, z3⟩ := (D.paths P hP).fin
        have hz : (al z).1 = P.first.1 := by
          rcases z3 with z3 | ⟨z3, -⟩
          · exact z3
          · rw [e] at z3; exact absurd z3 hj
        rw [hz, e] at z2
        have hst := (D.paths P hP).start
        rw [e] at hst
        have uniq : ∀ {i : Nat}, ns[i]? = some p → i = n := by
          intro i hi
          obtain ⟨a1, a2⟩ := List.getElem?_eq_some_iff.mp hi
          obtain ⟨b1, b2⟩ := List.getElem?_eq_some_iff.mp h1
          exact (D.nodup.getElem_inj_iff).mp (a2.trans b2.symm)
        exact ⟨k + 1, _, by rw [B.edge, hk]; rfl, uniq hst, uniq z2⟩
  · intro n n' nd nd' h1 h2 h3
    obtain ⟨p, g1, g2⟩ := hnode h1
    obtain ⟨p', g1', g2'⟩ := hnode h2
    rw [g2, g2'] at h3
    have := vec_inj h3
    subst this
    obtain ⟨a1, a2⟩ := List.getElem?_eq_some_iff.mp g1
    obtain ⟨b1, b2⟩ := List.getElem?_eq_some_iff.mp g1'
    exact (D.nodup.getElem_inj_iff).mp (a2.trans b2.symm)
  · intro l e he
    obtain ⟨-, P, h1, rfl⟩ := hedge he
    have hok := D.paths P (List.mem_of_getElem? h1)
    obtain ⟨z, z1, z2, -⟩ := hok.fin
    obtain ⟨nd, a1, a2⟩ := B.node_of hok.start
    obtain ⟨nd', b1, b2⟩ := B.node_of z2
    refine ⟨nd, nd', a1, b1, by rw [a2]; rfl, ?_⟩
    rw [b2]
    show (Path.pts P).getLast? = _
    unfold Path.pts
    rw [List.getLast?_cons, List.getLast?_map, z1]
    rfl
  · intro l e i p he hi h0 hlt
    obtain ⟨-, P, h1, rfl⟩ := hedge he
    have hP := List.mem_of_getElem? h1
    have hok := D.paths P hP
    simp only [P.pts_length (K := K)] at hlt
    obtain ⟨j, rfl⟩ : ∃ j, i = j + 1 := ⟨i - 1, by omega⟩
    obtain ⟨a, ha⟩ : ∃ a, P.darts[j]? = some a := ⟨_, List.getElem?_eq_getElem (by omega)⟩
    obtain ⟨b, hb⟩ : ∃ b, P.darts[j + 1]? = some b := ⟨_, List.getElem?_eq_getElem (by omega)⟩
    obtain ⟨-, n2, n3⟩ := D.inner hP ha hb
    have e : p = (al a).1 := by
      have : (Path.pts (K := K) P)[j + 1]? = some (vec p) := hi
      unfold Path.pts at this
      rw [List.getElem?_cons_succ, List.getElem?_map, ha] at this
      simp only [Option.map_some, Option.some.injEq] at this
      exact (vec_inj this).symm
    subst e
    refine ⟨fun hj => ?_, fun hc => ?_, fun hc => ?_⟩
    · rw [← junction_iff, n2] at hj
      cases hj
    · have : (vec P.first.1 : Pt K) = vec (al a).1 := Option.some.inj hc
      exact n3 (vec_inj this).symm
    · obtain ⟨z, z1, -, z3⟩ := hok.fin
      have : (Path.pts (K := K) P).getLast? = some (vec (al a).1) := hc
      unfold Path.pts at this
      rw [List.getLast?_cons, List.getLast?_map, z1] at this
      have e := vec_inj (Option.some.inj this)
      rcases z3 with z3 | ⟨-, z3⟩
      · exact n3 (e.symm.trans z3)
      · rw [e, n2] at z3
        cases z3
  · intro d i j p q x y h1 h2
    obtain ⟨-, P, a1, a2⟩ := D.step.mp h1
    obtain ⟨-, P', b1, b2⟩ := D.step.mp h2
    rw [a1] at b1
    cases b1
    exact D.side a1 (List.mem_of_getElem? a2) (List.mem_of_getElem? b2)

/-- an edge passes a corner -/
theorem Done.pass (D : Done lab w h eight m ns es) {d : Int} {P : Path} (h1 : es[d.natAbs - 1]? = some P) {i : Nat} {a b : Dart}
    (ha : (P.dir d)[i]? = some a) (hb : (P.dir d)[i + 1]? = some b) :
    al a = (b.1, (marked lab w h eight b.1).tau b.2) ∧ (marked lab w h eight b.1).node = false := by
  have hP := List.mem_of_getElem? h1
  have hmem : ∀ δ ∈ P.darts, IsCrack lab w h δ.1 δ.2 := fun δ hδ => (D.mem δ).mpr (List.mem_append_left _ (List.mem_flatMap.mpr ⟨P, hP, hδ⟩))
  unfold Path.dir at ha hb
  by_cases hd : 0 < d
  · rw [if_pos hd] at ha hb
    obtain ⟨e, n, -⟩ := D.inner hP ha hb
    have hc : (marked lab w h eight (al a).1).has (al a).2 = true :=
      (marked_has _ _ _ _ _ _).mpr ((isCrack_alpha lab w h a.1 a.2).mpr (hmem a (List.mem_of_getElem? ha)))
    have e1 : b.1 = (al a).1 := by rw [e]
    have e2 : b.2 = (marked lab w h eight (al a).1).tau (al a).2 := by rw [e]
    rw [e1, e2, tau_tau _ (marked_valid _ _ _ _ _) n _ hc]
    exact ⟨rfl, n⟩
  · rw [if_neg hd] at ha hb
    have hi : i + 1 < P.darts.length := by simpa using (List.getElem?_eq_some_iff.mp hb).1
    rw [List.getElem?_reverse (by simp; omega), List.getElem?_map, List.length_map] at ha hb
    obtain ⟨a', ha', rfl⟩ := Option.map_eq_some_iff.mp ha
    obtain ⟨b', hb', rfl⟩ := Option.map_eq_some_iff.mp hb
    rw [show P.darts.length - 1 - i = P.darts.length - 1 - (i + 1) + 1 by omega] at ha'
    obtain ⟨e, n, -⟩ := D.inner hP hb' ha'
    rw [al_al]
    exact ⟨e, n⟩

/-- a corner that is passed appears in one edge only -/
theorem Done.inner_once (D : Done lab w h false m ns es) {l l' : Nat} {e e' : Edge K} {i i' : Nat} {p : Pos} (he : m.edge l = some e) (he' : m.edge l' = some e')
    (hi : e.pts[i]? = some (vec p)) (hi' : e'.pts[i']? = some (vec p)) (h0 : i ≠ 0) (hlt : i + 1 < e.pts.length) : l = l' ∧ i = i' := by
  obtain ⟨hl, P, h1, rfl⟩ := (D.built.edge_iff (d := (l : Int)) (e := e)).mp (by simpa using he)
  obtain ⟨hl', P', h1', rfl⟩ := (D.built.edge_iff (d := (l' : Int)) (e := e')).mp (by simpa using he')
  have hP := List.mem_of_getElem? h1
  have hP' := List.mem_of_getElem? h1'
  have hlink : ∀ {P}, P ∈ es → Linked P.darts := fun {P} hP => ((D.paths P hP).chain).imp fun a b hab => by rw [hab.1]
  simp only [P.pts_length (K := K)] at hlt
  obtain ⟨j, rfl⟩ : ∃ j, i = j + 1 := ⟨i - 1, by omega⟩
  obtain ⟨a, ha⟩ : ∃ a, P.darts[j]? = some a := ⟨_, List.getElem?_eq_getElem (by omega)⟩
  obtain ⟨b, hb⟩ : ∃ b, P.darts[j + 1]? = some b := ⟨_, List.getElem?_eq_getElem (by omega)⟩
  have ep : b.1 = p := by
    have := ptsOf_get (K := K) (hlink hP) hb
    have h2 : (ptsOf (K := K) P.darts)[j + 1]? = some (vec p) := hi
    rw [this] at h2
    exact vec_inj (Option.some.inj h2)
  subst ep
  have hdp : ∀ (P : Path) (l : Nat), ((l : Int) ≠ 0) → P.dir (l : Int) = P.darts := fun P l hl => by unfold Path.dir; rw [if_pos (by omega)]
  have hdn : ∀ (P : Path) (l : Nat), P.dir (-(l : Int)) = (P.darts.map al).reverse := fun P l => by unfold Path.dir; rw [if_neg (by omega)]
  obtain ⟨q1, q2⟩ := D.pass h1 (by rw [hdp P l hl]; exact ha) (by rw [hdp P l hl]; exact hb)
  have hdiag : (marked lab w h false b.1).diag = false := by
    unfold marked
    simp [Conn.mark, Conn.diag, symTarget]
  have hcb : (marked lab w h false b.1).has b.2 = true :=
    (marked_has _ _ _ _ _ _).mpr ((D.mem b).mpr (List.mem_append_left _ (List.mem_flatMap.mpr ⟨P, hP, List.mem_of_getElem? hb⟩)))
  -- the two directed cracks at the corner
  have hneg : ∀ {Q : Path} {k : Nat} {c : Dart}, Q.darts[k]? = some c → (Q.darts.map al).reverse[Q.darts.length - 1 - k]? = some (al c) := by
    intro Q k c hc
    have hk := (List.getElem?_eq_some_iff.mp hc).1
    rw [List.getElem?_reverse (by simp; omega), List.getElem?_map, List.length_map,
      show Q.darts.length - 1 - (Q.darts.length - 1 - k) = k by omega, hc]
    rfl
  have n1 : es[((-(l : Int)).natAbs) - 1]? = some P := by simpa using h1
  have n1' : es[((-(l' : Int)).natAbs) - 1]? = some P' := by simpa using h1'
  have p1 : (P.dir (l : Int))[j + 1]? = some b := by rw [hdp P l hl]; exact hb
  have p2 : (P.dir (-(l : Int)))[P.darts.length - 1 - j]? = some (al a) := by rw [hdn]; exact hneg ha
  have two : ∀ (d : Int) (k : Nat) (Q : Path) (y : Dir), d ≠ 0 → es[d.natAbs - 1]? = some Q → (Q.dir d)[k]? = some (b.1, y) →
      (d = l ∧ k = j + 1) ∨ (d = -(l : Int) ∧ k = P.darts.length - 1 - j) := by
    intro d k Q y hd hQ hk
    have hc : (marked lab w h false b.1).has y = true := (marked_has _ _ _ _ _ _).mpr ((D.mem (b.1, y)).mpr (dir_mem hQ hk))
    rcases tau_two _ (marked_valid _ _ _ _ _) q2 hdiag b.2 hcb y hc with e | e
    · left
      rw [e] at hk
      exact dir_index D.once hd hl hQ h1 hk p1
    · right
      rw [e, ← q1] at hk
      exact dir_index D.once hd (by omega) hQ n1 hk p2
  have hlen' := P'.pts_length (K := K)
  have hi2 : i' < P'.darts.length + 1 := by
    have := (List.getElem?_eq_some_iff.mp hi').1
    simp only [hlen'] at this
    exact this
  by_cases hlast : i' < P'.darts.length
  · obtain ⟨c, hc⟩ : ∃ c, P'.darts[i']? = some c := ⟨_, List.getElem?_eq_getElem hlast⟩
    have ec : c.1 = b.1 := by
      have := ptsOf_get (K := K) (hlink hP') hc
      have h2 : (ptsOf (K := K) P'.darts)[i']? = some (vec b.1) := hi'
      rw [this] at h2
      exact vec_inj (Option.some.inj h2)
    rcases two (l' : Int) i' P' c.2 hl' h1' (by rw [hdp P' l' hl', ← ec]; exact hc) with ⟨g1, g2⟩ | ⟨g1, -⟩
    · exact ⟨by omega, g2.symm⟩
    · omega
  · have e1 : i' = P'.darts.length - 1 + 1 := by
      have : 0 < P'.darts.length := by simp [Path.darts]
      omega
    obtain ⟨c, hc⟩ : ∃ c, P'.darts[P'.darts.length - 1]? = some c := ⟨_, List.getElem?_eq_getElem (by simp [Path.darts])⟩
    have ec : (al c).1 = b.1 := by
      have h2 : (ptsOf (K := K) P'.darts)[i']? = some (vec b.1) := hi'
      rw [e1, ptsOf_succ, hc] at h2
      exact vec_inj (Option.some.inj h2)
    have := hneg hc
    rcases two (-(l' : Int)) (P'.darts.length - 1 - (P'.darts.length - 1)) P' (al c).2 (by omega) n1' (by rw [hdn, ← ec]; exact this) with ⟨g1, -⟩ | ⟨-, g2⟩
    · omega
    · omega

end Verif.Crack
