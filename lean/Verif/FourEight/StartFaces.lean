import Verif.FourEight.StartTotal
import Verif.FourEight.StartSpec

/-!
# Anchors of the contours of faces are always found
-/

namespace Verif.FourEight
open Verif Verif.CellImage

theorem table_all : ∀ n : Fin 8 → Bool, cellConf .line n = .line → ∀ b k : Fin 8, good n b = true → k.val % 2 = 0 → n k = false →
    arcTo (bg n) k (leftIn n b) = true ∨ arcTo (bg n) (leftIn n b) k = true ∨ arcTo (bg n) k (rightIn n b) = true ∨
      arcTo (bg n) (rightIn n b) k = true := by
  apply ring8_all
  decide +kernel

section
variable {m : Map}

/-- a face beside a pixel of an edge lies beside the edge -/
theorem line_sides (hc : Clean m) (ht : Traceable m) (hf : FacesLabelled m) {d : Dart} (hd : IsDart m d) {q : Int × Int}
    (hq : SameEdge m d.front q) {k : Fin 8} (he : k.val % 2 = 0) {f : Nat} (hk : m.look q.1 q.2 k = (.region, f)) :
    leftL m d = f ∨ rightL m d = f := by
  obtain ⟨n, -, hv, hl⟩ := edge_ends hc ht hd
  obtain ⟨i, hi, rfl⟩ := (trace_edge hc ht hd.link hd.node n hv hl q).1 hq
  have hlk := iter_link hc ht hd.link i fun a ha => hl a (by omega)
  obtain ⟨s1, s2⟩ := sides_iter hc ht hf hd.link i fun a ha => hl a (by omega)
  have hs := hlk.swap hc
  have hli := hl i (by omega)
  rw [← s1, ← s2, leftL_in hlk, rightL_in hlk]
  clear s1 s2
  change m.look ((nextD m)^[i] d).swap.x ((nextD m)^[i] d).swap.y k = _ at hk
  generalize (nextD m)^[i] d = e at *
  have hcl : cellConf .line (ringOf m e.swap.x e.swap.y) = .line := ht _ _ hs.inside hli
  have hk2 : (m.look e.swap.x e.swap.y k).2 = f := by rw [hk]
  rcases table_all _ hcl _ k ((link_iff hs.inside hs.here).1 hs) he (ringOf_false.2 (by rw [hk])) with t | t | t | t
  · left; exact (arcTo_label hc hf hs.inside hs.here t).trans hk2
  · left; exact (arcTo_label hc hf hs.inside hs.here t).symm.trans hk2
  · right; exact (arcTo_label hc hf hs.inside hs.here t).trans hk2
  · right; exact (arcTo_label hc hf hs.inside hs.here t).symm.trans hk2

/-! ## `carefulNextSigma` -/

theorem careful_or {nend r : Dart} : ∀ (n : Nat) (e : Dart), sigmaLoop m 1 n e = .ok r →
    carefulLoop m nend n e = .ok r ∨ ∃ j < n, sigmaLoop m 1 j nend = .ok r
  | 0, e, h => by simp [sigmaLoop] at h
  | n + 1, e, h => by
    rw [sigmaLoop] at h
    rw [carefulLoop]
    obtain ⟨p, hp, h⟩ := Outcome.bind_eq_ok.1 h
    rw [hp, Outcome.bind_ok]
    by_cases hl : p.1 = .line
    · rw [if_pos hl] at h ⊢
      exact Or.inl h
    · rw [if_neg hl] at h ⊢
      obtain ⟨d', hd', h⟩ := Outcome.bind_eq_ok.1 h
      rw [hd', Outcome.bind_ok]
      by_cases hn : d' = nend
      · exact Or.inr ⟨n, by omega, by rw [← hn]; exact h⟩
      · rw [if_neg hn]
        rcases careful_or n d' h with g | ⟨j, hj, g⟩
        · exact Or.inl g
        · exact Or.inr ⟨j, by omega, g⟩

theorem careful_of_sigma {s r : Dart} (h : ∃ n, sigmaLoop m 1 n s = .ok r) : careful m s = .ok r := by
  classical
  rcases careful_or (nend := s) (Nat.find h) s (Nat.find_spec h) with g | ⟨j, hj, g⟩
  · exact careful_fuel g
  · exact absurd g (Nat.find_min h hj)

theorem careful_turn {a b : Dart} {p : Pixel} (ha : m.nb a 0 = .ok p) (hp : p.1 = .region) (ht : tryStep m 1 a = .ok b) :
    ∀ (n : Nat) (e : Dart), carefulLoop m a n e = .ok a → carefulLoop m b (n + 1) e = .ok b
  | 0, e, h => by simp [carefulLoop] at h
  | n + 1, e, h => by
    rw [carefulLoop] at h
    rw [carefulLoop]
    obtain ⟨q, hq, h⟩ := Outcome.bind_eq_ok.1 h
    rw [hq, Outcome.bind_ok]
    by_cases hl : q.1 = .line
    · rw [if_pos hl] at h
      exfalso
      obtain rfl := Outcome.ok.inj h
      rw [ha] at hq
      obtain rfl := Outcome.ok.inj hq
      rw [hp] at hl
      exact absurd hl (by decide)
    · rw [if_neg hl] at h ⊢
      obtain ⟨d', hd', h⟩ := Outcome.bind_eq_ok.1 h
      rw [hd', Outcome.bind_ok]
      by_cases hb : d' = b
      · rw [if_pos hb, hb]
      rw [if_neg hb]
      by_cases hn : d' = a
      · rw [hn, carefulLoop, ha, Outcome.bind_ok, if_neg (by rw [hp]; decide), if_neg (by rw [hp]; decide), ht, Outcome.bind_ok, if_pos rfl]
      · rw [if_neg hn] at h
        exact careful_turn ha hp ht n d' h

theorem mkDart_region (hc : Clean m) {s : Dart} (h : Rim m s) (hl : (m.look s.x s.y s.dir).1 = .region) : mkDart m s = careful m s := by
  unfold mkDart
  have hget : m.get s.x s.y = .ok (m.px s.x s.y) := by unfold Map.get; rw [if_pos h.inside]
  have hd : diagonalLoop m m.fuel s = .ok s := by
    unfold Map.fuel
    rw [diagonalLoop, badDiagonal_other hc h.inside h.nonregion (by rw [hl]; decide), Outcome.bind_ok, if_neg (by decide)]
  rw [hget, Outcome.bind_ok, if_neg (by rw [h.node]; decide), hc.nb h.inside h.nonregion, Outcome.bind_ok, add_zero,
    if_neg h.out, hd, Outcome.bind_ok, hc.nb h.inside h.nonregion, Outcome.bind_ok, add_zero, if_pos (by rw [hl]; decide)]

/-- the anchor at a node with darts -/
theorem anchor_dart (hc : Clean m) (hno : NoCorner m) (ht : Traceable m) (hf : FacesLabelled m) {s : Dart} (h : Rim m s) {f : Nat}
    (hl : m.look s.x s.y s.dir = (.region, f)) (hd : ∃ i, IsDart m ((walk m 1)^[i] s)) :
    ∃ a a', mkDart m s = .ok a ∧ sigma m 7 a = .ok a' ∧ leftFace m a' = .ok f := by
  classical
  have hne : Nat.find hd ≠ 0 := by
    intro e
    have hh := Nat.find_spec hd
    rw [e] at hh
    have he := hh.edge
    change (m.look s.x s.y s.dir).1 = _ at he
    rw [hl] at he
    exact absurd he (by simp)
  obtain ⟨n, hn⟩ : ∃ n, Nat.find hd = n + 1 := ⟨Nat.find hd - 1, by omega⟩
  have ha : IsDart m ((walk m 1)^[n + 1] s) := by rw [← hn]; exact Nat.find_spec hd
  have hfirst : ∀ i, 0 < i → i < n + 1 → ¬IsDart m ((walk m 1)^[i] s) := fun i _ hi => Nat.find_min hd (by omega)
  obtain ⟨j, hj⟩ := reach_iter hc hno one_turn n h ha hfirst
  have hsec := sector hc hf f n h hl ha hfirst
  obtain ⟨a', g1, g2, g3, -⟩ := Props.sigma_inverse hc hno ha (k := 7) (Or.inr rfl)
  have e1 : (-7 : Fin 8) = 1 := by decide
  rw [e1] at g3
  have hfc := Props.sigma_faces hc hno ht hf g2 g3
  refine ⟨_, a', ?_, g1, ?_⟩
  · rw [mkDart_region hc h (by rw [hl])]
    exact careful_of_sigma ⟨j + 1, by rw [sigmaLoop_region hc h.inside h.nonregion (by rw [hl])]; exact hj⟩
  · rw [← hfc, rightFace_eq hc ha.inside ha.rim.nonregion, hsec]

/-! ## nodes without darts -/

/-- without darts, the walk always looks at the same face -/
theorem free_step (hc : Clean m) (hf : FacesLabelled m) {l : Nat} {s : Dart} (h : Rim m s) (hl : m.look s.x s.y s.dir = (.region, l))
    (h1 : ¬IsDart m (walk m 1 s)) (h2 : ¬IsDart m (walk m 1 (walk m 1 s))) :
    m.look (walk m 1 s).x (walk m 1 s).y (walk m 1 s).dir = (.region, l) := by
  have hrim := walk_rim hc one_turn h
  obtain ⟨x, y, δ⟩ := s
  have hn := h.nonregion
  have hi := h.inside
  have hl1 : (m.look x y δ).1 = .region := congrArg Prod.fst hl
  have hl2 : (m.look x y δ).2 = l := congrArg Prod.snd hl
  have hring := ring_label hc hf hi hn
  dsimp only at hring hi hn
  by_cases ho : δ.val % 2 = 1
  · have e1 := walk_odd (m := m) (x := x) (y := y) ho
    rw [e1] at h1 hrim ⊢
    rcases hc.look_types hi hn (δ + 1) with g | g | g
    · exact absurd g (h.sides ho 1 one_turn)
    · exact absurd (even_dart hrim (fun hh => par1.1 hh ho) g) h1
    · exact Prod.ext g (by dsimp only; rw [hring δ hl1 g, hl2])
  by_cases hq : (m.look x y (δ + 1)).1 = .vertex
  · rw [walk_q ho hq]
    dsimp only
    rw [look_shift (dir_q one_turn ho)]
    exact hl
  by_cases hr : (m.look x y (δ + 2)).1 = .vertex
  · rw [walk_r ho hq hr] at h1 hrim ⊢
    have hlook : m.look (x + dx (δ + 2)) (y + dy (δ + 2)) δ = m.look x y (δ + 1) := by
      have := look_shift (m := m) (x := x) (y := y) (dir_r one_turn ho)
      rw [two_one] at this
      exact this
    rcases hc.look_types hi hn (δ + 1) with g | g | g
    · exact absurd g hq
    · exact absurd (even_dart hrim ho (by dsimp only; rw [hlook]; exact g)) h1
    · dsimp only
      rw [hlook]
      exact Prod.ext g (by dsimp only; rw [hring δ hl1 g, hl2])
  · have e1 := walk_t ho hq hr
    rcases hc.look_types hi hn (δ + 1) with g | g | g
    · exact absurd g hq
    · exfalso
      by_cases g2 : (m.look x y (δ + 2)).1 = .region
      · refine h1 ?_
        rw [e1]
        exact ⟨hi, h.node, g, fun _ => ⟨by dsimp only; rw [fin_11]; exact g2, by dsimp only; rw [fin_17]; exact hl1⟩⟩
      · have hline : (m.look x y (δ + 2)).1 = .line := by
          rcases hc.look_types hi hn (δ + 2) with h3 | h3 | h3
          · exact absurd h3 hr
          · exact h3
          · exact absurd h3 g2
        refine h2 ?_
        rw [e1, walk_odd (par1.2 ho), fin_11]
        exact ⟨hi, h.node, hline, fun hh => absurd (par2.1 hh) ho⟩
    · rw [e1]
      exact Prod.ext g (by dsimp only; rw [hring δ hl1 g, hl2])

theorem free_iter (hc : Clean m) (hf : FacesLabelled m) {l : Nat} {s : Dart} (h : Rim m s) (hl : m.look s.x s.y s.dir = (.region, l))
    (hd : ∀ i, ¬IsDart m ((walk m 1)^[i] s)) (n : Nat) :
    m.look ((walk m 1)^[n] s).x ((walk m 1)^[n] s).y ((walk m 1)^[n] s).dir = (.region, l) := by
  induction n with
  | zero => exact hl
  | succ n ih =>
    rw [Function.iterate_succ_apply']
    refine free_step hc hf (iter_rim hc one_turn h n) ih ?_ ?_
    · have := hd (n + 1); rwa [Function.iterate_succ_apply'] at this
    · have := hd (n + 2); rwa [Function.iterate_succ_apply', Function.iterate_succ_apply'] at this

/-- a face at the first pixel of a contour that has no dart -/
theorem anchor_single (hc : Clean m) (hno : NoCorner m) {x y : Int} {k : Fin 8} (hk : k = 2 ∨ k = 3) (hi : m.inside x y)
    (hv : (m.px x y).1 = .vertex) {f : Nat} (hl : ∀ j : Fin 8, j = 1 ∨ j = 2 ∨ j = 3 ∨ j = 4 → m.look x y j = (.region, f))
    (hd : ∀ i, ¬IsDart m ((walk m 1)^[i] ⟨x, y, 2⟩)) :
    mkDart m ⟨x, y, k⟩ = .ok ⟨x, y, k⟩ ∧ sigma m 7 ⟨x, y, k⟩ = .ok ⟨x, y, k⟩ ∧ leftFace m ⟨x, y, k⟩ = .ok f := by
  have hn : (m.px x y).1 ≠ .region := by rw [hv]; decide
  have rim2 : Rim m ⟨x, y, 2⟩ := ⟨hi, hv, by show (m.look x y 2).1 ≠ _; rw [hl 2 (by decide)]; simp, fun h => absurd h (by show ¬(2 : Fin 8).val % 2 = 1; decide)⟩
  have rim3 : Rim m ⟨x, y, 3⟩ := ⟨hi, hv, by show (m.look x y 3).1 ≠ _; rw [hl 3 (by decide)]; simp, fun _ k hk => by
    rcases hk with rfl | rfl
    · show (m.look x y 4).1 ≠ _; rw [hl 4 (by decide)]; simp
    · show (m.look x y 2).1 ≠ _; rw [hl 2 (by decide)]; simp⟩
  obtain ⟨n, c1, c2, -⟩ := careful_total hc hno (nend := ⟨x, y, 2⟩) rim2
    (by show (m.look x y 2).1 = _; rw [hl 2 (by decide)]) (by show (m.look x y 1).1 ≠ _; rw [hl 1 (by decide)]; simp)
  have c3 : careful m ⟨x, y, 2⟩ = .ok ⟨x, y, 2⟩ := by
    rcases c2 with e | e
    · rw [c1, e]
    · exact absurd e (hd _)
  have hsig : ∀ j : Fin 8, j = 1 ∨ j = 2 ∨ j = 3 ∨ j = 4 → sigma m 7 ⟨x, y, j⟩ = .ok ⟨x, y, j⟩ := by
    intro j hj
    unfold sigma
    rw [hc.nb (d := ⟨x, y, j⟩) hi hn, Outcome.bind_ok, add_zero, if_pos]
    rw [hl j hj]; simp
  rcases hk with rfl | rfl
  · refine ⟨?_, hsig 2 (by decide), ?_⟩
    · rw [mkDart_region hc rim2 (by show (m.look x y 2).1 = _; rw [hl 2 (by decide)])]; exact c3
    · rw [leftFace_eq hc hi hn]
      unfold leftL
      show Outcome.ok (if (m.look x y 3).1 = .region then (m.look x y 3).2 else _) = _
      rw [hl 3 (by decide), if_pos rfl]
  · refine ⟨?_, hsig 3 (by decide), ?_⟩
    · rw [mkDart_region hc rim3 (by show (m.look x y 3).1 = _; rw [hl 3 (by decide)])]
      have hst : tryStep m 1 ⟨x, y, 2⟩ = .ok ⟨x, y, 3⟩ := by
        have e : Dart.turn ⟨x, y, 2⟩ 1 = ⟨x, y, 3⟩ := rfl
        rw [tryStep_plain, e]
        rw [e]
        exact badDiagonal_other hc hi hn (by show (m.look x y 3).1 ≠ _; rw [hl 3 (by decide)]; simp)
      have hnb : m.nb ⟨x, y, 2⟩ 0 = .ok (.region, f) := by
        rw [hc.nb (d := ⟨x, y, 2⟩) hi hn, add_zero]
        exact congrArg Outcome.ok (hl 2 (by decide))
      unfold careful at c3
      have c4 := careful_turn hnb rfl hst _ _ c3
      -- the loop that starts one step later
      refine careful_fuel (n := m.fuel) ?_
      have hstep : carefulLoop m ⟨x, y, 2⟩ m.fuel ⟨x, y, 2⟩ = carefulLoop m ⟨x, y, 2⟩ (8 * m.w * m.h) ⟨x, y, 3⟩ := by
        unfold Map.fuel
        rw [carefulLoop, hnb, Outcome.bind_ok, if_neg (by simp), if_neg (by simp), hst, Outcome.bind_ok, if_neg (by simp)]
      rw [hstep] at c3
      exact careful_turn hnb rfl hst _ _ c3
    · rw [leftFace_eq hc hi hn]
      unfold leftL
      show Outcome.ok (if (m.look x y 4).1 = .region then (m.look x y 4).2 else _) = _
      rw [hl 4 (by decide), if_pos rfl]

/-- the contour of cracks is followed by the walk -/
theorem crack_walk {d : Dart} (he : d.dir.val % 2 = 0) : ∃ j, nextCrack m d = (walk m 1)^[j] d ∧ (nextCrack m d).dir.val % 2 = 0 := by
  obtain ⟨x, y, δ⟩ := d
  have he' : ¬δ.val % 2 = 1 := by dsimp only at he; omega
  unfold nextCrack
  dsimp only
  by_cases h1 : (m.look x y (δ + 1)).1 = .vertex
  · rw [if_pos h1]
    refine ⟨1, ?_, ?_⟩
    · show _ = walk m 1 _
      rw [walk_q he' h1]
      have : δ + 6 = δ + 4 + 2 * 1 := by clear * -; revert δ; decide
      rw [this]
    · dsimp only; clear * - he'; revert δ; decide
  rw [if_neg h1]
  by_cases h2 : (m.look x y (δ + 2)).1 = .vertex
  · rw [if_pos h2]
    exact ⟨1, (walk_r he' h1 h2).symm, he⟩
  · rw [if_neg h2]
    refine ⟨2, ?_, ?_⟩
    · show _ = walk m 1 (walk m 1 _)
      rw [walk_t he' h1 h2, walk_odd (par1.2 he'), fin_11]
    · dsimp only; clear * - he'; revert δ; decide

theorem cracks_walk (n : Nat) {d : Dart} (he : d.dir.val % 2 = 0) : ∃ j, (nextCrack m)^[n] d = (walk m 1)^[j] d := by
  induction n generalizing d with
  | zero => exact ⟨0, rfl⟩
  | succ n ih =>
    obtain ⟨j, h1, h2⟩ := crack_walk (m := m) he
    obtain ⟨i, h3⟩ := ih h2
    exact ⟨i + j, by rw [Function.iterate_succ_apply, h3, Function.iterate_add_apply, h1]⟩

/-- going back along the walk -/
theorem walk_back (hc : Clean m) {s t : Dart} (h : Rim m t) {j : Nat} (hj : (walk m 1)^[j] t = s) : ∃ i, (walk m 1)^[i] s = t := by
  obtain ⟨N, hN, e⟩ := walk_returns hc one_turn h
  have hall : ∀ a, (walk m 1)^[N * a] t = t := by
    intro a
    induction a with
    | zero => rfl
    | succ a ih => rw [Nat.mul_succ, Function.iterate_add_apply, e, ih]
  refine ⟨N * j - j, ?_⟩
  rw [← hj, ← Function.iterate_add_apply, Nat.sub_add_cancel (Nat.le_mul_of_pos_left j hN)]
  exact hall j

end

end Verif.FourEight
