import Verif.FourEight.LabelCells

/-!
# The labelling of edges ends
-/

namespace Verif.FourEight
open Verif Verif.CellImage

section
variable {m : Map}

/-! ## `carefulNextSigma` -/

/-- the rest of the loop of `carefulNextSigma` -/
def crest (m : Map) (nend : Dart) (n : Nat) (d : Dart) : Outcome Dart :=
  (tryStep m 1 d).bind fun d' => if d' = nend then .ok d' else carefulLoop m nend n d'

/-- this loop ends with `r` -/
def CReaches (m : Map) (nend d r : Dart) : Prop := ∃ n, crest m nend n d = .ok r

theorem carefulLoop_line (hc : Clean m) {nend d : Dart} (hi : m.inside d.x d.y) (hn : (m.px d.x d.y).1 ≠ .region)
    (h : (m.look d.x d.y d.dir).1 = .line) (n : Nat) : carefulLoop m nend (n + 1) d = .ok d := by
  rw [carefulLoop, hc.nb hi hn, Outcome.bind_ok, add_zero, if_pos h]

theorem carefulLoop_vertex (hc : Clean m) {nend d : Dart} (hi : m.inside d.x d.y) (hn : (m.px d.x d.y).1 ≠ .region)
    (h : (m.look d.x d.y d.dir).1 = .vertex) (n : Nat) : carefulLoop m nend (n + 1) d = crest m nend n (d.swap.turn 1) := by
  rw [carefulLoop, hc.nb hi hn, Outcome.bind_ok, add_zero, if_neg (by rw [h]; decide), if_pos h]
  rfl

theorem carefulLoop_region (hc : Clean m) {nend d : Dart} (hi : m.inside d.x d.y) (hn : (m.px d.x d.y).1 ≠ .region)
    (h : (m.look d.x d.y d.dir).1 = .region) (n : Nat) : carefulLoop m nend (n + 1) d = crest m nend n d := by
  rw [carefulLoop, hc.nb hi hn, Outcome.bind_ok, add_zero, if_neg (by rw [h]; decide), if_neg (by rw [h]; decide)]
  rfl

/-- where the loop stops -/
def Stop (m : Map) (nend d : Dart) : Prop := d = nend ∨ IsDart m d

/-- after a step that leads to a position of the walk -/
theorem crest_at (hc : Clean m) {nend e d' : Dart} (h : Rim m d') (hev : (m.look d'.x d'.y d'.dir).1 = .line → IsDart m d')
    (ht : tryStep m 1 e = .ok d') :
    (Stop m nend d' → CReaches m nend e d') ∧ (∀ r, ¬Stop m nend d' → CReaches m nend d' r → CReaches m nend e r) := by
  constructor
  · intro hs
    by_cases he : d' = nend
    · exact ⟨0, by unfold crest; rw [ht, Outcome.bind_ok, if_pos he]⟩
    · rcases hs with hs | hs
      · exact absurd hs he
      · exact ⟨1, by unfold crest; rw [ht, Outcome.bind_ok, if_neg he]; exact carefulLoop_line hc h.inside h.nonregion hs.edge 0⟩
  · rintro r hs ⟨n, hr⟩
    refine ⟨n + 1, ?_⟩
    unfold crest
    rw [ht, Outcome.bind_ok, if_neg fun he => hs (Or.inl he), carefulLoop_region hc h.inside h.nonregion _ n]
    · exact hr
    · rcases hc.look_types h.inside h.nonregion d'.dir with h1 | h1 | h1
      · exact absurd h1 h.out
      · exact absurd (Or.inr (hev h1)) hs
      · exact h1

/-- one step of the walk -/
theorem careful_step (hc : Clean m) (hno : NoCorner m) {nend : Dart} (hne : Rim m nend)
    (hnr : (m.look nend.x nend.y nend.dir).1 = .region) (hnw : (m.look nend.x nend.y (nend.dir + 7)).1 ≠ .vertex)
    {d : Dart} (h : Rim m d) :
    (Stop m nend (walk m 1 d) → CReaches m nend d (walk m 1 d)) ∧
    (∀ r, ¬Stop m nend (walk m 1 d) → CReaches m nend (walk m 1 d) r → CReaches m nend d r) := by
  have hk : IsTurn 1 := Or.inl rfl
  have hrim := walk_rim hc hk h
  obtain ⟨x, y, δ⟩ := d
  have hn := h.nonregion
  have hi := h.inside
  by_cases ho : δ.val % 2 = 1
  · have e1 : walk m 1 ⟨x, y, δ⟩ = ⟨x, y, δ + 1⟩ := by unfold walk; rw [if_pos ho]; rfl
    rw [e1] at hrim ⊢
    have he : ¬(δ + 1).val % 2 = 1 := fun hh => (par_turn hk).1 hh ho
    exact crest_at hc hrim (even_dart hrim he) (tryStep_plain (badDiagonal_even he))
  have hok : (δ + 1).val % 2 = 1 := (par_turn hk).2 ho
  have hodd : (m.look x y (δ + 1)).1 ≠ .region → (⟨x, y, δ + 1⟩ : Dart) ≠ nend := fun hh e => hh (by rw [← e] at hnr; exact hnr)
  by_cases hq : (m.look x y (δ + 1)).1 = .vertex
  · have e1 : walk m 1 ⟨x, y, δ⟩ = ⟨x + dx (δ + 1), y + dy (δ + 1), δ + 4 + 2 * 1⟩ := by
      unfold walk; dsimp only; rw [if_neg ho, if_pos hq]
    rw [e1] at hrim ⊢
    have e2 : tryStep m 1 ⟨x, y, δ⟩ = .ok ⟨x, y, δ + 1⟩ := tryStep_plain (badDiagonal_other hc (d := ⟨x, y, δ + 1⟩) hi hn (by
      dsimp only; rw [hq]; decide))
    constructor
    · rintro (hs | hd)
      · exfalso
        refine hnw ?_
        rw [← hs]
        dsimp only
        have e : δ + 4 + 2 * 1 + 7 = (δ + 1) + 4 := by clear * -; revert δ; decide
        rw [e, look_back (dir_opp (δ + 1))]
        exact h.node
      · exfalso
        have hl := hd.edge
        dsimp only at hl
        rw [look_shift (dir_q hk ho)] at hl
        have hin : m.inside (x + dx δ) (y + dy δ) := hc.near hi hn δ
        have hv1 : (m.look (x + dx δ) (y + dy δ) (δ + 4)).1 = .vertex := by rw [look_back (dir_opp δ)]; exact h.node
        have hv2 : (m.look (x + dx δ) (y + dy δ) (δ + 2 * 1)).1 = .vertex := by rw [look_shift (dir_line hk ho)]; exact hq
        refine hno _ _ hin hl (δ + 2) ?_ ⟨hv2, ?_⟩
        · have : (δ + 2 * 1).val % 2 = 1 ↔ _ := par_r (δ := δ) (k := 1) (Or.inl rfl)
          have e : δ + 2 * 1 = δ + 2 := by clear * -; revert δ; decide
          rw [e] at this
          omega
        · have e : δ + 2 + 2 = δ + 4 := by clear * -; revert δ; decide
          rw [e]; exact hv1
    · rintro r - ⟨n, hr⟩
      refine ⟨n + 1, ?_⟩
      unfold crest
      rw [e2, Outcome.bind_ok, if_neg (hodd (by rw [hq]; decide)), carefulLoop_vertex hc (d := ⟨x, y, δ + 1⟩) hi hn hq]
      have e3 : Dart.turn (Dart.swap ⟨x, y, δ + 1⟩) 1 = ⟨x + dx (δ + 1), y + dy (δ + 1), δ + 4 + 2 * 1⟩ := by
        show Dart.mk (x + dx (δ + 1)) (y + dy (δ + 1)) (δ + 1 + 4 + 1) = _
        rw [fin_e hk]
      rw [e3]
      exact hr
  by_cases hr : (m.look x y (δ + 2 * 1)).1 = .vertex
  · have e1 : walk m 1 ⟨x, y, δ⟩ = ⟨x + dx (δ + 2 * 1), y + dy (δ + 2 * 1), δ⟩ := by
      unfold walk; dsimp only; rw [if_neg ho, if_neg hq, if_pos hr]
    rw [e1] at hrim ⊢
    have e3 : (Dart.turn (Dart.swap ⟨x, y, δ + 2 * 1⟩) 1).turn 1 = ⟨x + dx (δ + 2 * 1), y + dy (δ + 2 * 1), δ⟩ := by
      show Dart.mk (x + dx (δ + 2 * 1)) (y + dy (δ + 2 * 1)) (δ + 2 * 1 + 4 + 1 + 1) = _
      rw [fin_f hk]
    have hl := crest_at (nend := nend) (e := Dart.turn (Dart.swap ⟨x, y, δ + 2 * 1⟩) 1) hc hrim (even_dart hrim ho) (by
      rw [← e3]
      exact tryStep_plain (by rw [e3]; exact badDiagonal_even ho))
    have hturn : (Dart.turn ⟨x, y, δ + 1⟩ 1) = ⟨x, y, δ + 2 * 1⟩ := by
      show Dart.mk _ _ (δ + 1 + 1) = _
      rw [fin_d hk]
    have hne2 : (⟨x, y, δ + 2 * 1⟩ : Dart) ≠ nend := by
      rintro rfl
      exact absurd (hr.symm.trans hnr) (by decide)
    have all : ∀ r, CReaches m nend (Dart.turn (Dart.swap ⟨x, y, δ + 2 * 1⟩) 1) r → CReaches m nend ⟨x, y, δ⟩ r := by
      rintro r ⟨n, e⟩
      rcases hc.look_types hi hn (δ + 1) with h1 | h1 | h1
      · exact absurd h1 hq
      · refine ⟨n + 1, ?_⟩
        have hb : badDiagonal m (Dart.turn ⟨x, y, δ⟩ 1) = .ok true := by
          show badDiagonal m ⟨x, y, δ + 1⟩ = _
          rw [badDiagonal_line hc (d := ⟨x, y, δ + 1⟩) hi hn hok h1]
          have : ¬((m.look x y (δ + 1 + 1)).1 = .region ∧ (m.look x y (δ + 1 + 7)).1 = .region) := by
            rintro ⟨h2, h3⟩
            rw [fin_d (Or.inl rfl), hr] at h2; exact absurd h2 (by decide)
          rw [decide_eq_true this]
        unfold crest
        rw [tryStep_skip hb, Outcome.bind_ok]
        have e4 : (Dart.turn ⟨x, y, δ⟩ 1).turn 1 = ⟨x, y, δ + 2 * 1⟩ := hturn
        rw [e4, if_neg hne2, carefulLoop_vertex hc (d := ⟨x, y, δ + 2 * 1⟩) hi hn hr]
        exact e
      · refine ⟨n + 2, ?_⟩
        unfold crest
        rw [tryStep_plain (badDiagonal_other hc (d := ⟨x, y, δ + 1⟩) hi hn (by dsimp only; rw [h1]; decide)), Outcome.bind_ok]
        have e4 : Dart.turn ⟨x, y, δ⟩ 1 = ⟨x, y, δ + 1⟩ := rfl
        have hne1 : (⟨x, y, δ + 1⟩ : Dart) ≠ nend := by
          rintro rfl
          have := hne.sides hok 1 (Or.inl rfl)
          dsimp only at this
          rw [fin_d (Or.inl rfl)] at this
          exact this hr
        rw [e4, if_neg hne1, carefulLoop_region hc (d := ⟨x, y, δ + 1⟩) hi hn h1]
        unfold crest
        rw [tryStep_plain (by rw [hturn]; exact badDiagonal_even (fun hh => ho ((par_r hk).1 hh))), hturn, Outcome.bind_ok, if_neg hne2,
          carefulLoop_vertex hc (d := ⟨x, y, δ + 2 * 1⟩) hi hn hr]
        exact e
    exact ⟨fun hs => all _ (hl.1 hs), fun r hs hr => all _ (hl.2 r hs hr)⟩
  · have e1 : walk m 1 ⟨x, y, δ⟩ = ⟨x, y, δ + 1⟩ := by
      unfold walk; dsimp only; rw [if_neg ho, if_neg hq, if_neg hr]; rfl
    rw [e1] at hrim ⊢
    have hturn : (Dart.turn ⟨x, y, δ + 1⟩ 1) = ⟨x, y, δ + 2 * 1⟩ := by
      show Dart.mk _ _ (δ + 1 + 1) = _
      rw [fin_d hk]
    by_cases hb : (m.look x y (δ + 1)).1 = .line ∧ ¬((m.look x y (δ + 1 + 1)).1 = .region ∧ (m.look x y (δ + 1 + 7)).1 = .region)
    · have hbd : badDiagonal m (Dart.turn ⟨x, y, δ⟩ 1) = .ok true := by
        show badDiagonal m ⟨x, y, δ + 1⟩ = _
        rw [badDiagonal_line hc (d := ⟨x, y, δ + 1⟩) hi hn hok hb.1, decide_eq_true hb.2]
      constructor
      · rintro (hs | hd)
        · exact absurd hs (hodd (by rw [hb.1]; decide))
        · exact absurd (hd.between hok) hb.2
      · rintro r - ⟨n, e⟩
        refine ⟨n, ?_⟩
        unfold crest at e ⊢
        rw [tryStep_plain (by rw [hturn]; exact badDiagonal_even (fun hh => ho ((par_r hk).1 hh))), hturn] at e
        rw [tryStep_skip hbd]
        have e4 : (Dart.turn ⟨x, y, δ⟩ 1).turn 1 = ⟨x, y, δ + 2 * 1⟩ := hturn
        rw [e4]
        exact e
    · have e2 : tryStep m 1 ⟨x, y, δ⟩ = .ok ⟨x, y, δ + 1⟩ := by
        refine tryStep_plain ?_
        show badDiagonal m ⟨x, y, δ + 1⟩ = _
        by_cases h1 : (m.look x y (δ + 1)).1 = .line
        · rw [badDiagonal_line hc (d := ⟨x, y, δ + 1⟩) hi hn hok h1, decide_eq_false (fun hh => hb ⟨h1, hh⟩)]
        · exact badDiagonal_other hc (d := ⟨x, y, δ + 1⟩) hi hn h1
      exact crest_at hc hrim (fun h1 => ⟨hi, h.node, h1, fun _ => by
        by_contra hh
        exact hb ⟨h1, hh⟩⟩) e2

theorem careful_iter (hc : Clean m) (hno : NoCorner m) {nend : Dart} (hne : Rim m nend)
    (hnr : (m.look nend.x nend.y nend.dir).1 = .region) (hnw : (m.look nend.x nend.y (nend.dir + 7)).1 ≠ .vertex) (n : Nat)
    {d : Dart} (h : Rim m d) (hd : Stop m nend ((walk m 1)^[n + 1] d))
    (hf : ∀ i, 0 < i → i < n + 1 → ¬Stop m nend ((walk m 1)^[i] d)) : CReaches m nend d ((walk m 1)^[n + 1] d) := by
  induction n generalizing d with
  | zero => exact (careful_step hc hno hne hnr hnw h).1 hd
  | succ n ih =>
    refine (careful_step hc hno hne hnr hnw h).2 _ (hf 1 (by omega) (by omega)) ?_
    exact ih (walk_rim hc (Or.inl rfl) h) hd (fun i h0 hi => hf (i + 1) (by omega) (by omega))

/-! ## number of steps -/

theorem carefulLoop_mono {nend : Dart} (n j : Nat) {d r : Dart} (h : carefulLoop m nend n d = .ok r) :
    carefulLoop m nend (n + j) d = .ok r := by
  induction n generalizing d with
  | zero => simp [carefulLoop] at h
  | succ n ih =>
    rw [show n + 1 + j = (n + j) + 1 by omega]
    rw [carefulLoop] at h ⊢
    obtain ⟨p, hp, h⟩ := Outcome.bind_eq_ok.1 h
    rw [hp, Outcome.bind_ok]
    split at h
    · rename_i hl
      rw [if_pos hl]; exact h
    · rename_i hl
      rw [if_neg hl]
      obtain ⟨e, he, h⟩ := Outcome.bind_eq_ok.1 h
      rw [he, Outcome.bind_ok]
      split at h
      · rename_i hh
        rw [if_pos hh]; exact h
      · rename_i hh
        rw [if_neg hh]
        exact ih h

/-- ends after exactly `n` steps -/
def CExactly (m : Map) (nend : Dart) (n : Nat) (d r : Dart) : Prop :=
  carefulLoop m nend n d = .ok r ∧ ∀ i < n, carefulLoop m nend i d ≠ .ok r

theorem cexactly_all {nend r : Dart} (n : Nat) {d : Dart} (h : CExactly m nend n d r) :
    ∀ j, 0 < j → j ≤ n → ∃ e p, CExactly m nend j e r ∧ m.nb e 0 = .ok p := by
  induction n generalizing d with
  | zero => intro j h1 h2; omega
  | succ n ih =>
    intro j h1 h2
    have h0 := h.1
    rw [carefulLoop] at h0
    obtain ⟨p, hp, h0⟩ := Outcome.bind_eq_ok.1 h0
    by_cases hj : j = n + 1
    · subst hj
      exact ⟨d, p, h, hp⟩
    split at h0
    · rename_i hl
      exfalso
      refine h.2 1 (by omega) ?_
      rw [carefulLoop, hp, Outcome.bind_ok, if_pos hl]
      exact h0
    · rename_i hl
      obtain ⟨e, he, h0⟩ := Outcome.bind_eq_ok.1 h0
      split at h0
      · rename_i hh
        exfalso
        refine h.2 1 (by omega) ?_
        rw [carefulLoop, hp, Outcome.bind_ok, if_neg hl, he, Outcome.bind_ok, if_pos hh]
        exact h0
      · rename_i hh
        refine ih (d := e) ⟨h0, fun i hi hc => h.2 (i + 1) (by omega) ?_⟩ j h1 (by omega)
        rw [carefulLoop, hp, Outcome.bind_ok, if_neg hl, he, Outcome.bind_ok, if_neg hh]
        exact hc

theorem cexactly_unique {nend r : Dart} {a b : Nat} {d : Dart} (h : CExactly m nend a d r) (h' : CExactly m nend b d r) : a = b := by
  rcases Nat.lt_trichotomy a b with hh | hh | hh
  · exact absurd h.1 (h'.2 a hh)
  · exact hh
  · exact absurd h'.1 (h.2 b hh)

/-- positions and directions of an image -/
def places (m : Map) : Finset ((Int × Int) × Fin 8) :=
  (Finset.Ico (-2) ((m.w : Int) - 2) ×ˢ Finset.Ico (-2) ((m.h : Int) - 2)) ×ˢ (Finset.univ : Finset (Fin 8))

theorem places_card (m : Map) : (places m).card = 8 * m.w * m.h := by
  unfold places
  simp only [Finset.card_product, Int.card_Ico, Finset.card_univ, Fintype.card_fin]
  have e1 : ((m.w : Int) - 2 - -2).toNat = m.w := by omega
  have e2 : ((m.h : Int) - 2 - -2).toNat = m.h := by omega
  rw [e1, e2]
  ring

theorem mem_places {p : Int × Int} {k : Fin 8} : (p, k) ∈ places m ↔ m.inside p.1 p.2 := by
  unfold places Map.inside
  simp only [Finset.mem_product, Finset.mem_Ico, Finset.mem_univ, and_true]
  omega

theorem careful_fuel {nend : Dart} {n : Nat} {d r : Dart} (h : carefulLoop m nend n d = .ok r) : carefulLoop m nend m.fuel d = .ok r := by
  classical
  have hex : ∃ n, carefulLoop m nend n d = .ok r := ⟨n, h⟩
  have hE : CExactly m nend (Nat.find hex) d r := ⟨Nat.find_spec hex, fun i hi => Nat.find_min hex hi⟩
  have hall := cexactly_all _ hE
  have hle : Nat.find hex ≤ 8 * m.w * m.h := by
    have hch : ∀ i : Fin (Nat.find hex), ∃ e p, CExactly m nend (i.val + 1) e r ∧ m.nb e 0 = .ok p := fun i => hall _ (by omega) (by omega)
    choose f p hf hp using hch
    have hc : (Finset.univ : Finset (Fin (Nat.find hex))).card ≤ (places m).card := by
      refine Finset.card_le_card_of_injOn (fun i => (((f i).x + dx (f i).dir, (f i).y + dy (f i).dir), (f i).dir)) ?_ ?_
      · intro i _
        have h1 := hp i
        unfold Map.nb Map.get at h1
        rw [add_zero] at h1
        split at h1
        · rename_i hin
          exact Finset.mem_coe.2 (mem_places.2 hin)
        · exact absurd h1 (by simp)
      · intro i _ j _ e
        simp only [Prod.mk.injEq] at e
        obtain ⟨⟨e1, e2⟩, e3⟩ := e
        rw [e3] at e1 e2
        have e4 : f i = f j := by
          have hx : (f i).x = (f j).x := by omega
          have hy : (f i).y = (f j).y := by omega
          rcases hfi : f i with ⟨a, b, c⟩
          rcases hfj : f j with ⟨a', b', c'⟩
          rw [hfi, hfj] at hx hy e3
          simp only at hx hy e3
          rw [hx, hy, e3]
        have := cexactly_unique (hf i) (e4 ▸ hf j)
        exact Fin.ext (by omega)
    rw [places_card, Finset.card_univ, Fintype.card_fin] at hc
    exact hc
  have := carefulLoop_mono _ (m.fuel - Nat.find hex) hE.1
  rwa [Nat.add_sub_cancel' (by unfold Map.fuel; omega)] at this

/-- `carefulNextSigma` -/
theorem careful_total (hc : Clean m) (hno : NoCorner m) {nend : Dart} (hrim : Rim m nend)
    (hnr : (m.look nend.x nend.y nend.dir).1 = .region) (hnw : (m.look nend.x nend.y (nend.dir + 7)).1 ≠ .vertex) :
    ∃ n, careful m nend = .ok ((walk m 1)^[n + 1] nend) ∧ Stop m nend ((walk m 1)^[n + 1] nend) ∧
      ∀ i, 0 < i → i < n + 1 → ¬Stop m nend ((walk m 1)^[i] nend) := by
  classical
  obtain ⟨n, hn, e⟩ := walk_returns hc (Or.inl rfl : IsTurn 1) hrim
  have hex : ∃ n, Stop m nend ((walk m 1)^[n + 1] nend) := ⟨n - 1, by rw [Nat.sub_add_cancel hn, e]; exact Or.inl rfl⟩
  have hf : ∀ i, 0 < i → i < Nat.find hex + 1 → ¬Stop m nend ((walk m 1)^[i] nend) := by
    intro i h0 hi hd
    refine Nat.find_min hex (m := i - 1) (by omega) ?_
    rw [Nat.sub_add_cancel h0]
    exact hd
  refine ⟨Nat.find hex, ?_, Nat.find_spec hex, hf⟩
  obtain ⟨j, hj⟩ := careful_iter hc hno hrim hnr hnw _ hrim (Nat.find_spec hex) hf
  unfold careful
  refine careful_fuel (n := j + 1) ?_
  rw [carefulLoop_region hc hrim.inside hrim.nonregion hnr]
  exact hj

/-- the constructor of darts, from the west of the first pixel of a node -/
theorem mkDart_first (hc : Clean m) (hno : NoCorner m) (hnl : NodesLabelled m) {x y : Int} (hf : FirstOf m x y) :
    ∃ a, mkDart m ⟨x, y, 4⟩ = .ok a := by
  have hn : (m.px x y).1 ≠ .region := by rw [hf.node]; decide
  have hearly : ∀ k : Fin 8, k = 3 ∨ k = 4 → (m.look x y k).1 ≠ .vertex := by
    intro k hk hv
    have hl := hnl x y k hf.inside hf.node hv
    have := hf.first _ _ (hc.near hf.inside hn k) hv hl
    rcases hk with rfl | rfl <;> simp [dx, dy] at this
  unfold mkDart
  have hget : m.get x y = .ok (m.px x y) := by unfold Map.get; rw [if_pos hf.inside]
  dsimp only
  rw [hget, Outcome.bind_ok, if_neg (by rw [hf.node]; decide), hc.nb (d := ⟨x, y, 4⟩) hf.inside hn, Outcome.bind_ok, add_zero,
    if_neg (hearly 4 (Or.inr rfl))]
  have hd : diagonalLoop m m.fuel ⟨x, y, 4⟩ = .ok ⟨x, y, 4⟩ := by
    unfold Map.fuel
    rw [diagonalLoop, badDiagonal_even (by show ¬(4 : Fin 8).val % 2 = 1; decide), Outcome.bind_ok, if_neg (by decide)]
  rw [hd, Outcome.bind_ok, hc.nb (d := ⟨x, y, 4⟩) hf.inside hn, Outcome.bind_ok, add_zero]
  by_cases hl : (m.look x y 4).1 = .line
  · exact ⟨_, if_neg (by simpa using hl)⟩
  · have hr : (m.look x y 4).1 = .region := by
      rcases hc.look_types hf.inside hn 4 with e | e | e
      · exact absurd e (hearly 4 (Or.inr rfl))
      · exact absurd e hl
      · exact e
    have hodd : ¬(4 : Fin 8).val % 2 = 1 := by decide
    obtain ⟨n, h1, -⟩ := careful_total hc hno (nend := ⟨x, y, 4⟩) ⟨hf.inside, hf.node, hearly 4 (Or.inr rfl), fun ho => absurd ho hodd⟩ hr
      (hearly 3 (Or.inl rfl))
    exact ⟨_, by rw [if_pos hl]; exact h1⟩

/-! ## around a node -/

theorem sigmas_dart (hc : Clean m) (hno : NoCorner m) {d : Dart} (hd : IsDart m d) (n : Nat) : ∃ e, sigmas m n d = .ok e ∧ IsDart m e := by
  induction n with
  | zero => exact ⟨d, rfl, hd⟩
  | succ n ih =>
    obtain ⟨e, h1, h2⟩ := ih
    obtain ⟨d', g1, g2, -⟩ := Props.sigma_inverse hc hno h2 (k := 1) (Or.inl rfl)
    exact ⟨d', by rw [sigmas, h1, Outcome.bind_ok, g1], g2⟩

theorem sigmas_cancel (hc : Clean m) (hno : NoCorner m) {d : Dart} (hd : IsDart m d) (i j : Nat) (h : sigmas m i d = sigmas m (i + j) d) :
    sigmas m j d = .ok d := by
  induction i with
  | zero => rw [Nat.zero_add] at h; rw [← h]; rfl
  | succ i ih =>
    refine ih ?_
    obtain ⟨a, a1, a2⟩ := sigmas_dart hc hno hd i
    obtain ⟨b, b1, b2⟩ := sigmas_dart hc hno hd (i + j)
    obtain ⟨a', a3, -, a4, -⟩ := Props.sigma_inverse hc hno a2 (k := 1) (Or.inl rfl)
    obtain ⟨b', b3, -, b4, -⟩ := Props.sigma_inverse hc hno b2 (k := 1) (Or.inl rfl)
    rw [show i + 1 + j = i + j + 1 by omega, sigmas, sigmas, a1, b1, Outcome.bind_ok, Outcome.bind_ok, a3, b3] at h
    obtain rfl := Outcome.ok.inj h
    rw [a4] at b4
    rw [a1, b1, Outcome.ok.inj b4]

/-- turning around a node comes back -/
theorem sigmas_return (hc : Clean m) (hno : NoCorner m) {d : Dart} (hd : IsDart m d) :
    ∃ j, j < 8 * m.w * m.h ∧ sigmas m (j + 1) d = .ok d := by
  classical
  have hch : ∀ i, ∃ e, sigmas m i d = .ok e ∧ IsDart m e := sigmas_dart hc hno hd
  choose f hf hfd using hch
  obtain ⟨i, hi, j, hj, hij, he⟩ := Finset.exists_ne_map_eq_of_card_lt_of_maps_to (s := Finset.range (8 * m.w * m.h + 1)) (t := places m)
    (f := fun i => (((f i).x, (f i).y), (f i).dir)) (by rw [places_card, Finset.card_range]; omega)
    (fun i _ => Finset.mem_coe.2 (mem_places.2 (hfd i).inside))
  have hfe : f i = f j := by
    rcases ha : f i with ⟨a, b, c⟩
    rcases hb : f j with ⟨a', b', c'⟩
    rw [ha, hb] at he
    simp only [Prod.mk.injEq] at he
    obtain ⟨⟨rfl, rfl⟩, rfl⟩ := he
    rfl
  rw [Finset.mem_range] at hi hj
  have main : ∀ a b, a < b → b < 8 * m.w * m.h + 1 → f a = f b → ∃ j, j < 8 * m.w * m.h ∧ sigmas m (j + 1) d = .ok d := by
    intro a b hab hb e
    refine ⟨b - a - 1, by omega, ?_⟩
    refine sigmas_cancel hc hno hd a _ ?_
    rw [show a + (b - a - 1 + 1) = b by omega, hf, hf, e]
  rcases Nat.lt_or_gt_of_ne hij with hh | hh
  · exact main i j hh hj hfe
  · exact main j i hh hi hfe.symm

theorem labelDart_total {a : EdgeState} (hc : Clean a.1) (ht : Traceable a.1) (hm : Marked a.1 a.2) {d : Dart} (hd : IsDart a.1 d) :
    ∃ b, labelDart a d = .ok b := by
  unfold labelDart edgeLabel
  rw [hc.nb hd.inside hd.rim.nonregion]
  simp only [Outcome.map, Outcome.bind, add_zero]
  split
  · exact ⟨_, rfl⟩
  · rename_i hl
    rw [not_not] at hl
    obtain ⟨m', e1, -⟩ := hm.step hc ht hd hl
    rw [e1]
    exact ⟨_, rfl⟩

theorem labelDarts_total (hc : Clean m) (ht : Traceable m) (hno : NoCorner m) (dend : Dart) (n : Nat) {a : EdgeState}
    (hs : SameKinds m a.1) (hm : Marked a.1 a.2) {d : Dart} (hd : IsDart m d) {j : Nat} (hj : j < n) (he : sigmas m (j + 1) d = .ok dend) :
    ∃ b, labelDarts dend n a d = .ok b := by
  induction n generalizing a d j with
  | zero => omega
  | succ n ih =>
    obtain ⟨st, h1⟩ := labelDart_total (hs.clean hc) (hs.traceable ht) hm (hs.isDart hd)
    obtain ⟨p1, p2⟩ := labelDart_ok (hs.clean hc) (hs.traceable ht) hm (hs.isDart hd) h1
    have hs' := hs.trans p1.kinds
    obtain ⟨e, g1, g2, -⟩ := Props.sigma_inverse hc hno hd (k := 1) (Or.inl rfl)
    rw [labelDarts, h1, Outcome.bind_ok, hs'.sigma hc hno hd (Or.inl rfl), g1, Outcome.bind_ok,
      dartEq_dart (hs'.clean hc) (hs'.isDart g2), Outcome.bind_ok]
    by_cases hee : e = dend
    · exact ⟨st, by rw [decide_eq_true hee, if_pos rfl]⟩
    · rw [decide_eq_false hee, if_neg (by decide)]
      cases j with
      | zero =>
        exfalso
        rw [sigmas_head, g1, Outcome.bind_ok] at he
        exact hee (Outcome.ok.inj he)
      | succ j =>
        rw [sigmas_head, g1, Outcome.bind_ok] at he
        exact ih hs' p1.marked g2 (by omega) he

/-! ## the scan -/

theorem scan_total (hc : Clean m) (ht : Traceable m) (hno : NoCorner m) (hnl : NodesLabelled m) {N : Nat}
    (hlab : ∀ x y, m.inside x y → (m.px x y).1 = .vertex → (m.px x y).2 ≤ N) {pre post : List (Int × Int)} {p : Int × Int}
    (hl : innerPixels m.w m.h = pre ++ p :: post) {st : EdgeState × List Bool} (hst : Scanned m pre st) (hlen : st.2.length = N + 1) :
    ∃ st', labelNode st p = .ok st' ∧ st'.2.length = N + 1 := by
  have hk : SameKinds m st.1.1 := hst.prog.kinds
  unfold labelNode
  by_cases hv : (m.px p.1 p.2).1 = .vertex
  swap
  · exact ⟨st, by rw [if_pos (by rw [hk.px]; exact hv)], hlen⟩
  have hpx : st.1.1.px p.1 p.2 = m.px p.1 p.2 := hst.prog.others p (by dsimp only; rw [hv]; decide)
  have hpin : m.inside p.1 p.2 := by
    have := mem_inner (w := m.w) (h := m.h) (p := p) (by rw [hl]; simp)
    unfold Inner at this
    unfold Map.inside
    omega
  rw [hpx, if_neg (by rw [hv]; decide)]
  have hlt : (m.px p.1 p.2).2 < st.2.length := by have := hlab _ _ hpin hv; omega
  cases hb : st.2[(m.px p.1 p.2).2]'hlt with
  | true =>
    rw [List.getElem?_eq_getElem hlt, hb]
    exact ⟨st, rfl, hlen⟩
  | false =>
    rw [List.getElem?_eq_getElem hlt, hb]
    dsimp only
    have hfirst : FirstOf m p.1 p.2 := by
      refine ⟨hpin, hv, fun x' y' hi' hv' hlab' => ?_⟩
      have hmem : (x', y') ∈ innerPixels m.w m.h := inner_mem (hc.frame x' y' hi' (by rw [hv']; decide))
      rw [hl] at hmem
      rcases List.mem_append.1 hmem with hm | hm
      · exfalso
        have := hst.seen _ hm hv'
        dsimp only at this
        rw [hlab', List.getElem?_eq_getElem hlt, hb] at this
        cases this
      · rcases List.mem_cons.1 hm with hm | hm
        · rw [← hm]; exact Or.inr ⟨rfl, le_refl _⟩
        · have hsorted := innerPixels_sorted m.w m.h
          rw [hl, List.pairwise_append] at hsorted
          have := (List.pairwise_cons.1 hsorted.2.1).1 _ hm
          rcases this with hh | hh
          · exact Or.inl hh
          · exact Or.inr ⟨hh.1, le_of_lt hh.2⟩
    obtain ⟨a, ha⟩ := mkDart_first hc hno hnl hfirst
    obtain ⟨ai, av, ad⟩ := mkDart_west hc ha
    rw [hk.mkDart, ha, Outcome.bind_ok]
    unfold isSingular
    rw [(hk.clean hc).nb ((hk.inside _ _).2 ai) (by rw [hk.px, av]; decide), Outcome.bind_ok, Outcome.bind_ok, add_zero]
    by_cases hline : (st.1.1.look a.x a.y a.dir).1 = .line
    · rw [decide_eq_false (by simpa using hline), if_neg (by decide)]
      have had := ad (by rw [hk.look] at hline; exact hline)
      obtain ⟨j, hj1, hj2⟩ := sigmas_return hc hno had
      obtain ⟨b, hb'⟩ := labelDarts_total hc ht hno a st.1.1.fuel hk hst.prog.marked had (j := j) (by
        rw [hk.fuel]; unfold Map.fuel; omega) hj2
      exact ⟨(b, st.2.set (m.px p.1 p.2).2 true), by rw [hb', Outcome.bind_ok], by dsimp only; rw [List.length_set, hlen]⟩
    · rw [decide_eq_true hline, if_pos rfl, Outcome.bind_ok]
      exact ⟨_, rfl, by dsimp only; rw [List.length_set, hlen]⟩

/-- `labelEdges` returns -/
theorem labelEdges_total (hc : Clean m) (ht : Traceable m) (hno : NoCorner m) (hnl : NodesLabelled m)
    (hz : ∀ p, m.isLine p → m.label p = 0) {N : Nat} (hlab : ∀ x y, m.inside x y → (m.px x y).1 = .vertex → (m.px x y).2 ≤ N) :
    ∃ r, labelEdges m N = .ok r := by
  have hm0 : Marked m 0 := by
    refine ⟨fun p hp => ?_, fun l h1 h2 => by omega, fun p q hp hpq => ?_, fun p q hp _ h0 => absurd (hz p hp) h0, fun p hp h0 => absurd (hz p hp) h0⟩
    · rw [hz p hp]
    · rw [hz p hp, hz q (SameEdge.isLine hc hp hpq)]
  obtain ⟨b, hb, -⟩ := foldO_total (l := innerPixels m.w m.h) (f := labelNode) (P := fun pre st => Scanned m pre st ∧ st.2.length = N + 1)
    (fun pre a post b hl hb => by
      obtain ⟨st', h1, h2⟩ := scan_total hc ht hno hnl hlab hl hb.1 hb.2
      exact ⟨st', h1, scan_step hc ht hno hl hb.1 h1, h2⟩) (innerPixels m.w m.h) [] ((m, 0), List.replicate (N + 1) false) rfl
    ⟨⟨Prog.refl hm0, by simp, by
        intro l hl
        rw [List.getElem?_replicate] at hl
        split at hl <;> cases hl⟩, by simp⟩
  unfold labelEdges
  rw [hb]
  exact ⟨_, rfl⟩

end

end Verif.FourEight
