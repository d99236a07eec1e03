import Verif.FourEight.LabelSpec
import Verif.FourEight.DartProps

/-!
# Labelling edges: lemmas
-/

namespace Verif.FourEight
open Verif Verif.CellImage

/-! ## maps with the same cell types -/

/-- only labels differ -/
structure SameKinds (m m' : Map) : Prop where
  w : m'.w = m.w
  h : m'.h = m.h
  px : ∀ x y, (m'.px x y).1 = (m.px x y).1

section
variable {m m' : Map}

theorem SameKinds.refl (m : Map) : SameKinds m m := ⟨rfl, rfl, fun _ _ => rfl⟩

theorem SameKinds.trans {m'' : Map} (h : SameKinds m m') (h' : SameKinds m' m'') : SameKinds m m'' :=
  ⟨h'.w.trans h.w, h'.h.trans h.h, fun x y => (h'.px x y).trans (h.px x y)⟩

theorem SameKinds.symm (h : SameKinds m m') : SameKinds m' m := ⟨h.w.symm, h.h.symm, fun x y => (h.px x y).symm⟩

theorem SameKinds.inside (h : SameKinds m m') (x y : Int) : m'.inside x y ↔ m.inside x y := by
  unfold Map.inside; rw [h.w, h.h]

theorem SameKinds.fuel (h : SameKinds m m') : m'.fuel = m.fuel := by unfold Map.fuel; rw [h.w, h.h]

theorem SameKinds.look (h : SameKinds m m') (x y : Int) (j : Fin 8) : (m'.look x y j).1 = (m.look x y j).1 := h.px _ _

theorem SameKinds.ring (h : SameKinds m m') (x y : Int) : ringOf m' x y = ringOf m x y := by
  funext j; unfold ringOf; rw [h.look]

theorem SameKinds.nextD (h : SameKinds m m') : nextD m' = nextD m := by
  funext d; unfold Verif.FourEight.nextD; rw [h.ring]

theorem SameKinds.link (h : SameKinds m m') {d : Dart} (hd : Link m d) : Link m' d :=
  ⟨(h.inside _ _).2 hd.inside, by rw [h.px]; exact hd.here, by rw [h.look]; exact hd.there,
    fun ho => by rw [h.look, h.look]; exact hd.between ho⟩

theorem SameKinds.isDart (h : SameKinds m m') {d : Dart} (hd : IsDart m d) : IsDart m' d :=
  ⟨(h.inside _ _).2 hd.inside, by rw [h.px]; exact hd.node, by rw [h.look]; exact hd.edge,
    fun ho => by rw [h.look, h.look]; exact hd.between ho⟩

theorem SameKinds.isDart_iff (h : SameKinds m m') {d : Dart} : IsDart m' d ↔ IsDart m d := ⟨h.symm.isDart, h.isDart⟩

theorem SameKinds.clean (h : SameKinds m m') (hc : Clean m) : Clean m' :=
  ⟨fun x y hi => by rw [h.px]; exact hc.types x y ((h.inside _ _).1 hi),
   fun x y hi hn => by rw [h.w, h.h]; exact hc.frame x y ((h.inside _ _).1 hi) (by rw [← h.px]; exact hn)⟩

theorem SameKinds.traceable (h : SameKinds m m') (ht : Traceable m) : Traceable m' := by
  intro x y hi hl
  have := ht x y ((h.inside _ _).1 hi) (by rw [← h.px]; exact hl)
  simp only [h.look]
  exact this

theorem SameKinds.noCorner (h : SameKinds m m') (hn : NoCorner m) : NoCorner m' := by
  intro x y hi hl k hk
  rw [h.look, h.look]
  exact hn x y ((h.inside _ _).1 hi) (by rw [← h.px]; exact hl) k hk

theorem SameKinds.edgeNext (h : SameKinds m m') {p q : Int × Int} : EdgeNext m' p q ↔ EdgeNext m p q := by
  unfold EdgeNext; simp only [h.px, h.look]

theorem SameKinds.sameEdge (h : SameKinds m m') : SameEdge m' = SameEdge m := by
  have : EdgeNext m' = EdgeNext m := by funext p q; exact propext h.edgeNext
  unfold SameEdge; rw [this]

theorem SameKinds.isLine (h : SameKinds m m') {p : Int × Int} : m'.isLine p ↔ m.isLine p := by
  unfold Map.isLine; rw [h.inside, h.px]

theorem SameKinds.walk (h : SameKinds m m') (k : Fin 8) : walk m' k = walk m k := by
  funext d; unfold Verif.FourEight.walk; simp only [h.look]

/-- `nextSigma` depends on the cell types only -/
theorem SameKinds.sigma (h : SameKinds m m') (hc : Clean m) (hno : NoCorner m) {d : Dart} (hd : IsDart m d) {k : Fin 8} (hk : IsTurn k) :
    sigma m' k d = sigma m k d := by
  obtain ⟨n, h1, h2⟩ := first_dart hc hk hd
  rw [sigma_walk hc hno hk n hd h1 h2, ← h.walk]
  rw [← h.walk] at h1
  refine sigma_walk (h.clean hc) (h.noCorner hno) hk n (h.isDart hd) (h.isDart h1) fun i a b hh => ?_
  rw [h.walk, h.isDart_iff] at hh
  exact h2 i a b hh

/-! ### also the constructor of darts -/

theorem SameKinds.nb (h : SameKinds m m') (d : Dart) (k : Fin 8) :
    (∃ p p', m.nb d k = .ok p ∧ m'.nb d k = .ok p' ∧ p'.1 = p.1) ∨ (m.nb d k = .ub ∧ m'.nb d k = .ub) := by
  unfold Map.nb Map.get
  by_cases hi : m.inside (d.x + dx (d.dir + k)) (d.y + dy (d.dir + k))
  · rw [if_pos hi, if_pos ((h.inside _ _).2 hi)]
    exact Or.inl ⟨_, _, rfl, rfl, h.px _ _⟩
  · rw [if_neg hi, if_neg (fun hh => hi ((h.inside _ _).1 hh))]
    exact Or.inr ⟨rfl, rfl⟩

theorem SameKinds.badDiagonal (h : SameKinds m m') (d : Dart) : badDiagonal m' d = badDiagonal m d := by
  unfold Verif.FourEight.badDiagonal
  by_cases ho : d.dir.val % 2 = 1
  · rw [if_pos ho, if_pos ho]
    rcases h.nb d 0 with ⟨p, p', h1, h2, h3⟩ | ⟨h1, h2⟩
    · rw [h1, h2, Outcome.bind_ok, Outcome.bind_ok, h3]
      by_cases hl : p.1 = .line
      · rw [if_pos hl, if_pos hl]
        rcases h.nb d 1 with ⟨p, p', h1, h2, h3⟩ | ⟨h1, h2⟩
        · rw [h1, h2, Outcome.bind_ok, Outcome.bind_ok, h3]
          rcases h.nb d 7 with ⟨q, q', g1, g2, g3⟩ | ⟨g1, g2⟩
          · rw [g1, g2, Outcome.bind_ok, Outcome.bind_ok, g3]
          · rw [g1, g2]
        · rw [h1, h2]; simp only [Outcome.bind]
      · rw [if_neg hl, if_neg hl]
    · rw [h1, h2]; simp only [Outcome.bind]
  · rw [if_neg ho, if_neg ho]

theorem SameKinds.tryStep (h : SameKinds m m') (k : Fin 8) (d : Dart) : tryStep m' k d = tryStep m k d := by
  unfold Verif.FourEight.tryStep; rw [h.badDiagonal]

theorem SameKinds.carefulLoop (h : SameKinds m m') (nend : Dart) (n : Nat) (d : Dart) : carefulLoop m' nend n d = carefulLoop m nend n d := by
  induction n generalizing d with
  | zero => rfl
  | succ n ih =>
    rw [Verif.FourEight.carefulLoop, Verif.FourEight.carefulLoop]
    rcases h.nb d 0 with ⟨p, p', h1, h2, h3⟩ | ⟨h1, h2⟩
    · rw [h1, h2, Outcome.bind_ok, Outcome.bind_ok, h3, h.tryStep]
      congr 2
      funext d'
      rw [ih]
    · rw [h1, h2]; simp only [Outcome.bind]

theorem SameKinds.diagonalLoop (h : SameKinds m m') (n : Nat) (d : Dart) : diagonalLoop m' n d = diagonalLoop m n d := by
  induction n generalizing d with
  | zero => rfl
  | succ n ih =>
    rw [Verif.FourEight.diagonalLoop, Verif.FourEight.diagonalLoop, h.badDiagonal]
    cases Verif.FourEight.badDiagonal m d with
    | ok b =>
      rw [Outcome.bind_ok, Outcome.bind_ok]
      cases b with
      | true => rw [if_pos rfl, if_pos rfl]; exact ih _
      | false => rw [if_neg (by decide), if_neg (by decide)]
    | _ => rfl

theorem SameKinds.mkDart (h : SameKinds m m') (d : Dart) : mkDart m' d = mkDart m d := by
  have hg : (∃ p p', m.get d.x d.y = .ok p ∧ m'.get d.x d.y = .ok p' ∧ p'.1 = p.1) ∨ (m.get d.x d.y = .ub ∧ m'.get d.x d.y = .ub) := by
    unfold Map.get
    by_cases hi : m.inside d.x d.y
    · rw [if_pos hi, if_pos ((h.inside _ _).2 hi)]; exact Or.inl ⟨_, _, rfl, rfl, h.px _ _⟩
    · rw [if_neg hi, if_neg (fun hh => hi ((h.inside _ _).1 hh))]; exact Or.inr ⟨rfl, rfl⟩
  unfold Verif.FourEight.mkDart
  rcases hg with ⟨p, p', h1, h2, h3⟩ | ⟨h1, h2⟩
  swap
  · rw [h1, h2]; simp only [Outcome.bind]
  rw [h1, h2, Outcome.bind_ok, Outcome.bind_ok, h3]
  split
  · rfl
  rcases h.nb d 0 with ⟨q, q', g1, g2, g3⟩ | ⟨g1, g2⟩
  swap
  · rw [g1, g2]; simp only [Outcome.bind]
  rw [g1, g2, Outcome.bind_ok, Outcome.bind_ok, g3, h.diagonalLoop, h.fuel]
  split
  · rfl
  congr 1
  funext d'
  rcases h.nb d' 0 with ⟨r, r', e1, e2, e3⟩ | ⟨e1, e2⟩
  · rw [e1, e2, Outcome.bind_ok, Outcome.bind_ok, e3]
    unfold careful
    rw [h.carefulLoop, h.fuel]
  · rw [e1, e2]; simp only [Outcome.bind]

theorem SameKinds.sigmas (h : SameKinds m m') (hc : Clean m) (hno : NoCorner m) {a : Dart} (ha : IsDart m a) (n : Nat) :
    sigmas m' n a = sigmas m n a ∧ ∃ d, sigmas m n a = .ok d ∧ IsDart m d := by
  induction n with
  | zero => exact ⟨rfl, a, rfl, ha⟩
  | succ n ih =>
    obtain ⟨e, d, h1, h2⟩ := ih
    rw [Verif.FourEight.sigmas, Verif.FourEight.sigmas, e, h1, Outcome.bind_ok, Outcome.bind_ok]
    obtain ⟨d', g1, g2, -⟩ := Props.sigma_inverse hc hno h2 (k := 1) (Or.inl rfl)
    exact ⟨h.sigma hc hno h2 (Or.inl rfl), d', g1, g2⟩

/-! ## where the constructor of darts leads -/

theorem tryStep_dart (hc : Clean m) {d r : Dart} (hi : m.inside d.x d.y) (hv : (m.px d.x d.y).1 = .vertex) {k : Fin 8} (hk : IsTurn k)
    (h : tryStep m k d = .ok r) : m.inside r.x r.y ∧ (m.px r.x r.y).1 = .vertex ∧ ((m.look r.x r.y r.dir).1 = .line → IsDart m r) := by
  unfold tryStep at h
  obtain ⟨b, hb, h⟩ := Outcome.bind_eq_ok.1 h
  have hn : (m.px d.x d.y).1 ≠ .region := by rw [hv]; decide
  cases b with
  | true =>
    rw [if_pos rfl] at h
    cases h
    refine ⟨hi, hv, fun hl => ⟨hi, hv, hl, fun ho => ?_⟩⟩
    exfalso
    unfold badDiagonal at hb
    split at hb
    · rename_i ho'
      have e : ((d.turn k).turn k).dir = (d.turn k).dir + k := rfl
      rw [e] at ho
      exact ((par_turn hk).1 ho) ho'
    · cases hb
  | false =>
    rw [if_neg (by decide)] at h
    cases h
    refine ⟨hi, hv, fun hl => ⟨hi, hv, hl, fun ho => ?_⟩⟩
    have := badDiagonal_line hc (d := d.turn k) hi hn ho hl
    rw [hb] at this
    have := Outcome.ok.inj this
    by_contra hh
    rw [decide_eq_true hh] at this
    cases this

theorem carefulLoop_dart (hc : Clean m) (nend : Dart) (n : Nat) {d r : Dart} (hi : m.inside d.x d.y) (hv : (m.px d.x d.y).1 = .vertex)
    (hd : (m.look d.x d.y d.dir).1 = .line → IsDart m d) (h : carefulLoop m nend n d = .ok r) :
    m.inside r.x r.y ∧ (m.px r.x r.y).1 = .vertex ∧ ((m.look r.x r.y r.dir).1 = .line → IsDart m r) := by
  induction n generalizing d with
  | zero => simp [carefulLoop] at h
  | succ n ih =>
    have hn : (m.px d.x d.y).1 ≠ .region := by rw [hv]; decide
    rw [carefulLoop, hc.nb hi hn, Outcome.bind_ok, add_zero] at h
    split at h
    · cases h; exact ⟨hi, hv, hd⟩
    · obtain ⟨d', h1, h2⟩ := Outcome.bind_eq_ok.1 h
      have key : m.inside d'.x d'.y ∧ (m.px d'.x d'.y).1 = .vertex ∧ ((m.look d'.x d'.y d'.dir).1 = .line → IsDart m d') := by
        split at h1
        · rename_i hw
          exact tryStep_dart hc (d := d.swap.turn 1) (hc.near hi hn d.dir) hw (Or.inl rfl) h1
        · exact tryStep_dart hc hi hv (Or.inl rfl) h1
      split at h2
      · cases h2; exact key
      · exact ih key.1 key.2.1 key.2.2 h2

/-- from the west of a pixel -/
theorem mkDart_west (hc : Clean m) {x y : Int} {a : Dart} (h : mkDart m ⟨x, y, 4⟩ = .ok a) :
    m.inside a.x a.y ∧ (m.px a.x a.y).1 = .vertex ∧ ((m.look a.x a.y a.dir).1 = .line → IsDart m a) := by
  unfold mkDart at h
  obtain ⟨c, h1, h⟩ := Outcome.bind_eq_ok.1 h
  unfold Map.get at h1
  split at h1
  swap
  · cases h1
  rename_i hi
  cases h1
  split at h
  · cases h
  rename_i hv
  rw [not_not] at hv
  have hn : (m.px x y).1 ≠ .region := by rw [hv]; decide
  rw [hc.nb (d := ⟨x, y, 4⟩) hi hn, Outcome.bind_ok] at h
  split at h
  · cases h
  obtain ⟨d', h2, h⟩ := Outcome.bind_eq_ok.1 h
  have hd : d' = ⟨x, y, 4⟩ := by
    unfold Map.fuel at h2
    rw [diagonalLoop, badDiagonal_even (by show ¬(4 : Fin 8).val % 2 = 1; decide), Outcome.bind_ok, if_neg (by decide)] at h2
    cases h2; rfl
  subst hd
  rw [hc.nb (d := ⟨x, y, 4⟩) hi hn, Outcome.bind_ok, add_zero] at h
  have hw : (m.look x y 4).1 = .line → IsDart m ⟨x, y, 4⟩ := fun hl => ⟨hi, hv, hl, fun ho => absurd ho (show ¬(4 : Fin 8).val % 2 = 1 by decide)⟩
  split at h
  · exact carefulLoop_dart hc _ _ hi hv hw h
  · cases h; exact ⟨hi, hv, hw⟩

theorem isSingular_false (hc : Clean m) {a : Dart} (hi : m.inside a.x a.y) (hv : (m.px a.x a.y).1 = .vertex)
    (h : isSingular m a = .ok false) : (m.look a.x a.y a.dir).1 = .line := by
  unfold isSingular at h
  rw [hc.nb hi (by rw [hv]; decide), Outcome.bind_ok, add_zero] at h
  have := Outcome.ok.inj h
  rw [decide_eq_false_iff_not, not_not] at this
  exact this

end

end Verif.FourEight
