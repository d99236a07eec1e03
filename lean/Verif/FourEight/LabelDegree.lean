import Verif.FourEight.LabelInit
import Mathlib.Data.Set.Card

/-!
# Degrees of the nodes of a labelled image
-/

namespace Verif.FourEight
open Verif Verif.CellImage

section
variable {m : Map}

theorem countDegree_spec (hc : Clean m) (hno : NoCorner m) {b : Map} (hs : SameKinds m b) (a : Dart) (n : Nat) : ∀ {d : Dart} {deg D : Nat},
    IsDart m d → countDegree b a n d deg = .ok D → ∃ j, sigmas m (j + 1) d = .ok a ∧
      (∀ i, 1 ≤ i → i ≤ j → sigmas m i d ≠ .ok a) ∧ D = (deg + j + 1) % 65536 := by
  induction n with
  | zero => intro d deg D _ h; simp [countDegree] at h
  | succ n ih =>
    intro d deg D hd h
    rw [countDegree] at h
    obtain ⟨d', h2, h⟩ := Outcome.bind_eq_ok.1 h
    obtain ⟨t, h3, h⟩ := Outcome.bind_eq_ok.1 h
    rw [hs.sigma hc hno hd (Or.inl rfl)] at h2
    obtain ⟨e, g1, g2, -⟩ := Props.sigma_inverse hc hno hd (k := 1) (Or.inl rfl)
    rw [g1] at h2
    obtain rfl := Outcome.ok.inj h2
    rw [dartEq_dart (hs.clean hc) (hs.isDart g2)] at h3
    obtain rfl := Outcome.ok.inj h3
    split at h
    · rename_i hb
      rw [decide_eq_true_eq] at hb
      cases h
      refine ⟨0, ?_, fun i h0 h1 => by omega, by omega⟩
      rw [sigmas_head, g1, Outcome.bind_ok]; exact congrArg _ hb
    · rename_i hb
      rw [decide_eq_true_eq] at hb
      obtain ⟨j, q1, q2, q3⟩ := ih g2 h
      refine ⟨j + 1, ?_, fun i h0 h1 => ?_, by omega⟩
      · rw [sigmas_head, g1, Outcome.bind_ok]; exact q1
      · obtain ⟨i, rfl⟩ : ∃ k, i = k + 1 := ⟨i - 1, by omega⟩
        rw [sigmas_head, g1, Outcome.bind_ok]
        rcases Nat.eq_zero_or_pos i with rfl | hp
        · exact fun e => hb (Outcome.ok.inj e)
        · exact q2 i hp (by omega)

/-- all pixels of a node have the same label -/
theorem chain_label (hc : Clean m) (hnl : NodesLabelled m) {x y : Int} (hi : m.inside x y) (hv : (m.px x y).1 = .vertex) (p : Int × Int)
    (hp : Relation.ReflTransGen (NodeStep m) (x, y) p) : m.px p.1 p.2 = m.px x y := by
  have key : m.inside p.1 p.2 ∧ (m.px p.1 p.2).1 = .vertex ∧ (m.px p.1 p.2).2 = (m.px x y).2 := by
    induction hp with
    | refl => exact ⟨hi, hv, rfl⟩
    | tail _ hst ih =>
      obtain ⟨ha, hb, j, rfl⟩ := hst
      obtain ⟨i1, i2, i3⟩ := ih
      refine ⟨hc.near i1 (by rw [i2]; decide) j, hb, ?_⟩
      rw [← i3]
      exact hnl _ _ j i1 i2 hb
  exact Prod.ext (key.2.1.trans hv.symm) key.2.2

theorem sigmas_label (hc : Clean m) (hno : NoCorner m) (hnl : NodesLabelled m) {a : Dart} (ha : IsDart m a) (i : Nat) :
    ∀ {d : Dart}, sigmas m i a = .ok d → m.px d.x d.y = m.px a.x a.y := by
  induction i with
  | zero => intro d h; cases h; rfl
  | succ i ih =>
    intro d h
    obtain ⟨e, h1, h2⟩ := sigmas_dart hc hno ha i
    rw [sigmas, h1, Outcome.bind_ok] at h
    obtain ⟨d', g1, -, -, g4⟩ := Props.sigma_inverse hc hno h2 (k := 1) (Or.inl rfl)
    rw [g1] at h
    obtain rfl := Outcome.ok.inj h
    rw [← ih h1]
    exact chain_label hc hnl h2.inside h2.node _ g4

/-- the darts of a node -/
def dartsAt (m : Map) (l : Nat) : Set Dart := { d | IsDart m d ∧ m.px d.x d.y = (.vertex, l) }

theorem count_darts (hc : Clean m) (hno : NoCorner m) (hnl : NodesLabelled m) {l : Nat} {a : Dart} (ha : IsDart m a)
    (hl : m.px a.x a.y = (.vertex, l)) (hall : ∀ d ∈ dartsAt m l, ∃ i, sigmas m i a = .ok d) {j : Nat} (h1 : sigmas m (j + 1) a = .ok a)
    (h2 : ∀ i, 1 ≤ i → i ≤ j → sigmas m i a ≠ .ok a) : (dartsAt m l).ncard = j + 1 := by
  classical
  choose f hf hfd using sigmas_dart hc hno ha
  have himg : dartsAt m l = f '' (Finset.range (j + 1) : Set Nat) := by
    ext d
    constructor
    · intro hd
      obtain ⟨i, hi⟩ := hall d hd
      exact sigmas_turn (P := fun e => e ∈ f '' (Finset.range (j + 1) : Set Nat)) h1
        (fun i hi => ⟨f i, hf i, i, Finset.mem_coe.2 (Finset.mem_range.2 (by omega)), rfl⟩) i d hi
    · rintro ⟨i, -, rfl⟩
      exact ⟨hfd i, by rw [sigmas_label hc hno hnl ha i (hf i), hl]⟩
  have hinj : Set.InjOn f (Finset.range (j + 1) : Set Nat) := by
    have main : ∀ x y, x < y → y < j + 1 → f x = f y → False := by
      intro x y hxy hy e
      refine h2 (y - x) (by omega) (by omega) (sigmas_cancel hc hno ha x _ ?_)
      rw [show x + (y - x) = y by omega, hf, hf, e]
    intro x hx y hy e
    rw [Finset.mem_coe, Finset.mem_range] at hx hy
    rcases Nat.lt_trichotomy x y with c | c | c
    · exact (main x y c hy e).elim
    · exact c
    · exact (main y x c hx e.symm).elim
  rw [himg, hinj.ncard_image, Set.ncard_coe_finset, Finset.card_range]

/-- the degree of a node is the number of its darts -/
theorem degree_darts (hc : Clean m) (hno : NoCorner m) (hnl : NodesLabelled m) (ho : OneRim m) {m' : Map} (ha : Anchored m m') (hco : Counted m m')
    {l : Nat} {N : Node} (hN : m'.nodes[l]? = some N) (hl : N.live = true) :
    N.degree = (dartsAt m l).ncard % 65536 ∧ ((dartsAt m l).Nonempty → N.anchor ∈ dartsAt m l) := by
  obtain ⟨x, y, q1, q2, q3⟩ := ha l N hN hl
  obtain ⟨b, s, hs, r1, r2⟩ := hco l N hN hl
  obtain ⟨ai, av, ad⟩ := mkDart_west hc q3
  have hpx : m.px N.anchor.x N.anchor.y = (.vertex, l) := by
    obtain ⟨g1, n, g2, -⟩ := mkDart_walk hc hno hnl q1
    rw [q3] at g2
    rw [Outcome.ok.inj g2, ← q2]
    exact chain_label hc hnl q1.inside q1.node _ (Props.iter_chain hc (Or.inl rfl) n g1)
  have hdart : ∀ d ∈ dartsAt m l, IsDart m N.anchor := fun d hd => oneRim_dart hc hno hnl ho q1 hd.1 (by rw [hd.2, q2]) q3
  refine ⟨?_, fun ⟨d, hd⟩ => ⟨hdart d hd, hpx⟩⟩
  have hsing : isSingular b N.anchor = .ok (decide ((m.look N.anchor.x N.anchor.y N.anchor.dir).1 ≠ .line)) := by
    unfold isSingular
    rw [(hs.clean hc).nb ((hs.inside _ _).2 ai) (by rw [hs.px, av]; decide), Outcome.bind_ok, add_zero, hs.look]
  rw [hsing] at r1
  obtain rfl := Outcome.ok.inj r1
  by_cases hline : (m.look N.anchor.x N.anchor.y N.anchor.dir).1 = .line
  · rw [if_neg (by simp [hline])] at r2
    have hA := ad hline
    obtain ⟨j, g1, g2, g3⟩ := countDegree_spec hc hno hs _ _ hA r2
    rw [g3, count_darts hc hno hnl hA hpx ?_ g1 g2]
    · congr 1; omega
    · intro d hd
      obtain ⟨a, i, e1, e2⟩ := ho x y d q1 hd.1 (by rw [hd.2, q2])
      rw [q3] at e1
      obtain rfl := Outcome.ok.inj e1
      exact ⟨i, e2⟩
  · rw [if_pos (by simp [hline])] at r2
    have hempty : dartsAt m l = ∅ := Set.eq_empty_iff_forall_notMem.2 fun d hd => hline (hdart d hd).edge
    rw [← Outcome.ok.inj r2, hempty, Set.ncard_empty]

end

end Verif.FourEight
