import Verif.FourEight.StartReturns
import Verif.FourEight.HistStep

/-!
# The map returned by the constructor
-/

namespace Verif.FourEight
open Verif Verif.CellImage Verif.FourEight.Props

theorem initMap_whole {w h : Nat} {src : Int → Int → Bool} {cells : Int → Int → CellType}
    (hi : initCellImage .vertex (w + 4) (h + 4) (contourImage w h src) = .ok cells) {v : Components} (hv : v.Sane (w + 4) (h + 4) cells)
    (hn : NoHoles (typedMap (w + 4) (h + 4) cells v)) {mL : Map} {N n : Nat} (hr : labelCells (w + 4) (h + 4) cells v = .ok (mL, N, n))
    {o : Oracle} (hholes : ∀ l, (mL.cell (.vertex, l)).Nonempty → o.crackArea l = (mL.cell (.vertex, l)).card % 2 ^ 32)
    {m : Map} (hm : initMap .vertex w h src v o = .ok m) : Whole m := by
  have hmap : FromContours .vertex (contourImage w h src) (typedMap (w + 4) (h + 4) cells v) := ⟨cells, hi, fun _ _ _ => rfl⟩
  obtain ⟨hc, ht, hno⟩ := contours_navigable rfl rfl hmap
  have hno := hno rfl
  have hty0 : ∀ x y, ((typedMap (w + 4) (h + 4) cells v).px x y).1 = cells x y := fun _ _ => rfl
  have hnode0 : ∀ x y, cells x y = .vertex → (typedMap (w + 4) (h + 4) cells v).px x y = (.vertex, v.node x y) := by
    intro x y hx
    unfold typedMap
    dsimp only
    rw [if_pos hx, hx]
  have hnl0 : NodesLabelled (typedMap (w + 4) (h + 4) cells v) := by
    intro x y k _ h1 h2
    rw [hty0] at h1
    have h2' : cells (x + dx k) (y + dy k) = .vertex := by rw [← hty0]; exact h2
    show ((typedMap (w + 4) (h + 4) cells v).px _ _).2 = _
    rw [hnode0 _ _ h1, hnode0 _ _ h2']
    exact hv.nodeNext x y k h1 h2'
  have ho := oneRim_of_noHoles hc hno hnl0 hn
  obtain ⟨k1, k2, k3, k4, k5, k6, k7, k8, k9, k10, k11, k12, k13, k14, k15, k16⟩ := labelCells_labels_partial hi hv ho hr
  have hins : ∀ x y, mL.inside x y ↔ (typedMap (w + 4) (h + 4) cells v).inside x y := by
    intro x y; unfold Map.inside; rw [k1, k2]; rfl
  have hnL : NoHoles mL := by
    refine noHoles_grown (N := v.maxNode) hc k7 k5 k1 k2 ?_ ?_ ?_ hn
    · intro x y _ h1
      rw [hnode0 _ _ h1]
      exact (hv.node x y h1).2
    · intro x y h1 h2
      rw [hnode0 _ _ h2]
      exact k10 x y ((hins x y).2 h1) h2
    · intro x y h1
      rcases hc.types x y h1 with e | e | e
      · left
        rw [k10 x y ((hins x y).2 h1) e, e]
      · rcases k13 x y ((hins x y).2 h1) e with f | f
        · left; rw [f, e]
        · refine Or.inr ⟨f.1, by rw [e]; decide, f.2.1, fun x' y' g => f.2.2.2.1 x' y' ((hins _ _).2 g)⟩
      · left
        by_cases hI : Inner (w + 4) (h + 4) x y
        · rw [k11 x y hI e, e]
        · rw [k12 x y ((hins x y).2 h1) hI, e]
  obtain ⟨r1, r2, r3, r4, hpx, -, -, -, hdeg, hinit, hedges, -⟩ := initMap_start_partial hi hv ho hr hholes hm
  have hs : SameKinds mL m := sameKinds_px (r3.trans k1.symm) (r4.trans k2.symm) hpx
  have hlook : ∀ x y k, m.look x y k = mL.look x y k := fun x y k => by unfold Map.look; rw [hpx]
  have hL : ∀ d, leftL m d = leftL mL d := fun d => by unfold leftL; simp only [hlook]
  have hR : ∀ d, rightL m d = rightL mL d := fun d => by unfold rightL; simp only [hlook]
  have hel : ∀ d, IsDart mL d → edgeLabel mL d = .ok (mL.look d.x d.y d.dir).2 := by
    intro d hd
    unfold edgeLabel
    rw [k7.nb hd.inside hd.rim.nonregion, add_zero]; rfl
  -- what is stored for an edge
  have hE : ∀ (l : Nat) (E : Edge), m.edges[l]? = some E → E.live = true → IsDart mL E.start ∧ IsDart mL E.stop ∧ E.start ≠ E.stop ∧
      mL.look E.start.x E.start.y E.start.dir = (.line, l) ∧ mL.look E.stop.x E.stop.y E.stop.dir = (.line, l) ∧ alpha mL E.start = .ok E.stop := by
    intro l E e1 e2
    obtain ⟨e3, e4, e5⟩ := hedges l E e1 e2
    have e3 := hs.isDart_iff.1 e3
    rw [hlook] at e4
    obtain ⟨d', a1, a2, a3, a4, -⟩ := alpha_involution k7 k8 k3 e3
    rw [e5] at a1
    obtain rfl := Outcome.ok.inj a1
    obtain ⟨b1, -⟩ := edgeLabel_alpha k7 k8 k3 k4 e3 e5 e3
    rw [hel _ a2, hel _ e3, e4] at b1
    exact ⟨e3, a2, a4.symm, e4, Prod.ext a2.edge (Outcome.ok.inj b1), e5⟩
  refine ⟨r1, r2, hinit, hs.clean k7, hs.noCorner k9, ?_, ?_, ?_, ?_, ?_, ?_, ?_, ?_, ?_, ?_, ?_⟩
  · intro x y k a b c
    rw [hpx] at b ⊢
    rw [hlook] at c ⊢
    exact k5 x y k ((hs.inside _ _).1 a) b c
  · intro x y k hk a a' b c
    rw [hpx] at b ⊢
    rw [hlook] at c ⊢
    exact k6 x y k hk ((hs.inside _ _).1 a) ((hs.inside _ _).1 a') b c
  · intro x y d hf hd hl
    have hnext : nextCrack m = nextCrack mL := by funext d; unfold nextCrack; simp only [hlook]
    rw [hnext]
    refine hnL x y d ⟨(hs.inside _ _).1 hf.inside, by rw [← hpx]; exact hf.node, ?_⟩
      ⟨(hs.inside _ _).1 hd.inside, by rw [← hpx]; exact hd.node, hd.even, by rw [← hlook]; exact hd.out⟩ (by rw [← hpx]; exact hl)
    intro x' y' a b c
    refine hf.first x' y' ((hs.inside _ _).2 a) ?_ ?_
    · rw [hpx]; exact b
    · rw [hpx]; exact c
  · intro d hd
    rw [hlook, hlook]
    exact (dart_sides k7 k8 (hs.isDart_iff.1 hd)).2.2.1
  · intro d hd
    rw [hlook, hlook]
    exact (dart_sides k7 k8 (hs.isDart_iff.1 hd)).2.2.2
  · intro x y k hk a b c
    rw [hpx] at b ⊢
    rw [hlook] at c ⊢
    have a := (hs.inside _ _).1 a
    have hq : mL.isLine (x + dx k, y + dy k) := ⟨k7.near a (by rw [b]; decide) k, c⟩
    have hse : SameEdge mL (x, y) (x + dx k, y + dy k) :=
      Relation.ReflTransGen.single ⟨b, c, k, rfl, fun ho => absurd ho (by omega)⟩
    exact ((k4.same (x, y) _ ⟨a, b⟩ hq).2 hse).symm
  · intro l E e1 e2
    obtain ⟨a1, a2, a3, a4, a5, -⟩ := hE l E e1 e2
    exact ⟨hs.isDart a1, hs.isDart a2, a3, by rw [hlook, a4], by rw [hlook, a5]⟩
  · intro l E e1 e2 d hd hl
    obtain ⟨a1, a2, a3, a4, a5, a6⟩ := hE l E e1 e2
    have hd := hs.isDart_iff.1 hd
    rw [hlook] at hl
    exact (edgeLabel_alpha k7 k8 k3 k4 a1 a6 hd).2 (by rw [hel _ hd, hel _ a1, hl, a4])
  · intro l E e1 e2
    obtain ⟨a1, a2, a3, a4, a5, a6⟩ := hE l E e1 e2
    obtain ⟨s1, s2⟩ := alpha_faces k7 k8 k6 k3 a1 a6
    rw [leftFace_eq k7 a2.inside a2.rim.nonregion, rightFace_eq k7 a1.inside a1.rim.nonregion] at s1
    rw [rightFace_eq k7 a2.inside a2.rim.nonregion, leftFace_eq k7 a1.inside a1.rim.nonregion] at s2
    rw [hL, hR, hL, hR]
    exact ⟨(Outcome.ok.inj s2).symm, (Outcome.ok.inj s1).symm⟩
  · intro l E e1 e2 x y k f a b hk c
    obtain ⟨a1, a2, a3, a4, a5, a6⟩ := hE l E e1 e2
    have a := (hs.inside _ _).1 a
    rw [hpx] at b
    rw [hlook] at c
    rw [hL, hR]
    refine line_sides k7 k8 k6 a1 (q := (x, y)) ((k4.same E.start.front (x, y) ⟨(a1.link.swap k7).inside, a1.edge⟩ ⟨a, by rw [b]⟩).1 ?_) hk c
    show (mL.look E.start.x E.start.y E.start.dir).2 = (mL.px x y).2
    rw [a4, b]
  · intro l A e1 e2
    exact (hdeg l A e1 e2).1

end Verif.FourEight
