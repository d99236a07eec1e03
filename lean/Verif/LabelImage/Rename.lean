import Verif.LabelImage.Init

/-! # `changeFaceLabels` with a label image -/

set_option linter.unusedSectionVars false

namespace Verif.LabelImage
open Verif Verif.GeoMap Verif.Scan Verif.LabelLUT

variable {K : Type} [Field K] [LinearOrder K] [IsStrictOrderedRing K] [FloorRing K]

theorem renamePixels_spec (new : List Nat) (lut : LUT) : ∀ (px : List (Int × Int)) (im : Img), px.Nodup →
    (∀ p ∈ px, im p < 0 ∨ ∃ f t : Nat, own im lut p = some f ∧ new[f]? = some t) →
    ∃ im', LMap.renamePixels new lut px im = .ok im' ∧ (∀ p, p ∉ px → im' p = im p) ∧
      ∀ p ∈ px, (im p < 0 → im' p = im p) ∧ ∀ f t : Nat, own im lut p = some f → new[f]? = some t → im' p = (t : Int) := by
  intro px
  induction px with
  | nil => intro im _ _; exact ⟨im, rfl, fun _ _ => rfl, by simp⟩
  | cons x px ih =>
    intro im hnd h
    have hx := (List.nodup_cons.mp hnd).1
    have step : ∀ v : Int, ((im x < 0 → v = im x) ∧ ∀ f t : Nat, own im lut x = some f → new[f]? = some t → v = (t : Int)) →
        LMap.renamePixels new lut (x :: px) im = LMap.renamePixels new lut px (Function.update im x v) →
        ∃ im', LMap.renamePixels new lut (x :: px) im = .ok im' ∧ (∀ p, p ∉ x :: px → im' p = im p) ∧
          ∀ p ∈ x :: px, (im p < 0 → im' p = im p) ∧ ∀ f t : Nat, own im lut p = some f → new[f]? = some t → im' p = (t : Int) := by
      intro v hv e
      have hun : ∀ p ∈ px, Function.update im x v p = im p := fun p hp =>
        Function.update_of_ne (fun hh : p = x => hx (hh ▸ hp)) _ _
      obtain ⟨im', e1, e2, e3⟩ := ih (Function.update im x v) (List.nodup_cons.mp hnd).2 (fun p hp => by
        have := h p (List.mem_cons_of_mem _ hp)
        rw [hun p hp, own_congr (hun p hp)]; exact this)
      refine ⟨im', by rw [e, e1], fun p hp => ?_, fun p hp => ?_⟩
      · rw [e2 p (fun hh => hp (List.mem_cons_of_mem _ hh)), Function.update_of_ne (fun hh => hp (by rw [hh]; simp))]
      · by_cases hpx : p = x
        · subst hpx
          rw [e2 p hx, Function.update_self]
          exact hv
        · have hp : p ∈ px := by simpa [hpx] using hp
          have := e3 p hp
          rw [hun p hp, own_congr (hun p hp)] at this
          exact this
    by_cases hneg : im x < 0
    · refine step (im x) ⟨fun _ => rfl, fun f t ho => ?_⟩ ?_
      · rw [own_of_neg hneg] at ho; cases ho
      · rw [LMap.renamePixels, resolve, if_neg (by omega)]
        simp only [bind, Outcome.bind_ok]
        rw [if_neg (by omega)]
    · rcases h x (by simp) with h1 | ⟨f, t, h1, h2⟩
      · exact absurd h1 hneg
      · refine step t ⟨fun hh => absurd hh hneg, fun f' t' ho ht => ?_⟩ ?_
        · rw [h1] at ho; cases ho
          rw [h2] at ht; cases ht; rfl
        · have hl : lookup lut (im x).toNat = .ok f := by
            rw [lookup_eq_ok]
            unfold own at h1
            rwa [if_pos (by omega)] at h1
          rw [LMap.renamePixels, resolve, if_pos (by omega), hl]
          simp only [Outcome.map, bind, Outcome.bind_ok]
          rw [if_pos (by omega), Int.toNat_natCast, h2]

theorem rename_inv {m n : LMap K} {im : Img} (hI : Inv m im) {new : List Nat} {size : Nat} {lab : Nat → Nat} (h0 : new[0]? = some 0)
    (e : m.changeFaceLabels new size = .ok (true, n, lab)) :
    ∃ im', Inv n im' ∧ n.w = m.w ∧ n.h = m.h ∧ RenamedBy new size m.g n.g ∧ (∀ f, (n.g.face f).isSome = true → lab f = f) ∧
      (∀ p, crossing n.g p = crossing m.g p) ∧
      ∀ p, InImage m.w m.h p → own im' n.lut p = (own im m.lut p).bind (new[·]?) := by
  classical
  rcases changeFaceLabels_spec hI.good.map new size with ⟨l, e', -⟩ | ⟨t, l, e', -, hR, hlab⟩
  · unfold LMap.changeFaceLabels at e
    rw [e'] at e
    simp only [bind, Outcome.bind_ok, Bool.false_eq_true, if_false, Outcome.ok.injEq, Prod.mk.injEq, false_and] at e
  obtain ⟨hg, -, -, -⟩ := rename_good hI.good h0 e'
  have hG : GoodGeom t := hR.geom hI.good.map hI.init hg.map hI.geom
  have hown : ∀ p, InImage m.w m.h p → im p < 0 ∨ ∃ f t : Nat, own im m.lut p = some f ∧ new[f]? = some t ∧ (m.g.face f).isSome = true := by
    intro p hp
    by_cases hc : crossing m.g p = 0
    · obtain ⟨f, h1, h2⟩ := hI.free p hp hc
      obtain ⟨k, hk⟩ := hR.defd f h2
      exact Or.inr ⟨f, k, h1, hk, h2⟩
    · have := hI.marked p hp (by omega)
      left; omega
  obtain ⟨im', e1, e2, e3⟩ := renamePixels_spec new m.lut (LMap.allPixels m.w m.h) im (allPixels_nodup m.w m.h)
    (fun p hp => by
      rcases hown p ((mem_allPixels).mp hp) with h | ⟨f, t, h1, h2, -⟩
      · exact Or.inl h
      · exact Or.inr ⟨f, t, h1, h2⟩)
  have hn : n = { m with g := t, img := some im', lut := LabelLUT.init size } ∧ lab = l := by
    unfold LMap.changeFaceLabels at e
    rw [e'] at e
    simp only [bind, Outcome.bind_ok, if_true, hI.img, e1, Outcome.ok.injEq, Prod.mk.injEq, true_and] at e
    exact ⟨e.1.symm, e.2.symm⟩
  obtain ⟨rfl, rfl⟩ := hn
  have hcr : ∀ p, crossing t p = crossing m.g p := crossing_congr hR.sigma.2.2.2.2.1 (fun l => by
    rw [hR.edges, Option.map_map]; rfl)
  have hinit : ∀ f < size, (LabelLUT.init size).lut[f]? = some f := by
    intro f hf
    simp [LabelLUT.init, hf]
  have hown' : ∀ p, InImage m.w m.h p → own im' (LabelLUT.init size) p = (own im m.lut p).bind (new[·]?) := by
    intro p hp
    have h3 := e3 p (mem_allPixels.mpr hp)
    rcases hown p hp with h | ⟨f, k, h1, h2, h4⟩
    · rw [own_of_neg h, own_of_neg (by rw [h3.1 h]; exact h)]; rfl
    · rw [h1]
      show _ = new[f]?
      rw [h2]
      unfold own
      rw [h3.2 f k h1 h2, if_pos (by omega), Int.toNat_natCast]
      exact hinit k (hR.bound f k h4 h2)
  refine ⟨im', ⟨hg, hG, ?_, rfl, ?_, ?_, ?_, inv_init size, ?_, ?_⟩, rfl, rfl, hR, hlab, hcr, hown'⟩
  · have hz := (hI.good.map.contours hI.init).face_zero
    rw [← hR.face hz h0] at hz
    exact hg.map.graph.face_lt 0 hz
  · intro p hp (hc : 0 < crossing t p)
    show im' p = -(crossing t p : Int)
    rw [hcr] at hc ⊢
    have := hI.marked p hp hc
    rw [(e3 p (mem_allPixels.mpr hp)).1 (by omega), this]
  · intro p hp (hc : crossing t p = 0)
    rw [hcr] at hc
    obtain ⟨f, h1, h2⟩ := hI.free p hp hc
    obtain ⟨k, hk⟩ := hR.defd f h2
    refine ⟨k, by rw [hown' p hp, h1]; exact hk, ?_⟩
    show (t.face k).isSome = true
    rw [hR.face h2 hk]; exact h2
  · intro f F (hF : t.face f = some F)
    obtain ⟨l, h1, h2⟩ := (hR.faces f F).mp hF
    rw [hI.area l F h1]
    unfold ownCount
    congr 1
    refine Finset.filter_congr fun p hp => ?_
    rw [mem_image] at hp
    show own im m.lut p = some l ↔ own im' (LabelLUT.init size) p = some f
    rw [hown' p hp]
    rcases hown p hp with h | ⟨g, k, g1, g2, g3⟩
    · rw [own_of_neg h]; simp
    · rw [g1]
      show some g = some l ↔ new[g]? = some f
      constructor
      · intro hh; cases hh; exact h2
      · intro hh; rw [hR.inj g l f g3 (by simp [h1]) hh h2]
  · intro f (hf : (t.face f).isSome = true)
    exact hinit f (by rw [← hR.sigma.2.2.2.2.2.1]; exact hg.map.graph.face_lt f hf)
  · intro l e (he : t.edge l = some e)
    rw [hR.edges] at he
    obtain ⟨e', h1, rfl⟩ := Option.map_eq_some_iff.mp he
    exact hI.scan l e' h1

end Verif.LabelImage
