import Verif.FourEight.AutoModel
import Verif.FourEight.ChangesProps

/-!
# Automatic protection of edges after any history (C101)
-/

namespace Verif.FourEight.Props
open Verif Verif.CellImage Verif.FourEight Verif.Outcome

/-- what the edge is judged by: the number of edgels among its pixels in the base image, and its number of pixels (as `unsigned int`) -/
def judged (m : Map) (edgel : Int → Int → Bool) (enough : Nat → Nat → Bool) (e : Nat) : Bool :=
  enough ((basePixels m (.line, e)).filter fun p => edgel p.1 p.2).card ((m.cell (.line, e)).card % 2 ^ 32)

/-- how one edge is protected, for all flags -/
def ProtectsParts (m0 m : Map) (mg : List Nat) (e : Nat) : Prop :=
  ∀ prot : List Nat, m0.edges.length < prot.length → ∀ (k : Nat) (b : Bool),
    ∃ prot' r, protectEdge mg (mg.length + 1) prot e (2 ^ k) b = .ok (prot', r) ∧ prot'.length = prot.length ∧
      (∀ l f, prot[l]? = some f → ∃ f', prot'[l]? = some f' ∧ (PartOf m0 m l e → ∀ j, f'.testBit j = if j = k then b else f.testBit j) ∧
        (¬PartOf m0 m l e → f' = f)) ∧ (r = true ↔ prot' ≠ prot)

theorem autoLoop_spec {m0 m : Map} {mg : List Nat} (edgel : Int → Int → Bool) (enough : Nat → Nat → Bool) (hm : Whole m)
    (hp : ∀ e E, m.edges[e]? = some E → E.live = true → ProtectsParts m0 m mg e)
    (hone : ∀ l e e', PartOf m0 m l e → PartOf m0 m l e' → e = e') (ls : List Nat) (hn : ls.Nodup)
    (hls : ∀ e ∈ ls, ∃ E, m.edges[e]? = some E ∧ E.live = true) (prot : List Nat) (hprot : m0.edges.length < prot.length) (r : Rect) :
    ∃ prot' r', autoLoop m mg edgel enough ls prot r = .ok (prot', r') ∧ prot'.length = prot.length ∧
      (∀ l f, prot[l]? = some f → ∃ f', prot'[l]? = some f' ∧
        (∀ e ∈ ls, PartOf m0 m l e → ∀ j, f'.testBit j = if j = cannyBit then judged m edgel enough e else f.testBit j) ∧
        ((∀ e ∈ ls, ¬PartOf m0 m l e) → f' = f)) ∧
      (∀ x y, Covers r x y → Covers r' x y) ∧
      ∀ e ∈ ls, (∃ l, PartOf m0 m l e ∧ prot'[l]? ≠ prot[l]?) → ∀ x y, m.inside x y → m.px x y = (.line, e) → Covers r' x y := by
  induction ls generalizing prot r with
  | nil =>
    exact ⟨prot, r, rfl, rfl, fun l f hf => ⟨f, hf, by simp, fun _ => rfl⟩, fun _ _ h => h, by simp⟩
  | cons a ls ih =>
    rw [List.nodup_cons] at hn
    obtain ⟨E, q1, q2⟩ := hls a (List.mem_cons_self ..)
    have hb := hm.cons.edges.box a E.info (by rw [List.getElem?_map, q1]; rfl) q2
    have hsz := hm.cons.edges.size a E.info (by rw [List.getElem?_map, q1]; rfl) q2 (by simp)
    have hsz : E.size = (m.cell (.line, a)).card % 2 ^ 32 := hsz
    obtain ⟨ps, w1, w2, w3⟩ := cellScan_spec hb
    have hE : m.edge a = .ok E := by unfold Map.edge; rw [q1]; simp [q2]
    have hcount : ps.countP (fun p => edgel p.1 p.2) = ((basePixels m (.line, a)).filter fun p => edgel p.1 p.2).card := by
      rw [← w3, List.countP_eq_length_filter, ← List.toFinset_card_of_nodup (w2.filter _), List.toFinset_filter]
    obtain ⟨p1, c, s1, s2, s3, s4⟩ := hp a E q1 q2 prot hprot cannyBit (judged m edgel enough a)
    obtain ⟨p2, r2, t1, t2, t3, t4, t5⟩ := ih hn.2 (fun e he => hls e (List.mem_cons_of_mem _ he)) p1 (by rw [s2]; exact hprot)
      (if c then r.union E.box else r)
    refine ⟨p2, r2, ?_, by rw [t2, s2], ?_, ?_, ?_⟩
    · unfold autoLoop
      rw [hE, bind_ok, show cellScan m E.box (.line, a) = .ok ps from w1, bind_ok, hcount, hsz]
      unfold judged at s1
      rw [s1, bind_ok, t1]
    · intro l f hf
      obtain ⟨f1, g1, g2, g3⟩ := s3 l f hf
      obtain ⟨f2, k1, k2, k3⟩ := t3 l f1 g1
      refine ⟨f2, k1, fun e he hpart j => ?_, fun hno => ?_⟩
      · by_cases hea : e = a
        · subst hea
          rw [k3 fun e' he' hpart' => hn.1 (hone l e e' hpart hpart' ▸ he')]
          exact g2 hpart j
        · have he' : e ∈ ls := (List.mem_cons.1 he).resolve_left hea
          rw [k2 e he' hpart j, g3 fun h => hea (hone l e a hpart h)]
      · rw [k3 fun e he => hno e (List.mem_cons_of_mem _ he), g3 (hno a (List.mem_cons_self ..))]
    · intro x y h
      apply t4
      cases c
      · exact h
      · exact h.union_left
    · rintro e he ⟨l, hpart, hne⟩ x y hi hpx
      by_cases hea : e = a
      · subst hea
        apply t4
        have hc : c = true := by
          rw [s4]
          rintro rfl
          apply hne
          cases hf : p1[l]? with
          | none =>
            rw [List.getElem?_eq_none_iff] at hf ⊢
            omega
          | some f =>
            obtain ⟨f2, k1, -, k3⟩ := t3 l f hf
            rw [k1, k3 fun e' he' hpart' => hn.1 (hone l e e' hpart hpart' ▸ he')]
        rw [hc, if_pos rfl]
        exact Covers.union_right (hb.1 (x, y) (mem_cell.2 ⟨hi, hpx⟩))
      · have he' : e ∈ ls := (List.mem_cons.1 he).resolve_left hea
        refine t5 e he' ⟨l, hpart, fun h => hne ?_⟩ x y hi hpx
        rw [h]
        cases hf : prot[l]? with
        | none =>
          rw [List.getElem?_eq_none_iff] at hf ⊢
          omega
        | some f =>
          obtain ⟨f1, g1, -, g3⟩ := s3 l f hf
          rw [g1, g3 fun h => hea (hone l e a hpart h)]

/-- **C101, partial.** After every history, `initAutoProtection` returns.  For every existing edge `e`, the bit `EPCanny` of everything `e`
was merged from then tells whether enough of the pixels of `e` in the base image are edgels; no other flag changes.  The rectangle it
returns contains all pixels of every edge of which a flag changed.  Missing: the rethinning of edges (on by default), and the
comparison of floating point numbers, which is a parameter. -/
theorem autoProtection_exact_partial {w h : Nat} {src : Int → Int → Bool} {cells : Int → Int → CellType}
    (hi : initCellImage .vertex (w + 4) (h + 4) (contourImage w h src) = .ok cells) {v : Components} (hv : v.Sane (w + 4) (h + 4) cells)
    (hn : NoHoles (typedMap (w + 4) (h + 4) cells v)) {mL : Map} {N n : Nat} (hr : labelCells (w + 4) (h + 4) cells v = .ok (mL, N, n))
    {o : Oracle} (hholes : ∀ l, (mL.cell (.vertex, l)).Nonempty → o.crackArea l = (mL.cell (.vertex, l)).card % 2 ^ 32)
    {m0 : Map} (h0 : initMap .vertex w h src v o = .ok m0) {m : Map} {mg : List Nat} (hm : MergedReach m0 m mg)
    (edgel : Int → Int → Bool) (enough : Nat → Nat → Bool) (prot : List Nat) (hprot : m0.edges.length < prot.length) :
    ∃ prot' r, initAutoProtection m mg edgel enough prot = .ok (prot', r) ∧ prot'.length = prot.length ∧
      ∀ l f, prot[l]? = some f → ∃ f', prot'[l]? = some f' ∧
        (∀ e, PartOf m0 m l e → (∀ j, f'.testBit j = if j = cannyBit then
            enough ((basePixels m (.line, e)).filter fun p => edgel p.1 p.2).card ((m.cell (.line, e)).card % 2 ^ 32) else f.testBit j) ∧
          (f' ≠ f → ∀ x y, m.inside x y → m.px x y = (.line, e) → Covers r x y)) ∧
        ((∀ e, ¬PartOf m0 m l e) → f' = f) := by
  have hw := initMap_whole hi hv hn hr hholes h0
  obtain ⟨-, a2, -⟩ := mergedReach_inv hw hm
  obtain ⟨b1, -, b3⟩ := protection_exact_partial hi hv hn hr hholes h0 hm
  obtain ⟨hw1, hh1⟩ := hw.reachSize b1
  have hlive : ∀ l e, PartOf m0 m l e → ∃ E, m.edges[e]? = some E ∧ E.live = true := by
    rintro l e ⟨x, y, p1, -, p3⟩
    obtain ⟨a, o1, o2⟩ := a2.cons.edges.owner x y e (by unfold Map.inside at *; rw [hw1, hh1]; exact p1) p3
    rw [List.getElem?_map] at o1
    obtain ⟨E, f1, f2⟩ := Option.map_eq_some_iff.1 o1
    subst f2
    exact ⟨E, f1, o2⟩
  have hone : ∀ l e e', PartOf m0 m l e → PartOf m0 m l e' → e = e' := by
    intro l e e' h1 h2
    obtain ⟨E, e1, e2⟩ := hlive l e h1
    obtain ⟨x, y, p1, p2, p3⟩ := h2
    have := (b3 e E e1 e2).1 l h1 x y p1 p2
    rw [p3] at this
    exact (Prod.ext_iff.1 this).2.symm
  obtain ⟨prot', r, t1, t2, t3, -, t5⟩ := autoLoop_spec edgel enough a2 (fun e E e1 e2 prot hprot => ((b3 e E e1 e2).2 prot hprot).2) hone
    (edgeLabels m) (List.Nodup.filter _ List.nodup_range) (fun e he => mem_edgeLabels.1 he) prot hprot ⟨0, 0, 0, 0⟩
  refine ⟨prot', r, t1, t2, fun l f hf => ?_⟩
  obtain ⟨f', k1, k2, k3⟩ := t3 l f hf
  refine ⟨f', k1, fun e hpart => ⟨k2 e (mem_edgeLabels.2 (hlive l e hpart)) hpart, fun hne => ?_⟩, fun hno => k3 fun e _ => hno e⟩
  refine t5 e (mem_edgeLabels.2 (hlive l e hpart)) ⟨l, hpart, ?_⟩
  rw [k1, hf]
  exact fun h => hne (Option.some.inj h)

/-! ## the bar has two edgels out of three pixels -/

def someEdgels (x y : Int) : Bool := decide (x = 1 ∧ y ≠ 1)
/-- more than three tenths -/
def threeTenths (c s : Nat) : Bool := decide (10 * c > 3 * s)

def theFlags (o : Outcome (List Nat × Rect)) : Option (List Nat × Rect) := match o with | .ok p => some p | _ => none

/-- The bar meets the hypotheses, and is the only edge that gets the flag. -/
theorem bar_auto : MergedReach bar0 bar0 (initMerged bar0) ∧ bar0.edges.length < [0, 0, 0, 0, 4, 0, 0, 0, 0].length ∧ PartOf bar0 bar0 3 3 ∧
    theFlags (initAutoProtection bar0 (initMerged bar0) someEdgels threeTenths [0, 0, 0, 0, 4, 0, 0, 0, 0]) =
      some ([0, 0, 0, 2, 4, 0, 0, 0, 0], ⟨1, 0, 2, 3⟩) := by
  have h : (decide (theFlags (initAutoProtection bar0 (initMerged bar0) someEdgels threeTenths [0, 0, 0, 0, 4, 0, 0, 0, 0]) =
      some ([0, 0, 0, 2, 4, 0, 0, 0, 0], ⟨1, 0, 2, 3⟩)) && decide (bar0.edges.length < 9 ∧ bar0.w = 7 ∧ bar0.h = 7 ∧ bar0.px 1 1 = (.line, 3))) = true := by
    decide +kernel
  obtain ⟨h1, h2⟩ := Bool.and_eq_true_iff.1 h
  have b := of_decide_eq_true h2
  refine ⟨.init, b.1, ⟨1, 1, ?_, b.2.2.2, b.2.2.2⟩, of_decide_eq_true h1⟩
  unfold Map.inside
  rw [b.2.1, b.2.2.1]
  norm_num

end Verif.FourEight.Props
