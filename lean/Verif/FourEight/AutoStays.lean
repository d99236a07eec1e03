import Verif.FourEight.AutoProps

/-!
# Automatic protection stays right while edges are merged (C102)
-/

namespace Verif.FourEight.Props
open Verif Verif.CellImage Verif.FourEight Verif.Outcome

/-- all pixels of the edge lie in the rectangle -/
def EdgeIn (m : Map) (bd : Rect) (e : Nat) : Prop := ∀ x y, m.inside x y → m.px x y = (.line, e) → Covers bd x y

/-- The maps, links and flags that any number of operations leads to, after a call of `initAutoProtection` that came after any number of
operations. -/
inductive AutoReach (m0 : Map) (edgel : Int → Int → Bool) (enough : Nat → Nat → Bool) (bd : Rect) : Map → List Nat → List Nat → Prop
  | init {m mg prot prot' r} : MergedReach m0 m mg → m0.edges.length < prot.length → initAutoProtection m mg edgel enough prot = .ok (prot', r) →
      AutoReach m0 edgel enough bd m mg prot'
  | step {m mg prot m' mg' prot'} (op : Op) : AutoReach m0 edgel enough bd m mg prot → DartCall m op →
      runAuto m mg edgel enough bd prot op = .ok (m', mg', prot') → AutoReach m0 edgel enough bd m' mg' prot'

/-- the flags are right -/
def FlagsRight (m0 : Map) (edgel : Int → Int → Bool) (enough : Nat → Nat → Bool) (bd : Rect) (m : Map) (prot : List Nat) : Prop :=
  m0.edges.length < prot.length ∧ ∀ l e f, PartOf m0 m l e → EdgeIn m bd e → prot[l]? = some f → f.testBit cannyBit = judged m edgel enough e

section
variable {m0 m m' : Map} {edgel : Int → Int → Bool} {enough : Nat → Nat → Bool} {bd : Rect}

/-- an edge none of whose pixels changed -/
theorem same_edge (hw : m'.w = m.w) (hh : m'.h = m.h) (hw0 : m.w = m0.w) (hh0 : m.h = m0.h) {e : Nat}
    (hpx : ∀ x y, m.inside x y → (m'.px x y = (.line, e) ↔ m.px x y = (.line, e))) :
    (∀ l, PartOf m0 m' l e → PartOf m0 m l e) ∧ (EdgeIn m' bd e → EdgeIn m bd e) ∧ judged m' edgel enough e = judged m edgel enough e := by
  have hin : ∀ x y, m'.inside x y ↔ m.inside x y := fun x y => by simp only [Map.inside, hw, hh]
  have hin0 : ∀ x y, m0.inside x y ↔ m.inside x y := fun x y => by simp only [Map.inside, hw0, hh0]
  refine ⟨?_, fun h x y hi hp => h x y ((hin x y).2 hi) ((hpx x y hi).2 hp), ?_⟩
  · rintro l ⟨x, y, p1, p2, p3⟩
    exact ⟨x, y, p1, p2, (hpx x y ((hin0 x y).1 p1)).1 p3⟩
  · have h1 : m'.cell (.line, e) = m.cell (.line, e) := by
      ext p
      rw [mem_cell, mem_cell, hin]
      exact and_congr_right fun hi => hpx _ _ hi
    have h2 : basePixels m' (.line, e) = basePixels m (.line, e) := by
      ext p
      simp only [mem_basePixels, hin, hw, hh]
      by_cases hi : m.inside p.1 p.2
      · rw [hpx _ _ hi]
      · tauto
    unfold judged
    rw [h1, h2]

/-- a rectangle that holds all pixels of an edge holds its bounds -/
theorem holds_of_in {e : Nat} {b : Rect} (hb : IsBox (m.cell (.line, e)) b) (hne : (m.cell (.line, e)).Nonempty) (h : EdgeIn m bd e) :
    bd.holds b = true := by
  obtain ⟨⟨p, p1, p2⟩, ⟨q, q1, q2⟩, ⟨s, s1, s2⟩, t, t1, t2⟩ := hb.2.2 hne
  have cov : ∀ p ∈ m.cell (.line, e), Covers bd p.1 p.2 := fun p hp => h _ _ (mem_cell.1 hp).1 (mem_cell.1 hp).2
  have a := cov p p1
  have b' := cov q q1
  have c := cov s s1
  have d := cov t t1
  unfold Covers at a b' c d
  unfold Rect.holds
  rw [Bool.or_eq_true]
  right
  rw [decide_eq_true_eq]
  omega

/-- `autoProtect` after edges were merged -/
theorem autoProtect_spec (hm : Whole m) {mg : List Nat} {s : Nat} {E : Edge} (hE : m.edges[s]? = some E) (hl : E.live = true)
    (hne : (m.cell (.line, s)).Nonempty) (hp : ProtectsParts m0 m mg s) {prot : List Nat} (hprot : m0.edges.length < prot.length) :
    ∃ prot', autoProtect m mg edgel enough bd prot s = .ok prot' ∧ prot'.length = prot.length ∧
      ∀ l f', prot'[l]? = some f' → (PartOf m0 m l s → EdgeIn m bd s → f'.testBit cannyBit = judged m edgel enough s) ∧
        (¬PartOf m0 m l s → prot[l]? = some f') := by
  have hb := hm.cons.edges.box s E.info (by rw [List.getElem?_map, hE]; rfl) hl
  have hsz := hm.cons.edges.size s E.info (by rw [List.getElem?_map, hE]; rfl) hl (by simp)
  have hsz : E.size = (m.cell (.line, s)).card % 2 ^ 32 := hsz
  obtain ⟨ps, w1, w2, w3⟩ := cellScan_spec hb
  have hE' : m.edge s = .ok E := by unfold Map.edge; rw [hE]; simp [hl]
  unfold autoProtect
  rw [hE', bind_ok]
  by_cases hin : bd.holds E.box = true
  · rw [if_pos hin]
    have hcount : ps.countP (fun p => edgel p.1 p.2) = ((basePixels m (.line, s)).filter fun p => edgel p.1 p.2).card := by
      rw [← w3, List.countP_eq_length_filter, ← List.toFinset_card_of_nodup (w2.filter _), List.toFinset_filter]
    obtain ⟨p1, c, s1, s2, s3, -⟩ := hp prot hprot cannyBit (judged m edgel enough s)
    unfold judged at s1
    refine ⟨p1, ?_, s2, fun l f' hf' => ?_⟩
    · rw [show cellScan m E.box (.line, s) = .ok ps from w1, bind_ok, hcount, hsz, s1, bind_ok]
    · have hlt : l < prot.length := by rw [← s2]; exact (List.getElem?_eq_some_iff.1 hf').1
      obtain ⟨f2, g1, g2, g3⟩ := s3 l _ (List.getElem?_eq_getElem hlt)
      rw [hf'] at g1
      obtain rfl := Option.some.inj g1
      refine ⟨fun hpart _ => ?_, fun hno => ?_⟩
      · rw [g2 hpart, if_pos rfl]
      · rw [g3 hno]; exact List.getElem?_eq_getElem hlt
  · rw [if_neg hin]
    exact ⟨prot, rfl, rfl, fun l f' hf' => ⟨fun _ h => absurd (holds_of_in hb hne h) hin, fun _ => hf'⟩⟩

end

/-- parts of existing edges -/
theorem parts_facts {w h : Nat} {src : Int → Int → Bool} {cells : Int → Int → CellType}
    (hi : initCellImage .vertex (w + 4) (h + 4) (contourImage w h src) = .ok cells) {v : Components} (hv : v.Sane (w + 4) (h + 4) cells)
    (hn : NoHoles (typedMap (w + 4) (h + 4) cells v)) {mL : Map} {N n : Nat} (hr : labelCells (w + 4) (h + 4) cells v = .ok (mL, N, n))
    {o : Oracle} (hholes : ∀ l, (mL.cell (.vertex, l)).Nonempty → o.crackArea l = (mL.cell (.vertex, l)).card % 2 ^ 32)
    {m0 : Map} (h0 : initMap .vertex w h src v o = .ok m0) {m : Map} {mg : List Nat} (hm : MergedReach m0 m mg) :
    Whole m ∧ m.w = m0.w ∧ m.h = m0.h ∧ (∀ e E, m.edges[e]? = some E → E.live = true → ProtectsParts m0 m mg e) ∧
      ∀ l e e', PartOf m0 m l e → PartOf m0 m l e' → e = e' := by
  have hw := initMap_whole hi hv hn hr hholes h0
  obtain ⟨-, a2, -⟩ := mergedReach_inv hw hm
  obtain ⟨b1, -, b3⟩ := protection_exact_partial hi hv hn hr hholes h0 hm
  obtain ⟨hw1, hh1⟩ := hw.reachSize b1
  refine ⟨a2, hw1, hh1, fun e E e1 e2 prot hprot => ((b3 e E e1 e2).2 prot hprot).2, ?_⟩
  intro l e e' h1 h2
  obtain ⟨E, e1, e2⟩ : ∃ E, m.edges[e]? = some E ∧ E.live = true := by
    obtain ⟨x, y, p1, -, p3⟩ := h1
    obtain ⟨a, o1, o2⟩ := a2.cons.edges.owner x y e (by unfold Map.inside at *; rw [hw1, hh1]; exact p1) p3
    rw [List.getElem?_map] at o1
    obtain ⟨E, f1, f2⟩ := Option.map_eq_some_iff.1 o1
    subst f2
    exact ⟨E, f1, o2⟩
  obtain ⟨x, y, p1, p2, p3⟩ := h2
  have := (b3 e E e1 e2).1 l h1 x y p1 p2
  rw [p3] at this
  exact (Prod.ext_iff.1 this).2.symm

/-- One operation. -/
theorem autoStep {w h : Nat} {src : Int → Int → Bool} {cells : Int → Int → CellType}
    (hi : initCellImage .vertex (w + 4) (h + 4) (contourImage w h src) = .ok cells) {v : Components} (hv : v.Sane (w + 4) (h + 4) cells)
    (hn : NoHoles (typedMap (w + 4) (h + 4) cells v)) {mL : Map} {N n : Nat} (hr : labelCells (w + 4) (h + 4) cells v = .ok (mL, N, n))
    {o : Oracle} (hholes : ∀ l, (mL.cell (.vertex, l)).Nonempty → o.crackArea l = (mL.cell (.vertex, l)).card % 2 ^ 32)
    {m0 : Map} (h0 : initMap .vertex w h src v o = .ok m0) {m : Map} {mg : List Nat} (hm : MergedReach m0 m mg)
    {edgel : Int → Int → Bool} {enough : Nat → Nat → Bool} {bd : Rect} {prot : List Nat} (hf : FlagsRight m0 edgel enough bd m prot)
    {op : Op} {m' : Map} {l : Nat} (hcall : DartCall m op) (hrun : run m op = .ok (m', l)) :
    ∃ mg' prot', runAuto m mg edgel enough bd prot op = .ok (m', mg', prot') ∧ MergedReach m0 m' mg' ∧ FlagsRight m0 edgel enough bd m' prot' := by
  obtain ⟨mg', hmg⟩ := (protection_exact_partial hi hv hn hr hholes h0 hm).2.1 op m' l hcall hrun
  have hm' : MergedReach m0 m' mg' := .step op hm hcall hmg
  obtain ⟨a1, a2, a3, -, a5⟩ := parts_facts hi hv hn hr hholes h0 hm
  obtain ⟨b1, b2, b3, b4, b5⟩ := parts_facts hi hv hn hr hholes h0 hm'
  have hw : m'.w = m.w := by rw [b2, a2]
  have hh : m'.h = m.h := by rw [b3, a3]
  have keep : ∀ k : Option Nat, (∀ x y, m.inside x y → ∀ e, m'.px x y = (.line, e) ↔ m.px x y = (.line, e) ∧ some e ≠ k) →
      FlagsRight m0 edgel enough bd m' prot := by
    intro k hpx
    refine ⟨hf.1, fun l e f hpart hin hfl => ?_⟩
    have hne : some e ≠ k := by
      obtain ⟨x, y, p1, -, p3⟩ := hpart
      exact ((hpx x y (by unfold Map.inside at *; rw [a2, a3]; exact p1) e).1 p3).2
    obtain ⟨c1, c2, c3⟩ := same_edge (edgel := edgel) (enough := enough) (bd := bd) hw hh a2 a3 (e := e)
      (fun x y hi => (hpx x y hi e).trans (and_iff_left hne))
    rw [c3]
    exact hf.2 l e f (c1 l hpart) (c2 hin) hfl
  cases op with
  | removeIsolatedNode d =>
    refine ⟨mg', prot, by unfold runAuto; dsimp only; rw [hmg, bind_ok], hm', keep none ?_⟩
    have hrun' : removeIsolatedNode m d = .ok (m', l) := hrun
    obtain ⟨_, n, N, hn, hf, res⟩ := removeIsolatedNode_result a1.cons hrun'
    intro x y hi e
    rw [res.image.px x y hi]
    split
    · rename_i hc
      rw [hc]
      simp
    · simp
  | mergeFaces d =>
    obtain ⟨e, g, E, q, -⟩ := a1.mergeFaces_removed hcall hrun
    exact ⟨mg', prot, by unfold runAuto; dsimp only; rw [hmg, bind_ok], hm', keep (some e) (Whole.mergedStep.edge_gone q)⟩
  | removeBridge d =>
    obtain ⟨e, g, E, q, -⟩ := a1.removeBridge_removed hcall hrun
    exact ⟨mg', prot, by unfold runAuto; dsimp only; rw [hmg, bind_ok], hm', keep (some e) (Whole.mergedStep.edge_gone q)⟩
  | mergeEdges d =>
    have hrun' : mergeEdges m d = .ok (m', l) := hrun
    obtain ⟨d1, g, n, N, -, -, -, -, -, -, -, q⟩ := a1.mergeEdges_two hcall hrun'
    obtain ⟨hne, -⟩ := changed_left a1 hcall hrun
    have hne : (m'.cell (.line, l)).Nonempty := hne
    obtain ⟨E, e1, e2⟩ : ∃ E, m'.edges[l]? = some E ∧ E.live = true := by
      obtain ⟨p, hp⟩ := hne
      obtain ⟨p1, p2⟩ := mem_cell.1 hp
      obtain ⟨a, o1, o2⟩ := b1.cons.edges.owner _ _ _ p1 p2
      rw [List.getElem?_map] at o1
      obtain ⟨E, f1, f2⟩ := Option.map_eq_some_iff.1 o1
      subst f2
      exact ⟨E, f1, o2⟩
    obtain ⟨prot', t1, t2, t3⟩ := autoProtect_spec (edgel := edgel) (enough := enough) (bd := bd) b1 e1 e2 hne (b4 l E e1 e2) hf.1
    refine ⟨mg', prot', ?_, hm', by rw [t2]; exact hf.1, fun k e f hpart hin hfl => ?_⟩
    · unfold runAuto
      dsimp only
      rw [hrun', bind_ok, hmg, bind_ok, t1, bind_ok]
    · by_cases hel : e = l
      · subst hel
        exact (t3 k f hfl).1 hpart hin
      · have hno : ¬PartOf m0 m' k l := fun h => hel (b5 k e l hpart h)
        have hfl := (t3 k f hfl).2 hno
        have hpx : ∀ x y, m.inside x y → (m'.px x y = (.line, e) → m.px x y = (.line, e) ∧ e ≠ g) ∧ (m.px x y = (.line, e) → e ≠ g → m'.px x y = (.line, e)) := by
          intro x y hi
          rw [q.px x y hi]
          constructor
          · intro hp
            split at hp
            · exact absurd (Prod.ext_iff.1 hp).2.symm hel
            · rename_i hc
              exact ⟨hp, fun he => hc (Or.inr (he ▸ hp))⟩
          · intro hp he
            rw [if_neg]
            · exact hp
            · rintro (hc | hc)
              · rw [hp] at hc; cases hc
              · rw [hp] at hc; exact he (Prod.ext_iff.1 hc).2
        have heg : e ≠ g := by
          obtain ⟨x, y, p1, -, p3⟩ := hpart
          exact ((hpx x y (by unfold Map.inside at *; rw [a2, a3]; exact p1)).1 p3).2
        obtain ⟨c1, c2, c3⟩ := same_edge (edgel := edgel) (enough := enough) (bd := bd) hw hh a2 a3 (e := e)
          (fun x y hi => ⟨fun h => ((hpx x y hi).1 h).1, fun h => (hpx x y hi).2 h heg⟩)
        rw [c3]
        exact hf.2 k e f (c1 k hpart) (c2 hin) hfl

theorem runAuto_run {m m' : Map} {mg mg' prot prot' : List Nat} {edgel : Int → Int → Bool} {enough : Nat → Nat → Bool} {bd : Rect} {op : Op}
    (h : runAuto m mg edgel enough bd prot op = .ok (m', mg', prot')) : ∃ l, run m op = .ok (m', l) := by
  cases op with
  | mergeEdges d =>
    unfold runAuto at h
    dsimp only at h
    obtain ⟨⟨p, l⟩, hp, h⟩ := bind_eq_ok.1 h
    obtain ⟨q, -, h⟩ := bind_eq_ok.1 h
    obtain ⟨st2, -, h⟩ := bind_eq_ok.1 h
    obtain ⟨rfl, -⟩ := Prod.ext_iff.1 (Outcome.ok.inj h)
    exact ⟨l, hp⟩
  | _ =>
    unfold runAuto at h
    dsimp only at h
    obtain ⟨⟨p, l⟩, hp, h⟩ := bind_eq_ok.1 h
    obtain ⟨rfl, -⟩ := Prod.ext_iff.1 (Outcome.ok.inj h)
    exact runMerged_run hp

/-- **C102, partial.** With `doAutoProtection`, after a call of `initAutoProtection` at any time and any number of operations: an operation that
returns also returns with its notifications, and for every edge with all pixels in `segDataBounds` (here any rectangle), the bit
`EPCanny` of everything it was merged from tells whether enough of its pixels, as they are now, are edgels.  Missing: edges that leave
`segDataBounds`, whose flags are not updated, and what C101 lacks. -/
theorem autoProtection_stays_partial {w h : Nat} {src : Int → Int → Bool} {cells : Int → Int → CellType}
    (hi : initCellImage .vertex (w + 4) (h + 4) (contourImage w h src) = .ok cells) {v : Components} (hv : v.Sane (w + 4) (h + 4) cells)
    (hn : NoHoles (typedMap (w + 4) (h + 4) cells v)) {mL : Map} {N n : Nat} (hr : labelCells (w + 4) (h + 4) cells v = .ok (mL, N, n))
    {o : Oracle} (hholes : ∀ l, (mL.cell (.vertex, l)).Nonempty → o.crackArea l = (mL.cell (.vertex, l)).card % 2 ^ 32)
    {m0 : Map} (h0 : initMap .vertex w h src v o = .ok m0) {edgel : Int → Int → Bool} {enough : Nat → Nat → Bool} {bd : Rect}
    {m : Map} {mg prot : List Nat} (hm : AutoReach m0 edgel enough bd m mg prot) :
    MergedReach m0 m mg ∧
    (∀ op m' l, DartCall m op → run m op = .ok (m', l) → ∃ mg' prot', runAuto m mg edgel enough bd prot op = .ok (m', mg', prot')) ∧
    ∀ l e f, PartOf m0 m l e → (∀ x y, m.inside x y → m.px x y = (.line, e) → Covers bd x y) → prot[l]? = some f →
      f.testBit cannyBit = enough ((basePixels m (.line, e)).filter fun p => edgel p.1 p.2).card ((m.cell (.line, e)).card % 2 ^ 32) := by
  have key : MergedReach m0 m mg ∧ FlagsRight m0 edgel enough bd m prot := by
    induction hm with
    | @init m mg prot prot' r hr1 hlen hrun =>
      obtain ⟨p', r', t1, t2, t3⟩ := autoProtection_exact_partial hi hv hn hr hholes h0 hr1 edgel enough prot hlen
      rw [hrun] at t1
      obtain ⟨rfl, -⟩ := Prod.ext_iff.1 (Outcome.ok.inj t1)
      dsimp only at *
      refine ⟨hr1, by rw [t2]; exact hlen, fun l e f hpart _ hfl => ?_⟩
      have hlt : l < prot.length := by rw [← t2]; exact (List.getElem?_eq_some_iff.1 hfl).1
      obtain ⟨f', k1, k2, -⟩ := t3 l _ (List.getElem?_eq_getElem hlt)
      rw [hfl] at k1
      obtain rfl := Option.some.inj k1
      rw [(k2 e hpart).1, if_pos rfl]
      rfl
    | step op _ hcall hrun ih =>
      obtain ⟨l, hl⟩ := runAuto_run hrun
      obtain ⟨mg1, p1, s1, s2, s3⟩ := autoStep hi hv hn hr hholes h0 ih.1 ih.2 hcall hl
      rw [hrun] at s1
      obtain ⟨-, s1⟩ := Prod.ext_iff.1 (Outcome.ok.inj s1)
      obtain ⟨rfl, rfl⟩ := Prod.ext_iff.1 s1
      exact ⟨s2, s3⟩
  refine ⟨key.1, fun op m' l hc hl => ?_, key.2.2⟩
  obtain ⟨mg', p', s1, -⟩ := autoStep hi hv hn hr hholes h0 key.1 key.2 hc hl
  exact ⟨mg', p', s1⟩

/-! ## the cross: the arm without an edgel gets the flag when it becomes a part of an edge with enough of them -/

def theAuto (o : Outcome (Map × List Nat × List Nat)) : Map × List Nat × List Nat := match o with | .ok p => p | _ => (frame0, [], [])
theorem theAuto_spec {o : Outcome (Map × List Nat × List Nat)} {q : Map × List Nat × List Nat} (hq : q = theAuto o) (h : isOk o = true) :
    o = .ok (q.1, q.2.1, q.2.2) := by
  cases o with
  | ok p => rw [hq]; rfl
  | _ => cases h

theorem theFlags_spec {o : Outcome (List Nat × Rect)} {p : List Nat × Rect} (h : theFlags o = some p) : o = .ok (p.1, p.2) := by
  cases o with
  | ok q =>
    obtain rfl : q = p := Option.some.inj h
    rfl
  | _ => cases h

def nextAuto (edgel : Int → Int → Bool) (s : Map × List Nat × List Nat) (op : Op) : Outcome (Map × List Nat × List Nat) :=
  runAuto s.1 s.2.1 edgel threeTenths ⟨0, 0, 3, 3⟩ s.2.2 op

theorem nextAuto_reach {m0 : Map} {edgel : Int → Int → Bool} {s q : Map × List Nat × List Nat} (op : Op)
    (hs : AutoReach m0 edgel threeTenths ⟨0, 0, 3, 3⟩ s.1 s.2.1 s.2.2) (hc : DartCall s.1 op) (hq : q = theAuto (nextAuto edgel s op))
    (h : isOk (nextAuto edgel s op) = true) : AutoReach m0 edgel threeTenths ⟨0, 0, 3, 3⟩ q.1 q.2.1 q.2.2 :=
  .step op hs hc (theAuto_spec hq h)

theorem pairReach {m0 m : Map} {edgel : Int → Int → Bool} {mg prot : List Nat} {q : Map × List Nat × List Nat} (hq : q = (m, mg, prot))
    (h : AutoReach m0 edgel threeTenths ⟨0, 0, 3, 3⟩ m mg prot) : AutoReach m0 edgel threeTenths ⟨0, 0, 3, 3⟩ q.1 q.2.1 q.2.2 := by
  subst hq; exact h

theorem autoFirst {m0 : Map} {edgel : Int → Int → Bool} {prot prot' : List Nat} {r : Rect} (hl : m0.edges.length < prot.length)
    (h : theFlags (initAutoProtection m0 (initMerged m0) edgel threeTenths prot) = some (prot', r)) :
    AutoReach m0 edgel threeTenths ⟨0, 0, 3, 3⟩ m0 (initMerged m0) prot' :=
  .init .init hl (theFlags_spec h)

def oneEdgel (x y : Int) : Bool := decide (x = 1 ∧ y = 0)
def noFlags : List Nat := List.replicate 14 0
def plusFlags0 : List Nat := [0, 0, 0, 2, 0, 0, 0, 0, 0, 0, 0, 0, 0, 0]
def plusA0 : Map × List Nat × List Nat := (plus0, initMerged plus0, plusFlags0)
def plusA1 := theAuto (nextAuto oneEdgel plusA0 (.mergeFaces ⟨1, 1, 0⟩))
def plusA2 := theAuto (nextAuto oneEdgel plusA1 (.mergeFaces ⟨1, 1, 4⟩))
def plusA3 := theAuto (nextAuto oneEdgel plusA2 (.mergeEdges ⟨1, 1, 6⟩))
def barFlags0 : List Nat := [0, 0, 0, 2, 0, 0, 0, 0, 0]
def barA0 : Map × List Nat × List Nat := (bar0, initMerged bar0, barFlags0)
def barA1 := theAuto (nextAuto someEdgels barA0 (.mergeFaces ⟨1, -1, 4⟩))
def barA2 := theAuto (nextAuto someEdgels barA1 (.mergeEdges ⟨1, -1, 6⟩))

theorem plusA0_eq : plusA0 = (plus0, initMerged plus0, plusFlags0) := by rw [plusA0]
theorem barA0_eq : barA0 = (bar0, initMerged bar0, barFlags0) := by rw [barA0]
theorem plusA1_eq : plusA1 = theAuto (nextAuto oneEdgel plusA0 (.mergeFaces ⟨1, 1, 0⟩)) := by rw [plusA1]
theorem plusA2_eq : plusA2 = theAuto (nextAuto oneEdgel plusA1 (.mergeFaces ⟨1, 1, 4⟩)) := by rw [plusA2]
theorem plusA3_eq : plusA3 = theAuto (nextAuto oneEdgel plusA2 (.mergeEdges ⟨1, 1, 6⟩)) := by rw [plusA3]
theorem barA1_eq : barA1 = theAuto (nextAuto someEdgels barA0 (.mergeFaces ⟨1, -1, 4⟩)) := by rw [barA1]
theorem barA2_eq : barA2 = theAuto (nextAuto someEdgels barA1 (.mergeEdges ⟨1, -1, 6⟩)) := by rw [barA2]

theorem plusA_checks : (decide ((theFlags (initAutoProtection plus0 (initMerged plus0) oneEdgel threeTenths noFlags)) =
      some (plusFlags0, ⟨1, 0, 2, 1⟩)) && dartCheck7 plusA0.1 1 1 0 && isOk (nextAuto oneEdgel plusA0 (.mergeFaces ⟨1, 1, 0⟩)) &&
    dartCheck7 plusA1.1 1 1 4 && isOk (nextAuto oneEdgel plusA1 (.mergeFaces ⟨1, 1, 4⟩)) && dartCheck7 plusA2.1 1 1 6 &&
    isOk (nextAuto oneEdgel plusA2 (.mergeEdges ⟨1, 1, 6⟩)) &&
    decide (plus0.edges.length < 14 ∧ plus0.w = 7 ∧ plus0.h = 7 ∧ plus0.px 1 2 = (.line, 8) ∧ plus0.px 1 0 = (.line, 3) ∧
      plusA3.1.px 1 2 = (.line, 8) ∧ plusA3.1.px 1 0 = (.line, 8) ∧ plusA3.2.2[8]? = some 2 ∧ plusA3.2.2[3]? = some 2)) = true := by
  decide +kernel

/-- The cross meets the hypotheses: the lower arm had no flag, and gets it when it becomes one edge with the upper arm. -/
theorem plus_auto : AutoReach plus0 oneEdgel threeTenths ⟨0, 0, 3, 3⟩ plus0 (initMerged plus0) plusFlags0 ∧
    AutoReach plus0 oneEdgel threeTenths ⟨0, 0, 3, 3⟩ plusA3.1 plusA3.2.1 plusA3.2.2 ∧
    PartOf plus0 plusA3.1 8 8 ∧ PartOf plus0 plusA3.1 3 8 ∧ plusFlags0[8]? = some 0 ∧ plusA3.2.2[8]? = some 2 ∧ plusA3.2.2[3]? = some 2 := by
  have h := plusA_checks
  simp only [Bool.and_eq_true] at h
  obtain ⟨⟨⟨⟨⟨⟨⟨a1, a2⟩, a3⟩, a4⟩, a5⟩, a6⟩, a7⟩, a8⟩ := h
  have b := of_decide_eq_true a8
  have f1 := of_decide_eq_true a1
  have hl : plus0.edges.length < noFlags.length := by
    unfold noFlags
    rw [List.length_replicate]
    exact b.1
  have r0 : AutoReach plus0 oneEdgel threeTenths ⟨0, 0, 3, 3⟩ plus0 (initMerged plus0) plusFlags0 :=
    autoFirst (prot := noFlags) hl f1
  have s0 : AutoReach plus0 oneEdgel threeTenths ⟨0, 0, 3, 3⟩ plusA0.1 plusA0.2.1 plusA0.2.2 := pairReach plusA0_eq r0
  have e1 := plusA1_eq
  have e2 := plusA2_eq
  have e3 := plusA3_eq
  clear f1 hl a1 a8
  generalize plusA0 = q0 at *
  generalize plusA1 = q1 at *
  generalize plusA2 = q2 at *
  generalize plusA3 = q at *
  generalize plus0 = m0 at *
  have r1 := nextAuto_reach (.mergeFaces ⟨1, 1, 0⟩) s0 (dartCheck7_spec a2) e1 a3
  have r2 := nextAuto_reach (.mergeFaces ⟨1, 1, 4⟩) r1 (dartCheck7_spec a4) e2 a5
  have r3 := nextAuto_reach (.mergeEdges ⟨1, 1, 6⟩) r2 (dartCheck7_spec a6) e3 a7
  obtain ⟨b1, b2, b3, b4, b5, b6, b7, b8, b9⟩ := b
  have hin : ∀ y : Int, 0 ≤ y → y < 3 → m0.inside 1 y := by
    intro y h1 h2
    unfold Map.inside
    rw [b2, b3]
    omega
  exact ⟨r0, r3, ⟨1, 2, hin 2 (by norm_num) (by norm_num), b4, b6⟩, ⟨1, 0, hin 0 (by norm_num) (by norm_num), b5, b7⟩, rfl, b8, b9⟩

theorem barA_checks : (decide ((theFlags (initAutoProtection bar0 (initMerged bar0) someEdgels threeTenths (List.replicate 9 0))) =
      some (barFlags0, ⟨1, 0, 2, 3⟩)) && dartCheck7 barA0.1 1 (-1) 4 && isOk (nextAuto someEdgels barA0 (.mergeFaces ⟨1, -1, 4⟩)) &&
    dartCheck7 barA1.1 1 (-1) 6 && isOk (nextAuto someEdgels barA1 (.mergeEdges ⟨1, -1, 6⟩)) &&
    decide (bar0.edges.length < 9 ∧ bar0.w = 7 ∧ bar0.h = 7 ∧ bar0.px 2 (-1) = (.line, 4) ∧ barA2.1.px 2 (-1) = (.line, 3) ∧ barA2.2.2[4]? = some 0 ∧
      ((basePixels barA2.1 (.line, 3)).filter fun p => someEdgels p.1 p.2).card = 2 ∧ (barA2.1.cell (.line, 3)).card = 5)) = true := by
  decide +kernel

/-- **C102, violated.** Edges that leave `segDataBounds` do not have the right flags: the bar and an edge of the frame become one, two of its five
pixels are edgels, more than the default threshold, and the part from the frame has no flag. -/
theorem autoProtection_violated : ∃ (m0 m : Map) (mg prot : List Nat) (l e f : Nat),
    initMap .vertex 3 3 barSrc barComponents barOracle = .ok m0 ∧ AutoReach m0 someEdgels threeTenths ⟨0, 0, 3, 3⟩ m mg prot ∧ PartOf m0 m l e ∧
    prot[l]? = some f ∧ f.testBit cannyBit ≠
      threeTenths ((basePixels m (.line, e)).filter fun p => someEdgels p.1 p.2).card ((m.cell (.line, e)).card % 2 ^ 32) := by
  have h := barA_checks
  simp only [Bool.and_eq_true] at h
  obtain ⟨⟨⟨⟨⟨a1, a2⟩, a3⟩, a4⟩, a5⟩, a6⟩ := h
  have b := of_decide_eq_true a6
  have f1 := of_decide_eq_true a1
  have hl : bar0.edges.length < (List.replicate 9 0).length := by
    rw [List.length_replicate]
    exact b.1
  have r0 : AutoReach bar0 someEdgels threeTenths ⟨0, 0, 3, 3⟩ bar0 (initMerged bar0) barFlags0 :=
    autoFirst (prot := List.replicate 9 0) hl f1
  have s0 : AutoReach bar0 someEdgels threeTenths ⟨0, 0, 3, 3⟩ barA0.1 barA0.2.1 barA0.2.2 := pairReach barA0_eq r0
  have e1 := barA1_eq
  have e2 := barA2_eq
  obtain ⟨-, -, -, N, n, -, -, h0⟩ := bar_meets
  clear f1 hl a1 a6 r0
  generalize barA0 = q0 at *
  generalize barA1 = q1 at *
  generalize barA2 = q at *
  generalize bar0 = m0 at *
  have r1 := nextAuto_reach (.mergeFaces ⟨1, -1, 4⟩) s0 (dartCheck7_spec a2) e1 a3
  have r2 := nextAuto_reach (.mergeEdges ⟨1, -1, 6⟩) r1 (dartCheck7_spec a4) e2 a5
  obtain ⟨b1, b2, b3, b4, b5, b6, b7, b8⟩ := b
  refine ⟨m0, q.1, q.2.1, q.2.2, 4, 3, 0, h0, r2, ⟨2, -1, ?_, b4, b5⟩, b6, ?_⟩
  · unfold Map.inside
    rw [b2, b3]
    norm_num
  · rw [b7, b8]
    decide

end Verif.FourEight.Props
