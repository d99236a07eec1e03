import Verif.LabelImage.Rename
import Verif.GeoMap.Props2
import Verif.GeoMap.RenameProps
import Mathlib.Data.Rat.Floor

/-!
# Properties of the label image

C15 (the image counts edges or names faces; freed pixels), C16 (pixel areas), C17 (merged labels).
Specification: `Spec.lean` (`Crosses`, `crossing`, `LMap.report`, `LMap.facePixels`, `LReach`).
-/

set_option linter.unusedSectionVars false

namespace Verif.LabelImage
open Verif Verif.GeoMap Verif.Scan Verif.LabelLUT

variable {K : Type} [Field K] [LinearOrder K] [IsStrictOrderedRing K] [FloorRing K]

/-! ## Helpers -/

theorem Inv.report_iff {m : LMap K} {im : Img} (hI : Inv m im) (p : Int × Int) (f : Nat) :
    m.report p = .ok (f : Int) ↔ own im m.lut p = some f := by
  unfold LMap.report own resolve lookup
  rw [hI.img]
  simp only
  split_ifs with h
  · cases m.lut.lut[(im p).toNat]? with
    | none => simp [Outcome.map, Outcome.bind]
    | some v => simp [Outcome.map, Outcome.bind]
  · simp only [Outcome.ok.injEq, iff_false]
    omega

theorem Inv.report_neg {m : LMap K} {im : Img} (hI : Inv m im) {p : Int × Int} (h : im p < 0) : m.report p = .ok (im p) := by
  unfold LMap.report resolve
  rw [hI.img]
  simp only
  rw [if_neg (by omega)]

omit [FloorRing K] in
theorem removeIsolatedNode_same {s t : GMap K} {h : Hooks K} {n : Nat} {r : Bool} (e : s.removeIsolatedNode h n = .ok (r, t)) :
    t.nEdges = s.nEdges ∧ t.nFaces = s.nFaces ∧ t.edge = s.edge ∧ t.face = s.face := by
  unfold GMap.removeIsolatedNode at e
  obtain ⟨_, -, e⟩ := Outcome.bind_eq_ok.mp e
  split_ifs at e
  · cases e; exact ⟨rfl, rfl, rfl, rfl⟩
  · cases e; exact ⟨rfl, rfl, rfl, rfl⟩

/-- One call: the map part behaves as without label image, and the invariant is kept. -/
theorem run_inv {m : LMap K} {im : Img} (hI : Inv m im) (h : Hooks K) (op : LOp K) (hl : op.op.legal m.g) (hf : op.fits m.g) :
    (op.op.run h m.g = .precond ∧ op.run h m = .precond) ∨
    ∃ g n im', op.op.run h m.g = .ok g ∧ op.run h m = .ok n ∧ PixChanged g n.g ∧ Inv n im' ∧ n.w = m.w ∧ n.h = m.h := by
  have plain : ∀ {g : GMap K}, op.op.run h m.g = .ok g → g.nEdges = m.g.nEdges → g.nFaces = m.g.nFaces →
      (∀ l, (g.edge l).map (·.pts) = (m.g.edge l).map (·.pts)) → (∀ f, (g.face f).map (·.pixelArea) = (m.g.face f).map (·.pixelArea)) →
      op.run h m = .ok { m with g := g } →
      ∃ g n im', op.op.run h m.g = .ok g ∧ op.run h m = .ok n ∧ PixChanged g n.g ∧ Inv n im' ∧ n.w = m.w ∧ n.h = m.h := by
    intro g e h1 h2 h3 h4 h5
    rcases hI.gstep h op hl hf with e' | ⟨t, e', hg, hG⟩
    · rw [e] at e'; cases e'
    · rw [e] at e'; cases e'
      exact ⟨g, _, im, e, h5, PixChanged.refl _, hI.same hg hG h1 h2 h3 h4, rfl, rfl⟩
  have bridge : ∀ d, ((m.g.removeBridge h d).map (·.2) = .precond ∧ (m.removeBridge h d).map (·.2.1) = .precond) ∨
      ∃ g n im', (m.g.removeBridge h d).map (·.2) = .ok g ∧ (m.removeBridge h d).map (·.2.1) = .ok n ∧ PixChanged g n.g ∧
        Inv n im' ∧ n.w = m.w ∧ n.h = m.h := by
    intro d
    rcases removeBridge_inv hI h d with ⟨e1, e2⟩ | ⟨g, e1, e2, e3⟩ | ⟨f, g, n, px, im', e1, e2, e3, e4, e5⟩
    · exact Or.inl ⟨by rw [e1]; rfl, by rw [e2]; rfl⟩
    · exact Or.inr ⟨g, _, im, by rw [e1]; rfl, by rw [e2]; rfl, PixChanged.refl _, e3, rfl, rfl⟩
    · exact Or.inr ⟨g, n, im', by rw [e1]; rfl, by rw [e2]; rfl, e3, e4, e5.size⟩
  have faces : ∀ d, ((m.g.mergeFaces h d).map (·.2) = .precond ∧ (m.mergeFaces h d).map (·.2.1) = .precond) ∨
      ∃ g n im', (m.g.mergeFaces h d).map (·.2) = .ok g ∧ (m.mergeFaces h d).map (·.2.1) = .ok n ∧ PixChanged g n.g ∧
        Inv n im' ∧ n.w = m.w ∧ n.h = m.h := by
    intro d
    rcases mergeFaces_inv hI h d with ⟨e1, e2⟩ | ⟨g, e1, e2, e3⟩ | ⟨f, ml, g, n, px, im', e1, e2, -, e3, e4, e5⟩
    · exact Or.inl ⟨by rw [e1]; rfl, by rw [e2]; rfl⟩
    · exact Or.inr ⟨g, _, im, by rw [e1]; rfl, by rw [e2]; rfl, PixChanged.refl _, e3, rfl, rfl⟩
    · exact Or.inr ⟨g, n, im', by rw [e1]; rfl, by rw [e2]; rfl, e3, e4, e5.size⟩
  cases op with
  | addNode p label =>
    exact Or.inr (plain rfl rfl rfl (fun _ => rfl) (fun _ => rfl) rfl)
  | removeIsolatedNode n =>
    obtain ⟨r, t, e, -⟩ := removeIsolatedNode_step hI.good.map h hl.1 hl.2
    have hsame := removeIsolatedNode_same e
    refine Or.inr (plain (g := t) ?_ hsame.1 hsame.2.1 (fun l => by rw [hsame.2.2.1]) (fun f => by rw [hsame.2.2.2]) ?_)
    · show (m.g.removeIsolatedNode h n).map (·.2) = _
      rw [e]; rfl
    · show (m.g.removeIsolatedNode h n).map _ = _
      rw [e]; rfl
  | area f =>
    obtain ⟨x, t, e, -, hA⟩ := area_step hI.good.map (f := f) hl
    have hp : ∀ f, (t.face f).map (·.pixelArea) = (m.g.face f).map (·.pixelArea) := by
      intro f
      rcases hA.faces f with h1 | ⟨F, a1, a2, a3⟩
      · rw [h1]
      · rw [a1, a3]; rfl
    obtain ⟨face', hf'⟩ := hA.eq
    refine Or.inr (plain (g := t) ?_ (by rw [hf']) (by rw [hf']) (fun l => by rw [hf']) hp ?_)
    · show (m.g.faceArea (some f)).map (·.2) = _
      rw [e]; rfl
    · show (m.g.faceArea (some f)).map _ = _
      rw [e]; rfl
  | setFlags l flags =>
    cases he : m.g.edge l with
    | none =>
      left
      have : m.g.setFlags l flags = .precond := by
        unfold GMap.setFlags GMap.guaranteedEdge
        simp [he, bind]
      exact ⟨this, by show (m.g.setFlags l flags).map _ = _; rw [this]; rfl⟩
    | some e =>
      have : m.g.setFlags l flags = .ok (m.g.setEdge l (some { e with flags := flags })) := by
        unfold GMap.setFlags GMap.guaranteedEdge
        simp [he, bind]
      refine Or.inr (plain this rfl rfl (fun k => ?_) (fun _ => rfl) (by show (m.g.setFlags l flags).map _ = _; rw [this]; rfl))
      simp only [GMap.setEdge]
      by_cases hk : k = l
      · subst hk; rw [Function.update_self, he]; rfl
      · rw [Function.update_of_ne hk]
  | mergeEdges d =>
    rcases mergeEdges_inv hI h d with ⟨e1, e2⟩ | ⟨r, g, n, im', e1, e2, e3, e4, e5, e6, -⟩
    · exact Or.inl ⟨by show (m.g.mergeEdges h d).map _ = _; rw [e1]; rfl, by show (m.mergeEdges h d).map _ = _; rw [e2]; rfl⟩
    · refine Or.inr ⟨g, n, im', ?_, ?_, ?_, e4, e5, e6⟩
      · show (m.g.mergeEdges h d).map (·.2) = _
        rw [e1]; rfl
      · show (m.mergeEdges h d).map (·.2) = _
        rw [e2]; rfl
      · rw [e3]; exact PixChanged.refl _
  | splitEdge l i np =>
    rcases splitEdge_inv hI l i np hf with ⟨e1, e2⟩ | ⟨r, g, n, im', e1, e2, e3, e4, e5, e6, -⟩
    · exact Or.inl ⟨by show (m.g.splitEdge l i np).map _ = _; rw [e1]; rfl, by show (m.splitEdge l i np).map _ = _; rw [e2]; rfl⟩
    · refine Or.inr ⟨g, n, im', ?_, ?_, ?_, e4, e5, e6⟩
      · show (m.g.splitEdge l i np).map (·.2) = _
        rw [e1]; rfl
      · show (m.splitEdge l i np).map (·.2) = _
        rw [e2]; rfl
      · rw [e3]; exact PixChanged.refl _
  | removeBridge d => exact bridge d
  | mergeFaces d => exact faces d
  | removeEdge d =>
    show ((m.g.removeEdge h d).map (·.2) = .precond ∧ (m.removeEdge h d).map (·.2.1) = .precond) ∨
      ∃ g n im', (m.g.removeEdge h d).map (·.2) = .ok g ∧ (m.removeEdge h d).map (·.2.1) = .ok n ∧ PixChanged g n.g ∧
        Inv n im' ∧ n.w = m.w ∧ n.h = m.h
    unfold GMap.removeEdge LMap.removeEdge
    rw [if_pos hI.init]
    cases he : m.g.edge d.natAbs with
    | none =>
      left
      simp [GMap.guaranteedEdge, he, bind, Outcome.map, Outcome.bind]
    | some e =>
      simp only [guaranteedEdge_of he, bind, Outcome.bind_ok]
      split_ifs
      · exact bridge d
      · exact faces d

theorem LReach.inv {m : LMap K} (h : LReach m) : ∃ im, Inv m im := by
  induction h with
  | on hr hi h0 e =>
    obtain ⟨im, hI, -⟩ := setHasLabelImage_inv hr.reach.good hr.geom hi h0 e
    exact ⟨im, hI⟩
  | call hk op _ hl hf e ih =>
    obtain ⟨im, hI⟩ := ih
    rcases run_inv hI hk op hl hf with ⟨-, e'⟩ | ⟨g, n, im', -, e', -, hn, -⟩
    · rw [e'] at e; cases e
    · rw [e'] at e; cases e
      exact ⟨im', hn⟩
  | rename new size _ h0 e ih =>
    obtain ⟨im, hI⟩ := ih
    obtain ⟨im', hn, -⟩ := rename_inv hI h0 e
    exact ⟨im', hn⟩

theorem crossing_pix {s t : GMap K} (h : PixChanged s t) (p : Int × Int) : crossing t p = crossing s p := by
  obtain ⟨face', e⟩ := h.eq
  subst e
  exact crossing_congr rfl (fun _ => rfl) p

/-! ## C15: what the label image says -/

/-- In every reachable map with label image, a pixel that `k > 0` edges pass through is reported as `-k`;
every other pixel is reported as an existing face. -/
theorem labelImage_meaning {m : LMap K} (h : LReach m) {p : Int × Int} (hp : InImage m.w m.h p) :
    (crossing m.g p ≠ 0 → m.report p = .ok (-(crossing m.g p : Int))) ∧
    (crossing m.g p = 0 → ∃ f : Nat, (m.g.face f).isSome = true ∧ m.report p = .ok (f : Int)) := by
  obtain ⟨im, hI⟩ := h.inv
  refine ⟨fun hc => ?_, fun hc => ?_⟩
  · have := hI.marked p hp (by omega)
    rw [hI.report_neg (by omega), this]
  · obtain ⟨f, h1, h2⟩ := hI.free p hp hc
    exact ⟨f, h2, (hI.report_iff p f).mpr h1⟩

/-- A label image does not change what the operations do: each call reports a violated precondition
exactly if it does so without label image, and otherwise leaves the same map, except for pixel areas.
In particular no call runs into undefined behaviour. -/
theorem labelImage_transparent {m : LMap K} (hm : LReach m) (h : Hooks K) (op : LOp K) (hl : op.op.legal m.g) (hf : op.fits m.g) :
    (op.op.run h m.g = .precond ∧ op.run h m = .precond) ∨
    ∃ g n, op.op.run h m.g = .ok g ∧ op.run h m = .ok n ∧ LReach n ∧
      (∃ face', n.g = { g with face := face' }) ∧
      ∀ f, (n.g.face f).map (fun F => (F.anchors, F.area)) = (g.face f).map (fun F => (F.anchors, F.area)) := by
  obtain ⟨im, hI⟩ := hm.inv
  rcases run_inv hI h op hl hf with e | ⟨g, n, im', e1, e2, e3, -⟩
  · exact Or.inl e
  · exact Or.inr ⟨g, n, e1, e2, .call h op hm hl hf e2, e3.eq, e3.faces⟩

/-- `removeBridge`: the pixels reported through `associatePixels` are those that only the removed edge
passed through, each once; they now belong to the face, and no other free pixel changes. -/
theorem removeBridge_pixels {m n : LMap K} (hm : LReach m) {h : Hooks K} {d : Int} {f : Nat} {px : List (Int × Int)}
    (e : m.removeBridge h d = .ok (some f, n, px)) :
    m.g.left? d = some f ∧ m.g.left? (-d) = some f ∧ px.Nodup ∧
    (∀ p, p ∈ px ↔ InImage m.w m.h p ∧ Crosses m.g d.natAbs p ∧ crossing n.g p = 0) ∧
    (∀ p, p ∈ px → n.report p = .ok (f : Int)) ∧
    ∀ p, InImage m.w m.h p → crossing m.g p = 0 → crossing n.g p = 0 ∧ n.report p = m.report p := by
  classical
  obtain ⟨im, hI⟩ := hm.inv
  rcases removeBridge_inv hI h d with ⟨-, e'⟩ | ⟨g, -, e', -⟩ | ⟨f', g, n', px', im', e1, e2, e3, e4, e5⟩
  · rw [e'] at e; cases e
  · rw [e'] at e; cases e
  rw [e2] at e
  cases e
  have E := removeBridge_effect hI.good e1
  have hll : d.natAbs < m.g.nEdges := hI.good.map.graph.labels.edge_lt _ E.edge_gone.1
  have hcr := crossing_remove hll E.sizes.2.1 (fun k hk => by rw [E.edges k hk])
    (by have := E.edge_gone.2; unfold GMap.liveD at this; simpa using this)
  refine ⟨E.face.1, E.face.2, e5.nodup, e5.freed, fun p hp => ?_, fun p hp hc => ?_⟩
  · rw [e4.report_iff, e5.own p ((e5.freed p).mp hp).1, if_pos hp]
  · have h0 := hcr p
    rw [hc] at h0
    have hnc : ¬ Crosses m.g d.natAbs p := by
      intro hx; rw [if_pos hx] at h0; omega
    refine ⟨by rw [crossing_pix e3]; omega, ?_⟩
    obtain ⟨v, h1, -⟩ := hI.free p hp hc
    rw [(hI.report_iff p v).mpr h1, e4.report_iff, e5.own p hp, if_neg (fun hx => hnc ((e5.freed p).mp hx).2.1), h1]
    rfl

/-! ## C17: merged labels resolve to the survivor -/

/-- `mergeFaces`: the pixels reported through `associatePixels` are those that only the removed edge
passed through, each once; they now belong to the survivor, as do the pixels of the merged face; every
other free pixel keeps its face. -/
theorem mergeFaces_pixels {m n : LMap K} (hm : LReach m) {h : Hooks K} {d : Int} {sl : Nat} {px : List (Int × Int)}
    (e : m.mergeFaces h d = .ok (some sl, n, px)) :
    ∃ ml, ((m.g.left? d = some sl ∧ m.g.left? (-d) = some ml) ∨ (m.g.left? d = some ml ∧ m.g.left? (-d) = some sl)) ∧ sl ≠ ml ∧
    px.Nodup ∧ (∀ p, p ∈ px ↔ InImage m.w m.h p ∧ Crosses m.g d.natAbs p ∧ crossing n.g p = 0) ∧
    (∀ p, p ∈ px → n.report p = .ok (sl : Int)) ∧
    ∀ p, InImage m.w m.h p → crossing m.g p = 0 → crossing n.g p = 0 ∧
      (m.report p = .ok (ml : Int) → n.report p = .ok (sl : Int)) ∧ (m.report p ≠ .ok (ml : Int) → n.report p = m.report p) := by
  classical
  obtain ⟨im, hI⟩ := hm.inv
  rcases mergeFaces_inv hI h d with ⟨-, e'⟩ | ⟨g, -, e', -⟩ | ⟨f', ml, g, n', px', im', e1, e2, E, e3, e4, e5⟩
  · rw [e'] at e; cases e
  · rw [e'] at e; cases e
  rw [e2] at e
  cases e
  have hll : d.natAbs < m.g.nEdges := hI.good.map.graph.labels.edge_lt _ E.edge_gone.1
  have hcr := crossing_remove hll E.sizes.2.1 (fun k hk => by
      have := congrArg (Option.map fun x => x.2.2.1) (E.edges k hk)
      simpa [Option.map_map, Function.comp_def] using this)
    (by have := E.edge_gone.2; unfold GMap.liveD at this; simpa using this)
  refine ⟨ml, E.sides, E.distinct.1, e5.nodup, e5.freed, fun p hp => ?_, fun p hp hc => ?_⟩
  · rw [e4.report_iff, e5.own p ((e5.freed p).mp hp).1, if_pos hp]
  · have h0 := hcr p
    rw [hc] at h0
    have hnc : ¬ Crosses m.g d.natAbs p := by
      intro hx; rw [if_pos hx] at h0; omega
    have hown := e5.own p hp
    rw [if_neg (fun hx => hnc ((e5.freed p).mp hx).2.1)] at hown
    refine ⟨by rw [crossing_pix e3]; omega, fun hr => ?_, fun hr => ?_⟩
    · rw [hI.report_iff] at hr
      rw [e4.report_iff, hown, hr]
      simp
    · obtain ⟨v, h1, -⟩ := hI.free p hp hc
      rw [ne_eq, hI.report_iff, h1] at hr
      have hv : v ≠ ml := fun hv => hr (by rw [hv])
      rw [(hI.report_iff p v).mpr h1, e4.report_iff, hown, h1]
      simp [hv]

/-- `mergeEdges` and `splitEdge` keep every pixel free or crossed, and free pixels keep their face. -/
theorem mergeEdges_pixels {m n : LMap K} (hm : LReach m) {h : Hooks K} {d : Int} {r : Option Nat}
    (e : m.mergeEdges h d = .ok (r, n)) {p : Int × Int} (hp : InImage m.w m.h p) (hc : crossing m.g p = 0) :
    crossing n.g p = 0 ∧ n.report p = m.report p := by
  obtain ⟨im, hI⟩ := hm.inv
  rcases mergeEdges_inv hI h d with ⟨-, e'⟩ | ⟨r', g, n', im', e1, e2, e3, e4, e5, e6, e7⟩
  · rw [e'] at e; cases e
  rw [e2] at e
  cases e
  obtain ⟨v, h1, -⟩ := hI.free p hp hc
  have ho : own im' n.lut p = some v := by rw [e7 p hp]; exact h1
  refine ⟨?_, by rw [(hI.report_iff p v).mpr h1, e4.report_iff]; exact ho⟩
  by_contra hne
  have := e4.marked p (by rw [e5, e6]; exact hp) (by omega)
  have := own_nonneg ho
  omega

theorem splitEdge_pixels {m n : LMap K} (hm : LReach m) {l i r : Nat} {np : Option (Pt K)} (hf : (LOp.splitEdge l i np).fits m.g)
    (e : m.splitEdge l i np = .ok (r, n)) {p : Int × Int} (hp : InImage m.w m.h p) (hc : crossing m.g p = 0) :
    crossing n.g p = 0 ∧ n.report p = m.report p := by
  obtain ⟨im, hI⟩ := hm.inv
  rcases splitEdge_inv hI l i np hf with ⟨-, e'⟩ | ⟨r', g, n', im', e1, e2, e3, e4, e5, e6, e7⟩
  · rw [e'] at e; cases e
  rw [e2] at e
  cases e
  obtain ⟨v, h1, -⟩ := hI.free p hp hc
  have ho : own im' n.lut p = some v := by rw [e7 p hp]; exact h1
  refine ⟨?_, by rw [(hI.report_iff p v).mpr h1, e4.report_iff]; exact ho⟩
  by_contra hne
  have := e4.marked p (by rw [e5, e6]; exact hp) (by omega)
  have := own_nonneg ho
  omega

/-- A vetoed removal leaves the label image alone and reports no pixels. -/
theorem vetoed_pixels {m n : LMap K} (hm : LReach m) {h : Hooks K} {d : Int} {px : List (Int × Int)}
    (e : m.removeBridge h d = .ok (none, n, px) ∨ m.mergeFaces h d = .ok (none, n, px)) :
    px = [] ∧ ∀ p, n.report p = m.report p := by
  obtain ⟨im, hI⟩ := hm.inv
  rcases e with e | e
  · rcases removeBridge_inv hI h d with ⟨-, e'⟩ | ⟨g, -, e', -⟩ | ⟨f', g, n', px', im', e1, e2, e3, e4, e5⟩
    · rw [e'] at e; cases e
    · rw [e'] at e; cases e; exact ⟨rfl, fun _ => rfl⟩
    · rw [e2] at e; cases e
  · rcases mergeFaces_inv hI h d with ⟨-, e'⟩ | ⟨g, -, e', -⟩ | ⟨f', ml, g, n', px', im', e1, e2, E, e3, e4, e5⟩
    · rw [e'] at e; cases e
    · rw [e'] at e; cases e; exact ⟨rfl, fun _ => rfl⟩
    · rw [e2] at e; cases e

/-! ## C18: renaming faces -/

/-- If `changeFaceLabels` succeeds, the label image reports every face by its new label and crossed
pixels as before; the darts and the faces themselves are renamed alike. -/
theorem changeFaceLabels_pixels {m n : LMap K} (hm : LReach m) {new : List Nat} {size : Nat} {lab : Nat → Nat} (h0 : new[0]? = some 0)
    (e : m.changeFaceLabels new size = .ok (true, n, lab)) :
    LReach n ∧
    (∀ p f, InImage m.w m.h p → m.report p = .ok ((f : Nat) : Int) → ∃ k : Nat, new[f]? = some k ∧ n.report p = .ok (k : Int)) ∧
    (∀ p, InImage m.w m.h p → crossing m.g p ≠ 0 → n.report p = m.report p) ∧
    (∀ d l, m.g.left? d = some l → n.g.left? d = new[l]?) ∧
    (∀ l F, m.g.face l = some F → ∃ f, new[l]? = some f ∧ n.g.face f = some F ∧ lab f = f) ∧
    ∀ f F, n.g.face f = some F → ∃ l : Nat, m.g.face l = some F ∧ new[l]? = some f := by
  obtain ⟨im, hI⟩ := hm.inv
  obtain ⟨im', hn, hw, hh, hR, hlab, hcr, hown⟩ := rename_inv hI h0 e
  refine ⟨.rename new size hm h0 e, fun p f hp hr => ?_, fun p hp hc => ?_, fun d l hd => by rw [hR.left, hd]; rfl, fun l F hF => ?_,
    fun f F hF => (hR.faces f F).mp hF⟩
  · rw [hI.report_iff] at hr
    by_cases hc : crossing m.g p = 0
    · obtain ⟨f', h1, h2⟩ := hI.free p hp hc
      rw [hr] at h1; cases h1
      obtain ⟨k, hk⟩ := hR.defd f h2
      exact ⟨k, hk, by rw [hn.report_iff, hown p hp, hr]; exact hk⟩
    · have := hI.marked p hp (by omega)
      have := own_nonneg hr
      omega
  · have h1 := hI.marked p hp (by omega)
    have h2 := hn.marked p (by rw [hw, hh]; exact hp) (by rw [hcr]; omega)
    rw [hcr] at h2
    rw [hI.report_neg (by omega), hn.report_neg (by omega), h1, h2]
  · obtain ⟨f, hf⟩ := hR.defd l (by simp [hF])
    have hF' := (hR.faces f F).mpr ⟨l, hF, hf⟩
    exact ⟨f, hf, hF', hlab f (by simp [hF'])⟩

/-- A refused `changeFaceLabels` leaves the label image and the map, except for the labels that faces claim to have (see
`changeFaceLabels_atomic_violated`). -/
theorem changeFaceLabels_refused {m n : LMap K} (hm : LReach m) {new : List Nat} {size : Nat} {lab : Nat → Nat}
    (e : m.changeFaceLabels new size = .ok (false, n, lab)) : n = m ∧ GeoMap.Props.Refused m.g new size := by
  obtain ⟨im, hI⟩ := hm.inv
  unfold LMap.changeFaceLabels at e
  rcases changeFaceLabels_spec hI.good.map new size with ⟨l, e', h⟩ | ⟨t, l, e', -⟩
  · rw [e'] at e
    simp only [bind, Outcome.bind_ok, Bool.false_eq_true, if_false, Outcome.ok.injEq, Prod.mk.injEq, true_and] at e
    exact ⟨e.1.symm, h⟩
  · rw [e'] at e
    simp only [bind, Outcome.bind_ok, if_true, hI.img] at e
    obtain ⟨x, -, h⟩ := Outcome.bind_eq_ok.mp e
    cases h

/-! ## C16: pixel areas -/

/-- `pixelArea()` of every face is the number of pixels that the label image reports as the face. -/
theorem pixelArea_counts {m : LMap K} (h : LReach m) {f : Nat} {F : Face K} (hF : m.g.face f = some F) :
    F.pixelArea = (m.facePixels f).card := by
  classical
  obtain ⟨im, hI⟩ := h.inv
  rw [hI.area f F hF]
  unfold ownCount LMap.facePixels
  congr 1
  refine Finset.filter_congr fun p _ => ?_
  rw [hI.report_iff]

end Verif.LabelImage
