import Verif.Query.Steps
import Verif.Locate.ImageProps

/-!
# Point queries

Property theorems (C58).  `Located g c f` says that point `c` lies in face `f`, `QDrawn m b` that the map `m` has been drawn and changed by any history of calls and
`b` are the bounding boxes its faces have cached.  Queries are exact if the first contour of each finite face is its outer contour (`Oriented`);
`faceAt_violated` shows that `mergeFaces` can break this, and with it the queries.
-/

set_option linter.unusedSectionVars false

namespace Verif.Query
open Verif Verif.GeoMap Verif.Polygon Verif.Scan Verif.LabelImage Verif.Locate

variable {K : Type} [Field K] [LinearOrder K] [IsStrictOrderedRing K]

/-- Whether one of the contours winds around the point an odd number of times. -/
theorem anyContains_of {g : GMap K} (hP : Placed g) (c : Pt K) : ∀ as : List Int, (∀ a ∈ as, g.liveD a) →
    ∃ r, anyContains g c as = .ok r ∧ (r = true ↔ ¬ ∀ a ∈ as, ¬ contourWind g c a % 2 = 1) := by
  intro as
  induction as with
  | nil => exact fun _ => ⟨false, rfl, by simp⟩
  | cons a as ih =>
    intro h
    obtain ⟨r, e, hr⟩ := ih fun x hx => h x (List.mem_cons_of_mem _ hx)
    obtain ⟨p, h1, h2⟩ := contourPoly_contains hP.good.map hP.init hP.geom.geom (h a List.mem_cons_self) (fun _ _ => 0) c
    unfold anyContains
    simp only [h1, h2, bind, Outcome.bind_ok]
    by_cases ho : contourWind g c a % 2 = 1
    · exact ⟨true, by simp [ho], by simp only [List.forall_mem_cons, ho, not_true_eq_false, false_and, not_false_eq_true]⟩
    · exact ⟨r, by simp [ho, e], by rw [hr]; simp only [List.forall_mem_cons, ho, not_false_eq_true, true_and]⟩

theorem anchor_live {g : GMap K} (hP : Placed g) {f : Nat} {F : Face K} (hF : g.face f = some F) {a : Int} (ha : a ∈ F.anchors) : g.liveD a := by
  have hla := (hP.good.map.contours hP.init).anchor_left f F a hF ha
  unfold GMap.left? at hla
  unfold GMap.liveD
  cases he : g.edge a.natAbs with
  | none => rw [he] at hla; cases hla
  | some e => rfl

variable [FloorRing K]

/-- The answer of the label image is right. -/
theorem pixelLabel_located {m : LMap K} (hP : Placed m.g) (him : m = LMap.ofMap m.g m.w m.h m.lut ∨ ∃ im, Inv m im ∧ Pict m im) {c : Pt K} (hc : ¬ OnEdge m.g c)
    {l : Nat} (h : pixelLabel m c = some l) : ∃ k, LabelLUT.lookup m.lut l = .ok k ∧ Located m.g c k := by
  unfold pixelLabel at h
  rcases him with hm | ⟨im, hI, hpic⟩
  · rw [hm] at h; cases h
  · simp only [hI.img] at h
    split_ifs at h with h1 h2
    cases h
    have hp : InImage m.w m.h (LMap.pixelOf c) := ⟨h1.1, h1.2.1, h1.2.2.1, h1.2.2.2⟩
    have h0 : crossing m.g (LMap.pixelOf c) = 0 := by
      by_contra hn
      have := hI.marked _ hp (by omega)
      omega
    obtain ⟨k, h3, -⟩ := hI.free _ hp h0
    refine ⟨k, ?_, pixel_point hP hc h0 (hpic _ k hp h3)⟩
    have := (hI.report_iff _ k).mpr h3
    unfold LMap.report at this
    rw [hI.img] at this
    unfold resolve at this
    simp only at this
    rw [if_pos (by omega)] at this
    obtain ⟨r, q1, q2⟩ := map_ok this
    rw [q1]
    congr 1
    exact_mod_cast q2

/-- **C58a** `contains` of any face says whether the point lies in this face. -/
theorem contains_exact {m : LMap K} {b : Boxes K} (hm : QDrawn m b) (hO : Oriented m.g) {c : Pt K} (hc : ¬ OnEdge m.g c) {f : Nat} (hf : (m.g.face f).isSome = true) :
    ∃ r b', faceContains m b f c = .ok (r, b') ∧ (r = true ↔ Located m.g c f) ∧ QDrawn m b' := by
  have hq := hm.inv
  have hP := hq.placed
  obtain ⟨F, hF⟩ := Option.isSome_iff_exists.mp hf
  unfold faceContains
  simp only [hF]
  cases hl : pixelLabel m c with
  | some l =>
    obtain ⟨k, h1, h2⟩ := pixelLabel_located hP hq.image hc hl
    refine ⟨decide (k = f), b, by simp only [h1]; rfl, ?_, hm⟩
    rw [decide_eq_true_eq]
    exact ⟨fun h => h ▸ h2, fun h => h2.unique h⟩
  | none =>
    simp only
    by_cases hf0 : f = 0
    · subst hf0
      rw [if_pos rfl]
      obtain ⟨r, h1, h2⟩ := anyContains_of hP c F.anchors fun a ha => anchor_live hP hF ha
      refine ⟨!r, b, by rw [h1]; rfl, ?_, hm⟩
      rw [hO.zero hP hF hc, ← not_iff_not, ← h2]
      cases r <;> simp
    · rw [if_neg hf0]
      obtain ⟨x, b', e, h1, h2⟩ := faceBox_ok hP hq.boxes hf0 hf fun _ => hO
      have hm' : QDrawn m b' := .box hm hO hf e
      obtain ⟨a, as, ha, h3, -⟩ := hO.outer hP hF hf0 hc
      simp only [e, bind, Outcome.bind_ok]
      by_cases hx : inBox x c = false
      · rw [if_pos hx]
        refine ⟨false, b', rfl, ?_, hm'⟩
        constructor
        · intro h; cases h
        · intro h; rw [h1 c hc h] at hx; cases hx
      · rw [if_neg hx, ha]
        obtain ⟨p, q1, q2⟩ := contourPoly_contains hP.good.map hP.init hP.geom.geom (anchor_live hP hF (a := a) (by rw [ha]; simp)) (fun _ _ => 0) c
        obtain ⟨r, q3, q4⟩ := anyContains_of hP c as fun a' ha' => anchor_live hP hF (by rw [ha]; simp [ha'])
        simp only [q1, q2, Outcome.bind_ok]
        rw [h3]
        by_cases ho : contourWind m.g c a % 2 = 1
        · refine ⟨!r, b', by simp [ho, q3, Outcome.map], ?_, hm'⟩
          rw [and_iff_right ho, ← not_iff_not, ← q4]
          cases r <;> simp
        · refine ⟨false, b', by simp [ho], ?_, hm'⟩
          simp [ho]

theorem firstContaining_of {m : LMap K} (hO : Oriented m.g) {c : Pt K} (hc : ¬ OnEdge m.g c) {k : Nat} (hk : Located m.g c k) : ∀ (fs : List Nat) (b : Boxes K),
    QDrawn m b → ∃ f b', firstContaining m c fs b = .ok (f, b') ∧ QDrawn m b' ∧ (k ∈ fs → f = k) ∧ (k ∉ fs → f = 0) := by
  intro fs
  induction fs with
  | nil => exact fun b hb => ⟨0, b, rfl, hb, by simp, fun _ => rfl⟩
  | cons l fs ih =>
    intro b hb
    unfold firstContaining
    cases hF : m.g.face l with
    | none =>
      obtain ⟨f, b', h1, h2, h3, h4⟩ := ih b hb
      have hne : k ≠ l := by
        rintro rfl
        have := hk.1
        rw [hF] at this; cases this
      exact ⟨f, b', h1, h2, fun h => h3 ((List.mem_cons.mp h).resolve_left hne), fun h => h4 fun h' => h (List.mem_cons_of_mem _ h')⟩
    | some F =>
      obtain ⟨r, b', e, hr, hb'⟩ := contains_exact hb hO hc (f := l) (by rw [hF]; rfl)
      simp only [e, bind, Outcome.bind_ok]
      cases r with
      | true =>
        have := hk.unique (hr.mp rfl)
        exact ⟨l, b', rfl, hb', fun _ => this.symm, fun h => absurd (by rw [this]; exact List.mem_cons_self) h⟩
      | false =>
        obtain ⟨f, b'', h1, h2, h3, h4⟩ := ih b' hb'
        have hne : k ≠ l := by
          rintro rfl
          exact absurd (hr.mpr hk) (by simp)
        exact ⟨f, b'', h1, h2, fun h => h3 ((List.mem_cons.mp h).resolve_left hne), fun h => h4 fun h' => h (List.mem_cons_of_mem _ h')⟩

/-- **C58b** `faceAt` returns the face the point lies in. -/
theorem faceAt_exact {m : LMap K} {b : Boxes K} (hm : QDrawn m b) (hO : Oriented m.g) {c : Pt K} (hc : ¬ OnEdge m.g c) :
    ∃ f b', faceAt m b c = .ok (f, b') ∧ Located m.g c f ∧ QDrawn m b' := by
  have hq := hm.inv
  have hP := hq.placed
  have hi : 0 < m.g.nFaces := hP.init
  unfold faceAt
  rw [if_neg (by omega)]
  cases hl : pixelLabel m c with
  | some l =>
    obtain ⟨k, h1, h2⟩ := pixelLabel_located hP hq.image hc hl
    exact ⟨k, b, by simp only [h1]; rfl, h2, hm⟩
  | none =>
    obtain ⟨k, hk⟩ := hP.sub.located c hc
    obtain ⟨f, b', h1, h2, h3, h4⟩ := firstContaining_of hO hc hk (List.range' 1 (m.g.nFaces - 1)) b hm
    refine ⟨f, b', h1, ?_, h2⟩
    have hlt := hP.good.map.graph.labels.face_lt k hk.1
    by_cases hk0 : k = 0
    · have : f = 0 := h4 (by rw [List.mem_range'_1]; omega)
      rw [this, ← hk0]; exact hk
    · have : f = k := h3 (by rw [List.mem_range'_1]; omega)
      rw [this]; exact hk

/-- **C58c** In pixels of the label image that carry a positive label, `faceAt` is right whatever the order of the contours. -/
theorem faceAt_image {m : LMap K} {b : Boxes K} (hm : QDrawn m b) {c : Pt K} (hc : ¬ OnEdge m.g c) {l : Nat} (h : pixelLabel m c = some l) :
    ∃ f, faceAt m b c = .ok (f, b) ∧ Located m.g c f := by
  have hq := hm.inv
  have hi : 0 < m.g.nFaces := hq.placed.init
  obtain ⟨k, h1, h2⟩ := pixelLabel_located hq.placed hq.image hc h
  refine ⟨k, ?_, h2⟩
  unfold faceAt
  rw [if_neg (by omega), h]
  simp only [h1]; rfl

/-- **C58d** The bounding box of a finite face contains all its points, also if it has been computed before faces were merged. -/
theorem boundingBox_encloses {m : LMap K} {b : Boxes K} (hm : QDrawn m b) (hO : Oriented m.g) {f : Nat} (hf : f ≠ 0) (hlive : (m.g.face f).isSome = true) :
    ∃ x b', faceBox m.g b f = .ok (x, b') ∧ (∀ c, ¬ OnEdge m.g c → Located m.g c f → inBox x c = true) ∧ QDrawn m b' := by
  have hq := hm.inv
  obtain ⟨x, b', e, h1, -⟩ := faceBox_ok hq.placed hq.boxes hf hlive fun _ => hO
  exact ⟨x, b', e, h1, .box hm hO hlive e⟩

/-- **C58e** A cached box contains the face at any later time, whatever the order of the contours then. -/
theorem boundingBox_cached {m : LMap K} {b : Boxes K} (hm : QDrawn m b) {f : Nat} {x : Box K} (h : b f = some x) {c : Pt K} (hc : ¬ OnEdge m.g c)
    (hl : Located m.g c f) : inBox x c = true := hm.inv.boxes f x h c hc hl

/-- **C58f** The infinite face has no bounding box, and `faceAt` needs an initialized map. -/
theorem query_precond (m : LMap K) (b : Boxes K) (c : Pt K) : faceBox m.g b 0 = .precond ∧ (¬ m.g.initialized → faceAt m b c = .precond) := by
  refine ⟨by unfold faceBox; rw [if_pos rfl], fun h => ?_⟩
  unfold faceAt
  rw [if_pos]
  unfold GMap.initialized at h
  omega

/-- **C58g** Caching the boxes does not change what the operations do to the map and to the label image. -/
theorem boxes_transparent {m : LMap K} {b : Boxes K} (hm : QDrawn m b) (h : Hooks K) (op : LOp K) (hl : op.op.legal m.g) (hf : op.fits m.g)
    (hO : mayMerge op → Oriented m.g) (n : LMap K) : (∃ b', run h m b op = .ok (n, b')) ↔ op.run h m = .ok n := by
  constructor
  · rintro ⟨b', e⟩; exact run_map e
  · intro e
    obtain ⟨b', h1, -⟩ := run_eq hm.inv hl hf hO e
    exact ⟨b', h1⟩

end Verif.Query
