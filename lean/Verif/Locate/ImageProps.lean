import Verif.Locate.Dir

/-!
# The label image shows the faces the pixels lie in

Property theorems (C15).  `ImageSpec` says which maps are meant (`LDrawn`): the label image was switched on when the faces partitioned the plane,
first contours were outer contours and nested faces had greater labels than the faces around them.  `labelImage_nested_violated` shows that
the last condition is needed, `labelImage_stale_violated` that the image must not be switched on a second time.
-/

set_option linter.unusedSectionVars false

namespace Verif.Locate
open Verif Verif.GeoMap Verif.Polygon Verif.Scan Verif.LabelImage

variable {K : Type} [Field K] [LinearOrder K] [IsStrictOrderedRing K] [FloorRing K]

/-- **C15h** At any time the label image reports face `f` for a pixel exactly if no edge passes through the pixel and its centre lies in face `f`. -/
theorem labelImage_located {m : LMap K} (hm : LDrawn m) {p : Int × Int} (hp : InImage m.w m.h p) (f : Nat) :
    m.report p = .ok (f : Int) ↔ crossing m.g p = 0 ∧ Located m.g (centre p.1 p.2) f := by
  obtain ⟨-, im, hI, hpic⟩ := hm.pict
  constructor
  · intro h
    have h := (hI.report_iff p f).mp h
    exact ⟨(hI.own_free hp h).1, hpic p f hp h⟩
  · rintro ⟨hc, hl⟩
    obtain ⟨k, h1, -⟩ := hI.free p hp hc
    rw [hl.unique (hpic p k hp h1)]
    exact (hI.report_iff p k).mpr h1

/-- All points of a pixel without edges are in the face of its centre. -/
theorem pixel_point {m : LMap K} (hP : Placed m.g) {c : Pt K} {f : Nat} (hc : ¬ OnEdge m.g c) (h0 : crossing m.g (LMap.pixelOf c) = 0)
    (hl : Located m.g (centre (LMap.pixelOf c).1 (LMap.pixelOf c).2) f) : Located m.g c f := by
  have hlt := hP.good.map.graph.labels.edge_lt
  obtain ⟨ε, he, hb⟩ := exists_box hlt hc
  have a1 := Int.floor_le (c.1 + 1 / 2)
  have a2 := Int.lt_floor_add_one (c.1 + 1 / 2)
  have b1 := Int.floor_le (c.2 + 1 / 2)
  have b2 := Int.lt_floor_add_one (c.2 + 1 / 2)
  have near : ∀ x y : K, x < y → ∃ z, x < z ∧ z < y ∧ |z - x| < ε := by
    intro x y hxy
    refine ⟨x + min ε (y - x) / 2, ?_, ?_, ?_⟩
    · have : 0 < min ε (y - x) := lt_min he (by linarith)
      linarith
    · have := min_le_right ε (y - x)
      have : 0 < min ε (y - x) := lt_min he (by linarith)
      linarith
    · have := min_le_left ε (y - x)
      have : 0 < min ε (y - x) := lt_min he (by linarith)
      rw [abs_lt]; constructor <;> linarith
  obtain ⟨x, x1, x2, x3⟩ := near c.1 (⌊c.1 + 1 / 2⌋ + 1 / 2) (by linarith)
  obtain ⟨y, y1, y2, y3⟩ := near c.2 (⌊c.2 + 1 / 2⌋ + 1 / 2) (by linarith)
  have hin : InPixel (LMap.pixelOf c).1 (LMap.pixelOf c).2 ((x, y) : Pt K) := by
    unfold InPixel LMap.pixelOf
    refine ⟨?_, ?_, ?_, ?_⟩ <;> simp only <;> linarith
  have hl' : Located m.g (x, y) f := hl.move hP.good.map hP.init hP.geom.geom fun r hr hb =>
    off_pixel hlt h0 hr (inPixel_between (centre_inPixel _ _) hin hb)
  exact Located.near hP.good.map hP.init hP.geom.geom hb x3 y3 hl'

/-- **C15i** ... and then all points of the pixel that are on no edge lie in `f`.  A pixel includes its left and its upper border, as in `intVPos`;
edges may run along the border without passing through the pixel. -/
theorem labelImage_point {m : LMap K} (hm : LDrawn m) {c : Pt K} {f : Nat} (hc : ¬ OnEdge m.g c) (hp : InImage m.w m.h (LMap.pixelOf c))
    (hr : m.report (LMap.pixelOf c) = .ok (f : Int)) : Located m.g c f := by
  obtain ⟨h0, hl⟩ := (labelImage_located hm hp f).mp hr
  obtain ⟨hP, -⟩ := hm.pict
  exact pixel_point hP hc h0 hl

/-- **C15j** At any time after switching on, `Face::scanLines` of a face with a contour serves to fill the interior of its first contour: the
pixels that this contour does not pass through and winds around, and `fillScannedPoly` returns their number. -/
theorem scanLines_fill {m : LMap K} (hm : LReach m) {f : Nat} {F : Face K} (hF : m.g.face f = some F) {a : Int} {as : List Int} (ha : F.anchors = a :: as)
    (w h : Nat) :
    ∃ L, m.faceLines F = .ok L ∧ (fillScannedPoly L w h).2 = .ok (fillScannedPoly L w h).1.length ∧
      ∀ p, p ∈ (fillScannedPoly L w h).1 ↔ InImage w h p ∧ ¬ ContourPasses m.g a p ∧ 0 < contourWind m.g (centre p.1 p.2) a := by
  obtain ⟨im, hI⟩ := hm.inv
  exact faceLines_fill hI.good.map hI.init hI.geom.geom hm.directed hF ha w h

/-! ### Non-vacuity: two nested rectangles in an image of 8 by 8 pixels -/

omit [FloorRing K] in
/-- The contour of a single closed edge. -/
theorem contourWind_loop {g : GMap K} {a : Int} (h : g.phi a = a) (ha : a ∈ g.darts) (c : Pt K) : contourWind g c a = dartWind g c a := by
  have hr : ∀ d, g.phiReach a d ↔ d = a := by
    intro d
    constructor
    · rintro ⟨k, rfl⟩
      exact Function.iterate_fixed h k
    · rintro rfl; exact ⟨0, rfl⟩
  unfold contourWind
  simp only [hr]
  rw [Finset.sum_ite_eq' g.darts a]
  exact if_pos ha

theorem pair_anchors : (FaceStats.pair.face 1).map (·.anchors) = some [1, -2] ∧ (FaceStats.pair.face 3).map (·.anchors) = some [2] ∧
    FaceStats.pair.phi 1 = 1 ∧ FaceStats.pair.phi 2 = 2 := by decide +kernel

theorem pair_first (c : Pt ℚ) (f : Nat) (hf : f ≠ 0) :
    FirstEncloses FaceStats.pair c f ↔ (f = 1 ∧ InRect 0 0 9 9 c) ∨ (f = 3 ∧ InRect 1 1 5 5 c) := by
  obtain ⟨h1, h3, p1, p2⟩ := pair_anchors
  obtain ⟨w1, w2⟩ := pair_dartWind c
  obtain ⟨F1, e1, a1⟩ := Option.map_eq_some_iff.mp h1
  obtain ⟨F3, e3, a3⟩ := Option.map_eq_some_iff.mp h3
  have m1 : (1 : Int) ∈ FaceStats.pair.darts := by rw [FaceStats.pair_darts]; simp
  have m2 : (2 : Int) ∈ FaceStats.pair.darts := by rw [FaceStats.pair_darts]; simp
  have c1 := contourWind_loop p1 m1 c
  have c2 := contourWind_loop p2 m2 c
  rw [w1] at c1
  rw [w2] at c2
  constructor
  · rintro ⟨F, a, as, hF, ha, hw⟩
    rcases (pair_faces f).mp (by rw [hF]; rfl) with rfl | rfl | rfl
    · exact absurd rfl hf
    · rw [e1] at hF; cases hF
      rw [a1] at ha; cases ha
      rw [c1] at hw
      left
      refine ⟨rfl, ?_⟩
      by_contra hn
      rw [if_neg hn] at hw
      cases hw
    · rw [e3] at hF; cases hF
      rw [a3] at ha; cases ha
      rw [c2] at hw
      right
      refine ⟨rfl, ?_⟩
      by_contra hn
      rw [if_neg hn] at hw
      cases hw
  · rintro (⟨rfl, h⟩ | ⟨rfl, h⟩)
    · exact ⟨F1, 1, [-2], e1, a1, by rw [c1, if_pos h]; decide⟩
    · exact ⟨F3, 2, [], e3, a3, by rw [c2, if_pos h]; decide⟩

theorem pair_nested : Nested FaceStats.pair := by
  have hin : ∀ c, InRect 1 1 5 5 c → InRect 0 0 9 9 c := fun c ⟨⟨h1, h2⟩, h3, h4⟩ => ⟨⟨by linarith, by linarith⟩, by linarith, by linarith⟩
  constructor
  · intro c f _ hl hf
    rw [pair_first c f hf]
    have := hl.unique (pair_located c)
    unfold pairFace at this
    split_ifs at this with h1 h2
    · exact Or.inr ⟨this, h1⟩
    · exact Or.inl ⟨this, h2⟩
    · exact absurd this hf
  · intro c f k _ hl hk hfirst
    have := hl.unique (pair_located c)
    unfold pairFace at this
    rcases (pair_first c k hk).mp hfirst with ⟨rfl, h⟩ | ⟨rfl, h⟩
    · split_ifs at this <;> omega
    · rw [if_pos h] at this; omega

/-- the label image -/
def shown0 : LMap ℚ := LMap.ofMap FaceStats.pair 8 8 ⟨[], []⟩
def shown1 : LMap ℚ := Example.val shown0 (shown0.setHasLabelImage true)
/-- the inner rectangle merged into the ring -/
def shown2 : LMap ℚ := Example.val shown1 ((LOp.mergeFaces 2 : LOp ℚ).run Hooks.none shown1)

theorem pair_zero : ∀ F, FaceStats.pair.face 0 = some F → F.pixelArea = 0 := by
  intro F hF
  have : (FaceStats.pair.face 0).map (·.pixelArea) = some 0 := by decide +kernel
  rw [hF] at this
  exact Option.some.inj this

set_option maxRecDepth 100000 in
theorem shown1_ok : (LMap.ofMap FaceStats.pair 8 8 ⟨[], []⟩).setHasLabelImage true = .ok shown1 := Example.ok_val (a := shown0) (by decide +kernel)

set_option maxRecDepth 100000 in
theorem shown1_drawn : LDrawn shown1 :=
  .on (lut := ⟨[], []⟩) (w := 8) (h := 8) FaceStats.pair_reach (by decide +kernel) pair_zero pair_subdivision pair_nested shown1_ok

set_option maxRecDepth 100000 in
theorem shown2_drawn : LDrawn shown2 :=
  .call Hooks.none (.mergeFaces 2) shown1_drawn trivial trivial (Example.ok_val (a := shown1) (by decide +kernel))

theorem shown1_off {c : Pt ℚ} (h : ¬ (OnRect 0 0 9 9 c ∨ OnRect 1 1 5 5 c)) : ¬ OnEdge shown1.g c := by
  intro hc
  obtain ⟨im, -, hpc, -⟩ := setHasLabelImage_inv FaceStats.pair_reach.reach.good FaceStats.pair_reach.geom pair_drawn.placed.init pair_zero shown1_ok
  rw [← pair_onEdge] at h
  exact h ((pix_moves FaceStats.pair_reach.reach.good.map hpc).onEdge hc)

set_option maxRecDepth 100000 in
theorem shown_size : shown1.w = 8 ∧ shown1.h = 8 ∧ shown2.w = 8 ∧ shown2.h = 8 := by decide +kernel

set_option maxRecDepth 100000 in
theorem shown_reports : shown1.report (LMap.pixelOf ((7, 13 / 2) : Pt ℚ)) = .ok ((1 : Nat) : Int) ∧ shown1.report (LMap.pixelOf ((7 / 2, 3) : Pt ℚ)) = .ok ((3 : Nat) : Int) ∧
    shown2.report (3, 3) = .ok ((1 : Nat) : Int) := by decide +kernel

/-- A point of each of the two faces, found by the label image. -/
example : Located shown1.g (7, 13 / 2) 1 ∧ Located shown1.g (7 / 2, 3) 3 := by
  refine ⟨labelImage_point shown1_drawn (shown1_off ?_) ?_ shown_reports.1, labelImage_point shown1_drawn (shown1_off ?_) ?_ shown_reports.2.1⟩
  · unfold OnRect; norm_num
  · rw [shown_size.1, shown_size.2.1]; decide +kernel
  · unfold OnRect; norm_num
  · rw [shown_size.1, shown_size.2.1]; decide +kernel

/-- After merging the pixel of the inner rectangle belongs to the other face. -/
example : Located shown2.g (centre 3 3) 1 :=
  ((labelImage_located shown2_drawn (p := (3, 3)) (by rw [shown_size.2.2.1, shown_size.2.2.2]; decide) 1).mp shown_reports.2.2).2

end Verif.Locate
