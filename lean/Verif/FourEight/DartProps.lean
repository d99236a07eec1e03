import Verif.FourEight.DartFaces
import Verif.FourEight.ConfigProps

/-!
# Navigating with darts in the pixel based map (C86-C88)

`sigma m 1` is `nextSigma`, `sigma m 7` is `prevSigma`, `alpha` is `nextAlpha`, `phi` is `nextPhi`.
-/

namespace Verif.FourEight.Props
open Verif Verif.CellImage Verif.FourEight

variable {m : Map}

/-! ## C86: around a node -/

/-- a chain of pixels of a node -/
theorem walk_chain {k : Fin 8} {d : Dart} (h : Rim m d) :
    Relation.ReflTransGen (NodeStep m) (d.x, d.y) ((walk m k d).x, (walk m k d).y) := by
  obtain ⟨x, y, δ⟩ := d
  unfold walk
  dsimp only
  split
  · exact .refl
  split
  · rename_i hq
    exact .single ⟨h.node, hq, _, rfl⟩
  split
  · rename_i hr
    exact .single ⟨h.node, hr, _, rfl⟩
  · exact .refl

theorem iter_chain (hc : Clean m) {k : Fin 8} (hk : IsTurn k) (n : Nat) {d : Dart} (h : Rim m d) :
    Relation.ReflTransGen (NodeStep m) (d.x, d.y) (((walk m k)^[n] d).x, ((walk m k)^[n] d).y) := by
  induction n generalizing d with
  | zero => exact .refl
  | succ n ih => exact (walk_chain h).trans (ih (walk_rim hc hk h))

/-- **C86.** In an image in which no pixel of an edge fills the corner between two pixels of nodes: from every dart, `nextSigma` and
`prevSigma` (k = 1 and 7) reach a dart of the same node without leaving the image, and they undo each other. -/
theorem sigma_inverse (hc : Clean m) (hno : NoCorner m) {d : Dart} (h : IsDart m d) {k : Fin 8} (hk : k = 1 ∨ k = 7) :
    ∃ d', sigma m k d = .ok d' ∧ IsDart m d' ∧ sigma m (-k) d' = .ok d ∧
      Relation.ReflTransGen (NodeStep m) (d.x, d.y) (d'.x, d'.y) := by
  have hk' : IsTurn k := hk
  obtain ⟨n, hd, hf⟩ := first_dart hc hk' h
  refine ⟨_, sigma_walk hc hno hk' n h hd hf, hd, ?_, iter_chain hc hk' (n + 1) h.rim⟩
  have hback := iter_inv hc hk' h.rim (n + 1)
  have e := sigma_walk hc hno hk'.neg n hd ?_ ?_
  · rw [e, hback (n + 1) (le_refl _), Nat.sub_self]
    rfl
  · rw [hback (n + 1) (le_refl _), Nat.sub_self]
    exact h
  · intro i h0 hi
    rw [hback i (by omega)]
    exact hf _ (by omega) (by omega)

/-- **C86.** The label of the start node stays the same, if neighbouring pixels of nodes have the same label. -/
theorem sigma_nodeLabel (hc : Clean m) (hno : NoCorner m) (hnl : NodesLabelled m) {d : Dart} (h : IsDart m d) {k : Fin 8}
    (hk : k = 1 ∨ k = 7) {d' : Dart} (hs : sigma m k d = .ok d') : nodeLabel m d' = nodeLabel m d := by
  obtain ⟨e, h1, h2, -, h3⟩ := sigma_inverse hc hno h hk
  rw [h1] at hs
  cases hs
  have key : ∀ p : Int × Int, Relation.ReflTransGen (NodeStep m) (d.x, d.y) p →
      m.inside p.1 p.2 ∧ (m.px p.1 p.2).1 = .vertex ∧ (m.px p.1 p.2).2 = (m.px d.x d.y).2 := by
    intro p hp
    induction hp with
    | refl => exact ⟨h.inside, h.node, rfl⟩
    | tail _ hst ih =>
      obtain ⟨ha, hb, j, rfl⟩ := hst
      obtain ⟨i1, i2, i3⟩ := ih
      refine ⟨hc.near i1 (by rw [i2]; decide) j, hb, ?_⟩
      rw [← i3]
      exact hnl _ _ j i1 i2 hb
  obtain ⟨k1, -, k3⟩ := key _ h3
  unfold nodeLabel Map.get
  rw [if_pos k1, if_pos h.inside]
  exact congrArg Outcome.ok k3

/-! ## C87: along an edge -/

/-- a step from a pixel of an edge to another one (eight neighbours) -/
def EdgeStep (m : Map) (p q : Int × Int) : Prop :=
  (m.px p.1 p.2).1 = .line ∧ (m.px q.1 q.2).1 = .line ∧ ∃ k : Fin 8, q = (p.1 + dx k, p.2 + dy k)

theorem exit_ne : ∀ n : Fin 8 → Bool, cellConf .line n = .line → ∀ b, good n b = true → exit n b ≠ some b := by
  apply ring8_all
  decide +kernel

theorem alpha_before (hc : Clean m) (hin : m.init = false) {d : Dart} (h : IsDart m d) : alpha m d = edgelJump m m.fuel d := by
  unfold alpha
  rw [hc.nb h.inside h.rim.nonregion, Outcome.bind_ok, add_zero, if_neg (by simpa using h.edge), hin]
  rfl

/-- **C87.** Before the edge list exists: from every dart, `nextAlpha` follows the pixels of the edge to another dart, never the same one,
without leaving the image, and the same call from there leads back. -/
theorem alpha_involution (hc : Clean m) (ht : Traceable m) (hin : m.init = false) {d : Dart} (h : IsDart m d) :
    ∃ d', alpha m d = .ok d' ∧ IsDart m d' ∧ alpha m d' = .ok d ∧ d' ≠ d ∧
      Relation.ReflTransGen (EdgeStep m) (d.x + dx d.dir, d.y + dy d.dir) (d'.x + dx d'.dir, d'.y + dy d'.dir) := by
  obtain ⟨n, h1, h2, h3, hl⟩ := jump_both hc ht h
  refine ⟨_, (alpha_before hc hin h).trans h1, h2, (alpha_before hc hin h2).trans h3, ?_, ?_⟩
  · intro e
    have hback := iter_back hc ht h.link (n + 1) hl
    rw [e] at hback
    rcases Nat.even_or_odd' (n + 1) with ⟨j, hj | hj⟩
    · have := hback j (by omega)
      rw [show n + 1 - j = j by omega] at this
      have hd := congrArg Dart.dir this
      have hne : ∀ δ : Fin 8, δ ≠ δ + 4 := by decide
      exact hne _ hd
    · have hb := hback j (by omega)
      rw [show n + 1 - j = j + 1 by omega] at hb
      have hlk := iter_link hc ht h.link j fun i hi => hl i (by omega)
      have hlj := hl j (by omega)
      obtain ⟨-, -, -, h4⟩ := nextD_spec hc ht hlk hlj
      have hs := hlk.swap hc
      have hcl : cellConf .line (ringOf m ((nextD m)^[j] d).swap.x ((nextD m)^[j] d).swap.y) = .line := ht _ _ hs.inside hlj
      refine exit_ne _ hcl _ ((link_iff hs.inside hs.here).1 hs) ?_
      refine h4.trans (congrArg some ?_)
      have : ((nextD m)^[j] d).swap = (nextD m)^[j + 1] d := by rw [hb, swap_swap]
      rw [← Function.iterate_succ_apply' (f := nextD m), ← this]
      rfl
  · have key : ∀ i, i ≤ n → Relation.ReflTransGen (EdgeStep m) (d.x + dx d.dir, d.y + dy d.dir)
        (((nextD m)^[i] d).x + dx ((nextD m)^[i] d).dir, ((nextD m)^[i] d).y + dy ((nextD m)^[i] d).dir) := by
      intro i hi
      induction i with
      | zero => exact .refl
      | succ i ih =>
        refine (ih (by omega)).tail ⟨hl i (by omega), hl (i + 1) (by omega), ((nextD m)^[i + 1] d).dir, ?_⟩
        rw [Function.iterate_succ_apply']
        rfl
    have e : (((nextD m)^[n + 1] d).swap.x + dx ((nextD m)^[n + 1] d).swap.dir, ((nextD m)^[n + 1] d).swap.y +
        dy ((nextD m)^[n + 1] d).swap.dir) = (((nextD m)^[n] d).x + dx ((nextD m)^[n] d).dir, ((nextD m)^[n] d).y +
        dy ((nextD m)^[n] d).dir) := by
      have h1 := congrArg Dart.x (swap_swap ((nextD m)^[n + 1] d))
      have h2 := congrArg Dart.y (swap_swap ((nextD m)^[n + 1] d))
      refine Prod.ext (h1.trans ?_) (h2.trans ?_)
      · rw [Function.iterate_succ_apply']; rfl
      · rw [Function.iterate_succ_apply']; rfl
    rw [e]
    exact key n (le_refl _)

/-! ## C88: faces -/

/-- **C88.** Beside a dart there are faces on both sides, in its neighbourhood. -/
theorem dart_faces (hc : Clean m) (ht : Traceable m) {d : Dart} (h : IsDart m d) :
    (∃ l j, leftFace m d = .ok l ∧ m.look d.x d.y j = (.region, l)) ∧ (∃ r j, rightFace m d = .ok r ∧ m.look d.x d.y j = (.region, r)) := by
  obtain ⟨⟨a, ha⟩, ⟨b, hb⟩, -⟩ := dart_sides hc ht h
  exact ⟨⟨_, a, leftFace_eq hc h.inside h.rim.nonregion, ha⟩, ⟨_, b, rightFace_eq hc h.inside h.rim.nonregion, hb⟩⟩

/-- **C88.** What is left of a dart is right of the dart in the opposite direction, and vice versa. -/
theorem alpha_faces (hc : Clean m) (ht : Traceable m) (hf : FacesLabelled m) (hin : m.init = false) {d d' : Dart} (h : IsDart m d)
    (ha : alpha m d = .ok d') : leftFace m d' = rightFace m d ∧ rightFace m d' = leftFace m d := by
  obtain ⟨n, h1, h2, h3, hl⟩ := jump_both hc ht h
  rw [alpha_before hc hin h, h1] at ha
  cases ha
  have hlk := iter_link hc ht h.link (n + 1) hl
  have hpx : (m.px ((nextD m)^[n + 1] d).x ((nextD m)^[n + 1] d).y).1 = .line := by
    rw [Function.iterate_succ_apply', px_nextD]
    exact hl n (by omega)
  obtain ⟨s1, s2⟩ := sides_swap hc ht hf hlk hpx
  obtain ⟨i1, i2⟩ := sides_iter hc ht hf h.link (n + 1) hl
  rw [leftFace_eq hc h2.inside h2.rim.nonregion, rightFace_eq hc h2.inside h2.rim.nonregion, leftFace_eq hc h.inside h.rim.nonregion,
    rightFace_eq hc h.inside h.rim.nonregion, s1, s2, i1, i2]
  exact ⟨rfl, rfl⟩

/-- **C88.** Between two darts that follow each other around a node there is one face: left of the first, right of the second. -/
theorem sigma_faces (hc : Clean m) (hno : NoCorner m) (ht : Traceable m) (hf : FacesLabelled m) {d d' : Dart} (h : IsDart m d)
    (hs : sigma m 1 d = .ok d') : rightFace m d' = leftFace m d := by
  obtain ⟨n, hd, hfirst⟩ := first_dart hc one_turn h
  rw [sigma_walk hc hno one_turn n h hd hfirst] at hs
  cases hs
  rw [rightFace_eq hc hd.inside hd.rim.nonregion, leftFace_eq hc h.inside h.rim.nonregion, sides_sigma hc hno hf n h (dart_sides hc ht h).2.2.1 hd hfirst]

/-- **C88.** Following a contour with `nextPhi` never changes the face on the left: `nextPhi` reaches a dart without leaving the image,
and this dart has the same `leftFaceLabel`. -/
theorem phi_leftFace (hc : Clean m) (hno : NoCorner m) (ht : Traceable m) (hf : FacesLabelled m) (hin : m.init = false) {d : Dart}
    (h : IsDart m d) : ∃ d', phi m d = .ok d' ∧ IsDart m d' ∧ leftFace m d' = leftFace m d := by
  obtain ⟨a, h1, h2, -, -, -⟩ := alpha_involution hc ht hin h
  obtain ⟨b, h3, h4, h5, -⟩ := sigma_inverse hc hno h2 (k := 7) (Or.inr rfl)
  refine ⟨b, ?_, h4, ?_⟩
  · unfold phi
    rw [h1]
    exact h3
  · have h5' : sigma m 1 b = .ok a := h5
    rw [← sigma_faces hc hno ht hf h4 h5', (alpha_faces hc ht hf hin h h1).2]

/-- **C88.** `nextPhi` can be undone, so a contour is a cycle: the dart before is the other end of the `nextSigma` successor. -/
theorem phi_undo (hc : Clean m) (hno : NoCorner m) (ht : Traceable m) (hin : m.init = false) {d : Dart} (h : IsDart m d) :
    ∃ d', phi m d = .ok d' ∧ (sigma m 1 d').bind (alpha m) = .ok d := by
  obtain ⟨a, h1, h2, h3, -, -⟩ := alpha_involution hc ht hin h
  obtain ⟨b, h4, h5, h6, -⟩ := sigma_inverse hc hno h2 (k := 7) (Or.inr rfl)
  have h6' : sigma m 1 b = .ok a := h6
  refine ⟨b, ?_, ?_⟩
  · unfold phi
    rw [h1]
    exact h4
  · rw [h6']
    exact h3

/-! ## Images from contours -/

theorem step8_dx (j : Fin 8) : step8 j = (dx j, dy j) := by revert j; decide

/-- **C86-C88.** Every source image that is accepted gives an image for which these theorems hold: with either corner type for following
edges, with nodes at corners (`CellTypeVertex`) also for turning around nodes. -/
theorem contours_navigable {corner : CellType} {w h : Nat} {src : Int → Int → Bool} (hw : m.w = w + 4) (hh : m.h = h + 4)
    (hm : FromContours corner (contourImage w h src) m) :
    Clean m ∧ Traceable m ∧ (corner = .vertex → NoCorner m) := by
  obtain ⟨f, hf, hpx⟩ := hm
  rw [hw, hh] at hf
  have hin : ∀ x y, m.inside x y ↔ -2 ≤ x ∧ x < w + 2 ∧ -2 ≤ y ∧ y < h + 2 := by
    intro x y
    unfold Map.inside
    rw [hw, hh]
    push_cast
    constructor <;> intro hx <;> omega
  rcases initCellImage_total corner w h src with ⟨cells, h1, h2, h3⟩ | ⟨h1, -⟩
  swap
  · rw [hf] at h1
    cases h1
  have hcf : cells = f := by
    rw [hf] at h1
    cases h1
    rfl
  subst hcf
  have hty : ∀ x y, m.inside x y → ((m.px x y).1 = .region ↔ contourImage w h src x y = false) := by
    intro x y hi
    have hi' := (hin x y).1 hi
    rw [hpx x y hi]
    exact (h2 x y hi'.1 hi'.2.1 hi'.2.2.1 hi'.2.2.2).1
  have hclean : Clean m := by
    refine ⟨fun x y hi => ?_, fun x y hi hn => ?_⟩
    · have hi' := (hin x y).1 hi
      rw [hpx x y hi]
      exact (h2 x y hi'.1 hi'.2.1 hi'.2.2.1 hi'.2.2.2).2
    · have hi' := (hin x y).1 hi
      have hr : contourImage w h src x y = true := by
        rw [← Bool.not_eq_false, ← hty x y hi]
        exact hn
      rw [hw, hh]
      push_cast
      unfold contourImage at hr
      split at hr
      · omega
      · simp only [decide_eq_true_eq] at hr
        omega
  have hline : ∀ x y, m.inside x y → (m.px x y).1 = .line →
      cellConf corner (fun j => decide ((m.look x y j).1 ≠ .region)) = .line := by
    intro x y hi hl
    have hnr : (m.px x y).1 ≠ .region := by rw [hl]; decide
    have hcl : classify corner (contourImage w h src) x y = .line := by
      rw [hpx x y hi] at hl
      unfold initCellImage at hf
      obtain ⟨-, -, hcell⟩ := Outcome.bind_eq_ok.1 hf
      cases hcell
      dsimp only at hl
      split at hl
      · cases hl
      · exact hl
    have hr : contourImage w h src x y = true := by
      rw [← Bool.not_eq_false, ← hty x y hi]
      exact hnr
    unfold classify at hcl
    rw [if_pos hr] at hcl
    have e : (fun j => decide ((m.look x y j).1 ≠ .region)) = around (contourImage w h src) x y := by
      funext j
      have hj := hclean.near hi hnr j
      unfold around
      rw [step8_dx]
      have := hty _ _ hj
      dsimp only
      by_cases hb : contourImage w h src (x + dx j) (y + dy j) = false
      · rw [hb, decide_eq_false_iff_not, not_not]
        exact this.2 hb
      · have hb' : contourImage w h src (x + dx j) (y + dy j) = true := by simpa using hb
        rw [hb', decide_eq_true_eq]
        exact fun hh => hb (this.1 hh)
    rw [e]
    exact hcl
  refine ⟨hclean, fun x y hi hl => ?_, ?_⟩
  · have := hline x y hi hl
    rw [cellConf_corner] at this
    split at this
    · exact (table_kinds _).2.2.2.1 this
    · exact this
  · rintro rfl x y hi hl k hk ⟨ha, hb⟩
    refine table_no_corner _ (hline x y hi hl) k hk ⟨?_, ?_⟩
    · rw [decide_eq_true_eq, ha]; decide
    · rw [decide_eq_true_eq, hb]; decide

/-- **C86-C88.** Together, for every source image of any size that is accepted with nodes at corners, before the edge list exists: all
darts can be reached from each other only in a consistent way. `nextSigma` and `prevSigma` are inverse, `nextAlpha` is an involution
without fixed points. -/
theorem contours_permutations {w h : Nat} {src : Int → Int → Bool} (hw : m.w = w + 4) (hh : m.h = h + 4)
    (hm : FromContours .vertex (contourImage w h src) m) (hin : m.init = false) {d : Dart} (hd : IsDart m d) :
    (∃ a, sigma m 1 d = .ok a ∧ IsDart m a ∧ sigma m 7 a = .ok d) ∧ (∃ b, sigma m 7 d = .ok b ∧ IsDart m b ∧ sigma m 1 b = .ok d) ∧
    (∃ c, alpha m d = .ok c ∧ IsDart m c ∧ alpha m c = .ok d ∧ c ≠ d) := by
  obtain ⟨hc, ht, hno⟩ := contours_navigable hw hh hm
  obtain ⟨a, a1, a2, a3, -⟩ := sigma_inverse hc (hno rfl) hd (k := 1) (Or.inl rfl)
  obtain ⟨b, b1, b2, b3, -⟩ := sigma_inverse hc (hno rfl) hd (k := 7) (Or.inr rfl)
  obtain ⟨c, c1, c2, c3, c4, -⟩ := alpha_involution hc ht hin hd
  exact ⟨⟨a, a1, a2, a3⟩, ⟨b, b1, b2, b3⟩, ⟨c, c1, c2, c3, c4⟩⟩

/-! ## Examples -/

/-- the map of a `w` x `h` source image before the cell lists are made; faces have label 1, everything else has label 0 -/
def rawMap (corner : CellType) (w h : Nat) (src : Int → Int → Bool) : Map :=
  ⟨w + 4, h + 4, fun x y =>
    let t := (typeAt (initCellImage corner (w + 4) (h + 4) (contourImage w h src)) x y).getD .region
    (t, if t = .region then 1 else 0), [], [], [], 0, 0, 0, false⟩

theorem rawMap_from {corner : CellType} {w h : Nat} {src : Int → Int → Bool}
    (hok : (typeAt (initCellImage corner (w + 4) (h + 4) (contourImage w h src)) 0 0).isSome = true) :
    FromContours corner (contourImage w h src) (rawMap corner w h src) := by
  cases hi : initCellImage corner (w + 4) (h + 4) (contourImage w h src) with
  | ok f =>
    refine ⟨f, hi, fun x y _ => ?_⟩
    unfold rawMap
    dsimp only
    rw [hi]
    rfl
  | _ =>
    rw [hi] at hok
    simp [typeAt] at hok

/-- the value of an outcome -/
def theDart : Outcome Dart → Option Dart
  | .ok d => some d
  | _ => none

/-- a window: a vertical line through the image -/
def window : Map := rawMap .vertex 4 4 fun x _ => decide (x = 2)

/-- The window meets the hypotheses: it comes from contours, and there is a dart from the upper end of the bar, which leads to the lower
end. -/
example : FromContours .vertex (contourImage 4 4 fun x _ => decide (x = 2)) window ∧ IsDart window ⟨2, -1, 6⟩ ∧ FacesLabelled window ∧
    NodesLabelled window ∧ theDart (alpha window ⟨2, -1, 6⟩) = some ⟨2, 4, 2⟩ ∧ theDart (sigma window 1 ⟨2, -1, 6⟩) = some ⟨2, -1, 0⟩ ∧
    theDart (phi window ⟨2, -1, 6⟩) = some ⟨2, 4, 0⟩ := by
  refine ⟨rawMap_from (by decide +kernel), ⟨by decide +kernel, by decide +kernel, by decide +kernel, by decide +kernel⟩, ?_, ?_,
    by decide +kernel, by decide +kernel, by decide +kernel⟩
  · intro x y k _ _ _ h1 h2
    have e : ∀ x y, (window.px x y).1 = .region → (window.px x y).2 = 1 := fun x y h => if_pos h
    rw [e _ _ h1]
    exact e _ _ h2
  · intro x y k _ h1 h2
    have e : ∀ x y, (window.px x y).1 = .vertex → (window.px x y).2 = 0 := fun x y h => if_neg (by
      intro hh
      exact absurd (h.symm.trans hh) (by decide))
    rw [e _ _ h1]
    exact e _ _ h2

/-- three pixels: two ends and a corner between them -/
def hook : Map := rawMap .line 4 4 fun x y => decide ((x, y) ∈ [(2, 1), (2, 2), ((1 : Int), (2 : Int))])

/-- **C86 is violated** for images made with edges at corners (`CellTypeLine`).  The three contour pixels (2, 1), (2, 2) and (1, 2) are
accepted and become a node of two pixels and an edge of one pixel.  Both darts of the edge belong to the same node, but `nextSigma` from
the first one comes back to it at once, so the second one is never visited, and `prevSigma` does not undo `nextSigma`. -/
theorem sigma_inverse_violated : FromContours .line (contourImage 4 4 fun x y => decide ((x, y) ∈ [(2, 1), (2, 2), ((1 : Int), (2 : Int))])) hook ∧
    IsDart hook ⟨1, 2, 0⟩ ∧ IsDart hook ⟨2, 1, 6⟩ ∧ theDart (alpha hook ⟨1, 2, 0⟩) = some ⟨2, 1, 6⟩ ∧
    theDart (sigma hook 1 ⟨1, 2, 0⟩) = some ⟨1, 2, 0⟩ ∧ theDart (sigma hook 7 ⟨1, 2, 0⟩) = some ⟨2, 1, 6⟩ ∧
    theDart (sigma hook 1 ⟨2, 1, 6⟩) = some ⟨1, 2, 0⟩ := by
  refine ⟨rawMap_from (by decide +kernel), ⟨by decide +kernel, by decide +kernel, by decide +kernel, by decide +kernel⟩,
    ⟨by decide +kernel, by decide +kernel, by decide +kernel, by decide +kernel⟩,
    by decide +kernel, by decide +kernel, by decide +kernel, by decide +kernel⟩

end Verif.FourEight.Props
