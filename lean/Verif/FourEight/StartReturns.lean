import Verif.FourEight.StartProps
import Verif.FourEight.StartScan
import Verif.FourEight.StartRim

/-!
# The constructor of the pixel based map returns (C92)
-/

namespace Verif.FourEight.Props
open Verif Verif.CellImage Verif.FourEight

/-- **C92.** The constructor returns for a source image of any size that is accepted with nodes at corners, if no node has a hole and VIGRA's
functions keep their promises (labels of nodes, faces and components of contours; the contour around a node encloses as many pixels as the node
has): no loop runs forever, no index is out of range, no pixel outside of the image is read, no anchor of a contour is missing.  The stored
information then fits the image. -/
theorem initMap_returns_partial {w h : Nat} {src : Int → Int → Bool} {cells : Int → Int → CellType}
    (hi : initCellImage .vertex (w + 4) (h + 4) (contourImage w h src) = .ok cells) {v : Components} (hv : v.Sane (w + 4) (h + 4) cells)
    (hn : NoHoles (typedMap (w + 4) (h + 4) cells v)) {o : Oracle} (hs : o.Sane (typedMap (w + 4) (h + 4) cells v)) :
    ∃ mL N n, labelCells (w + 4) (h + 4) cells v = .ok (mL, N, n) ∧
      ((∀ l, (mL.cell (.vertex, l)).Nonempty → o.crackArea l = (mL.cell (.vertex, l)).card % 2 ^ 32) →
        ∃ m, initMap .vertex w h src v o = .ok m ∧ Consistent m ∧ Outer m ∧ m.px = mL.px) := by
  have hmap : FromContours .vertex (contourImage w h src) (typedMap (w + 4) (h + 4) cells v) := ⟨cells, hi, fun _ _ _ => rfl⟩
  obtain ⟨hc, ht, hno⟩ := contours_navigable rfl rfl hmap
  have hno := hno rfl
  have hty0 : ∀ x y, ((typedMap (w + 4) (h + 4) cells v).px x y).1 = cells x y := fun _ _ => rfl
  have hnode0 : ∀ x y, cells x y = .vertex → (typedMap (w + 4) (h + 4) cells v).px x y = (.vertex, v.node x y) := by
    intro x y hx
    unfold typedMap
    dsimp only
    rw [if_pos hx, hx]
  have hnl0 : NodesLabelled (typedMap (w + 4) (h + 4) cells v) := by
    intro x y k _ h1 h2
    rw [hty0] at h1
    have h2' : cells (x + dx k) (y + dy k) = .vertex := by rw [← hty0]; exact h2
    show ((typedMap (w + 4) (h + 4) cells v).px _ _).2 = _
    rw [hnode0 _ _ h1, hnode0 _ _ h2']
    exact hv.nodeNext x y k h1 h2'
  have ho := oneRim_of_noHoles hc hno hnl0 hn
  obtain ⟨⟨mL, N, n⟩, hr⟩ := (labelCells_returns hi hv).2 ho
  refine ⟨mL, N, n, hr, fun hholes => ?_⟩
  obtain ⟨k1, k2, k3, k4, k5, k6, k7, k8, k9, k10, k11, k12, k13, k14, k15, k16⟩ := labelCells_labels_partial hi hv ho hr
  have hN := labelCells_maxNode hr
  have hins : ∀ x y, mL.inside x y ↔ (typedMap (w + 4) (h + 4) cells v).inside x y := by
    intro x y; unfold Map.inside; rw [k1, k2]; rfl
  have hnew : ∀ x y, (typedMap (w + 4) (h + 4) cells v).inside x y → (mL.px x y).1 = ((typedMap (w + 4) (h + 4) cells v).px x y).1 ∨
      (mL.px x y).1 = .vertex ∧ ((typedMap (w + 4) (h + 4) cells v).px x y).1 ≠ .vertex ∧ v.maxNode < (mL.px x y).2 ∧
      ∀ x' y', (typedMap (w + 4) (h + 4) cells v).inside x' y' → mL.px x' y' = mL.px x y → x' = x ∧ y' = y := by
    intro x y h1
    rcases hc.types x y h1 with e | e | e
    · left
      rw [k10 x y ((hins x y).2 h1) e, e]
    · rcases k13 x y ((hins x y).2 h1) e with f | f
      · left; rw [f, e]
      · refine Or.inr ⟨f.1, by rw [e]; decide, f.2.1, fun x' y' g => f.2.2.2.1 x' y' ((hins _ _).2 g)⟩
    · left
      by_cases hI : Inner (w + 4) (h + 4) x y
      · rw [k11 x y hI e, e]
      · rw [k12 x y ((hins x y).2 h1) hI, e]
  have hlab0 : ∀ x y, (typedMap (w + 4) (h + 4) cells v).inside x y → ((typedMap (w + 4) (h + 4) cells v).px x y).1 = .vertex →
      ((typedMap (w + 4) (h + 4) cells v).px x y).2 ≤ v.maxNode := by
    intro x y _ h1
    rw [hnode0 _ _ h1]
    exact (hv.node x y h1).2
  have hold : ∀ x y, (typedMap (w + 4) (h + 4) cells v).inside x y → ((typedMap (w + 4) (h + 4) cells v).px x y).1 = .vertex →
      mL.px x y = (typedMap (w + 4) (h + 4) cells v).px x y := by
    intro x y h1 h2
    rw [hnode0 _ _ h2]
    exact k10 x y ((hins x y).2 h1) h2
  have hoL : OneRim mL := oneRim_grown hc hno hnl0 k7 k9 k5 k1 k2 hlab0 hold hnew ho
  have hnL : NoHoles mL := noHoles_grown hc k7 k5 k1 k2 hlab0 hold hnew hn
  have hreg : ∀ x y, mL.inside x y → ((mL.px x y).1 = .region ↔ cells x y = .region) := by
    intro x y h1
    rcases hc.types x y ((hins x y).1 h1) with e | e | e
    · have e' : cells x y = .vertex := e
      rw [k10 x y h1 e', e']
    · have e' : cells x y = .line := e
      rw [e']
      rcases k13 x y h1 e' with f | f
      · rw [f]
      · rw [f.1]; decide
    · have e' : cells x y = .region := e
      by_cases hI : Inner (w + 4) (h + 4) x y
      · rw [k11 x y hI e', e']
      · rw [k12 x y h1 hI, e']
  have hraw : ∀ x y, mL.inside x y → (cells x y = .region ↔ contourImage w h src x y = false) := by
    intro x y hin
    rcases initCellImage_total .vertex w h src with ⟨f, h1, h2, h3⟩ | ⟨h1, -⟩
    · rw [hi] at h1
      cases h1
      have hin' : -2 ≤ x ∧ x < (w : Int) + 2 ∧ -2 ≤ y ∧ y < (h : Int) + 2 := by
        unfold Map.inside at hin
        rw [k1, k2] at hin
        push_cast at hin
        omega
      exact (h2 x y hin'.1 hin'.2.1 hin'.2.2.1 hin'.2.2.2).1
    · rw [hi] at h1
      cases h1
  have hring : Framed mL := by
    intro x y h1 h2
    refine k12 x y h1 fun hI => ?_
    rw [k1, k2] at h2
    unfold Inner at hI
    omega
  have horigin : Inner mL.w mL.h (-1) (-1) := by
    unfold Inner; rw [k1, k2]
    exact ⟨by omega, by omega, by omega, by omega⟩
  have hcorner : cells (-1) (-1) = .vertex := by
    unfold initCellImage at hi
    obtain ⟨_, -, hi⟩ := Outcome.bind_eq_ok.1 hi
    rw [← Outcome.ok.inj hi]
    exact if_pos ⟨rfl, rfl⟩
  have c1 : mL.nodeCount = 0 := by rw [k16]; rfl
  have c2 : mL.edgeCount = 0 := by rw [k16]; rfl
  have c3 : mL.faceCount = 0 := by rw [k16]; rfl
  have S : Scene mL o := by
    refine ⟨k7, k9, k8, k6, k5, k3, hring, fun p q hp hq hl => (k4.same p q hp hq).1 hl, hnL, ⟨?_, ?_, ?_⟩, ?_, horigin, ?_⟩
    · intro x y h1
      rw [hreg x y h1]
      exact hs.zero x y ((hins x y).1 h1)
    · intro x y h1
      exact hs.range x y ((hins x y).1 h1)
    · intro x y k h1 h2 h3
      have h2' : cells x y ≠ .region := fun e => h2 ((hreg x y h1).2 e)
      have h3' : cells (x + dx k) (y + dy k) ≠ .region :=
        fun e => h3 ((hreg _ _ ((hins _ _).2 (hc.near ((hins x y).1 h1) h2' k))).2 e)
      exact hs.next x y k ((hins x y).1 h1) h2' h3'
    · intro x y h1 h2 h3
      have hin := inner_inside h1
      rw [hreg x y hin, hraw x y hin] at h3
      have := (contourImage_spec w h src x y).2.1 (by
        unfold Inner at h1
        rw [k1, k2] at h1
        push_cast at h1
        omega)
      rw [this] at h3
      cases h3
    · rw [k10 _ _ (inner_inside horigin) hcorner]
  obtain ⟨m1, h1⟩ := initNodeList_total (N := N) k7 k9 k5 hring c1 (by
    intro x y g1 g2
    rcases hc.types x y ((hins x y).1 g1) with e | e | e
    · have e' : cells x y = .vertex := e
      rw [k10 x y g1 e']
      exact le_trans (hv.node x y e').2 hN
    · rcases k13 x y g1 e with f | f
      · rw [f] at g2; cases g2
      · exact f.2.2.1
    · have := (hreg x y g1).2 e
      rw [g2] at this; cases this) hholes
  obtain ⟨p1, p2, p3, p4⟩ := initNodeList_anchors k7 hring c1 hholes h1
  have i1 := initNodeList_done hring c1 h1
  have hs1 : SameKinds mL m1 := sameKinds_px i1.w i1.h p1
  obtain ⟨m2, h2, -, q2⟩ := initEdgeList_total (N := n) k7 k8 k9 k3 (fun p hp => (k4.range p hp).2) hs1 p1 (p3.trans k3) p2
  have i2 := initEdgeList_inv (i1.edgeCount.trans c2) h2
  have hL : Lists mL m2 := by
    refine ⟨i2.w.trans i1.w, i2.h.trans i1.h, i2.px.trans p1, q2, initEdgeList_entries k7 k9 k8 k3 hs1 p1 (p3.trans k3) p2 h2, fun p hp => ?_⟩
    exact edges_lines k7 k9 k5 hoL hring c1 hholes (fun p q hp hs => (k4.same p q hp (SameEdge.isLine k7 hp hs)).2 hs) k15 h1 h2 hp.1 (Prod.ext hp.2 rfl)
  obtain ⟨m3, h3⟩ := initFaceList_total S (N := v.maxFace) (by
    intro x y g1 g2
    by_cases hI : Inner (w + 4) (h + 4) x y
    · have e := (hreg x y g1).1 g2
      rw [k11 x y hI e]
      exact (hv.face x y hI e).2
    · rw [k12 x y g1 hI]
      exact Nat.zero_le _) hL i2.fresh (i2.faceCount.trans (i1.faceCount.trans c3))
  have hm : initMap .vertex w h src v o = .ok { m3 with init := true } := by
    unfold initMap
    rw [hi, Outcome.bind_ok, hr, Outcome.bind_ok, h1, Outcome.bind_ok, h2, Outcome.bind_ok, h3, Outcome.bind_ok]
  obtain ⟨r1, r2, -, -, r5, -⟩ := initMap_start_partial hi hv ho hr hholes hm
  exact ⟨_, hm, r1, r2, r5⟩

/-! ## Example -/

/-- runs around the contour of a node -/
def onContour (m : Map) (d s : Dart) : Nat → Bool
  | 0 => decide (s = d)
  | k + 1 => decide (s = d) || onContour m d (nextCrack m s) k

theorem onContour_spec {m : Map} {d : Dart} {k : Nat} : ∀ {s}, onContour m d s k = true → ∃ n, (nextCrack m)^[n] s = d := by
  induction k with
  | zero => intro s h; exact ⟨0, by simpa [onContour] using h⟩
  | succ k ih =>
    intro s h
    rw [onContour, Bool.or_eq_true, decide_eq_true_eq] at h
    rcases h with h | h
    · exact ⟨0, h⟩
    · obtain ⟨n, hn⟩ := ih h
      exact ⟨n + 1, by rw [Function.iterate_succ_apply]; exact hn⟩

/-- checks the cracks of nodes of one pixel -/
theorem noHoles_of_single {m : Map} {w h : Nat} (hw : m.w = w) (hh : m.h = h) {f : Nat → List (Int × Int)}
    (hone : everywhere w h (fun x y => decide ((m.px x y).1 = .vertex → [(x, y)] = f (m.px x y).2 ∧
      ∀ k : Fin 8, k.val % 2 = 0 → onContour m ⟨x, y, k⟩ ⟨x, y, 4⟩ 4 = true)) = true) : NoHoles m := by
  intro x y d hf hd hl
  have hfi := hf.inside
  have hdi := hd.inside
  unfold Map.inside at hfi hdi
  rw [hw, hh] at hfi hdi
  have h1 := everywhere_spec hone x y hfi
  have h2 := everywhere_spec hone d.x d.y hdi
  rw [decide_eq_true_eq] at h1 h2
  obtain ⟨g1, -⟩ := h1 hf.node
  obtain ⟨g2, g3⟩ := h2 hd.node
  rw [hl, ← g1] at g2
  have := List.singleton_inj.1 g2
  have e1 : d.x = x := congrArg Prod.fst this
  have e2 : d.y = y := congrArg Prod.snd this
  have := g3 d.dir hd.even
  rw [← e1, ← e2]
  exact onContour_spec this

theorem oracle_of_check {m : Map} {o : Oracle} {w h : Nat} (hw : m.w = w) (hh : m.h = h)
    (hall : everywhere w h (fun x y => decide ((o.contour x y = 0 ↔ (m.px x y).1 = .region) ∧ o.contour x y ≤ o.components ∧
      ∀ k : Fin 8, (m.px x y).1 ≠ .region → (m.look x y k).1 ≠ .region → o.contour (x + dx k) (y + dy k) = o.contour x y)) = true) :
    o.Sane m := by
  have key : ∀ x y, m.inside x y → _ := fun x y hxy => by
    unfold Map.inside at hxy
    rw [hw, hh] at hxy
    exact of_decide_eq_true (everywhere_spec hall x y hxy)
  exact ⟨fun x y hxy => (key x y hxy).1, fun x y hxy => (key x y hxy).2.1, fun x y k hxy => (key x y hxy).2.2 k⟩

/-- The closed contour meets the hypotheses (the others are shown in the example of `labelCells_labels_partial`, and that the enclosed pixels
are counted in the example of `initMap_start_partial`). -/
example : NoHoles (typedMap (5 + 4) (5 + 4) (cellsOf .vertex 5 5 ringSrc) ringComponents) ∧
    ringOracle.Sane (typedMap (5 + 4) (5 + 4) (cellsOf .vertex 5 5 ringSrc) ringComponents) :=
  ⟨noHoles_of_single (w := 9) (h := 9) (f := ringNodes) rfl rfl (by decide +kernel),
    oracle_of_check (w := 9) (h := 9) rfl rfl (by decide +kernel)⟩

end Verif.FourEight.Props
