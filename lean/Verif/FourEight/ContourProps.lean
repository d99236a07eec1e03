import Verif.FourEight.Props
import Verif.FourEight.Config

/-!
# Contours of the faces of the pixel based map (C76, C77, C79)
-/

namespace Verif.FourEight.Props
open Verif Verif.CellImage Verif.FourEight

variable {m : Map}

/-! ## Contours after construction -/

/-- number of contours of all faces -/
def Map.contours (m : Map) : Nat := (m.faces.map fun F : Face => F.contours.length).sum

theorem sum_modify_le (l : List Face) (f : Nat) (g : Face → Face) (hg : ∀ F, (g F).contours.length ≤ F.contours.length + 1) :
    ((l.modify f g).map fun F : Face => F.contours.length).sum ≤ (l.map fun F : Face => F.contours.length).sum + 1 := by
  induction l generalizing f with
  | nil => simp
  | cons F l ih =>
    cases f with
    | zero => have := hg F; simp only [List.modify_zero_cons, List.map_cons, List.sum_cons]; omega
    | succ f => have := ih f; simp only [List.modify_succ_cons, List.map_cons, List.sum_cons]; omega

theorem sum_modify_same (l : List Face) (f : Nat) (g : Face → Face) (hg : ∀ F, (g F).contours = F.contours) :
    ((l.modify f g).map fun F : Face => F.contours.length).sum = (l.map fun F : Face => F.contours.length).sum := by
  induction l generalizing f with
  | nil => simp
  | cons F l ih =>
    cases f with
    | zero => simp only [List.modify_zero_cons, List.map_cons, List.sum_cons, hg]
    | succ f => simp only [List.modify_succ_cons, List.map_cons, List.sum_cons, ih f]

theorem live_modify (l : List Face) (f : Nat) (g : Face → Face) {F : Face} (hF : l[f]? = some F) (h0 : F.live = false)
    (h1 : (g F).live = true) : (l.modify f g).countP (·.live) = l.countP (·.live) + 1 := by
  induction l generalizing f with
  | nil => cases hF
  | cons G l ih =>
    cases f with
    | zero =>
      obtain rfl : G = F := by simpa using hF
      simp [h0, h1]
    | succ f =>
      have := ih f (by simpa using hF)
      simp only [List.modify_succ_cons, List.countP_cons, this]
      omega

theorem marks_set (l : List Bool) (c : Nat) (h : l[c]? = some false) : (l.set c true).countP id = l.countP id + 1 := by
  induction l generalizing c with
  | nil => cases h
  | cons b l ih =>
    cases c with
    | zero =>
      obtain rfl : b = false := by simpa using h
      simp
    | succ c =>
      have := ih c (by simpa using h)
      simp only [List.set_cons_succ, List.countP_cons, this]
      omega

/-- what the loop of `initFaceList` keeps -/
structure ContoursInv (m0 : Map) (c0 : Nat) (mark0 : List Bool) (st : FaceState) : Prop where
  w : st.1.w = m0.w
  h : st.1.h = m0.h
  px : st.1.px = m0.px
  left : ∀ (i : Nat) (F : Face), st.1.faces[i]? = some F → i ≠ 0 → ∀ a ∈ F.contours, leftFace m0 a = .ok i
  dead : ∀ (i : Nat) (F : Face), st.1.faces[i]? = some F → F.live = false → F.contours = []
  ne : ∀ (i : Nat) (F : Face), st.1.faces[i]? = some F → F.live = true → F.contours ≠ []
  count : (st.1.faces.map fun F : Face => F.contours.length).sum + c0 ≤ st.1.faces.countP (·.live) + st.2.countP id
  length : st.2.length = mark0.length
  zero : st.2[0]? = mark0[0]?

theorem leftFace_congr {m m0 : Map} (hw : m.w = m0.w) (hh : m.h = m0.h) (hpx : m.px = m0.px) (d : Dart) :
    leftFace m d = leftFace m0 d := by
  have e : ∀ x y, m.get x y = m0.get x y := by
    intro x y
    have hi : m.inside x y ↔ m0.inside x y := by unfold Map.inside; rw [hw, hh]
    unfold Map.get
    by_cases h : m.inside x y
    · rw [if_pos h, if_pos (hi.1 h), hpx]
    · rw [if_neg h, if_neg fun h' => h (hi.2 h')]
  unfold leftFace Map.nb
  simp only [e]

theorem contourAnchor_left {m : Map} {f : Nat} {x y : Int} {d a : Dart} (h : contourAnchor m f x y d = .ok a) : leftFace m a = .ok f := by
  unfold contourAnchor at h
  obtain ⟨p, _, h⟩ := Outcome.bind_eq_ok.1 h
  by_cases hv : p.1 = .vertex
  · rw [if_pos hv] at h
    obtain ⟨b, _, h⟩ := Outcome.bind_eq_ok.1 h
    obtain ⟨b', _, h⟩ := Outcome.bind_eq_ok.1 h
    obtain ⟨l, hl, h⟩ := Outcome.bind_eq_ok.1 h
    by_cases e : l = f
    · rw [if_pos e] at h; cases h; rw [hl, e]
    · rw [if_neg e] at h; cases h
  rw [if_neg hv] at h
  by_cases hn : p.1 = .line
  · rw [if_pos hn] at h
    cases hE : m.edges[p.2]? with
    | none => rw [hE] at h; cases h
    | some E =>
      rw [hE] at h; dsimp only at h
      by_cases hl : (!E.live) = true
      · rw [if_pos hl] at h; cases h
      rw [if_neg hl] at h
      obtain ⟨l, _, h⟩ := Outcome.bind_eq_ok.1 h
      obtain ⟨b, _, h⟩ := Outcome.bind_eq_ok.1 h
      obtain ⟨l', hl', h⟩ := Outcome.bind_eq_ok.1 h
      by_cases e : l' = f
      · rw [if_pos e] at h; cases h; rw [hl', e]
      · rw [if_neg e] at h; cases h
  · rw [if_neg hn] at h; cases h

theorem ContoursInv.innerContour {o : Oracle} {m0 : Map} {c0 : Nat} {mark0 : List Bool} {f : Nat} {p : Int × Int} {st st' : FaceState}
    {k : Fin 8} (h : ContoursInv m0 c0 mark0 st ∧ ∃ F, st.1.faces[f]? = some F ∧ F.live = true)
    (he : innerContour o f p st k = .ok st') : ContoursInv m0 c0 mark0 st' ∧ ∃ F, st'.1.faces[f]? = some F ∧ F.live = true := by
  unfold FourEight.innerContour at he
  dsimp only at he
  by_cases hc : o.contour (p.1 + dx k) (p.2 + dy k) = 0
  · rw [if_pos hc] at he; cases he; exact h
  rw [if_neg hc] at he
  cases hb : st.2[o.contour (p.1 + dx k) (p.2 + dy k)]? with
  | none => rw [hb] at he; cases he
  | some b =>
    rw [hb] at he
    cases b with
    | true => cases he; exact h
    | false =>
      dsimp only at he
      obtain ⟨a, ha, he⟩ := Outcome.bind_eq_ok.1 he
      cases he
      obtain ⟨h, F, hF, hl⟩ := h
      have hleft := contourAnchor_left ha
      rw [leftFace_congr h.w h.h h.px] at hleft
      refine ⟨⟨h.w, h.h, h.px, ?_, ?_, ?_, ?_, ?_, ?_⟩, _, modify_eq hF, hl⟩
      · intro i G hG h0 b hb
        dsimp only at hG
        by_cases hi : f = i
        · subst hi
          rw [modify_eq hF] at hG
          cases hG
          rcases List.mem_append.1 hb with hb | hb
          · exact h.left f F hF h0 b hb
          · rw [List.mem_singleton.1 hb]; exact hleft
        · rw [modify_ne hi] at hG
          exact h.left i G hG h0 b hb
      · intro i G hG hd
        dsimp only at hG
        by_cases hi : f = i
        · subst hi
          rw [modify_eq hF] at hG
          cases hG
          rw [show F.live = false from hd] at hl
          cases hl
        · rw [modify_ne hi] at hG
          exact h.dead i G hG hd
      · intro i G hG hd
        dsimp only at hG
        by_cases hi : f = i
        · subst hi
          rw [modify_eq hF] at hG
          cases hG
          simp
        · rw [modify_ne hi] at hG
          exact h.ne i G hG hd
      · dsimp only
        rw [marks_set _ _ hb, countP_modify_same _ _ (by intro a; rfl)]
        have := sum_modify_le st.1.faces f (fun F => { F with contours := F.contours ++ [a] }) (by intro F; simp)
        have := h.count
        omega
      · exact (List.length_set ..).trans h.length
      · dsimp only
        rw [List.getElem?_set_ne (by simpa using hc)]
        exact h.zero

theorem ContoursInv.initFace {o : Oracle} {m0 : Map} {c0 : Nat} {mark0 : List Bool} {p : Int × Int} {st st' : FaceState}
    (h : ContoursInv m0 c0 mark0 st) (he : initFace o st p = .ok st') : ContoursInv m0 c0 mark0 st' := by
  unfold FourEight.initFace at he
  dsimp only at he
  by_cases ht : (st.1.px p.1 p.2).1 ≠ .region
  · rw [if_pos ht] at he
    by_cases hl : (st.1.px p.1 p.2).1 = .line
    · rw [if_pos hl] at he
      split at he
      · cases he
      · cases he
        exact ⟨h.w, h.h, h.px, h.left, h.dead, h.ne, h.count, h.length, h.zero⟩
    · rw [if_neg hl] at he; cases he; exact h
  rw [if_neg ht] at he
  generalize (st.1.px p.1 p.2).2 = f at he
  cases hF : st.1.faces[f]? with
  | none => rw [hF] at he; cases he
  | some F =>
    rw [hF] at he; dsimp only at he
    obtain ⟨st1, h1, he⟩ := Outcome.bind_eq_ok.1 he
    have key : ContoursInv m0 c0 mark0 st1 := by
      by_cases hl : F.live = true
      · simp only [hl, Bool.not_true, Bool.false_eq_true, if_false] at h1
        exact (foldO_keep (P := fun s : FaceState => ContoursInv m0 c0 mark0 s ∧ ∃ F, s.1.faces[f]? = some F ∧ F.live = true) _ _ _
          (fun k b b' _ hb hbe => ContoursInv.innerContour hb hbe) h1 ⟨h, F, hF, hl⟩).1
      · simp only [Bool.not_eq_true] at hl
        simp only [hl, Bool.not_false, if_true] at h1
        obtain ⟨a, ha, h1⟩ := Outcome.bind_eq_ok.1 h1
        cases h1
        have hleft := contourAnchor_left ha
        rw [leftFace_congr h.w h.h h.px] at hleft
        refine ⟨h.w, h.h, h.px, ?_, ?_, ?_, ?_, h.length, h.zero⟩
        · intro i G hG h0 b hb
          dsimp only at hG
          by_cases hi : f = i
          · subst hi
            rw [modify_eq hF] at hG
            cases hG
            rcases List.mem_append.1 hb with hb | hb
            · exact h.left f F hF h0 b hb
            · rw [List.mem_singleton.1 hb]; exact hleft
          · rw [modify_ne hi] at hG
            exact h.left i G hG h0 b hb
        · intro i G hG hd
          dsimp only at hG
          by_cases hi : f = i
          · subst hi
            rw [modify_eq hF] at hG
            cases hG
            cases hd
          · rw [modify_ne hi] at hG
            exact h.dead i G hG hd
        · intro i G hG hd
          dsimp only at hG
          by_cases hi : f = i
          · subst hi
            rw [modify_eq hF] at hG
            cases hG
            simp
          · rw [modify_ne hi] at hG
            exact h.ne i G hG hd
        · dsimp only
          rw [live_modify _ _ _ hF hl rfl]
          have := sum_modify_le st.1.faces f (fun F => { F with live := true, contours := F.contours ++ [a] }) (by intro F; simp)
          have := h.count
          omega
    cases he
    refine ⟨key.w, key.h, key.px, ?_, ?_, ?_, ?_, key.length, key.zero⟩
    · intro i G hG h0 b hb
      dsimp only at hG
      by_cases hi : f = i
      · subst hi
        rw [List.getElem?_modify_eq] at hG
        cases hF1 : st1.1.faces[f]? with
        | none => rw [hF1] at hG; cases hG
        | some F1 => rw [hF1] at hG; cases hG; exact key.left f F1 hF1 h0 b hb
      · rw [modify_ne hi] at hG
        exact key.left i G hG h0 b hb
    · intro i G hG hd
      dsimp only at hG
      by_cases hi : f = i
      · subst hi
        rw [List.getElem?_modify_eq] at hG
        cases hF1 : st1.1.faces[f]? with
        | none => rw [hF1] at hG; cases hG
        | some F1 => rw [hF1] at hG; cases hG; exact key.dead f F1 hF1 hd
      · rw [modify_ne hi] at hG
        exact key.dead i G hG hd
    · intro i G hG hd
      dsimp only at hG
      by_cases hi : f = i
      · subst hi
        rw [List.getElem?_modify_eq] at hG
        cases hF1 : st1.1.faces[f]? with
        | none => rw [hF1] at hG; cases hG
        | some F1 => rw [hF1] at hG; cases hG; exact key.ne f F1 hF1 hd
      · rw [modify_ne hi] at hG
        exact key.ne i G hG hd
    · dsimp only
      rw [countP_modify_same _ _ (by intro a; rfl), sum_modify_same _ _ _ (by intro F; rfl)]
      exact key.count

theorem replicate_sum (n : Nat) : ((List.replicate n (⟨false, emptyRect, 0, []⟩ : Face)).map fun F : Face => F.contours.length).sum = 0 := by
  simp

/-- **C79.** After construction every face has a contour, the anchor of every contour of a bounded face has this face on its left, and
each connected component of the contour image contributes at most one contour besides the first one of each face. -/
theorem construct_contours {o : Oracle} {w h : Nat} {px : Int → Int → Pixel} (hc : construct o w h px = .ok m) :
    (∀ (i : Nat) F, m.faces[i]? = some F → F.live = true → F.contours ≠ [] ∧ (0 < i → ∀ a ∈ F.contours, leftFace m a = .ok i)) ∧
    Map.contours m ≤ m.faces.countP (·.live) + o.components := by
  unfold construct at hc
  dsimp only at hc
  obtain ⟨m1, h1, hc⟩ := Outcome.bind_eq_ok.1 hc
  obtain ⟨m2, h2, hc⟩ := Outcome.bind_eq_ok.1 hc
  obtain ⟨m3, h3, hc⟩ := Outcome.bind_eq_ok.1 hc
  cases hc
  unfold initFaceList at h3
  obtain ⟨a0, _, h3⟩ := Outcome.bind_eq_ok.1 h3
  obtain ⟨a, _, h3⟩ := Outcome.bind_eq_ok.1 h3
  dsimp only at h3
  obtain ⟨st, h4, e⟩ := Outcome.bind_eq_ok.1 h3
  cases e
  clear h3
  generalize hmk : (List.replicate (o.components + 1) false).set (o.contour (-1) (-1)) true = mark0 at h4
  have inv := foldO_keep (P := ContoursInv m2 (mark0.countP id) mark0) _ _ _ (fun _ _ _ _ hb he => ContoursInv.initFace hb he) h4 (by
    refine ⟨rfl, rfl, rfl, ?_, ?_, ?_, ?_, rfl, rfl⟩
    · intro i F hF h0 b hb
      obtain ⟨j, rfl⟩ := Nat.exists_eq_succ_of_ne_zero h0
      dsimp only at hF
      rw [List.getElem?_cons_succ] at hF
      rw [getElem?_replicate_some hF] at hb
      cases hb
    · intro i F hF hd
      dsimp only at hF
      cases i with
      | zero => rw [List.getElem?_cons_zero] at hF; cases hF; cases hd
      | succ i => rw [List.getElem?_cons_succ] at hF; rw [getElem?_replicate_some hF]
    · intro i F hF hd
      dsimp only at hF
      cases i with
      | zero => rw [List.getElem?_cons_zero] at hF; cases hF; simp
      | succ i => rw [List.getElem?_cons_succ] at hF; rw [getElem?_replicate_some hF] at hd; cases hd
    · simp [List.countP_replicate])
  refine ⟨fun i F hF hl => ⟨inv.ne i F hF hl, fun h0 b hb => ?_⟩, ?_⟩
  · have := inv.left i F hF (by omega) b hb
    rw [← this]
    exact leftFace_congr inv.w inv.h inv.px b
  · have hcount := inv.count
    have hlen : st.2.length = o.components + 1 := by rw [inv.length, ← hmk, List.length_set, List.length_replicate]
    have hle : st.2.countP id ≤ o.components + mark0.countP id := by
      by_cases hr : o.contour (-1) (-1) < o.components + 1
      · have := marks_set (List.replicate (o.components + 1) false) (o.contour (-1) (-1)) (by simp [hr])
        rw [hmk] at this
        have := List.countP_le_length (p := id) (l := st.2)
        omega
      · have hz := inv.zero
        rw [← hmk, List.getElem?_set_ne (by omega)] at hz
        cases hst : st.2 with
        | nil => simp
        | cons b l =>
          rw [hst] at hz hlen
          obtain rfl : b = false := by simpa using hz
          have := List.countP_le_length (p := id) (l := l)
          simp only [List.countP_cons, List.length_cons] at hlen ⊢
          simp
          omega
    unfold Map.contours
    dsimp only
    omega

/-! ## The contour of merged faces -/

/-- **C77.** The contour that `mergeFaces` keeps for the merged face is anchored at a dart of one of the two contours it was given: an
anchor or the dart after it.  This dart belongs to the removed edge only if the dart after it and the other anchors tried do too. -/
theorem mergedAnchor_other {e : Nat} {k k' a : Dart} (h : mergedAnchor m e k k' = .ok a) :
    (a = k ∨ phi m k = .ok a ∨ a = k' ∨ phi m k' = .ok a) ∧
    (edgeLabel m a = .ok e → edgeLabel m k = .ok e ∧ (phi m k).bind (edgeLabel m) = .ok e ∧ edgeLabel m k' = .ok e ∧
      (phi m k').bind (edgeLabel m) = .ok e) := by
  unfold mergedAnchor at h
  obtain ⟨l, hl, h⟩ := Outcome.bind_eq_ok.1 h
  by_cases h1 : l ≠ e
  · rw [if_pos h1] at h
    cases h
    exact ⟨Or.inl rfl, fun hh => by rw [hl] at hh; cases hh; exact absurd rfl h1⟩
  rw [if_neg h1] at h
  obtain ⟨k1, hk1, h⟩ := Outcome.bind_eq_ok.1 h
  obtain ⟨l1, hl1, h⟩ := Outcome.bind_eq_ok.1 h
  by_cases h2 : l1 ≠ e
  · rw [if_pos h2] at h
    cases h
    exact ⟨Or.inr (Or.inl hk1), fun hh => by rw [hl1] at hh; cases hh; exact absurd rfl h2⟩
  rw [if_neg h2] at h
  obtain ⟨l2, hl2, h⟩ := Outcome.bind_eq_ok.1 h
  simp only [ne_eq, not_not] at h1 h2
  by_cases h3 : l2 = e
  · rw [if_pos h3] at h
    exact ⟨Or.inr (Or.inr (Or.inr h)), fun hh => ⟨by rw [hl, h1], by rw [hk1, Outcome.bind_ok, hl1, h2], by rw [hl2, h3], by
      rw [h, Outcome.bind_ok, hh]⟩⟩
  · rw [if_neg h3] at h
    cases h
    exact ⟨Or.inr (Or.inr (Or.inl rfl)), fun hh => by rw [hl2] at hh; cases hh; exact absurd rfl h3⟩

/-! ## The image of contours -/

/-- **C76.** Around the given image the contour image has a closed frame of contour pixels at distance one, and background outside. -/
theorem contourImage_spec (w h : Nat) (src : Int → Int → Bool) (x y : Int) :
    (0 ≤ x ∧ x < w ∧ 0 ≤ y ∧ y < h → contourImage w h src x y = src x y) ∧
    ((x = -1 ∨ x = w) ∧ -1 ≤ y ∧ y ≤ h ∨ (y = -1 ∨ y = h) ∧ -1 ≤ x ∧ x ≤ w → contourImage w h src x y = true) ∧
    (x < -1 ∨ w < x ∨ y < -1 ∨ h < y → contourImage w h src x y = false) := by
  unfold contourImage
  refine ⟨fun hh => if_pos hh, fun hh => ?_, fun hh => ?_⟩
  · rw [if_neg (by omega)]
    exact decide_eq_true (by omega)
  · rw [if_neg (by omega)]
    exact decide_eq_false (by omega)

end Verif.FourEight.Props
