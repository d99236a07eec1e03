import Verif.Midcrack.Props2

/-! # Level contours: properties of `midcracksToThreshold` -/

namespace Verif.Midcrack
open Verif Verif.GeoMap Verif.Crack Verif.Crack.Props

section
variable {K : Type} [Field K] [LinearOrder K] [IsStrictOrderedRing K] [FloorRing K]

/-- `y` is where the line through the values `v1` at `j` and `v2` at `j + 1` has the value `threshold`. -/
def Interpolates (j : Int) (v1 v2 threshold y : K) : Prop := v1 + (y - j) * (v2 - v1) = threshold

omit [LinearOrder K] [IsStrictOrderedRing K] [FloorRing K] in
theorem interpolates_eq {j : Int} {v1 v2 threshold : K} (h : v1 ≠ v2) : Interpolates j v1 v2 threshold (j + (threshold - v1) / (v2 - v1)) := by
  unfold Interpolates
  have : v2 - v1 ≠ 0 := sub_ne_zero.2 (Ne.symm h)
  field_simp
  ring

omit [FloorRing K] in
/-- the level is between the two pixels if the threshold is between their values -/
theorem Interpolates.between {j : Int} {v1 v2 threshold y : K} (h : Interpolates j v1 v2 threshold y) (hne : v1 ≠ v2)
    (ht : (v1 ≤ threshold ∧ threshold ≤ v2) ∨ (v2 ≤ threshold ∧ threshold ≤ v1)) : (j : K) ≤ y ∧ y ≤ j + 1 := by
  unfold Interpolates at h
  rcases ht with ⟨h1, h2⟩ | ⟨h1, h2⟩
  · have hpos : 0 < v2 - v1 := by
      rcases lt_or_gt_of_ne hne with h | h
      · linarith
      · linarith
    constructor
    · by_contra hc
      push Not at hc
      have := mul_neg_of_neg_of_pos (sub_neg.2 hc) hpos
      linarith
    · by_contra hc
      push Not at hc
      have := mul_lt_mul_of_pos_right (show 1 < y - j by linarith) hpos
      linarith
  · have hpos : 0 < v1 - v2 := by
      rcases lt_or_gt_of_ne hne with h | h
      · linarith
      · linarith
    constructor
    · by_contra hc
      push Not at hc
      have := mul_neg_of_neg_of_pos (sub_neg.2 hc) hpos
      linarith
    · by_contra hc
      push Not at hc
      have := mul_lt_mul_of_pos_right (show 1 < y - j by linarith) hpos
      linarith

/-- A point on the crack between two pixels, one above the other, goes to the level between them. -/
theorem thresholdPoint_vertical {size : Int × Int} {src : Int → Int → K} {threshold : K} {i j : Int} (h0 : 0 ≤ i) (h1 : i < size.1) (h2 : 0 ≤ j) (h3 : j + 1 < size.2)
    {y : K} (hy : (j : K) ≤ y) (hy' : y < j + 1) (hne : src i j ≠ src i (j + 1)) :
    ∃ y', thresholdPoint size src threshold ((i : K), y) = some ((i : K), y') ∧ Interpolates j (src i j) (src i (j + 1)) threshold y' := by
  have hf : ⌊y⌋ = j := Int.floor_eq_iff.2 ⟨hy, hy'⟩
  refine ⟨_, ?_, interpolates_eq hne⟩
  unfold thresholdPoint
  dsimp only
  rw [Int.floor_intCast, hf, if_neg (by omega), if_pos rfl, if_neg (by omega), if_neg (sub_ne_zero.2 (Ne.symm hne))]

/-- A point on the crack between two pixels, one beside the other, goes to the level between them. -/
theorem thresholdPoint_horizontal {size : Int × Int} {src : Int → Int → K} {threshold : K} {i j : Int} (h0 : 0 ≤ i) (h1 : i + 1 < size.1) (h2 : 0 ≤ j) (h3 : j < size.2)
    {x : K} (hx : (i : K) < x) (hx' : x < i + 1) (hne : src i j ≠ src (i + 1) j) :
    ∃ x', thresholdPoint size src threshold (x, (j : K)) = some (x', (j : K)) ∧ Interpolates i (src i j) (src (i + 1) j) threshold x' := by
  have hf : ⌊x⌋ = i := Int.floor_eq_iff.2 ⟨le_of_lt hx, hx'⟩
  refine ⟨_, ?_, interpolates_eq hne⟩
  unfold thresholdPoint
  dsimp only
  rw [Int.floor_intCast, hf, if_neg (by omega), if_neg (ne_of_gt hx), if_neg (by omega), if_neg (sub_ne_zero.2 (Ne.symm hne))]

omit [IsStrictOrderedRing K] in
/-- If the two pixels have the same value, the code divides by zero. -/
theorem thresholdPoint_equal {size : Int × Int} {src : Int → Int → K} {threshold : K} {i j : Int} (h0 : 0 ≤ i) (h1 : i + 1 < size.1) (h2 : 0 ≤ j) (h3 : j < size.2)
    {x y : K} (hx : (i : K) < x) (hx' : x < i + 1) (hy : (j : K) ≤ y) (hy' : y < j + 1) (he : src i j = src (i + 1) j) :
    thresholdPoint size src threshold (x, y) = none := by
  have hf : ⌊x⌋ = i := Int.floor_eq_iff.2 ⟨le_of_lt hx, hx'⟩
  have hg : ⌊y⌋ = j := Int.floor_eq_iff.2 ⟨hy, hy'⟩
  unfold thresholdPoint
  dsimp only
  rw [hf, hg, if_neg (by omega), if_neg (ne_of_gt hx), if_neg (by omega), if_pos (by rw [he, sub_self])]

omit [IsStrictOrderedRing K] in
/-- Points outside of the pixel grid stay where they are. -/
theorem thresholdPoint_outside {size : Int × Int} {src : Int → Int → K} {threshold : K} {p : Pt K}
    (h : p.1 < 0 ∨ p.2 < 0 ∨ (size.1 : K) ≤ p.1 ∨ (size.2 : K) ≤ p.2) : thresholdPoint size src threshold p = some p := by
  unfold thresholdPoint
  dsimp only
  by_cases h1 : ⌊p.1⌋ < 0 ∨ ⌊p.2⌋ < 0
  · rw [if_pos h1]
  · rw [if_neg h1]
    have h2 : ⌊p.1⌋ ≥ size.1 ∨ ⌊p.2⌋ ≥ size.2 := by
      rcases h with h | h | h | h
      · exact absurd (Or.inl (Int.floor_lt.2 (by exact_mod_cast h))) h1
      · exact absurd (Or.inr (Int.floor_lt.2 (by exact_mod_cast h))) h1
      · exact Or.inl (Int.le_floor.2 h)
      · exact Or.inr (Int.le_floor.2 h)
    split_ifs with h3 h4 h5 h6 h7 <;> first | rfl | omega

omit [IsStrictOrderedRing K] in
/-- No pixel outside of the image is read: the new position depends on pixels of the image only. -/
theorem thresholdPoint_local {size : Int × Int} {src src' : Int → Int → K} (threshold : K) (p : Pt K)
    (h : ∀ x y, 0 ≤ x → x < size.1 → 0 ≤ y → y < size.2 → src x y = src' x y) :
    thresholdPoint size src threshold p = thresholdPoint size src' threshold p := by
  unfold thresholdPoint
  dsimp only
  by_cases h1 : ⌊p.1⌋ < 0 ∨ ⌊p.2⌋ < 0
  · rw [if_pos h1, if_pos h1]
  rw [if_neg h1, if_neg h1]
  by_cases h2 : p.1 = ⌊p.1⌋
  · rw [if_pos h2, if_pos h2]
    by_cases h3 : ⌊p.1⌋ ≥ size.1 ∨ ⌊p.2⌋ + 1 ≥ size.2
    · rw [if_pos h3, if_pos h3]
    · rw [if_neg h3, if_neg h3, h _ ⌊p.2⌋ (by omega) (by omega) (by omega) (by omega), h _ (⌊p.2⌋ + 1) (by omega) (by omega) (by omega) (by omega)]
  · rw [if_neg h2, if_neg h2]
    by_cases h3 : ⌊p.1⌋ + 1 ≥ size.1 ∨ ⌊p.2⌋ ≥ size.2
    · rw [if_pos h3, if_pos h3]
    · rw [if_neg h3, if_neg h3, h ⌊p.1⌋ _ (by omega) (by omega) (by omega) (by omega), h (⌊p.1⌋ + 1) _ (by omega) (by omega) (by omega) (by omega)]

/-- an example: two images that differ below the last line only -/
example : thresholdPoint (2, 2) (fun x _ => if x = 0 then (0 : ℚ) else 4) 1 (1 / 2, 1) =
    thresholdPoint (2, 2) (fun x y => if y = 2 then 7 else if x = 0 then (0 : ℚ) else 4) 1 (1 / 2, 1) :=
  thresholdPoint_local 1 _ fun x y _ _ _ hy => by
    dsimp only at hy
    rw [if_neg (show ¬ y = 2 by omega)]

/-- what `midcracksToThreshold` does to an edge -/
def Leveled (size : Int × Int) (src : Int → Int → K) (threshold : K) (e e' : Edge K) : Prop :=
  (e.flags.testBit 0 = true → e' = e) ∧
  (e.flags.testBit 0 = false → e' = { e with pts := e'.pts } ∧ List.Forall₂ (fun p p' => thresholdPoint size src threshold p = some p') e.pts e'.pts)

theorem mapM_forall {α β : Type} {f : α → Option β} : ∀ {l : List α} {l' : List β}, l.mapM f = some l' → List.Forall₂ (fun a b => f a = some b) l l'
  | [], l', h => by simp at h; subst h; exact .nil
  | a :: l, l', h => by
    rw [List.mapM_cons] at h
    obtain ⟨b, h1, h⟩ := Option.bind_eq_some_iff.1 h
    obtain ⟨bs, h2, h⟩ := Option.bind_eq_some_iff.1 h
    cases h
    exact .cons h1 (mapM_forall h2)

theorem mapM_exists {α β : Type} {f : α → Option β} : ∀ {l : List α}, (∀ a ∈ l, (f a).isSome = true) → ∃ l', l.mapM f = some l'
  | [], _ => ⟨[], by simp⟩
  | a :: l, h => by
    obtain ⟨b, hb⟩ := Option.isSome_iff_exists.1 (h a (by simp))
    obtain ⟨l', hl⟩ := mapM_exists (l := l) fun x hx => h x (by simp [hx])
    exact ⟨b :: l', by rw [List.mapM_cons, hb, hl]; rfl⟩

omit [Field K] [LinearOrder K] [IsStrictOrderedRing K] [FloorRing K] in
theorem borderFlag (e : Edge K) : e.flag borderProtection = e.flags.testBit 0 := flag_bit e 0

omit [IsStrictOrderedRing K] in
theorem thresholdEdge_leveled {size : Int × Int} {src : Int → Int → K} {threshold : K} {e e' : Edge K} (h : thresholdEdge size src threshold e = some e') :
    Leveled size src threshold e e' := by
  unfold thresholdEdge at h
  rw [borderFlag] at h
  split_ifs at h with hc
  · cases h; exact ⟨fun _ => rfl, fun h => by rw [hc] at h; cases h⟩
  · obtain ⟨pts, h1, rfl⟩ := Option.map_eq_some_iff.1 h
    exact ⟨fun h => absurd h hc, fun _ => ⟨rfl, mapM_forall h1⟩⟩

omit [IsStrictOrderedRing K] in
theorem thresholdEdge_exists {size : Int × Int} {src : Int → Int → K} {threshold : K} {e : Edge K}
    (h : e.flags.testBit 0 = false → ∀ p ∈ e.pts, (thresholdPoint size src threshold p).isSome = true) : ∃ e', thresholdEdge size src threshold e = some e' := by
  unfold thresholdEdge
  rw [borderFlag]
  split_ifs with hc
  · exact ⟨_, rfl⟩
  · obtain ⟨pts, h1⟩ := mapM_exists (h (by simpa using hc))
    rw [h1]; exact ⟨_, rfl⟩

omit [IsStrictOrderedRing K] in
theorem thresholdSteps_edge {size : Int × Int} {src : Int → Int → K} {threshold : K} : ∀ {ls : List Nat} {s t : GMap K}, ls.Nodup → thresholdSteps size src threshold ls s = some t →
    t = { s with edge := t.edge } ∧ (∀ l, l ∉ ls → t.edge l = s.edge l) ∧ ∀ l ∈ ls, (s.edge l = none → t.edge l = none) ∧ ∀ e, s.edge l = some e → ∃ e', t.edge l = some e' ∧ Leveled size src threshold e e'
  | [], s, t, _, h => by unfold thresholdSteps at h; cases h; exact ⟨rfl, fun _ _ => rfl, fun l hl => absurd hl (by simp)⟩
  | l :: ls, s, t, hn, h => by
    rw [List.nodup_cons] at hn
    unfold thresholdSteps at h
    cases he : s.edge l with
    | none =>
      rw [he] at h
      obtain ⟨h1, h2, h3⟩ := thresholdSteps_edge hn.2 h
      refine ⟨h1, fun m hm => h2 m fun hc => hm (by simp [hc]), fun m hm => ?_⟩
      rcases List.mem_cons.1 hm with rfl | hm
      · exact ⟨fun _ => by rw [h2 m hn.1, he], fun e hc => by rw [he] at hc; cases hc⟩
      · exact h3 m hm
    | some e =>
      rw [he] at h
      obtain ⟨e', h0, h⟩ := Option.bind_eq_some_iff.1 h
      obtain ⟨h1, h2, h3⟩ := thresholdSteps_edge hn.2 h
      have hoth : ∀ m, m ≠ l → (s.setEdge l (some e')).edge m = s.edge m := fun m hm => by
        simp only [GMap.setEdge]; rw [Function.update_of_ne hm]
      refine ⟨h1, fun m hm => ?_, fun m hm => ?_⟩
      · rw [h2 m fun hc => hm (by simp [hc]), hoth m fun hc => hm (by simp [hc])]
      · rcases List.mem_cons.1 hm with rfl | hm
        · refine ⟨fun hc => (by rw [he] at hc; cases hc), fun e2 he2 => ⟨e', ?_, ?_⟩⟩
          · rw [h2 m hn.1]; simp [GMap.setEdge]
          · rw [he] at he2; cases he2; exact thresholdEdge_leveled h0
        · have hml : m ≠ l := fun hc => hn.1 (hc ▸ hm)
          have := h3 m hm
          rw [hoth m hml] at this
          exact this

omit [IsStrictOrderedRing K] in
theorem thresholdSteps_exists {size : Int × Int} {src : Int → Int → K} {threshold : K} : ∀ {ls : List Nat} {s : GMap K}, ls.Nodup →
    (∀ l e, s.edge l = some e → e.flags.testBit 0 = false → ∀ p ∈ e.pts, (thresholdPoint size src threshold p).isSome = true) → ∃ t, thresholdSteps size src threshold ls s = some t
  | [], s, _, _ => ⟨s, rfl⟩
  | l :: ls, s, hn, h => by
    rw [List.nodup_cons] at hn
    unfold thresholdSteps
    cases he : s.edge l with
    | none => exact thresholdSteps_exists hn.2 h
    | some e =>
      obtain ⟨e', h0⟩ := thresholdEdge_exists (h l e he)
      dsimp only
      rw [h0]
      -- the edge `l` does not occur again
      have key : ∀ (ls : List Nat) (s t : GMap K), (∀ m ∈ ls, s.edge m = t.edge m) → ls.Nodup →
          (∀ m ∈ ls, ∀ e, s.edge m = some e → e.flags.testBit 0 = false → ∀ p ∈ e.pts, (thresholdPoint size src threshold p).isSome = true) →
          ∃ u, thresholdSteps size src threshold ls t = some u := by
        intro ls
        induction ls with
        | nil => intro s t _ _ _; exact ⟨t, rfl⟩
        | cons m ms ih =>
          intro s t hst hnd hh
          rw [List.nodup_cons] at hnd
          unfold thresholdSteps
          rw [← hst m (by simp)]
          cases hm : s.edge m with
          | none => exact ih s t (fun x hx => hst x (by simp [hx])) hnd.2 fun x hx => hh x (by simp [hx])
          | some em =>
            obtain ⟨e', h0⟩ := thresholdEdge_exists (hh m (by simp) em hm)
            dsimp only
            rw [h0]
            refine ih s _ (fun x hx => ?_) hnd.2 fun x hx => hh x (by simp [hx])
            have : x ≠ m := fun hc => hnd.1 (hc ▸ hx)
            simp only [GMap.setEdge]
            rw [Function.update_of_ne this]
            exact hst x (by simp [hx])
      refine key ls s _ (fun m hm => ?_) hn.2 fun m _ => h m
      have : m ≠ l := fun hc => hn.1 (hc ▸ hm)
      simp only [GMap.setEdge]
      rw [Function.update_of_ne this]

omit [IsStrictOrderedRing K] in
/-- `midcracksToThreshold` changes only points of edges that are not marked as border: each goes to the position that `thresholdPoint`
gives, everything else in the map stays, and no face uses an area computed before. -/
theorem midcracksToThreshold_ok {size : Int × Int} {src : Int → Int → K} {threshold : K} {s t : GMap K} (hs : MapOK s) (e : midcracksToThreshold size src threshold s = some t) :
    SameTopology s t ∧ MapOK t ∧ t.node = s.node ∧ (∀ l e, s.edge l = some e → ∃ e', t.edge l = some e' ∧ Leveled size src threshold e e') ∧
      ∀ f, (s.face f).isSome = true → ∃ t', t.faceArea (some f) = .ok (t.faceSum f, t') := by
  unfold midcracksToThreshold at e
  obtain ⟨u, h, rfl⟩ := Option.map_eq_some_iff.1 e
  obtain ⟨h1, -, h3⟩ := thresholdSteps_edge List.nodup_range h
  have hE : ∀ l, (s.edge l = none → u.edge l = none) ∧ ∀ e, s.edge l = some e → ∃ e', u.edge l = some e' ∧ Leveled size src threshold e e' := by
    intro l
    by_cases hl : l < s.nEdges
    · exact h3 l (List.mem_range.2 hl)
    · have hn : s.edge l = none := by
        by_contra hc
        exact hl (hs.graph.edge_lt l (Option.isSome_iff_ne_none.2 hc))
      have hu : u.edge l = s.edge l := (thresholdSteps_edge List.nodup_range h).2.1 l (by simpa using hl)
      exact ⟨fun _ => by rw [hu, hn], fun e he => by rw [hn] at he; cases he⟩
  have hT : SameTopology s u := by
    rw [h1]
    refine ⟨⟨rfl, rfl, rfl⟩, ⟨rfl, rfl, rfl⟩, ⟨rfl, rfl, rfl⟩, fun _ => rfl, fun l => ?_, fun _ => rfl⟩
    dsimp only
    cases he : s.edge l with
    | none => rw [(hE l).1 he]
    | some ed =>
      obtain ⟨e', g1, g2, g3⟩ := (hE l).2 ed he
      rw [g1, Option.map_some, Option.map_some]
      cases hb : ed.flags.testBit 0 with
      | true => rw [g2 hb]
      | false => rw [(g3 hb).1]
  have hTd := hT.trans (dropCaches_topology u)
  have hedge : (dropCaches u).edge = u.edge := by unfold dropCaches; split_ifs <;> rfl
  have hnode : (dropCaches u).node = u.node := by unfold dropCaches; split_ifs <;> rfl
  have hM : MapOK (dropCaches u) := by
    refine hTd.mapOK hs fun l e' he' hnil => ?_
    rw [hedge] at he'
    cases he : s.edge l with
    | none => rw [(hE l).1 he] at he'; cases he'
    | some ed =>
      obtain ⟨e2, g1, g2, g3⟩ := (hE l).2 ed he
      rw [he'] at g1; cases g1
      have hne := hs.graph.pts_ne l ed he
      cases hb : ed.flags.testBit 0 with
      | true => rw [g2 hb] at hnil; exact hne hnil
      | false =>
        have := (g3 hb).2
        rw [hnil] at this
        cases hp : ed.pts with
        | nil => exact hne hp
        | cons a b => rw [hp] at this; cases this
  refine ⟨hTd, hM, by rw [hnode, h1], fun l ed he => by rw [hedge]; exact (hE l).2 ed he, fun f hf => ?_⟩
  have hf' : ((dropCaches u).face f).isSome = true := by rw [map_isSome (hTd.face f)]; exact hf
  have hA : AreaOK (dropCaches u) := by
    intro g F a hF ha
    exfalso
    have hiu : u.initialized := by
      rw [hT.initialized]
      have := hs.graph.face_lt f hf
      unfold GMap.initialized; omega
    unfold dropCaches at hF
    rw [if_pos hiu] at hF
    simp only [Option.map_eq_some_iff] at hF
    obtain ⟨F', -, rfl⟩ := hF
    cases ha
  obtain ⟨t', h, -⟩ := faceArea_value hM hA hf'
  exact ⟨t', h⟩

omit [IsStrictOrderedRing K] in
/-- It gives finite coordinates if no point of an unmarked edge is between two pixels of the same value. -/
theorem midcracksToThreshold_exists {size : Int × Int} {src : Int → Int → K} {threshold : K} {s : GMap K}
    (h : ∀ l e, s.edge l = some e → e.flags.testBit 0 = false → ∀ p ∈ e.pts, (thresholdPoint size src threshold p).isSome = true) :
    ∃ t, midcracksToThreshold size src threshold s = some t := by
  obtain ⟨u, hu⟩ := thresholdSteps_exists (ls := List.range s.nEdges) List.nodup_range h
  exact ⟨_, by unfold midcracksToThreshold; rw [hu]; rfl⟩

theorem forall_head {α β : Type} {R : α → β → Prop} {l : List α} {l' : List β} (h : List.Forall₂ R l l') {a : α} (ha : l.head? = some a) : ∃ b, l'.head? = some b ∧ R a b := by
  cases h with
  | nil => cases ha
  | cons h _ => cases ha; exact ⟨_, rfl, h⟩

theorem forall_last {α β : Type} {R : α → β → Prop} {l : List α} {l' : List β} (h : List.Forall₂ R l l') {a : α} (ha : l.getLast? = some a) : ∃ b, l'.getLast? = some b ∧ R a b := by
  have := forall_head (List.forall₂_reverse_iff.2 h) (a := a) (by rw [List.head?_reverse]; exact ha)
  rwa [List.head?_reverse] at this

omit [IsStrictOrderedRing K] in
/-- The edges still end at their nodes — provided that the nodes lie where `midcracksToThreshold` does not move points. -/
theorem midcracksToThreshold_geom_partial {size : Int × Int} {src : Int → Int → K} {threshold : K} {s t : GMap K} (hs : MapOK s) (hG : GeomOK s)
    (e : midcracksToThreshold size src threshold s = some t)
    (hfix : ∀ l e p, s.edge l = some e → e.flags.testBit 0 = false → (e.pts.head? = some p ∨ e.pts.getLast? = some p) → thresholdPoint size src threshold p = some p) : GeomOK t := by
  obtain ⟨hT, -, hn, hE, -⟩ := midcracksToThreshold_ok hs e
  intro l e' he'
  obtain ⟨ed, he, g1, g2, -⟩ := hT.edge_some he'
  obtain ⟨e2, k1, k2, k3⟩ := hE l ed he
  rw [he'] at k1; cases k1
  obtain ⟨q1, q2⟩ := hG l ed he
  rw [hn, g1, g2, ← q1, ← q2]
  cases hb : ed.flags.testBit 0 with
  | true => rw [k2 hb]; exact ⟨rfl, rfl⟩
  | false =>
    obtain ⟨-, hF⟩ := k3 hb
    have hne := hs.graph.pts_ne l ed he
    obtain ⟨p, hp⟩ : ∃ p, ed.pts.head? = some p := Option.isSome_iff_exists.1 (by rw [List.isSome_head?]; simpa using hne)
    obtain ⟨q, hq⟩ : ∃ q, ed.pts.getLast? = some q := ⟨_, List.getLast?_eq_some_getLast hne⟩
    obtain ⟨p', h1, h2⟩ := forall_head hF hp
    obtain ⟨q', h3, h4⟩ := forall_last hF hq
    rw [hfix l ed p he hb (Or.inl hp)] at h2; cases h2
    rw [hfix l ed q he hb (Or.inr hq)] at h4; cases h4
    exact ⟨by rw [h1, hp], by rw [h3, hq]⟩

end

/-- marking the border changes only flags -/
theorem markBorder_geom {K : Type} [Field K] {s t : GMap K} (hs : MapOK s) (hi : s.initialized) (e : markBorder s = .ok t) : (GeomOK s → GeomOK t) ∧ (Long s → Long t) := by
  obtain ⟨F, hF⟩ := Option.isSome_iff_exists.1 (hs.contours hi).face_zero
  cases ha : F.anchors with
  | nil => rw [markBorder_empty hF ha] at e; cases e
  | cons a r =>
    obtain ⟨t', e', ht, -, hn, hE⟩ := markBorder_ok hs hi hF ha
    rw [e] at e'; cases e'
    have back : ∀ l e', t.edge l = some e' → ∃ e, s.edge l = some e ∧ SameButBit 0 e e' := by
      intro l e' he'
      cases hu : s.edge l with
      | none => rw [hn l hu] at he'; cases he'
      | some ed =>
        obtain ⟨e2, h1, h2, -⟩ := hE l ed hu
        rw [he'] at h1; cases h1
        exact ⟨ed, rfl, h2⟩
    have hnode : t.node = s.node := by rw [ht]
    refine ⟨fun hG l e' he' => ?_, fun hL l e' he' => ?_⟩
    · obtain ⟨ed, h1, h2⟩ := back l e' he'
      rw [h2.2.2.2.2.1, h2.1, h2.2.1, hnode]
      exact hG l ed h1
    · obtain ⟨ed, h1, h2⟩ := back l e' he'
      rw [h2.2.2.2.2.1]
      exact hL l ed h1

/-! Examples: the whole way from a label image to level contours -/

section Examples

/-- the two pixels of an image, with values 0 and 4 -/
def twoPixels : Pos → Nat := fun p => if p.1 = 0 then 0 else 1

/-- the map of the labels, with the border marked, as midcracks, and as level contours -/
def level (lab : Pos → Nat) (w h : Nat) (src : Int → Int → ℚ) (threshold : ℚ) : Option (GMap ℚ × GMap ℚ) :=
  match (generate lab w h false : Outcome (Gen ℚ)) with
  | .ok g =>
    match initMap (fun _ _ => none) g.map with
    | .ok u =>
      match (markBorder u).bind crackEdgesToMidcracks with
      | .ok m => (midcracksToThreshold (w, h) src threshold m).map fun t => (m, t)
      | _ => none
    | _ => none
  | _ => none

/-- the polygon of an edge with the positions of its two nodes -/
def view (m : GMap ℚ) (l : Nat) : List (Pt ℚ) × Option (Pt ℚ) × Option (Pt ℚ) :=
  match m.edge l with
  | none => ([], none, none)
  | some e => (e.pts, (m.node e.startN).map (·.pos), (m.node e.endN).map (·.pos))

/-- all steps before the last give a consistent map with edges that end at their nodes -/
theorem level_ok {lab : Pos → Nat} {w h : Nat} (hw : 0 < w) (hh : 0 < h) {src : Int → Int → ℚ} {threshold : ℚ} {m t : GMap ℚ} (e : level lab w h src threshold = some (m, t)) :
    MapOK m ∧ GeomOK m ∧ midcracksToThreshold (w, h) src threshold m = some t := by
  unfold level at e
  cases hg : (generate lab w h false : Outcome (Gen ℚ)) with
  | ok g =>
    rw [hg] at e
    dsimp only at e
    obtain ⟨u, e1, hi, hM, M⟩ := crackEdgeMap_initializes lab hw hh false (fun _ _ => none) hg
    rw [e1] at e
    dsimp only at e
    cases hb : (markBorder u).bind crackEdgesToMidcracks with
    | ok m' =>
      rw [hb] at e
      dsimp only at e
      obtain ⟨t', h1, h2⟩ := Option.map_eq_some_iff.1 e
      cases h2
      obtain ⟨v, hv, hm⟩ := Outcome.bind_eq_ok.1 hb
      obtain ⟨hG, hL⟩ := crackMap_geom M
      obtain ⟨k1, k2⟩ := markBorder_geom hM hi hv
      obtain ⟨m2, q1, -, -, q2, q3, -⟩ := crackEdgesToMidcracks_ok (markBorder_mapOK hM hv) (k1 hG) (k2 hL)
      rw [hm] at q1; cases q1
      exact ⟨q2, q3, h1⟩
    | precond => rw [hb] at e; cases e
    | ub => rw [hb] at e; cases e
    | hang => rw [hb] at e; cases e
  | precond => rw [hg] at e; cases e
  | ub => rw [hg] at e; cases e
  | hang => rw [hg] at e; cases e

theorem not_geom {m : GMap ℚ} {l : Nat} (h : (view m l).1.getLast? ≠ (view m l).2.2 ∧ (view m l).1 ≠ []) : ¬ GeomOK m := by
  intro hG
  unfold view at h
  cases he : m.edge l with
  | none => rw [he] at h; exact h.2 rfl
  | some e =>
    rw [he] at h
    exact h.1 (hG l e he).2

/-- one bright pixel in a dark image of 3 × 3 pixels -/
def dot3 : Pos → Nat := fun p => if p = (1, 1) then 1 else 0

theorem dot3_run : (level dot3 3 3 (fun x y => if x = 1 ∧ y = 1 then 4 else 0) 1).map (fun r => view r.2 2) =
    some ([(1 / 4, 1), (1, 1 / 4), (7 / 4, 1), (1, 7 / 4), (1 / 4, 1)], some (1 / 2, 1), some (1 / 2, 1)) := by decide +kernel

/-- The node of a closed level contour stays behind: after `midcracksToThreshold` the contour of a single bright pixel starts and ends
beside its node. -/
theorem midcracksToThreshold_loop_violated : ∃ m t : GMap ℚ, level dot3 3 3 (fun x y => if x = 1 ∧ y = 1 then 4 else 0) 1 = some (m, t) ∧
    MapOK m ∧ GeomOK m ∧ midcracksToThreshold (3, 3) (fun x y => if x = 1 ∧ y = 1 then 4 else 0) 1 m = some t ∧ ¬ GeomOK t := by
  obtain ⟨⟨m, t⟩, h1, h2⟩ := Option.map_eq_some_iff.1 dot3_run
  obtain ⟨k1, k2, k3⟩ := level_ok (by decide) (by decide) h1
  exact ⟨m, t, h1, k1, k2, k3, not_geom (l := 2) (by dsimp only at h2; rw [h2]; decide +kernel)⟩

theorem two_run : (level twoPixels 2 1 (fun x _ => if x = 0 then 0 else 4) 1).map (fun r => view r.2 3) =
    some ([(1 / 2, -1 / 2), (1 / 4, 0), (1 / 4, 1 / 2)], some (1 / 2, -1 / 2), some (1 / 2, 1 / 2)) := by decide +kernel

/-- The end of an edge at a node is moved although it is no midcrack point: at the lower border of an image of two pixels the level
contour leaves its node (at the upper border it does not). -/
theorem midcracksToThreshold_end_violated : ∃ m t : GMap ℚ, level twoPixels 2 1 (fun x _ => if x = 0 then 0 else 4) 1 = some (m, t) ∧
    MapOK m ∧ GeomOK m ∧ midcracksToThreshold (2, 1) (fun x _ => if x = 0 then 0 else 4) 1 m = some t ∧ ¬ GeomOK t := by
  obtain ⟨⟨m, t⟩, h1, h2⟩ := Option.map_eq_some_iff.1 two_run
  obtain ⟨k1, k2, k3⟩ := level_ok (by decide) (by decide) h1
  exact ⟨m, t, h1, k1, k2, k3, not_geom (l := 3) (by dsimp only at h2; rw [h2]; decide +kernel)⟩

/-- At a junction whose upper two pixels have the same value the code divides by zero. -/
theorem midcracksToThreshold_zero_violated : level (fun p => if p.2 = 0 then 0 else if p.1 = 0 then 1 else 2) 2 2 (fun x y => if y = 0 then 0 else if x = 0 then 4 else 8) 1 = none ∧
    (level (fun p => if p.2 = 0 then 0 else if p.1 = 0 then 1 else 2) 2 2 (fun x y => if y = 0 then x else if x = 0 then 4 else 8) (1 / 2)).isSome = true := by
  decide +kernel

/-- the border is marked, the inner loop is not -/
example : (level dot3 3 3 (fun x y => if x = 1 ∧ y = 1 then 4 else 0) 1).map (fun r => ((r.1.edge 1).map (·.flags), (r.1.edge 2).map (·.flags), (r.1.face 0).map (·.anchors.head?))) =
    some (some 1, some 0, some (some 1)) := by decide +kernel

/-- the hypotheses of the interpolation theorems -/
example : thresholdPoint (3, 3) (fun x y => if x = 1 ∧ y = 1 then 4 else 0) 1 ((1 : ℚ), 1 / 2) = some (1, 1 / 4) ∧
    Interpolates 0 (0 : ℚ) 4 1 (1 / 4) ∧ thresholdPoint (3, 3) (fun x y => if x = 1 ∧ y = 1 then 4 else 0) 1 ((5 / 2 : ℚ), 0) = some (5 / 2, 0) := by
  unfold Interpolates; decide +kernel

/-- length and area of the outer contour of the bright pixel, with the Manhattan length -/
example : (level dot3 3 3 (fun x y => if x = 1 ∧ y = 1 then 4 else 0) 1).map (fun r =>
    ((match contourLength (fun l => (l.zip l.tail).foldl (fun a pq => a + |pq.2.1 - pq.1.1| + |pq.2.2 - pq.1.2|) 0) r.1 2 with | .ok x => x | _ => 0),
      (match isoperimetricQuotient (fun _ => 4) 3 r.1 2 with | .ok x => x | _ => none))) = some (4, some (-(8 / 3))) := by decide +kernel

end Examples

end Verif.Midcrack
