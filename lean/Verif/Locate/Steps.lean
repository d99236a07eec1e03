import Verif.Locate.Base
import Verif.GeoMap.Effects
import Verif.LabelImage.Pixels
import Verif.LabelImage.Spec

/-! # The faces of points under the operations -/

set_option linter.unusedSectionVars false

namespace Verif.Locate
open Verif Verif.GeoMap Verif.Polygon Verif.Scan Verif.PermLemmas

variable {K : Type} [Field K] [LinearOrder K] [IsStrictOrderedRing K]

/-! ## Sums over edges -/

/-- 1 if `f` is on the left of `d`, minus 1 if it is on the right. -/
def sides (g : GMap K) (f : Nat) (d : Int) : Int :=
  (if g.left? d = some f then 1 else 0) - if g.left? (-d) = some f then 1 else 0

/-- What the two darts of an edge contribute to the winding number of a face. -/
def part (g : GMap K) (c : Pt K) (f l : Nat) : Int := dartWind g c l * sides g f l

theorem sides_neg (g : GMap K) (f : Nat) (d : Int) : sides g f (-d) = - sides g f d := by
  unfold sides; rw [neg_neg]; ring

theorem part_dart {g : GMap K} (h0 : g.edge 0 = none) (c : Pt K) (f : Nat) (d : Int) : part g c f d.natAbs = dartWind g c d * sides g f d := by
  unfold part
  rcases Int.natAbs_eq d with h | h
  · conv_rhs => rw [h]
  · conv_rhs => rw [h]
    rw [dartWind_neg h0, sides_neg]; ring

theorem part_dead {g : GMap K} (c : Pt K) (f : Nat) {l : Nat} (h : g.edge l = none) : part g c f l = 0 := by
  unfold part dartWind
  rw [Int.natAbs_natCast, h]; simp

theorem sum_icc (G : Int → Int) (n : Nat) :
    ∑ d ∈ Finset.Icc (-(n : Int)) n, G d = G 0 + ∑ l ∈ Finset.range n, (G (l + 1 : Nat) + G (-(l + 1 : Nat))) := by
  induction n with
  | zero => simp
  | succ n ih =>
    have h : Finset.Icc (-((n + 1 : Nat) : Int)) ((n + 1 : Nat) : Int) =
        insert ((n + 1 : Nat) : Int) (insert (-((n + 1 : Nat) : Int)) (Finset.Icc (-(n : Int)) n)) := by
      ext x; simp only [Finset.mem_Icc, Finset.mem_insert]; omega
    rw [h, Finset.sum_insert, Finset.sum_insert, ih, Finset.sum_range_succ]
    · ring
    · simp only [Finset.mem_Icc]; omega
    · simp only [Finset.mem_Icc, Finset.mem_insert]; omega

theorem faceWind_edges {g : GMap K} (h0 : g.edge 0 = none) (hl : ∀ n, (g.edge n).isSome = true → n < g.nEdges) (c : Pt K) (f : Nat) :
    faceWind g c f = ∑ l ∈ Finset.range g.nEdges, part g c f l := by
  have hdead : g.edge g.nEdges = none := by
    cases h : g.edge g.nEdges with
    | none => rfl
    | some e => exact absurd (hl _ (by rw [h]; rfl)) (lt_irrefl _)
  have e1 : faceWind g c f = ∑ d ∈ Finset.Icc (-(g.nEdges : Int)) g.nEdges, if g.left? d = some f then dartWind g c d else 0 := by
    unfold faceWind GMap.darts
    refine Finset.sum_filter_of_ne fun d _ hd => ?_
    by_contra hn
    apply hd
    have : g.edge d.natAbs = none := by simpa using hn
    unfold dartWind
    rw [this]; simp
  have hp : ∀ l : Nat, part g c f l = (if g.left? l = some f then dartWind g c l else 0) + if g.left? (-(l : Int)) = some f then dartWind g c (-(l : Int)) else 0 := by
    intro l
    unfold part sides
    rw [dartWind_neg h0]
    split_ifs <;> ring
  have e2 : (∑ l ∈ Finset.range (g.nEdges + 1), part g c f l) = ∑ l ∈ Finset.range g.nEdges, part g c f l := by
    rw [Finset.sum_range_succ, part_dead c f hdead, add_zero]
  rw [e1, sum_icc, ← e2, Finset.sum_range_succ', part_dead c f h0, add_zero]
  have : (if g.left? 0 = some f then dartWind g c 0 else 0) = 0 := by
    unfold dartWind; rw [Int.natAbs_zero, h0]; simp
  rw [this, zero_add]
  exact Finset.sum_congr rfl fun l _ => (hp _).symm

theorem faceWind_mapOK {g : GMap K} (hM : MapOK g) (c : Pt K) (f : Nat) : faceWind g c f = ∑ l ∈ Finset.range g.nEdges, part g c f l :=
  faceWind_edges hM.graph.edge_zero hM.graph.labels.edge_lt c f

theorem winding_join (c : Pt K) {a b : List (Pt K)} (ha : a ≠ []) (h : a.getLast? = b.head?) :
    winding c (a.dropLast ++ b) = winding c a + winding c b := by
  cases b with
  | nil => simp [ha] at h
  | cons p b =>
    have hc : a = a.dropLast ++ [p] := by
      rw [List.getLast?_eq_getLast_of_ne_nil ha] at h
      simp only [List.head?_cons, Option.some.injEq] at h
      rw [← h, List.dropLast_append_getLast ha]
    rw [winding_append]
    conv_rhs => rw [hc]

theorem winding_split (c : Pt K) {l : List (Pt K)} {i : Nat} (h : i < l.length) :
    winding c l = winding c (l.take (i + 1)) + winding c (l.drop i) := by
  conv_lhs => rw [← List.take_append_drop i l, List.drop_eq_getElem_cons h]
  rw [winding_append, List.drop_eq_getElem_cons h, List.take_succ_eq_append_getElem h]

theorem winding_insert (c : Pt K) {l : List (Pt K)} {i : Nat} {a b p : Pt K} (ha : l[i]? = some a) (hb : l[i + 1]? = some b)
    (h : OnSegment a b p) : winding c (l.insertIdx (i + 1) p) = winding c l := by
  induction i generalizing l with
  | zero =>
    match l, ha, hb with
    | x :: y :: l, ha, hb =>
      simp only [List.getElem?_cons_zero, Option.some.injEq, zero_add, List.getElem?_cons_succ] at ha hb
      subst ha; subst hb
      simp only [zero_add, List.insertIdx_succ_cons, List.insertIdx_zero]
      rw [winding_cons, winding_cons, winding_cons, turn_split h c]; ring
  | succ i ih =>
    match l, ha, hb with
    | x :: y :: l, ha, hb =>
      simp only [List.getElem?_cons_succ] at ha hb
      have := ih (l := y :: l) ha hb
      simp only [List.insertIdx_succ_cons] at this ⊢
      rw [winding_cons, winding_cons, this]

/-! ## Steps -/

/-- The faces of points and the sides of edges change by the renaming `ren`, and edges do not grow. -/
structure Moves (s t : GMap K) (ren : Nat → Nat) : Prop where
  loc : ∀ c f, ¬ OnEdge s c → Located s c f → Located t c (ren f)
  edge : ∀ d e, t.edge d.natAbs = some e → ∀ q, OnLine e.pts q →
      ∃ d' e', s.edge d'.natAbs = some e' ∧ OnLine e'.pts q ∧ t.left? d = (s.left? d').map ren

theorem dartWind_pts {s t : GMap K} {d : Int} (h : (t.edge d.natAbs).map (·.pts) = (s.edge d.natAbs).map (·.pts)) (c : Pt K) :
    dartWind t c d = dartWind s c d := by
  unfold dartWind
  cases h1 : s.edge d.natAbs with
  | none =>
    rw [h1] at h
    have : t.edge d.natAbs = none := by simpa using h
    rw [this]
  | some e =>
    rw [h1] at h
    obtain ⟨e', h2, h3⟩ := Option.map_eq_some_iff.mp (h.trans (by simp : _ = some e.pts))
    rw [h2]
    simp only [Edge.dartPts, h3]

/-- Nothing that matters changes. -/
theorem moves_same {s t : GMap K} (hM : MapOK s) (hMt : MapOK t) (hn : t.nEdges = s.nEdges)
    (hp : ∀ l, (t.edge l).map (·.pts) = (s.edge l).map (·.pts))
    (hl : ∀ d, t.left? d = s.left? d) (hf : ∀ f, (t.face f).isSome = (s.face f).isSome) : Moves s t id := by
  constructor
  · intro c f _ ⟨h1, h2⟩
    refine ⟨by rw [hf]; exact h1, fun k hk => ?_⟩
    rw [hf] at hk
    have h2 := h2 k hk
    rw [id, ← h2, faceWind_mapOK hM, faceWind_mapOK hMt, hn]
    refine Finset.sum_congr rfl fun l _ => ?_
    unfold part sides
    rw [hl, hl, dartWind_pts (hp _)]
  · intro d e he q hq
    have := hp d.natAbs
    rw [he] at this
    obtain ⟨e', h2, h3⟩ := Option.map_eq_some_iff.mp (this.symm.trans (by simp : _ = some e.pts))
    exact ⟨d, e', h2, by rw [h3]; exact hq, by rw [hl]; simp⟩

theorem moves_removeBridge {s t : GMap K} (hM : MapOK s) (hMt : MapOK t) {d : Int} {f : Nat} (E : RemoveBridgeEffect s t d f) :
    Moves s t id := by
  have hgone : t.edge d.natAbs = none := by
    have := E.edge_gone.2
    unfold GMap.liveD at this
    simpa using this
  have hfs : ∀ f, (t.face f).isSome = (s.face f).isSome := fun f => by
    have := congrArg Option.isSome (E.faces f)
    simpa using this
  have hl : ∀ x : Int, x.natAbs ≠ d.natAbs → t.left? x = s.left? x := fun x hx => by
    unfold GMap.left?; rw [E.edges _ hx]
  constructor
  · intro c g _ ⟨h1, h2⟩
    refine ⟨by rw [hfs]; exact h1, fun k hk => ?_⟩
    rw [hfs] at hk
    rw [id, ← h2 k hk, faceWind_mapOK hM, faceWind_mapOK hMt, E.sizes.2.1]
    refine Finset.sum_congr rfl fun l _ => ?_
    by_cases hld : l = d.natAbs
    · rw [hld, part_dead c k hgone, part_dart hM.graph.edge_zero]
      unfold sides
      rw [E.face.1, E.face.2]; ring
    · unfold part sides
      rw [hl _ (by simpa using hld), hl _ (by simpa using hld), dartWind_pts (s := s) (t := t) (by rw [E.edges _ (by simpa using hld)])]
  · intro x e he q hq
    have hx : x.natAbs ≠ d.natAbs := fun h => by rw [h, hgone] at he; cases he
    rw [E.edges _ hx] at he
    exact ⟨x, e, he, hq, by rw [hl x hx]; simp⟩

theorem ind_merge {o : Option Nat} {sl ml k : Nat} (hk : k ≠ ml) :
    (if (if o = some ml then some sl else o) = some k then (1 : Int) else 0) =
      (if o = some k then 1 else 0) + if k = sl then (if o = some ml then 1 else 0) else 0 := by
  by_cases h1 : o = some ml
  · subst h1
    simp only [if_true, Option.some.injEq]
    rw [if_neg (Ne.symm hk)]
    by_cases h : k = sl
    · subst h; simp
    · rw [if_neg h, if_neg (Ne.symm h)]; rfl
  · simp only [h1, if_false]
    split_ifs <;> simp

theorem moves_mergeFaces {s t : GMap K} (hM : MapOK s) (hMt : MapOK t) {d : Int} {sl ml : Nat} (E : MergeFacesEffect s t d sl ml) :
    Moves s t (fun f => if f = ml then sl else f) := by
  have hgone : t.edge d.natAbs = none := by
    have := E.edge_gone.2
    unfold GMap.liveD at this
    simpa using this
  have hpts : ∀ l, l ≠ d.natAbs → (t.edge l).map (·.pts) = (s.edge l).map (·.pts) := fun l hl => by
    have := congrArg (Option.map fun x => x.2.2.1) (E.edges l hl)
    simpa [Option.map_map, Function.comp_def] using this
  obtain ⟨S, Mf, T, hS, hMl, hT, -⟩ := E.areas
  have hslml := E.distinct.1
  have hlive : ∀ l, l ≠ d.natAbs → ((t.edge l).isSome = (s.edge l).isSome) := fun l hl => by
    have := congrArg Option.isSome (hpts l hl)
    simpa using this
  -- sides of the other edges
  have hside : ∀ l : Nat, l ≠ d.natAbs → ∀ k, (t.edge l).isSome = true → k ≠ ml →
      sides t k l = sides s k l + if k = sl then sides s ml l else 0 := by
    intro l hl k hlv hk
    have lv : ∀ x : Int, x.natAbs = l → t.left? x = if s.left? x = some ml then some sl else s.left? x :=
      fun x hx => E.lefts x (by unfold GMap.liveD; rw [hx]; exact hlv)
    unfold sides
    rw [lv l (by simp), lv (-(l : Int)) (by simp)]
    rw [ind_merge hk, ind_merge hk]
    split_ifs <;> ring
  have hpart : ∀ c l k, k ≠ ml → l ≠ d.natAbs → part t c k l = part s c k l + if k = sl then part s c ml l else 0 := by
    intro c l k hk hl
    cases he : t.edge l with
    | none =>
      have : s.edge l = none := by have := hlive l hl; rw [he] at this; simpa using this.symm
      rw [part_dead c k he, part_dead c k this, part_dead c ml this]; simp
    | some e =>
      unfold part
      rw [hside l hl k (by rw [he]; rfl) hk, dartWind_pts (by simpa using hpts l hl)]
      split_ifs <;> ring
  have hd : ∀ c k, k ≠ ml → 0 = part s c k d.natAbs + if k = sl then part s c ml d.natAbs else 0 := by
    intro c k hk
    rw [part_dart hM.graph.edge_zero, part_dart hM.graph.edge_zero]
    have : sides s k d + (if k = sl then sides s ml d else 0) = 0 := by
      unfold sides
      rcases E.sides with ⟨a, b⟩ | ⟨a, b⟩ <;> rw [a, b] <;> simp only [Option.some.injEq] <;>
        rw [if_neg (fun h => hk h.symm : ¬ ml = k), if_neg hslml] <;> simp only [if_true, eq_comm (a := sl)] <;> split_ifs <;> ring
    have := congrArg (dartWind s c d * ·) this
    simp only [mul_zero] at this
    refine this.symm.trans ?_
    split_ifs <;> ring
  have hsum : ∀ c k, k ≠ ml → faceWind t c k = faceWind s c k + if k = sl then faceWind s c ml else 0 := by
    intro c k hk
    rw [faceWind_mapOK hM, faceWind_mapOK hMt, faceWind_mapOK hM, E.sizes.2.1]
    have : ∀ l ∈ Finset.range s.nEdges, part t c k l = part s c k l + if k = sl then part s c ml l else 0 := by
      intro l _
      by_cases hl : l = d.natAbs
      · rw [hl, part_dead c k hgone]; exact hd c k hk
      · exact hpart c l k hk hl
    rw [Finset.sum_congr rfl this, Finset.sum_add_distrib]
    split_ifs <;> simp
  constructor
  · intro c f _ ⟨h1, h2⟩
    refine ⟨?_, fun k hk => ?_⟩
    · by_cases hf : f = ml
      · rw [if_pos hf, hT]; rfl
      · rw [if_neg hf]
        by_cases hf2 : f = sl
        · rw [hf2, hT]; rfl
        · rw [E.faces f hf2 hf]; exact h1
    · have hkm : k ≠ ml := by rintro rfl; rw [E.face_gone.2] at hk; cases hk
      rw [hsum c k hkm]
      have hml := h2 ml E.face_gone.1
      rw [if_neg E.distinct.2] at hml
      by_cases hks : k = sl
      · have hk2 := h2 sl (by rw [hS]; rfl)
        subst hks
        rw [if_pos rfl, hk2, hml]
        by_cases hf : f = ml
        · subst hf; simp [hslml]
          omega
        · rw [if_neg hf, if_neg (Ne.symm hf)]; ring
      · have hk2 := h2 k (by rw [← E.faces k hks hkm]; exact hk)
        rw [if_neg hks, hk2]
        by_cases hf : f = ml
        · subst hf; simp [hks, hkm]
        · rw [if_neg hf]; ring
  · intro x e he q hq
    have hx : x.natAbs ≠ d.natAbs := fun h => by rw [h, hgone] at he; cases he
    have := hpts _ hx
    rw [he] at this
    obtain ⟨e', h2, h3⟩ := Option.map_eq_some_iff.mp (this.symm.trans (by simp : _ = some e.pts))
    refine ⟨x, e', h2, by rw [h3]; exact hq, ?_⟩
    rw [E.lefts x (liveD_edge he)]
    cases s.left? x with
    | none => simp
    | some f =>
      by_cases hf : f = ml
      · simp [hf]
      · simp [hf]

theorem moves_mergeEdges {s t : GMap K} (hM : MapOK s) (hi : s.initialized) (hG : GeomOK s) (hMt : MapOK t) {d1 d2 : Int} {m : Nat}
    (h12 : s.sigma d1 = d2) (h21 : s.sigma d2 = d1) (E : MergeEdgesEffect s t d1 d2 m) : Moves s t id := by
  have h0 := hM.graph.edge_zero
  have hfs : ∀ f, (t.face f).isSome = (s.face f).isSome := fun f => by
    have := congrArg Option.isSome (E.faces f)
    simpa using this
  obtain ⟨e1, e2, e, he1, he2, he, hpts, -⟩ := E.survivor
  have hgone : t.edge d2.natAbs = none := by
    have := E.edge_gone.2
    unfold GMap.liveD at this
    simpa using this
  have hn := E.at_m.2.2
  -- the faces on the sides of the two edges
  have hinv : ∀ x, s.liveD x → s.sigmaInv (s.sigma x) = x := by
    intro x hx
    obtain ⟨π, hg⟩ := hM.graph.exists_rep
    have hxd := (mem_darts hg.labels.edge_lt x).mpr hx
    rw [hg.rep.eq x hxd, hg.rep.eqi _ (hg.rep.mem hxd)]
    simp
  have l1 : s.liveD d1 := liveD_edge he1
  have l2 : s.liveD d2 := liveD_edge he2
  have hneg : ∀ {x}, s.liveD x → s.liveD (-x) := fun hx => by unfold GMap.liveD at hx ⊢; rw [Int.natAbs_neg]; exact hx
  have f1 : s.left? d1 = s.left? (-d2) := by
    have h := (hM.contours hi).left_phi (-d2) (hneg l2)
    have hphi : s.phi (-d2) = d1 := by
      show s.sigmaInv (- -d2) = d1
      rw [neg_neg, ← h12]; exact hinv d1 l1
    rwa [hphi] at h
  have f2 : s.left? d2 = s.left? (-d1) := by
    have h := (hM.contours hi).left_phi (-d1) (hneg l1)
    have hphi : s.phi (-d1) = d2 := by
      show s.sigmaInv (- -d1) = d2
      rw [neg_neg, ← h21]; exact hinv d2 l2
    rwa [hphi] at h
  have tl1 : t.left? d1 = s.left? d1 := E.lefts _ (liveD_edge he)
  have tl2 : t.left? (-d1) = s.left? (-d1) := E.lefts _ (liveD_edge (by rw [Int.natAbs_neg]; exact he))
  have hoff : ∀ l, l ≠ d1.natAbs → l ≠ d2.natAbs → t.edge l = s.edge l := E.edges
  -- geometry of the survivor
  have hjoin : (e2.dartPts (-d2)).getLast? = (e1.dartPts d1).head? := by
    have d20 : d2 ≠ 0 := by rintro rfl; rw [Int.natAbs_zero, h0] at he2; cases he2
    rw [(hG.dart he1).1, Edge.dartPts_neg e2 d20, List.getLast?_reverse, (hG.dart he2).1]
    have a1 := E.at_m.1
    have a2 := E.at_m.2.1
    rw [startN?_of he1] at a1
    rw [startN?_of he2] at a2
    rw [Option.some.inj a1, Option.some.inj a2]
  have hne : e2.dartPts (-d2) ≠ [] := e2.dartPts_ne (hM.graph.pts_ne _ e2 he2) _
  have hW : ∀ c, dartWind t c d1 = dartWind s c (-d2) + dartWind s c d1 := by
    intro c
    unfold dartWind
    rw [he, he1, Int.natAbs_neg, he2]
    simp only
    rw [hpts, winding_join c hne hjoin]
  have hsum : ∀ c k, faceWind t c k = faceWind s c k := by
    intro c k
    rw [faceWind_mapOK hM, faceWind_mapOK hMt, E.sizes.2.1, ← sub_eq_zero, ← Finset.sum_sub_distrib]
    have m1 : d1.natAbs ∈ Finset.range s.nEdges := Finset.mem_range.mpr (hM.graph.labels.edge_lt _ l1)
    have m2 : d2.natAbs ∈ Finset.range s.nEdges := Finset.mem_range.mpr (hM.graph.labels.edge_lt _ l2)
    rw [Finset.sum_eq_add d1.natAbs d2.natAbs hn ?_ (fun h => absurd m1 h) (fun h => absurd m2 h)]
    · rw [part_dead c k hgone, part_dart hMt.graph.edge_zero, part_dart h0, ← Int.natAbs_neg d2, part_dart h0, hW]
      unfold sides
      rw [tl1, tl2, neg_neg, ← f1, f2]; ring
    · intro l _ ⟨ha, hb⟩
      have q := hoff l ha hb
      rw [sub_eq_zero]
      unfold part sides
      rw [dartWind_pts (s := s) (t := t) (by rw [Int.natAbs_natCast, q])]
      unfold GMap.left?
      rw [Int.natAbs_neg, Int.natAbs_natCast, q]
  constructor
  · intro c f _ ⟨h1, h2⟩
    exact ⟨by rw [hfs]; exact h1, fun k hk => by rw [hsum]; exact h2 k (by rw [← hfs]; exact hk)⟩
  · intro x a ha q hq
    by_cases hx : x.natAbs = d1.natAbs
    · rw [hx, he] at ha
      cases ha
      have hq' : OnLine (e.dartPts d1) q := onLine_dart.mpr hq
      rw [hpts, LabelImage.onLine_append hne hjoin] at hq'
      have key : ∀ y : Int, y.natAbs = d1.natAbs → t.left? y = s.left? y := fun y hy =>
        E.lefts y (liveD_edge (by rw [hy]; exact he))
      rcases hq' with h | h
      · rcases Int.natAbs_eq_natAbs_iff.mp hx with rfl | rfl
        · exact ⟨-d2, e2, by rw [Int.natAbs_neg]; exact he2, onLine_dart.mp h, by rw [tl1, f1]; simp⟩
        · exact ⟨d2, e2, he2, onLine_dart.mp h, by rw [tl2, ← f2]; simp⟩
      · exact ⟨x, e1, by rw [hx]; exact he1, onLine_dart.mp h, by rw [key x hx]; simp⟩
    · have hx2 : x.natAbs ≠ d2.natAbs := fun h => by rw [h, hgone] at ha; cases ha
      have hl := E.lefts x (liveD_edge ha)
      rw [hoff _ hx hx2] at ha
      exact ⟨x, a, ha, hq, by rw [hl]; simp⟩

theorem moves_splitEdge {s t : GMap K} (hM : MapOK s) (hMt : MapOK t) {l i nn r : Nat} {np : Option (Pt K)}
    (hf : (LabelImage.LOp.splitEdge l i np).fits s) (hi : ∀ e, s.edge l = some e → i < e.pts.length - 1)
    (E : SplitEdgeEffect s t l i np nn r) : Moves s t id := by
  have h0 := hM.graph.edge_zero
  obtain ⟨e, e1, e2, he, he1, he2, p1, p2, -, -⟩ := E.halves
  have hi := hi e he
  have hr := E.fresh.2
  have hll : l < s.nEdges := hM.graph.labels.edge_lt l (by rw [he]; rfl)
  have hlr : l ≠ r := by omega
  have q1 : i < e.pts.length := by omega
  have q2 : i + 1 < e.pts.length := by omega
  have hline : ∀ q, OnLine e.pts q ↔ OnLine (splitPts e.pts i np) q := by
    intro q
    cases np with
    | none => exact Iff.rfl
    | some p =>
      exact (LabelImage.onLine_insert (List.getElem?_eq_getElem q1) (List.getElem?_eq_getElem q2)
        (hf e _ _ he (List.getElem?_eq_getElem q1) (List.getElem?_eq_getElem q2)) q).symm
  have hwind : ∀ c, winding c e.pts = winding c e1.pts + winding c e2.pts := by
    intro c
    have : winding c e.pts = winding c (splitPts e.pts i np) := by
      cases np with
      | none => rfl
      | some p =>
        exact (winding_insert c (List.getElem?_eq_getElem q1) (List.getElem?_eq_getElem q2)
          (hf e _ _ he (List.getElem?_eq_getElem q1) (List.getElem?_eq_getElem q2))).symm
    rw [this, p1, p2]
    exact winding_split c (splitPts_get hi np)
  have ll : s.liveD (l : Int) := liveD_edge (e := e) (by simpa using he)
  have lm : s.liveD (-(l : Int)) := liveD_edge (e := e) (by simpa using he)
  have L1 := E.lefts.2.2 _ ll
  have L2 := E.lefts.2.2 _ lm
  have hl0 : l ≠ 0 := by rintro rfl; rw [h0] at he; cases he
  have dpos : ∀ (g : GMap K) (a : Edge K) (k : Nat) c, k ≠ 0 → g.edge k = some a → dartWind g c k = winding c a.pts := by
    intro g a k c hk hg
    unfold dartWind
    rw [Int.natAbs_natCast, hg]
    simp only [Edge.dartPts]
    rw [if_pos (by omega)]
  have hsum : ∀ c k, faceWind t c k = faceWind s c k := by
    intro c k
    rw [faceWind_mapOK hM, faceWind_mapOK hMt, E.sizes.2.1, Finset.sum_range_succ, ← hr]
    have hdiff : (∑ x ∈ Finset.range s.nEdges, part t c k x) - ∑ x ∈ Finset.range s.nEdges, part s c k x = part t c k l - part s c k l := by
      rw [← Finset.sum_sub_distrib]
      refine Finset.sum_eq_single l ?_ (fun h => absurd (Finset.mem_range.mpr hll) h)
      intro x hx hxl
      have hxr : x ≠ r := by rw [Finset.mem_range] at hx; omega
      have q := E.edges x hxl hxr
      rw [sub_eq_zero]
      unfold part sides
      rw [dartWind_pts (s := s) (t := t) (by rw [Int.natAbs_natCast, q])]
      unfold GMap.left?
      rw [Int.natAbs_neg, Int.natAbs_natCast, q]
    have : part t c k l + part t c k r = part s c k l := by
      unfold part sides
      rw [dpos t e1 l c hl0 he1, dpos t e2 r c (by omega) he2, dpos s e l c hl0 he, L1, L2, E.lefts.1, E.lefts.2.1, hwind c]
      ring
    rw [← hr] at hdiff
    linarith
  constructor
  · intro c f _ ⟨h1, h2⟩
    exact ⟨by rw [E.faces]; exact h1, fun k hk => by rw [hsum]; exact h2 k (by rw [← E.faces]; exact hk)⟩
  · intro x a ha q hq
    have split : ∀ q, OnLine e1.pts q ∨ OnLine e2.pts q → OnLine e.pts q := by
      intro q h
      rw [hline, LabelImage.onLine_split (splitPts_get hi np), ← p1, ← p2]; exact h
    by_cases hx : x.natAbs = l
    · rw [hx, he1] at ha
      cases ha
      refine ⟨x, e, by rw [hx]; exact he, split q (Or.inl hq), ?_⟩
      rw [E.lefts.2.2 x (liveD_edge (by rw [hx]; exact he))]; simp
    · by_cases hx2 : x.natAbs = r
      · rw [hx2, he2] at ha
        cases ha
        rcases Int.natAbs_eq x with h | h
        · refine ⟨l, e, by simpa using he, split q (Or.inr hq), ?_⟩
          rw [h, hx2, E.lefts.1]; simp
        · refine ⟨-(l : Int), e, by simpa using he, split q (Or.inr hq), ?_⟩
          rw [h, hx2, E.lefts.2.1]; simp
      · rw [E.edges _ hx hx2] at ha
        refine ⟨x, a, ha, hq, ?_⟩
        rw [E.lefts.2.2 x (liveD_edge ha)]; simp

theorem onEdge_mergeEdges {s t : GMap K} (hM : MapOK s) (hG : GeomOK s) {d1 d2 : Int} {m : Nat}
    (E : MergeEdgesEffect s t d1 d2 m) {c : Pt K} (hc : OnEdge s c) : OnEdge t c := by
  have h0 := hM.graph.edge_zero
  obtain ⟨e1, e2, e, he1, he2, he, hpts, -⟩ := E.survivor
  have hjoin : (e2.dartPts (-d2)).getLast? = (e1.dartPts d1).head? := by
    have d20 : d2 ≠ 0 := by rintro rfl; rw [Int.natAbs_zero, h0] at he2; cases he2
    rw [(hG.dart he1).1, Edge.dartPts_neg e2 d20, List.getLast?_reverse, (hG.dart he2).1]
    have a1 := E.at_m.1
    have a2 := E.at_m.2.1
    rw [startN?_of he1] at a1
    rw [startN?_of he2] at a2
    rw [Option.some.inj a1, Option.some.inj a2]
  have hne : e2.dartPts (-d2) ≠ [] := e2.dartPts_ne (hM.graph.pts_ne _ e2 he2) _
  obtain ⟨l, a, ha, hq⟩ := hc
  by_cases h1 : l = d1.natAbs
  · rw [h1, he1] at ha
    cases ha
    refine ⟨_, e, he, onLine_dart (d := d1) |>.mp ?_⟩
    rw [hpts, LabelImage.onLine_append hne hjoin]
    exact Or.inr (onLine_dart.mpr hq)
  · by_cases h2 : l = d2.natAbs
    · rw [h2, he2] at ha
      cases ha
      refine ⟨_, e, he, onLine_dart (d := d1) |>.mp ?_⟩
      rw [hpts, LabelImage.onLine_append hne hjoin]
      exact Or.inl (onLine_dart.mpr hq)
    · exact ⟨l, a, by rw [E.edges l h1 h2]; exact ha, hq⟩

theorem onEdge_splitEdge {s t : GMap K} (hM : MapOK s) {l i nn r : Nat} {np : Option (Pt K)}
    (hf : (LabelImage.LOp.splitEdge l i np).fits s) (hi : ∀ e, s.edge l = some e → i < e.pts.length - 1)
    (E : SplitEdgeEffect s t l i np nn r) {c : Pt K} (hc : OnEdge s c) : OnEdge t c := by
  obtain ⟨e, e1, e2, he, he1, he2, p1, p2, -, -⟩ := E.halves
  have hi := hi e he
  have q1 : i < e.pts.length := by omega
  have q2 : i + 1 < e.pts.length := by omega
  obtain ⟨k, a, ha, hq⟩ := hc
  by_cases h1 : k = l
  · rw [h1, he] at ha
    cases ha
    have hline : OnLine (splitPts e.pts i np) c := by
      cases np with
      | none => exact hq
      | some p =>
        exact (LabelImage.onLine_insert (List.getElem?_eq_getElem q1) (List.getElem?_eq_getElem q2)
          (hf e _ _ he (List.getElem?_eq_getElem q1) (List.getElem?_eq_getElem q2)) c).mpr hq
    rw [LabelImage.onLine_split (splitPts_get hi np), ← p1, ← p2] at hline
    rcases hline with h | h
    · exact ⟨l, e1, he1, h⟩
    · exact ⟨r, e2, he2, h⟩
  · have hk : k < s.nEdges := hM.graph.labels.edge_lt k (by rw [ha]; rfl)
    have hr := E.fresh.2
    exact ⟨k, a, by rw [E.edges k h1 (by omega)]; exact ha, hq⟩

theorem moves_rename {s t : GMap K} (hM : MapOK s) (hi : s.initialized) {new : List Nat} {size : Nat} (h0 : new[0]? = some 0)
    (hMt : MapOK t) (R : RenamedBy new size s t) : Moves s t (fun f => new.getD f 0) := by
  have hget : ∀ f k : Nat, new[f]? = some k → new.getD f 0 = k := fun f k h => by
    rw [List.getD_eq_getElem?_getD, h]; rfl
  have hpts : ∀ l, (t.edge l).map (·.pts) = (s.edge l).map (·.pts) := fun l => by
    rw [R.edges]; cases s.edge l <;> rfl
  have hz : (s.face 0).isSome = true := (hM.contours hi).face_zero
  have hsum : ∀ c l k, (s.face l).isSome = true → new[l]? = some k → faceWind t c k = faceWind s c l := by
    intro c l k hl hk
    rw [faceWind_mapOK hM, faceWind_mapOK hMt, R.sigma.2.2.2.2.1]
    refine Finset.sum_congr rfl fun x _ => ?_
    unfold part sides
    simp only [R.left_iff hM hi hl hk]
    rw [dartWind_pts (hpts _)]
  constructor
  · intro c f _ ⟨h1, h2⟩
    obtain ⟨f', hf'⟩ := R.defd f h1
    rw [hget f f' hf']
    refine ⟨by rw [R.face h1 hf']; exact h1, fun k hk => ?_⟩
    obtain ⟨F, hF⟩ := Option.isSome_iff_exists.mp hk
    obtain ⟨l, hl, hlk⟩ := (R.faces k F).mp hF
    have hls : (s.face l).isSome = true := by rw [hl]; rfl
    rw [hsum c l k hls hlk, h2 l hls]
    have a1 : l = f ↔ k = f' := by
      constructor
      · rintro rfl
        rw [hlk] at hf'; exact Option.some.inj hf'
      · rintro rfl
        exact R.inj l f k hls h1 hlk hf'
    have a2 : l = 0 ↔ k = 0 := by
      constructor
      · rintro rfl
        rw [hlk] at h0; exact Option.some.inj h0
      · rintro rfl
        exact R.inj l 0 0 hls hz hlk h0
    simp only [a1, a2]
  · intro d e he q hq
    have := hpts d.natAbs
    rw [he] at this
    obtain ⟨e', h2, h3⟩ := Option.map_eq_some_iff.mp (this.symm.trans (by simp : _ = some e.pts))
    refine ⟨d, e', h2, by rw [h3]; exact hq, ?_⟩
    rw [R.left]
    obtain ⟨f, F, h4, h5⟩ := (hM.contours hi).face_live d (liveD_edge h2)
    obtain ⟨k, hk⟩ := R.defd f (by rw [h5]; rfl)
    rw [h4]
    simp only [Option.bind_some, Option.map_some]
    rw [hk, hget f k hk]

end Verif.Locate
