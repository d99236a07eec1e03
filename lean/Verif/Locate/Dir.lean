import Verif.Locate.Image

/-! # The directions of cached scanlines along histories -/

set_option linter.unusedSectionVars false

namespace Verif.Locate
open Verif Verif.GeoMap Verif.Polygon Verif.Scan Verif.PermLemmas Verif.LabelImage

variable {K : Type} [Field K] [LinearOrder K] [IsStrictOrderedRing K] [FloorRing K]

/-! ## Joining lines -/

theorem add_dir {A B : Lines} {p a b : List (Pt K)} (hA : DirOK A a) (hB : DirOK B b)
    (hp : ∀ x y, Passes p x y ↔ Passes a x y ∨ Passes b x y) (hw : ∀ c, winding c p = winding c a + winding c b)
    (he : ∀ x y, atEnd x y p.getLast? - atEnd x y p.head? = atEnd x y a.getLast? - atEnd x y a.head? + (atEnd x y b.getLast? - atEnd x y b.head?)) :
    DirOK (A.add B) p := by
  refine ⟨concatLines_ok hA.toScanOK hB.toScanOK hp false, fun x y hn => ?_⟩
  have hwf : ∀ y, ∀ s ∈ (A.merge B).row y, s.b ≤ s.e := by
    intro y s hs
    rw [Lines.row_merge] at hs
    rcases List.mem_append.mp hs with hs | hs
    · exact hA.wf y s hs
    · exact hB.wf y s hs
  rw [hp] at hn
  push Not at hn
  have hcov : ¬ Cov ((A.merge B).row y) x := by
    rw [Lines.row_merge]
    rintro ⟨s, hs, hx⟩
    rcases List.mem_append.mp hs with hs | hs
    · exact hn.1 ((hA.cov x y).mp ⟨s, hs, hx⟩)
    · exact hn.2 ((hB.cov x y).mp ⟨s, hs, hx⟩)
  unfold Lines.add
  rw [(normalize_directions hwf y).1 x hcov, Lines.row_merge, leftSum_append, hA.dir x y hn.1, hB.dir x y hn.2, hw, he]
  ring

section join
variable {X Y : List (Pt K)} (hX : X ≠ []) (hj : X.getLast? = Y.head?)
include hX hj

theorem join_ends : (X.dropLast ++ Y).head? = X.head? ∧ (X.dropLast ++ Y).getLast? = Y.getLast? := by
  cases Y with
  | nil => simp [hX] at hj
  | cons y Y =>
    constructor
    · cases X with
      | nil => exact absurd rfl hX
      | cons x X =>
        cases X with
        | nil => simpa using hj.symm
        | cons z X => rfl
    · rw [List.getLast?_append_of_ne_nil _ (List.cons_ne_nil y Y)]

theorem join_dir {A B : Lines} (hA : DirOK A Y) (hB : DirOK B X) : DirOK (A.add B) (X.dropLast ++ Y) := by
  obtain ⟨h1, h2⟩ := join_ends hX hj
  refine add_dir hA hB (fun x y => ?_) (fun c => ?_) (fun x y => ?_)
  · rw [passes_or (onLine_append hX hj), or_comm]
  · rw [winding_join c hX hj]; ring
  · rw [h1, h2, hj]; ring

theorem join_dir_rev {A B : Lines} (hA : DirOK A Y.reverse) (hB : DirOK B X.reverse) : DirOK (A.add B) (X.dropLast ++ Y).reverse := by
  obtain ⟨h1, h2⟩ := join_ends hX hj
  have hrev : ∀ (l : List (Pt K)) x y, Passes l.reverse x y ↔ Passes l x y := fun l => passes_congr fun r => LabelImage.onLine_reverse l r
  refine add_dir hA hB (fun x y => ?_) (fun c => ?_) (fun x y => ?_)
  · rw [hrev, hrev, hrev, passes_or (onLine_append hX hj), or_comm]
  · rw [winding_reverse, winding_reverse, winding_reverse, winding_join c hX hj]; ring
  · simp only [List.getLast?_reverse, List.head?_reverse]
    rw [h1, h2, hj]; ring

end join

/-! ## Along histories -/

/-- The cached lines have the right directions. -/
def Directed (m : LMap K) : Prop := ∀ l e, m.g.edge l = some e → DirOK (m.lines l e) e.pts

theorem Directed.keep {m n : LMap K} (h : Directed m) (hs : n.scan = m.scan) (he : ∀ l e', n.g.edge l = some e' → ∃ e, m.g.edge l = some e ∧ e.pts = e'.pts) :
    Directed n := by
  intro l e' hl
  obtain ⟨e, h1, h2⟩ := he l e' hl
  have := h l e h1
  unfold LMap.lines at this ⊢
  rw [hs, ← h2]; exact this

theorem edges_of_pts {s t : GMap K} (h : ∀ l, (t.edge l).map (·.pts) = (s.edge l).map (·.pts)) (l : Nat) (e' : Edge K) (he : t.edge l = some e') :
    ∃ e, s.edge l = some e ∧ e.pts = e'.pts := by
  have := h l
  rw [he] at this
  obtain ⟨e, h1, h2⟩ := Option.map_eq_some_iff.mp this.symm
  exact ⟨e, h1, h2⟩

theorem PixChanged.edges {s t : GMap K} (h : PixChanged s t) : t.edge = s.edge := by
  obtain ⟨f, rfl⟩ := h.eq
  rfl

theorem removeBridge_scan {m n : LMap K} {h : Hooks K} {d : Int} {r : Option Nat} {px : List (Int × Int)} (e : m.removeBridge h d = .ok (r, n, px)) : n.scan = m.scan := by
  unfold LMap.removeBridge at e
  obtain ⟨ed, -, e⟩ := Outcome.bind_eq_ok.mp e
  obtain ⟨⟨r', g⟩, -, e⟩ := Outcome.bind_eq_ok.mp e
  simp only at e
  split at e
  · obtain ⟨g', -, e⟩ := Outcome.bind_eq_ok.mp e
    cases e; rfl
  · cases e; rfl

theorem mergeFaces_scan {m n : LMap K} {h : Hooks K} {d : Int} {r : Option Nat} {px : List (Int × Int)} (e : m.mergeFaces h d = .ok (r, n, px)) : n.scan = m.scan := by
  unfold LMap.mergeFaces at e
  obtain ⟨ed, -, e⟩ := Outcome.bind_eq_ok.mp e
  obtain ⟨⟨r', g⟩, -, e⟩ := Outcome.bind_eq_ok.mp e
  simp only at e
  split at e
  · split at e
    · cases e
    · obtain ⟨lut, -, e⟩ := Outcome.bind_eq_ok.mp e
      obtain ⟨g', -, e⟩ := Outcome.bind_eq_ok.mp e
      cases e; rfl
  · cases e; rfl

theorem mergeEdges_directed {m n : LMap K} {im : Img} (hI : Inv m im) (hD : Directed m) {h : Hooks K} {d : Int} {r : Option Nat}
    (e : m.mergeEdges h d = .ok (r, n)) : Directed n := by
  have hx := hI.gstep h (.mergeEdges d) trivial trivial
  unfold LMap.mergeEdges at e
  obtain ⟨nd, hst, e⟩ := Outcome.bind_eq_ok.mp e
  obtain ⟨⟨r', t⟩, e2, e⟩ := Outcome.bind_eq_ok.mp e
  have ht : MapOK t := by
    rcases hx with e1 | ⟨t', e1, hg, -⟩
    · have e1 := map_precond (show (m.g.mergeEdges h d).map (·.2) = .precond from e1)
      rw [e1] at e2; cases e2
    · have e1 : (m.g.mergeEdges h d).map (·.2) = .ok t' := e1
      rw [e2] at e1; cases e1
      exact hg.map
  cases r' with
  | none =>
    simp only at e
    cases e
    have hA := (mergeEdges_vetoed hI.good.map e2).1
    obtain ⟨face', hf'⟩ := hA.eq
    exact hD.keep rfl (fun l e' he => ⟨e', by simp only at he; rw [hf'] at he; exact he, rfl⟩)
  | some l =>
    simp only at e
    obtain ⟨d1, d2, k, hor, rfl, E⟩ := mergeEdges_effect hI.good.map e2
    obtain ⟨a1, a2, a3, h1, h2, h3, h4, -⟩ := E.survivor
    have hk : LMap.mergedLabel m.g d d1.natAbs = d2.natAbs := by
      have hn := E.at_m.2.2
      unfold LMap.mergedLabel
      rcases hor with ⟨rfl, rfl⟩ | ⟨rfl, rfl⟩
      · rw [if_pos rfl]; rfl
      · rw [if_neg hn]
    have g1 : m.g.guaranteedEdge (d1.natAbs : Int) = .ok a1 := guaranteedEdge_of (by rw [Int.natAbs_natCast]; exact h1)
    have g2 : m.g.guaranteedEdge (d2.natAbs : Int) = .ok a2 := guaranteedEdge_of (by rw [Int.natAbs_natCast]; exact h2)
    simp only [bind, Outcome.bind_ok, hk, g1, g2, hI.img] at e
    cases e
    have hgone : t.edge d2.natAbs = none := by
      have := E.edge_gone.2
      unfold GMap.liveD at this
      simpa using this
    have lab := hI.good.map.graph.labels
    have hd1 : d1 ≠ 0 := by
      rintro rfl
      rw [Int.natAbs_zero, lab.edge_zero] at h1; cases h1
    have hd2 : d2 ≠ 0 := by
      rintro rfl
      rw [Int.natAbs_zero, lab.edge_zero] at h2; cases h2
    have s1 := E.at_m.1
    have s2 := E.at_m.2.1
    rw [startN?_of h1] at s1
    rw [startN?_of h2] at s2
    have s1 := Option.some.inj s1
    have s2 := Option.some.inj s2
    have hnd : nd = k := by
      unfold GMap.startLabel at hst
      obtain ⟨ed, hed, hst⟩ := map_ok hst
      rcases hor with ⟨rfl, -⟩ | ⟨-, rfl⟩
      · rw [guaranteedEdge_of h1] at hed; cases hed
        rw [← hst, s1]
      · rw [guaranteedEdge_of h2] at hed; cases hed
        rw [← hst, s2]
    subst hnd
    -- the other ends are other nodes
    have o1 : a1.startOf (-d1) ≠ nd := by
      intro hh
      have q := E.start.2
      rw [startN?_of (s := m.g) (d := -d1) (by rw [Int.natAbs_neg]; exact h1), hh] at q
      have := ht.graph.start_live _ _ q
      rw [E.node_gone.2] at this; cases this
    have o2 : a2.startOf (-d2) ≠ nd := by
      intro hh
      have q := E.start.1
      rw [startN?_of (s := m.g) (d := -d2) (by rw [Int.natAbs_neg]; exact h2), hh] at q
      have := ht.graph.start_live _ _ q
      rw [E.node_gone.2] at this; cases this
    have hjoin : (a2.dartPts (-d2)).getLast? = (a1.dartPts d1).head? := by
      have q1 := (hI.geom.geom.dart (d := d1) h1).1
      have q2 := (hI.geom.geom.dart (d := -d2) (by rw [Int.natAbs_neg]; exact h2)).2
      rw [q1, q2]
      have : a2.endOf (-d2) = a2.startOf d2 := by
        have := Edge.startOf_neg a2 (d := -d2) (by omega)
        rw [neg_neg] at this
        exact this.symm
      rw [this, s1, s2]
    have hne : a2.dartPts (-d2) ≠ [] := Edge.dartPts_ne (lab.pts_ne _ _ h2) _
    have D1 := hD _ _ h1
    have D2 := hD _ _ h2
    have main : DirOK (LMap.concatLines (m.lines d1.natAbs a1) (m.lines d2.natAbs a2) (LMap.concatReverse a1 a2 nd)) a3.pts := by
      unfold Edge.startOf at s1 s2 o1 o2
      unfold LMap.concatLines LMap.concatReverse
      by_cases p1 : 0 < d1
      · rw [if_pos p1] at s1
        simp only [s1, ne_eq, not_true_eq_false, if_false, decide_eq_true_eq]
        have hp : a3.pts = (a2.dartPts (-d2)).dropLast ++ a1.dartPts d1 := by rw [← h4, Edge.dartPts, if_pos p1]
        rw [hp]
        refine join_dir hne hjoin ?_ ?_
        · rw [Edge.dartPts, if_pos p1]; exact D1
        · unfold Edge.dartPts
          by_cases p2 : 0 < d2
          · rw [if_pos p2] at s2
            rw [if_pos s2, if_neg (by omega)]
            exact D2.reverse
          · rw [if_pos (show 0 < -d2 by omega)] at o2
            rw [if_neg o2, if_pos (by omega)]
            exact D2
      · rw [if_pos (show 0 < -d1 by omega)] at o1
        rw [if_pos o1]
        simp only [ne_eq, decide_eq_true_eq]
        have hp : a3.pts = ((a2.dartPts (-d2)).dropLast ++ a1.dartPts d1).reverse := by rw [← h4, Edge.dartPts, if_neg p1, List.reverse_reverse]
        rw [hp]
        refine join_dir_rev hne hjoin ?_ ?_
        · rw [Edge.dartPts, if_neg p1, List.reverse_reverse]; exact D1
        · unfold Edge.dartPts
          by_cases p2 : 0 < d2
          · rw [if_pos p2] at s2
            rw [if_neg (not_not.mpr s2), if_neg (by omega), List.reverse_reverse]
            exact D2
          · rw [if_pos (show 0 < -d2 by omega)] at o2
            rw [if_pos o2, if_pos (by omega)]
            exact D2.reverse
    intro j ej hj
    have hj : t.edge j = some ej := hj
    unfold LMap.lines
    simp only
    by_cases hj1 : j = d1.natAbs
    · subst hj1
      rw [h3] at hj
      cases hj
      rw [Function.update_self]
      exact main
    · rw [Function.update_of_ne hj1]
      have hj2 : j ≠ d2.natAbs := by
        intro hh
        rw [hh, hgone] at hj; cases hj
      rw [E.edges j hj1 hj2] at hj
      exact hD j ej hj

theorem splitEdge_directed {m n : LMap K} {im : Img} (hI : Inv m im) (hD : Directed m) {l i r : Nat} {np : Option (Pt K)}
    (e : m.splitEdge l i np = .ok (r, n)) : Directed n := by
  unfold LMap.splitEdge at e
  obtain ⟨ed, hed, e⟩ := Outcome.bind_eq_ok.mp e
  obtain ⟨⟨r', t⟩, e2, e⟩ := Outcome.bind_eq_ok.mp e
  obtain ⟨e1, q1, e⟩ := Outcome.bind_eq_ok.mp e
  obtain ⟨e3, q3, e⟩ := Outcome.bind_eq_ok.mp e
  have E := splitEdge_effect hI.good.map e2
  obtain ⟨e0, a1, a2, h0, h1, h2, -⟩ := E.halves
  have g1 : t.guaranteedEdge (l : Int) = .ok a1 := guaranteedEdge_of (by simpa using h1)
  have g2 : t.guaranteedEdge (r' : Int) = .ok a2 := guaranteedEdge_of (by simpa using h2)
  rw [g1] at q1; cases q1
  rw [g2] at q3; cases q3
  simp only [hI.img] at e
  cases e
  intro j ej hj
  have hj : t.edge j = some ej := hj
  unfold LMap.lines
  simp only
  by_cases hjr : j = r
  · subst hjr
    rw [h2] at hj; cases hj
    rw [Function.update_self]
    exact edgeLines_dir _
  · rw [Function.update_of_ne hjr]
    by_cases hjl : j = l
    · subst hjl
      rw [h1] at hj; cases hj
      rw [Function.update_self]
      exact edgeLines_dir _
    · rw [Function.update_of_ne hjl]
      rw [E.edges j hjl hjr] at hj
      exact hD j ej hj

theorem call_directed {m n : LMap K} {im : Img} (hI : Inv m im) (hD : Directed m) {h : Hooks K} {op : LOp K} (hl : op.op.legal m.g)
    (e : op.run h m = .ok n) : Directed n := by
  have bridge : ∀ d, (m.removeBridge h d).map (·.2.1) = .ok n → Directed n := by
    intro d e'
    obtain ⟨⟨r, n', px⟩, ee, rfl⟩ := map_ok e'
    have hs := removeBridge_scan ee
    rcases removeBridge_inv hI h d with ⟨-, e2⟩ | ⟨g, e1, e2, -⟩ | ⟨f, g, n', px, im', e1, e2, e3, e4, e5⟩
    · rw [e2] at ee; cases ee
    · rw [e2] at ee; cases ee
      have := removeBridge_vetoed hI.good e1
      exact hD.keep rfl (fun l e' he => ⟨e', by simp only at he; rw [this] at he; exact he, rfl⟩)
    · rw [e2] at ee; cases ee
      have E := removeBridge_effect hI.good e1
      refine hD.keep hs (fun l e' he => ⟨e', ?_, rfl⟩)
      simp only at he
      rw [PixChanged.edges e3] at he
      by_cases hl : l = d.natAbs
      · have := E.edge_gone.2
        unfold GMap.liveD at this
        rw [← hl, he] at this
        exact absurd rfl this
      · rwa [E.edges l hl] at he
  have faces : ∀ d, (m.mergeFaces h d).map (·.2.1) = .ok n → Directed n := by
    intro d e'
    obtain ⟨⟨r, n', px⟩, ee, rfl⟩ := map_ok e'
    have hs := mergeFaces_scan ee
    rcases mergeFaces_inv hI h d with ⟨-, e2⟩ | ⟨g, e1, e2, -⟩ | ⟨sl, ml, g, n', px, im', e1, e2, E, e3, e4, e5⟩
    · rw [e2] at ee; cases ee
    · rw [e2] at ee; cases ee
      have hA := mergeFaces_vetoed hI.good.map e1
      obtain ⟨face', hf'⟩ := hA.eq
      exact hD.keep rfl (fun l e' he => ⟨e', by simp only at he; rw [hf'] at he; exact he, rfl⟩)
    · rw [e2] at ee; cases ee
      refine hD.keep hs (fun l e' he => ?_)
      simp only at he
      rw [PixChanged.edges e3] at he
      by_cases hl : l = d.natAbs
      · have := E.edge_gone.2
        unfold GMap.liveD at this
        rw [← hl, he] at this
        exact absurd rfl this
      · have := congrArg (Option.map fun x => x.2.2.1) (E.edges l hl)
        rw [he] at this
        cases h1 : m.g.edge l with
        | none => rw [h1] at this; cases this
        | some a =>
          rw [h1] at this
          simp only [Option.map_some, Option.some.injEq] at this
          exact ⟨a, rfl, this.symm⟩
  cases op with
  | addNode p label => cases e; exact hD
  | removeIsolatedNode k =>
    obtain ⟨⟨r, t⟩, e1, rfl⟩ := map_ok (show (m.g.removeIsolatedNode h k).map _ = .ok n from e)
    have := (removeIsolatedNode_same e1).2.2.1
    exact hD.keep rfl (fun l e' he => ⟨e', by simp only at he; rw [this] at he; exact he, rfl⟩)
  | area f =>
    obtain ⟨⟨r, t⟩, e1, rfl⟩ := map_ok (show (m.g.faceArea (some f)).map _ = .ok n from e)
    obtain ⟨x, t', e2, -, hA⟩ := area_step hI.good.map (f := f) hl
    rw [e2] at e1; cases e1
    obtain ⟨face', hf'⟩ := hA.eq
    exact hD.keep rfl (fun l e' he => ⟨e', by simp only at he; rw [hf'] at he; exact he, rfl⟩)
  | setFlags l x =>
    obtain ⟨t, e1, rfl⟩ := map_ok (show (m.g.setFlags l x).map _ = .ok n from e)
    unfold GMap.setFlags GMap.guaranteedEdge at e1
    rw [Int.natAbs_natCast] at e1
    cases he : m.g.edge l with
    | none => rw [he] at e1; cases e1
    | some a =>
      rw [he] at e1
      cases e1
      refine hD.keep rfl (edges_of_pts fun k => ?_)
      simp only [GMap.setEdge]
      by_cases hk : k = l
      · subst hk; rw [Function.update_self, he]; rfl
      · rw [Function.update_of_ne hk]
  | mergeEdges d =>
    obtain ⟨⟨r, n'⟩, e1, rfl⟩ := map_ok (show (m.mergeEdges h d).map _ = .ok n from e)
    exact mergeEdges_directed hI hD e1
  | splitEdge l i np =>
    obtain ⟨⟨r, n'⟩, e1, rfl⟩ := map_ok (show (m.splitEdge l i np).map _ = .ok n from e)
    exact splitEdge_directed hI hD e1
  | removeBridge d => exact bridge d e
  | mergeFaces d => exact faces d e
  | removeEdge d =>
    have e' : (m.removeEdge h d).map (·.2.1) = .ok n := e
    unfold LMap.removeEdge at e'
    cases he : m.g.edge d.natAbs with
    | none => simp [GMap.guaranteedEdge, he, bind, Outcome.map, Outcome.bind] at e'
    | some a =>
      simp only [guaranteedEdge_of he, bind, Outcome.bind_ok] at e'
      split_ifs at e'
      · exact bridge d e'
      · exact faces d e'

theorem _root_.Verif.LabelImage.LReach.directed {m : LMap K} (h : LReach m) : Directed m := by
  induction h with
  | on hr hi h0 e =>
    obtain ⟨im, -, -, -, -, -, hl, -⟩ := setHasLabelImage_inv hr.reach.good hr.geom hi h0 e
    intro l ed he
    rw [hl l ed he]
    exact edgeLines_dir _
  | call hk op hm hl hf e ih =>
    obtain ⟨im, hI⟩ := hm.inv
    exact call_directed hI ih hl e
  | @rename m n lab new size hm h0 e ih =>
    obtain ⟨im, hI⟩ := hm.inv
    obtain ⟨im', hn, hw, hh, hR, -⟩ := rename_inv hI h0 e
    refine ih.keep ?_ (edges_of_pts fun l => by rw [hR.edges]; cases m.g.edge l <;> rfl)
    unfold LMap.changeFaceLabels at e
    obtain ⟨r, -, e⟩ := Outcome.bind_eq_ok.mp e
    split_ifs at e
    · simp only [hI.img] at e
      obtain ⟨x, -, e⟩ := Outcome.bind_eq_ok.mp e
      cases e; rfl
    · cases e

end Verif.Locate
