import Verif.Parallel.Ring
import Verif.GeoMap.Geometry2

/-! # The splitting phase -/

namespace Verif.Parallel
open Verif Verif.GeoMap Verif.Eventually Equiv Equiv.Perm Verif.PermLemmas

/-- one split -/
structure SplitOne (s t : GMap ℝ) (l i : Nat) (p : Pt ℝ) (e : Edge ℝ) : Prop where
  sound : Sound t
  start : ∀ x, t.startN? x = if x = s.nEdges ∨ x = -(l : Int) then some s.nNodes else if x = -(s.nEdges : Int) then some e.endN else s.startN? x
  sigma : ∀ x, s.liveD x ∨ x = s.nEdges ∨ x = -(s.nEdges : Int) → t.sigma x = if x = -(l : Int) then (s.nEdges : Int) else if x = s.nEdges then -(l : Int)
    else if x = -(s.nEdges : Int) then (if s.sigma (-(l : Int)) = -(l : Int) then -(s.nEdges : Int) else s.sigma (-(l : Int)))
    else if s.sigma x = -(l : Int) then -(s.nEdges : Int) else s.sigma x
  edge : ∀ j, j ≠ l → j ≠ s.nEdges → t.edge j = s.edge j
  left : ∃ el, t.edge l = some el ∧ el.pts = e.pts.take (i + 1) ++ [p] ∧ el.flags = e.flags
  right : ∃ er, t.edge s.nEdges = some er ∧ er.pts = p :: e.pts.drop (i + 1) ∧ er.flags = e.flags
  pos : ∀ j, j < s.nNodes → (t.node j).map (·.pos) = (s.node j).map (·.pos)
  newPos : (t.node s.nNodes).map (·.pos) = some p
  nNodes : t.nNodes = s.nNodes + 1
  nEdges : t.nEdges = s.nEdges + 1
  nodeCount : t.nodeCount = s.nodeCount + 1
  edgeCount : t.edgeCount = s.edgeCount + 1
  lt : 0 < l ∧ l < s.nEdges

theorem insertIdx_take (l : List (Pt ℝ)) (i : Nat) (p : Pt ℝ) (hi : i ≤ l.length) : (l.insertIdx i p).take (i + 1) = l.take i ++ [p] := by
  induction l generalizing i with
  | nil => simp at hi; subst hi; simp
  | cons a l ih =>
    cases i with
    | zero => simp
    | succ i => simp only [List.length_cons] at hi; simp [ih i (by omega)]

theorem insertIdx_drop (l : List (Pt ℝ)) (i : Nat) (p : Pt ℝ) (hi : i ≤ l.length) : (l.insertIdx i p).drop i = p :: l.drop i := by
  induction l generalizing i with
  | nil => simp at hi; subst hi; simp
  | cons a l ih =>
    cases i with
    | zero => simp
    | succ i => simp only [List.length_cons] at hi; simp [ih i (by omega)]

theorem splitOne {s : GMap ℝ} (hs : Sound s) {l i : Nat} {p : Pt ℝ} {e : Edge ℝ} (he : s.edge l = some e) (hi : i + 1 < e.pts.length) :
    ∃ t, s.splitEdge l i (some p) = .ok (s.nEdges, t) ∧ SplitOne s t l i p e := by
  obtain ⟨π, hg⟩ := hs.ok.1.exists_rep
  obtain ⟨cnd, p', hp, C, h1, h2⟩ := splitEdge_spec hs.ok he (some p) (by omega : i < e.pts.length - 1)
  have hgeo := C.geom hg hs.geom (np := some p) (by omega : i < e.pts.length - 1) hp
  obtain ⟨h0, hlt, hn, hm, hr, hq, s1, s2⟩ := C.facts hg
  have hT : (splitPts e.pts i (some p)).take (splitIdx i (some p) + 1) = e.pts.take (i + 1) ++ [p] := insertIdx_take _ (i + 1) _ (by omega)
  have hD : (splitPts e.pts i (some p)).drop (splitIdx i (some p)) = p :: e.pts.drop (i + 1) := insertIdx_drop _ (i + 1) _ (by omega)
  have hpp : p' = p := by
    have : (splitPts e.pts i (some p))[splitIdx i (some p)]? = some p := by
      rw [← List.head?_drop, hD]; rfl
    rw [hp] at this; exact Option.some.inj this
  subst hpp
  rw [hT, hD] at h1 h2 hgeo
  have hg' := splitState_graph (p := p') (ptsL := e.pts.take (i + 1) ++ [p']) (ptsR := p' :: e.pts.drop (i + 1)) hg C (by simp) (by simp)
  have ner : -(l : Int) ≠ s.nEdges := by omega
  have neq : -(l : Int) ≠ -(s.nEdges : Int) := by omega
  have hrq : (s.nEdges : Int) ≠ -(s.nEdges : Int) := by omega
  have pr := hg.rep.fix _ hr
  have pq := hg.rep.fix _ hq
  refine ⟨_, h1, ⟨h2, ?_, hgeo, ?_⟩, splitState_start hg C, ?_, ?_, ?_, ?_, ?_, ?_, rfl, rfl, rfl, rfl, h0, hlt⟩
  · exact hs.raw
  · intro j ej hj
    simp only [splitState] at hj
    by_cases hk1 : j = l
    · subst hk1; simp at hj; subst hj; simp only [List.length_append, List.length_take, List.length_singleton]; omega
    · rw [Function.update_of_ne hk1] at hj
      by_cases hk2 : j = s.nEdges
      · subst hk2; simp at hj; subst hj; simp only [List.length_cons, List.length_drop]; omega
      · rw [Function.update_of_ne hk2] at hj; exact hs.long _ _ hj
  · intro x hx
    have hx' : x ∈ insert (-(s.nEdges : Int)) (insert (s.nEdges : Int) s.darts) := by
      simp only [Finset.mem_insert]
      rcases hx with hx | hx | hx
      · exact Or.inr (Or.inr ((hg.live x).2 hx))
      · tauto
      · tauto
    rw [hg'.rep.eq x hx', split_apply pr pq ner neq hrq, hg.rep.eq _ hm]
    by_cases x1 : x = -(l : Int)
    · rw [if_pos x1, if_pos x1]
    · rw [if_neg x1, if_neg x1]
      by_cases x2 : x = s.nEdges
      · rw [if_pos x2, if_pos x2]
      · rw [if_neg x2, if_neg x2]
        by_cases x3 : x = -(s.nEdges : Int)
        · rw [if_pos x3, if_pos x3]
        · rw [if_neg x3, if_neg x3]
          have : s.liveD x := by tauto
          rw [hg.rep.eq x ((hg.live x).2 this)]
  · intro j h1 h2
    simp only [splitState]
    rw [Function.update_of_ne h1, Function.update_of_ne h2]
  · simp only [splitState]
    rw [Function.update_self]
    exact ⟨_, rfl, rfl, rfl⟩
  · simp only [splitState]
    rw [Function.update_of_ne (by omega), Function.update_self]
    exact ⟨_, rfl, rfl, rfl⟩
  · intro j hj
    simp only [splitState, Function.update_apply]
    by_cases g1 : j = e.endN
    · rw [if_pos g1, g1, C.hcn]; rfl
    · rw [if_neg g1, if_neg (by omega)]
  · simp only [splitState, Function.update_apply]
    rw [if_neg (by omega)]; simp

section
variable {s t : GMap ℝ} {l i : Nat} {p : Pt ℝ} {e : Edge ℝ}

theorem SplitOne.two_new (h : SplitOne s t l i p e) : Two t s.nNodes (s.nEdges : Int) (-(l : Int)) := by
  have := h.lt
  refine ⟨by omega, by omega, ?_, ?_, ?_, ?_⟩
  · rw [h.start, if_pos (Or.inl rfl)]
  · rw [h.start, if_pos (Or.inr rfl)]
  · rw [h.sigma _ (Or.inr (Or.inl rfl)), if_neg (by omega), if_pos rfl]
  · by_cases hl : s.liveD (-(l : Int))
    · rw [h.sigma _ (Or.inl hl), if_pos rfl]
    · exfalso
      obtain ⟨el, h1, -⟩ := h.left
      have hst := h.start l
      rw [if_neg (by omega), if_neg (by omega)] at hst
      have hlive : t.liveD (l : Int) := by unfold GMap.liveD; simp [h1]
      apply hl
      unfold GMap.startN? at hst
      simp only [Int.natAbs_natCast, h1, Option.map_some] at hst
      unfold GMap.liveD
      cases hs : s.edge l with
      | none => rw [hs] at hst; simp at hst
      | some e => simp [hs]

theorem start_lt {s : GMap ℝ} (hs : Sound s) {d : Int} {n : Nat} (h : s.startN? d = some n) : d.natAbs < s.nEdges ∧ n < s.nNodes ∧ s.liveD d := by
  obtain ⟨π, hg⟩ := hs.ok.1.exists_rep
  have hl := liveD_of_start h
  obtain ⟨nd, hnd⟩ := node_of_start hg h
  exact ⟨hg.labels.edge_lt _ hl, hg.labels.node_lt _ (by simp [hnd]), hl⟩

theorem SplitOne.two_old (hs : Sound s) (h : SplitOne s t l i p e) {n : Nat} {a b : Int} (hT : Two s n a b) (ha : a ≠ -(l : Int)) (hb : b ≠ -(l : Int)) :
    Two t n a b := by
  obtain ⟨a1, a2, a3⟩ := start_lt hs hT.sa
  obtain ⟨b1, b2, b3⟩ := start_lt hs hT.sb
  refine ⟨hT.ne, hT.ne', ?_, ?_, ?_, ?_⟩
  · rw [h.start, if_neg (by omega), if_neg (by omega), hT.sa]
  · rw [h.start, if_neg (by omega), if_neg (by omega), hT.sb]
  · rw [h.sigma _ (Or.inl a3), if_neg ha, if_neg (by omega), if_neg (by omega), hT.ab, if_neg hb]
  · rw [h.sigma _ (Or.inl b3), if_neg hb, if_neg (by omega), if_neg (by omega), hT.ba, if_neg ha]

theorem SplitOne.two_move (hs : Sound s) (he : s.edge l = some e) (h : SplitOne s t l i p e) {n : Nat} {a : Int} (hT : Two s n a (-(l : Int))) :
    Two t n a (-(s.nEdges : Int)) := by
  obtain ⟨a1, a2, a3⟩ := start_lt hs hT.sa
  have hlt := h.lt
  have hne := hT.ne
  have hne' := hT.ne'
  have hE : s.startN? (-(l : Int)) = some e.endN := by
    rw [startN?_of (s := s) (d := -l) (e := e) (by simpa using he)]; unfold Edge.startOf; rw [if_neg (by omega)]
  have hn : e.endN = n := by have := hT.sb; rw [hE] at this; exact Option.some.inj this
  refine ⟨by omega, by omega, ?_, ?_, ?_, ?_⟩
  · rw [h.start, if_neg (by omega), if_neg (by omega), hT.sa]
  · rw [h.start, if_neg (by omega), if_pos rfl, hn]
  · rw [h.sigma _ (Or.inl a3), if_neg hne, if_neg (by omega), if_neg (by omega), hT.ab, if_pos rfl]
  · rw [h.sigma _ (Or.inr (Or.inr rfl)), if_neg (by omega), if_neg (by omega), if_pos rfl, hT.ba, if_neg hne]

end

/-! ## the table of the splits -/

/-- two rows, the first with the larger arc length -/
structure RowLt (u v : Row) : Prop where
  r : u.r ≠ v.r
  n : u.n ≠ v.n
  q : u.q ≠ v.q
  rq : u.r ≠ v.q
  qr : u.q = v.r → u.e.label.natAbs = v.e.label.natAbs

structure Tab (s0 s : GMap ℝ) (T : List Row) : Prop where
  sound : Sound s
  two : ∀ w ∈ T, Two s w.n w.r (-(w.q : Int))
  posn : ∀ w ∈ T, (s.node w.n).map (·.pos) = some w.e.at_.pos
  old : ∀ j, j < s0.nNodes → (s.node j).map (·.pos) = (s0.node j).map (·.pos)
  r : ∀ w ∈ T, s0.nEdges ≤ w.r ∧ w.r < s.nEdges
  n : ∀ w ∈ T, s0.nNodes ≤ w.n ∧ w.n < s.nNodes
  q : ∀ w ∈ T, w.q < s.nEdges ∧ (w.q < s0.nEdges → w.q = w.e.label.natAbs)
  lab : ∀ w ∈ T, w.e.label.natAbs < s0.nEdges
  pw : T.Pairwise RowLt
  room : ∀ l e0, s0.edge l = some e0 → ∃ e, s.edge l = some e ∧
    (e.pts.length = e0.pts.length ∨ ∃ w ∈ T, w.e.label.natAbs = l ∧ e.pts.length = w.e.at_.seg + 2)
  nNodes : s.nNodes = s0.nNodes + T.length
  nEdges : s.nEdges = s0.nEdges + T.length
  nodeCount : s.nodeCount = s0.nodeCount + T.length
  edgeCount : s.edgeCount = s0.edgeCount + T.length

theorem Tab.init {s : GMap ℝ} (hs : Sound s) : Tab s s [] where
  sound := hs
  two := by simp
  posn := by simp
  old := by simp
  r := by simp
  n := by simp
  q := by simp
  lab := by simp
  pw := List.Pairwise.nil
  room := fun l e h => ⟨e, h, Or.inl rfl⟩
  nNodes := rfl
  nEdges := rfl
  nodeCount := rfl
  edgeCount := rfl

/-- the rows after a further split -/
def bump (T : List Row) (l r : Nat) : List Row := T.map fun w => if w.q = l then { w with q := r } else w

theorem mem_bump {T : List Row} {l r : Nat} {w : Row} (h : w ∈ bump T l r) :
    ∃ w0 ∈ T, w.e = w0.e ∧ w.r = w0.r ∧ w.n = w0.n ∧ (w.q = if w0.q = l then r else w0.q) := by
  unfold bump at h
  rw [List.mem_map] at h
  obtain ⟨w0, h0, rfl⟩ := h
  refine ⟨w0, h0, ?_⟩
  by_cases hq : w0.q = l
  · rw [if_pos hq, if_pos hq]; exact ⟨rfl, rfl, rfl, rfl⟩
  · rw [if_neg hq, if_neg hq]; exact ⟨rfl, rfl, rfl, rfl⟩

theorem Tab.step {s0 s : GMap ℝ} {T : List Row} (h : Tab s0 s T) {v : SplitPos} {e0 : Edge ℝ} (he0 : s0.edge v.label.natAbs = some e0)
    (hlt : v.label.natAbs < s0.nEdges) (hlen : v.at_.seg + 1 < e0.pts.length)
    (hseg : ∀ w ∈ T, w.e.label.natAbs = v.label.natAbs → v.at_.seg ≤ w.e.at_.seg) :
    ∃ t, s.splitEdge v.label.natAbs v.at_.seg (some v.at_.pos) = .ok (s.nEdges, t) ∧
      Tab s0 t (bump T v.label.natAbs s.nEdges ++ [⟨v, v.label.natAbs, s.nEdges, s.nNodes⟩]) := by
  obtain ⟨e, he, hroom⟩ := h.room _ e0 he0
  have hi : v.at_.seg + 1 < e.pts.length := by
    rcases hroom with hr | ⟨w, hw, hwl, hr⟩
    · omega
    · have := hseg w hw hwl; omega
  obtain ⟨t, ht, hS⟩ := splitOne (p := v.at_.pos) h.sound he hi
  refine ⟨t, ht, hS.sound, ?_, ?_, ?_, ?_, ?_, ?_, ?_, ?_, ?_, ?_, ?_, ?_, ?_⟩
  · intro w hw
    rcases List.mem_append.1 hw with hw | hw
    · obtain ⟨w0, hw0, e1, e2, e3, e4⟩ := mem_bump hw
      have hT := h.two w0 hw0
      have hrl := h.r w0 hw0
      rw [e2, e3, e4]
      by_cases hq : w0.q = v.label.natAbs
      · rw [if_pos hq]
        rw [hq] at hT
        exact hS.two_move h.sound he hT
      · rw [if_neg hq]
        exact hS.two_old h.sound hT (by omega) (by omega)
    · rw [List.mem_singleton] at hw; subst hw
      exact hS.two_new
  · intro w hw
    rcases List.mem_append.1 hw with hw | hw
    · obtain ⟨w0, hw0, e1, e2, e3, e4⟩ := mem_bump hw
      rw [e1, e3, hS.pos _ (h.n w0 hw0).2, h.posn w0 hw0]
    · rw [List.mem_singleton] at hw; subst hw
      exact hS.newPos
  · intro j hj
    rw [hS.pos _ (by have := h.nNodes; omega), h.old j hj]
  · intro w hw
    rw [hS.nEdges]
    rcases List.mem_append.1 hw with hw | hw
    · obtain ⟨w0, hw0, e1, e2, e3, e4⟩ := mem_bump hw
      have := h.r w0 hw0
      omega
    · rw [List.mem_singleton] at hw; subst hw
      have := h.nEdges
      simp only; omega
  · intro w hw
    rw [hS.nNodes]
    rcases List.mem_append.1 hw with hw | hw
    · obtain ⟨w0, hw0, e1, e2, e3, e4⟩ := mem_bump hw
      have := h.n w0 hw0
      omega
    · rw [List.mem_singleton] at hw; subst hw
      have := h.nNodes
      simp only; omega
  · intro w hw
    rw [hS.nEdges]
    rcases List.mem_append.1 hw with hw | hw
    · obtain ⟨w0, hw0, e1, e2, e3, e4⟩ := mem_bump hw
      have := h.q w0 hw0
      have hn := h.nEdges
      rw [e1, e4]
      by_cases hq : w0.q = v.label.natAbs
      · rw [if_pos hq]; exact ⟨by omega, fun hc => by omega⟩
      · rw [if_neg hq]; exact ⟨by omega, this.2⟩
    · rw [List.mem_singleton] at hw; subst hw
      have := h.nEdges
      exact ⟨by simp only; omega, fun _ => rfl⟩
  · intro w hw
    rcases List.mem_append.1 hw with hw | hw
    · obtain ⟨w0, hw0, e1, e2, e3, e4⟩ := mem_bump hw
      rw [e1]; exact h.lab w0 hw0
    · rw [List.mem_singleton] at hw; subst hw
      exact hlt
  · rw [List.pairwise_append]
    refine ⟨?_, List.pairwise_singleton _ _, ?_⟩
    · unfold bump
      rw [List.pairwise_map]
      refine List.Pairwise.imp_of_mem ?_ h.pw
      intro u w hu hw huw
      have u1 := h.r u hu
      have u2 := h.q u hu
      have w1 := h.r w hw
      have w2 := h.q w hw
      obtain ⟨g1, g2, g3, g4, g5⟩ := huw
      by_cases hq : u.q = v.label.natAbs <;> by_cases hq' : w.q = v.label.natAbs
      · exact absurd (hq.trans hq'.symm) g3
      · rw [if_pos hq, if_neg hq']
        exact ⟨g1, g2, by simp only; omega, g4, fun hc => absurd hc (by simp only; omega)⟩
      · rw [if_neg hq, if_pos hq']
        exact ⟨g1, g2, by simp only; omega, by simp only; omega, g5⟩
      · rw [if_neg hq, if_neg hq']
        exact ⟨g1, g2, g3, g4, g5⟩
    · intro u hu w hw
      rw [List.mem_singleton] at hw; subst hw
      obtain ⟨w0, hw0, e1, e2, e3, e4⟩ := mem_bump hu
      have w1 := h.r w0 hw0
      have w2 := h.q w0 hw0
      have w3 := h.n w0 hw0
      have hn := h.nEdges
      refine ⟨by simp only; omega, by simp only; omega, ?_, by simp only; omega, ?_⟩
      · simp only
        rw [e4]
        by_cases hq : w0.q = v.label.natAbs
        · rw [if_pos hq]; omega
        · rw [if_neg hq]; exact hq
      · simp only
        rw [e4, e1]
        by_cases hq : w0.q = v.label.natAbs
        · intro _
          rw [← w2.2 (by omega), hq]
        · rw [if_neg hq]; intro hc; omega
  · intro j ej hj
    by_cases hjl : j = v.label.natAbs
    · obtain ⟨el, h1, h2, -⟩ := hS.left
      refine ⟨el, hjl ▸ h1, Or.inr ⟨⟨v, v.label.natAbs, s.nEdges, s.nNodes⟩, by simp, hjl.symm, ?_⟩⟩
      rw [h2]
      simp only [List.length_append, List.length_take, List.length_singleton]
      omega
    · obtain ⟨e', h1, h2⟩ := h.room j ej hj
      refine ⟨e', ?_, ?_⟩
      · obtain ⟨π, hg⟩ := h.sound.ok.1.exists_rep
        have := hg.labels.edge_lt j (by simp [h1])
        rw [hS.edge j hjl (by omega), h1]
      · rcases h2 with h2 | ⟨w, hw, hwl, h2⟩
        · exact Or.inl h2
        · refine Or.inr ⟨if w.q = v.label.natAbs then { w with q := s.nEdges } else w, List.mem_append_left _ (List.mem_map_of_mem hw), ?_⟩
          by_cases hq : w.q = v.label.natAbs
          · rw [if_pos hq]; exact ⟨hwl, h2⟩
          · rw [if_neg hq]; exact ⟨hwl, h2⟩
  · rw [hS.nNodes, h.nNodes]; simp [bump]; omega
  · rw [hS.nEdges, h.nEdges]; simp [bump]; omega
  · rw [hS.nodeCount, h.nodeCount]; simp [bump]; omega
  · rw [hS.edgeCount, h.edgeCount]; simp [bump]; omega

end Verif.Parallel
