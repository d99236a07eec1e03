import Verif.FourEight.EdgeStatModel
import Verif.FourEight.StatExamples
import Verif.FourEight.MergedProps

/-!
# Statistics of edges after any history of operations (C99)
-/

namespace Verif.FourEight
open Verif Verif.CellImage Verif.Outcome

section
variable {R : Type} [CommRing R] {v : Int → Int → R} {mx : R} {m m' : Map}

/-- two edges at a node with two darts become one -/
theorem Whole.mergeEdges_two (hm : Whole m) {d : Dart} {s : Nat} (hd : IsDart m d) (h : mergeEdges m d = .ok (m', s)) :
    ∃ d1 g n N, IsDart m d1 ∧ sigma m 1 d = .ok d1 ∧ sigma m 1 d1 = .ok d ∧ FourEight.nodeLabel m d1 = .ok n ∧ m.nodes[n]? = some N ∧ N.live = true ∧
      (s = (m.look d.x d.y d.dir).2 ∧ g = (m.look d1.x d1.y d1.dir).2 ∨ s = (m.look d1.x d1.y d1.dir).2 ∧ g = (m.look d.x d.y d.dir).2) ∧
      EdgesJoined m m' n s g := by
  obtain ⟨d1, b, a, g, n, N, G, hd1, -, hg, hn, hab, hs, hsame, res, -⟩ := mergeEdges_full hm.cons h
  obtain ⟨d1', t1, hd1d, -, -⟩ := Props.sigma_inverse hm.clean hm.noCorner hd (k := 1) (Or.inl rfl)
  rw [hd1] at t1
  obtain rfl := Outcome.ok.inj t1
  have key : IsDart m a ∧ IsDart m b ∧ sigma m 1 d1 = .ok d ∧ (a = d ∧ b = d1 ∨ a = d1 ∧ b = d) := by
    rcases hsame with ⟨heq, rfl⟩ | ⟨heq, hb⟩
    · obtain ⟨a', t1, ha, -, -⟩ := Props.sigma_inverse hm.clean hm.noCorner hd1d (k := 1) (Or.inl rfl)
      rw [hab] at t1
      obtain rfl := Outcome.ok.inj t1
      rw [dartEq_line (by rw [hm.nb ha, add_zero]; exact congrArg _ (hm.label ha))] at heq
      obtain rfl : a = d := by simpa using heq
      exact ⟨ha, hd1d, hab, Or.inl ⟨rfl, rfl⟩⟩
    · obtain ⟨b', t1, hbd, -, -⟩ := Props.sigma_inverse hm.clean hm.noCorner hd1d (k := 1) (Or.inl rfl)
      rw [hb] at t1
      obtain rfl := Outcome.ok.inj t1
      rw [dartEq_line (by rw [hm.nb hbd, add_zero]; exact congrArg _ (hm.label hbd))] at heq
      obtain rfl : b = d := by simpa using heq
      rw [hd1] at hab
      obtain rfl := Outcome.ok.inj hab
      exact ⟨hd1d, hd, hb, Or.inr ⟨rfl, rfl⟩⟩
  obtain ⟨ha, hb, hback, hkey⟩ := key
  obtain ⟨px, i1, i2⟩ := res.image
  have hn1 : FourEight.nodeLabel m d1 = .ok n := by
    rcases hkey with ⟨rfl, rfl⟩ | ⟨rfl, rfl⟩
    · exact hn
    · obtain ⟨e, q1, -, -, q4⟩ := Props.sigma_inverse hm.clean hm.noCorner hb (k := 1) (Or.inl rfl)
      rw [hab] at q1
      obtain rfl := Outcome.ok.inj q1
      rw [hm.nodeLabel ha, chain_label hm.clean hm.nodes hb.inside hb.node _ q4, ← hm.nodeLabel hb, hn]
  refine ⟨d1, g, n, N, hd1d, hd1, hback, hn1, res.node.1, res.node.2, ?_, res.ne, hm.line_nonempty ha hs, hm.line_nonempty hb hg, res.w, res.h, ?_⟩
  · rw [hm.edgeLabel_eq ha] at hs
    rw [hm.edgeLabel_eq hb] at hg
    have hs := Outcome.ok.inj hs
    have hg := Outcome.ok.inj hg
    rcases hkey with ⟨rfl, rfl⟩ | ⟨rfl, rfl⟩
    · exact Or.inl ⟨hs.symm, hg.symm⟩
    · exact Or.inr ⟨hs.symm, hg.symm⟩
  · intro x y hxy
    have h1 := i1.px x y hxy
    dsimp only at h1
    have h2 := i2.px x y hxy
    simp only [h1] at h2
    rw [h2]
    by_cases c1 : m.px x y = (.vertex, n)
    · simp [c1, res.ne]
    · simp [c1]

/-- the infinite face is at one of the sides -/
def AtBorder (m : Map) (d : Dart) : Prop := leftL m d = 0 ∨ rightL m d = 0

/-- both darts of an edge have the same sides -/
theorem Whole.border_same (hm : Whole m) {d d' : Dart} (hd : IsDart m d) (hd' : IsDart m d') (h : m.look d.x d.y d.dir = m.look d'.x d'.y d'.dir) :
    AtBorder m d ↔ AtBorder m d' := by
  obtain ⟨l, E, q1, q2, q3, q4⟩ := hm.edge hd
  obtain ⟨f1, f2⟩ := hm.fit l E q2 q3
  have q5 := hm.owner l E q2 q3 d' hd' (by rw [← h, q1])
  unfold AtBorder
  rcases q4 with rfl | rfl <;> rcases q5 with rfl | rfl
  · rfl
  · rw [f1, f2, or_comm]
  · rw [f1, f2, or_comm]
  · rfl

/-- the statistics `st` are those of the edges, or the marker for edges beside the infinite face -/
structure EdgeCounts (v : Int → Int → R) (mx : R) (m : Map) (st : List (Stat R)) : Prop where
  room : ∀ e, (m.cell (.line, e)).Nonempty → e < st.length
  value : ∀ d e, IsDart m d → m.look d.x d.y d.dir = (.line, e) → st[e]? = some (totalOf v (basePixels m (.line, e))) ∨
    AtBorder m d ∧ st[e]? = some (Stat.zero.add mx)

/-- operations that only remove an edge, or none -/
theorem EdgeCounts.removed {st : List (Stat R)} (hst : EdgeCounts v mx m st) (hm : Whole m) {P Q : Nat → Prop} {φ : Nat → Nat}
    (hc : Change m m' P Q φ id) (hφ : φ 0 = 0) (hpx : ∀ x y, m.inside x y → ∀ k, m'.px x y = (.line, k) ↔ m.px x y = (.line, k) ∧ Q k) :
    EdgeCounts v mx m' st := by
  constructor
  · rintro e ⟨p, hp⟩
    obtain ⟨p1, p2⟩ := mem_cell.1 hp
    have p1 := (hc.inside _ _).1 p1
    exact hst.room e ⟨p, mem_cell.2 ⟨p1, ((hpx _ _ p1 e).1 p2).1⟩⟩
  · intro d e hd hl
    obtain ⟨h1, -, h3⟩ := (hc.isDart hm d).1 hd
    have hin := hm.clean.near h1.inside h1.rim.nonregion d.dir
    have hl0 : m.look d.x d.y d.dir = (.line, e) := ((hpx _ _ hin e).1 hl).1
    rw [hl0] at h3
    have hbase : basePixels m' (.line, e) = basePixels m (.line, e) := by
      ext p
      simp only [mem_basePixels, hc.inside, hc.w, hc.h]
      by_cases hi : m.inside p.1 p.2
      · rw [hpx _ _ hi]; tauto
      · tauto
    rw [hbase]
    rcases hst.value d e h1 hl0 with h | ⟨h, h'⟩
    · exact Or.inl h
    · refine Or.inr ⟨?_, h'⟩
      unfold AtBorder
      rw [hc.leftL hm hd, hc.rightL hm hd]
      rcases h with h | h
      · left; rw [h, hφ]
      · right; rw [h, hφ]

/-- what `preMergeEdges` returns -/
theorem Whole.preMergeEdges_eq (hm : Whole m) {d d1 : Dart} {n : Nat} {N : Node} (hd : IsDart m d) (hd1 : IsDart m d1) (h1 : sigma m 1 d = .ok d1)
    (h2 : sigma m 1 d1 = .ok d) (hn : FourEight.nodeLabel m d1 = .ok n) (hN : m.nodes[n]? = some N) (hlive : N.live = true) {st : List (Stat R)}
    (hst : EdgeCounts v mx m st) : ∃ t, preMergeEdges m v mx st d = .ok t ∧ (AtBorder m d → t = Stat.zero.add mx) ∧
      (¬AtBorder m d → t = ((totalOf v (basePixels m (.line, (m.look d.x d.y d.dir).2))).merge
        (totalOf v (basePixels m (.line, (m.look d1.x d1.y d1.dir).2)))).merge (totalOf v (basePixels m (.vertex, n)))) := by
  unfold preMergeEdges
  rw [h1, bind_ok, hm.edgeLabel_eq hd, bind_ok, hm.edgeLabel_eq hd1, bind_ok, hm.leftFace hd, bind_ok, hm.rightFace hd, bind_ok]
  by_cases hb : AtBorder m d
  · rw [if_pos (show leftL m d = 0 ∨ rightL m d = 0 from hb)]
    exact ⟨_, rfl, fun _ => rfl, fun h => absurd hb h⟩
  · rw [if_neg (show ¬(leftL m d = 0 ∨ rightL m d = 0) from hb)]
    have hb1 : ¬AtBorder m d1 := by
      intro h
      apply hb
      rcases h with h | h
      · right; rw [hm.sigma_faces hd1 h2, h]
      · left; rw [← hm.sigma_faces hd h1, h]
    have v1 := (hst.value d _ hd (hm.label hd)).resolve_right fun h => hb h.1
    have v2 := (hst.value d1 _ hd1 (hm.label hd1)).resolve_right fun h => hb1 h.1
    have hbox := hm.cons.nodes.box n N.info (by rw [List.getElem?_map, hN]; rfl) hlive
    obtain ⟨ps, w1, w2, w3⟩ := cellScan_spec hbox
    have hN' : m.node n = .ok N := by unfold Map.node; rw [hN]; simp [hlive]
    unfold readStat
    rw [v1, v2]
    dsimp only
    rw [bind_ok, bind_ok, hn, bind_ok, hN', bind_ok, show cellScan m N.box (.vertex, n) = .ok ps from w1, bind_ok]
    exact ⟨_, rfl, fun h => absurd h hb, fun _ => by rw [inspect_total w2, w3]⟩

/-- two edges become one -/
theorem EdgeCounts.joined {st : List (Stat R)} (hst : EdgeCounts v mx m st) (hm : Whole m) {n s g : Nat} (q : EdgesJoined m m' n s g) {t : Stat R}
    {d d1 : Dart} (hd : IsDart m d) (hd1 : IsDart m d1) (h1 : sigma m 1 d = .ok d1) (h2 : sigma m 1 d1 = .ok d)
    (hlab : s = (m.look d.x d.y d.dir).2 ∧ g = (m.look d1.x d1.y d1.dir).2 ∨ s = (m.look d1.x d1.y d1.dir).2 ∧ g = (m.look d.x d.y d.dir).2)
    (ht1 : AtBorder m d → t = Stat.zero.add mx)
    (ht2 : ¬AtBorder m d → t = ((totalOf v (basePixels m (.line, (m.look d.x d.y d.dir).2))).merge
        (totalOf v (basePixels m (.line, (m.look d1.x d1.y d1.dir).2)))).merge (totalOf v (basePixels m (.vertex, n)))) :
    ∃ st', writeStat st s t = .ok st' ∧ EdgeCounts v mx m' st' := by
  have hc := hm.join_change q.w q.h q.px
  have hroom := hst.room s q.survivor
  have hline : ∀ x y, m.inside x y → ∀ k, k ≠ s → (m'.px x y = (.line, k) ↔ m.px x y = (.line, k) ∧ k ≠ g) := by
    intro x y hi k hk
    rw [q.px x y hi]
    by_cases c : m.px x y = (.vertex, n) ∨ m.px x y = (.line, g)
    · rw [if_pos c]
      constructor
      · intro h; exact absurd (Prod.ext_iff.1 h).2.symm hk
      · rintro ⟨h1, h2⟩
        rcases c with c | c
        · rw [c] at h1; cases h1
        · rw [c] at h1; exact absurd (Prod.ext_iff.1 h1).2.symm h2
    · rw [if_neg c]
      exact ⟨fun h => ⟨h, fun e' => c (Or.inr (e' ▸ h))⟩, And.left⟩
  refine ⟨st.set s t, by unfold writeStat; rw [if_pos hroom], ?_, ?_⟩
  · rintro e ⟨p, hp⟩
    rw [List.length_set]
    by_cases he : e = s
    · rw [he]; exact hroom
    · obtain ⟨p1, p2⟩ := mem_cell.1 hp
      have p1 := (hc.inside _ _).1 p1
      exact hst.room e ⟨p, mem_cell.2 ⟨p1, ((hline _ _ p1 e he).1 p2).1⟩⟩
  · intro c e hcd hl
    obtain ⟨c1, -, -⟩ := (hc.isDart hm c).1 hcd
    have hin := hm.clean.near c1.inside c1.rim.nonregion c.dir
    have hsides : AtBorder m' c ↔ AtBorder m c := by
      unfold AtBorder
      rw [hc.leftL hm hcd, hc.rightL hm hcd]; rfl
    rw [hsides]
    by_cases he : e = s
    · subst he
      rw [List.getElem?_set_self hroom]
      have hborder : AtBorder m c ↔ AtBorder m d := by
        have hl0 : (m.look c.x c.y c.dir).2 = e ∨ (m.look c.x c.y c.dir).2 = g := by
          have hl' : m'.px (c.x + dx c.dir) (c.y + dy c.dir) = (.line, e) := hl
          have hcl := hm.label c1
          rw [q.px _ _ hin] at hl'
          split at hl'
          · rename_i hh
            rcases hh with hh | hh
            · have : m.look c.x c.y c.dir = (.vertex, n) := hh
              rw [this] at hcl; cases hcl
            · right
              have : m.look c.x c.y c.dir = (.line, g) := hh
              rw [this]
          · left
            have : m.look c.x c.y c.dir = (.line, e) := hl'
            rw [this]
        have hdd1 : AtBorder m d1 ↔ AtBorder m d := by
          unfold AtBorder
          rw [← hm.sigma_faces hd1 h2, hm.sigma_faces hd h1, or_comm]
        have two : (m.look c.x c.y c.dir).2 = (m.look d.x d.y d.dir).2 ∨ (m.look c.x c.y c.dir).2 = (m.look d1.x d1.y d1.dir).2 := by
          rcases hlab with ⟨a, b⟩ | ⟨a, b⟩ <;> rw [a, b] at hl0 <;> tauto
        rcases two with h | h
        · exact hm.border_same c1 hd (by rw [hm.label c1, hm.label hd, h])
        · exact (hm.border_same c1 hd1 (by rw [hm.label c1, hm.label hd1, h])).trans hdd1
      by_cases hb : AtBorder m d
      · exact Or.inr ⟨hborder.2 hb, by rw [ht1 hb]⟩
      · left
        have hbase : basePixels m' (.line, e) = (basePixels m (.line, (m.look d.x d.y d.dir).2) ∪
            basePixels m (.line, (m.look d1.x d1.y d1.dir).2)) ∪ basePixels m (.vertex, n) := by
          have : basePixels m' (.line, e) = (basePixels m (.line, e) ∪ basePixels m (.line, g)) ∪ basePixels m (.vertex, n) := by
            ext p
            simp only [Finset.mem_union, mem_basePixels, hc.inside, hc.w, hc.h]
            by_cases hi : m.inside p.1 p.2
            · rw [q.px _ _ hi]
              by_cases k1 : m.px p.1 p.2 = (.vertex, n)
              · simp [k1, hi]
              · by_cases k2 : m.px p.1 p.2 = (.line, g)
                · simp [k2, hi]
                · rw [if_neg (not_or.2 ⟨k1, k2⟩)]; tauto
            · tauto
          rw [this]
          rcases hlab with ⟨a, b⟩ | ⟨a, b⟩
          · rw [a, b]
          · rw [a, b, Finset.union_comm (basePixels m (.line, (m.look d1.x d1.y d1.dir).2))]
        have hne : (m.look d.x d.y d.dir).2 ≠ (m.look d1.x d1.y d1.dir).2 := by
          intro h
          apply q.ne
          rcases hlab with ⟨a, b⟩ | ⟨a, b⟩ <;> rw [a, b, h]
        rw [hbase, totalOf_union, totalOf_union, ht2 hb]
        · exact disjoint_base fun h => hne (Prod.ext_iff.1 h).2
        · rw [Finset.disjoint_union_left]
          exact ⟨disjoint_base (by simp), disjoint_base (by simp)⟩
    · rw [List.getElem?_set_ne (fun h => he h.symm)]
      obtain ⟨hl0, -⟩ := (hline _ _ hin e he).1 hl
      have hbase : basePixels m' (.line, e) = basePixels m (.line, e) := by
        ext p
        simp only [mem_basePixels, hc.inside, hc.w, hc.h]
        by_cases hi : m.inside p.1 p.2
        · rw [hline _ _ hi e he]
          have : e ≠ g := ((hline _ _ hin e he).1 hl).2
          tauto
        · tauto
      rw [hbase]
      exact hst.value c e c1 hl0

/-- One operation, with the statistics. -/
theorem Whole.edgeStatStep (hm : Whole m) {op : Op} (hcall : DartCall m op) {l : Nat} (hrun : run m op = .ok (m', l)) {st : List (Stat R)}
    (hst : EdgeCounts v mx m st) : ∃ st', runEdgeStat m v mx st op = .ok (m', st') ∧ EdgeCounts v mx m' st' := by
  have hm' : Whole m' := hm.step ⟨op, l, hcall, hrun⟩
  have zero : ∀ s g, (∀ x y, m.inside x y → m.px x y = (.region, 0) → m'.px x y = if (.region, 0) = (CellType.region, g) then (.region, s) else (.region, 0)) →
      (if 0 = g then s else 0) = 0 := by
    intro s g h
    have hw : m'.w = m.w ∧ m'.h = m.h := by
      have := hm.reachSize (Relation.ReflTransGen.single ⟨op, l, hcall, hrun⟩)
      exact this
    have hin : m.inside (-2) (-2) := by
      obtain ⟨F, f1, f2⟩ := hm.outer.exists_
      obtain ⟨x, y, hxy⟩ : ∃ x y, m.inside x y := by
        cases op with
        | removeIsolatedNode d => exact ⟨_, _, AtIsolated.inside hcall⟩
        | mergeFaces d => exact ⟨_, _, IsDart.inside hcall⟩
        | removeBridge d => exact ⟨_, _, IsDart.inside hcall⟩
        | mergeEdges d => exact ⟨_, _, IsDart.inside hcall⟩
      unfold Map.inside at hxy ⊢
      omega
    have a := hm.outer.ring _ _ hin (Or.inl rfl)
    have b := hm'.outer.ring (-2) (-2) (by unfold Map.inside at hin ⊢; rw [hw.1, hw.2]; exact hin) (Or.inl rfl)
    rw [h _ _ hin a] at b
    by_cases hg : 0 = g
    · rw [if_pos hg]
      rw [if_pos (by rw [hg])] at b
      exact (Prod.ext_iff.1 b).2
    · rw [if_neg hg]
  have removal : ∀ {e s g : Nat} {E : Edge}, EdgeRemoved m m' e s g E → EdgeCounts v mx m' st := by
    intro e s g E q
    refine hst.removed hm (hm.removeEdge_change q.w q.h q.px) ?_ ?_
    · refine zero s g fun x y hi h0 => ?_
      rw [q.px x y hi, h0]
      simp
    · intro x y hi k
      rw [Whole.mergedStep.edge_gone q x y hi k]
      simp
  cases op with
  | removeIsolatedNode d =>
    refine ⟨st, by unfold runEdgeStat; dsimp only; rw [hrun]; rfl, ?_⟩
    have hrun' : removeIsolatedNode m d = .ok (m', l) := hrun
    obtain ⟨_, n, N, hn, hf, res⟩ := removeIsolatedNode_result hm.cons hrun'
    refine hst.removed hm (hm.removeNode_change res.image.w res.image.h res.image.px) rfl ?_
    intro x y hi k
    rw [res.image.px x y hi]
    split
    · rename_i hc
      rw [hc]
      simp
    · simp
  | mergeFaces d =>
    obtain ⟨e, g, E, q, -⟩ := hm.mergeFaces_removed hcall hrun
    exact ⟨st, by unfold runEdgeStat; dsimp only; rw [hrun]; rfl, removal q⟩
  | removeBridge d =>
    obtain ⟨e, g, E, q, -⟩ := hm.removeBridge_removed hcall hrun
    exact ⟨st, by unfold runEdgeStat; dsimp only; rw [hrun]; rfl, removal q⟩
  | mergeEdges d =>
    have hd : IsDart m d := hcall
    have hrun' : mergeEdges m d = .ok (m', l) := hrun
    obtain ⟨d1, g, n, N, k1, k2, k3, k4, k5, k6, k7, q⟩ := hm.mergeEdges_two hd hrun'
    obtain ⟨t, t1, t2, t3⟩ := hm.preMergeEdges_eq hd k1 k2 k3 k4 k5 k6 hst
    obtain ⟨st', w1, w2⟩ := hst.joined hm q hd k1 k2 k3 k7 t2 t3
    refine ⟨st', ?_, w2⟩
    unfold runEdgeStat
    dsimp only
    rw [t1, bind_ok, hrun', bind_ok, w1, bind_ok]

theorem edgeStatLoop_spec (hm : Whole m) (ls : List Nat) (hn : ls.Nodup) (st : List (Stat R))
    (hls : ∀ e ∈ ls, e < st.length ∧ ∃ E, m.edges[e]? = some E ∧ E.live = true) :
    ∃ st', edgeStatLoop m v mx ls st = .ok st' ∧ st'.length = st.length ∧
      (∀ e ∈ ls, ∀ s E, st[e]? = some s → m.edges[e]? = some E →
        (AtBorder m E.start → st'[e]? = some (s.add mx)) ∧ (¬AtBorder m E.start → st'[e]? = some (s.merge (totalOf v (basePixels m (.line, e)))))) ∧
      ∀ e, e ∉ ls → st'[e]? = st[e]? := by
  induction ls generalizing st with
  | nil => exact ⟨st, rfl, rfl, by simp, fun _ _ => rfl⟩
  | cons a ls ih =>
    obtain ⟨hlen, E, q1, q2⟩ := hls a (List.mem_cons_self ..)
    rw [List.nodup_cons] at hn
    obtain ⟨hd, -⟩ := hm.ends a E q1 q2
    have hb := hm.cons.edges.box a E.info (by rw [List.getElem?_map, q1]; rfl) q2
    obtain ⟨ps, w1, w2, w3⟩ := cellScan_spec hb
    have hE : m.edge a = .ok E := by unfold Map.edge; rw [q1]; simp [q2]
    obtain ⟨s0, hs0⟩ : ∃ s, st[a]? = some s := ⟨_, List.getElem?_eq_getElem hlen⟩
    obtain ⟨t, ht, ht1, ht2⟩ : ∃ t, (if leftL m E.start = 0 ∨ rightL m E.start = 0 then Outcome.ok (s0.add mx)
        else (cellScan m E.box (.line, a)).bind fun ps => .ok (inspect v ps s0)) = .ok t ∧ (AtBorder m E.start → t = s0.add mx) ∧
        (¬AtBorder m E.start → t = s0.merge (totalOf v (basePixels m (.line, a)))) := by
      by_cases hbd : AtBorder m E.start
      · exact ⟨_, if_pos hbd, fun _ => rfl, fun h => absurd hbd h⟩
      · refine ⟨inspect v ps s0, ?_, fun h => absurd h hbd, fun _ => by rw [inspect_total w2, w3]⟩
        rw [if_neg (show ¬(leftL m E.start = 0 ∨ rightL m E.start = 0) from hbd), show cellScan m E.box (.line, a) = .ok ps from w1, bind_ok]
    obtain ⟨st', r1, r2, r3, r4⟩ := ih hn.2 (st.set a t) (fun f hf => by
      rw [List.length_set]; exact hls f (List.mem_cons_of_mem _ hf))
    refine ⟨st', ?_, by rw [r2, List.length_set], ?_, ?_⟩
    · unfold edgeStatLoop
      rw [hE, bind_ok, hm.leftFace hd, bind_ok, hm.rightFace hd, bind_ok]
      unfold readStat writeStat
      rw [hs0]
      dsimp only
      rw [bind_ok, ht, bind_ok, if_pos hlen, bind_ok, r1]
    · intro f hf s F hs hF
      rcases List.mem_cons.1 hf with rfl | hf
      · rw [r4 f hn.1, List.getElem?_set_self hlen]
        rw [hs0] at hs
        rw [q1] at hF
        obtain rfl := Option.some.inj hs
        obtain rfl := Option.some.inj hF
        exact ⟨fun h => by rw [ht1 h], fun h => by rw [ht2 h]⟩
      · have hfa : a ≠ f := fun e => hn.1 (e ▸ hf)
        exact r3 f hf s F (by rw [List.getElem?_set_ne hfa]; exact hs) hF
    · intro f hf
      rw [List.mem_cons, not_or] at hf
      rw [r4 f hf.2, List.getElem?_set_ne (fun e => hf.1 e.symm)]

theorem mem_edgeLabels {e : Nat} : e ∈ edgeLabels m ↔ ∃ E, m.edges[e]? = some E ∧ E.live = true := by
  unfold edgeLabels
  rw [List.mem_filter, List.mem_range]
  constructor
  · rintro ⟨h1, h2⟩
    rw [List.getElem?_eq_getElem h1] at h2 ⊢
    exact ⟨_, rfl, h2⟩
  · rintro ⟨F, h1, h2⟩
    refine ⟨(List.getElem?_eq_some_iff.1 h1).1, ?_⟩
    rw [h1]; exact h2

/-- The constructor returns the statistics of all edges, and the marker for those beside the infinite face. -/
theorem initEdgeStats_counts (hm : Whole m) : ∃ st : List (Stat R), initEdgeStats m v mx = .ok st ∧ EdgeCounts v mx m st ∧
    ∀ d e, IsDart m d → m.look d.x d.y d.dir = (.line, e) → AtBorder m d → st[e]? = some (Stat.zero.add mx) := by
  have hlt : ∀ e ∈ edgeLabels m, e < (List.replicate (m.edges.length + 1) (Stat.zero : Stat R)).length ∧ ∃ E, m.edges[e]? = some E ∧ E.live = true := by
    intro e he
    obtain ⟨E, q1, q2⟩ := mem_edgeLabels.1 he
    have := (List.getElem?_eq_some_iff.1 q1).1
    exact ⟨by rw [List.length_replicate]; omega, E, q1, q2⟩
  obtain ⟨st, s1, s2, s3, -⟩ := edgeStatLoop_spec (v := v) (mx := mx) hm (edgeLabels m) (List.Nodup.filter _ List.nodup_range) _ hlt
  have key : ∀ d e, IsDart m d → m.look d.x d.y d.dir = (.line, e) → (AtBorder m d → st[e]? = some (Stat.zero.add mx)) ∧
      (¬AtBorder m d → st[e]? = some (totalOf v (basePixels m (.line, e)))) := by
    intro d e hd hl
    obtain ⟨e', E, q1, q2, q3, q4⟩ := hm.edge hd
    rw [hl] at q1
    obtain rfl : e = e' := (Prod.ext_iff.1 q1).2
    have hlen := (List.getElem?_eq_some_iff.1 q2).1
    have hz : (List.replicate (m.edges.length + 1) (Stat.zero : Stat R))[e]? = some Stat.zero := by
      rw [List.getElem?_replicate, if_pos (by omega)]
    obtain ⟨a, b⟩ := s3 e (mem_edgeLabels.2 ⟨E, q2, q3⟩) _ E hz q2
    obtain ⟨e1, -, -, e4, -⟩ := hm.ends e E q2 q3
    have hs := hm.border_same hd e1 (by rw [hl, e4])
    rw [zero_merge] at b
    rw [hs]
    exact ⟨a, b⟩
  refine ⟨st, s1, ⟨?_, ?_⟩, fun d e hd hl => (key d e hd hl).1⟩
  · rintro e ⟨p, hp⟩
    obtain ⟨p1, p2⟩ := mem_cell.1 hp
    obtain ⟨a, o1, -⟩ := hm.cons.edges.owner _ _ _ p1 p2
    have := (List.getElem?_eq_some_iff.1 o1).1
    rw [List.length_map] at this
    rw [s2, List.length_replicate]
    omega
  · intro d e hd hl
    obtain ⟨a, b⟩ := key d e hd hl
    by_cases hb : AtBorder m d
    · exact Or.inr ⟨hb, a hb⟩
    · exact Or.inl (b hb)

end

end Verif.FourEight
