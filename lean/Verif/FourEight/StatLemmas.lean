import Verif.FourEight.StatModel
import Verif.FourEight.HistStep
import Mathlib.Algebra.BigOperators.Group.Finset.Basic
import Mathlib.Tactic.Ring
import Mathlib.Tactic.Abel

/-!
# Lemmas about the statistics of faces
-/

namespace Verif.FourEight
open Verif Verif.CellImage Verif.Outcome

section
variable {R : Type} [CommRing R] {m m' : Map} {v : Int → Int → R}

/-- the pixels of a cell that belong to the base image, which the cell image surrounds with a border of two pixels -/
def basePixels (m : Map) (c : Pixel) : Finset (Int × Int) :=
  (m.cell c).filter fun p => 0 ≤ p.1 ∧ p.1 < m.w - 4 ∧ 0 ≤ p.2 ∧ p.2 < m.h - 4

/-- number of pixels, sum of the values and sum of their squares -/
def totalOf (v : Int → Int → R) (S : Finset (Int × Int)) : Stat R := ⟨S.card, ∑ p ∈ S, v p.1 p.2, ∑ p ∈ S, v p.1 p.2 * v p.1 p.2⟩

theorem mem_basePixels {c : Pixel} {p : Int × Int} : p ∈ basePixels m c ↔
    (m.inside p.1 p.2 ∧ m.px p.1 p.2 = c) ∧ 0 ≤ p.1 ∧ p.1 < m.w - 4 ∧ 0 ≤ p.2 ∧ p.2 < m.h - 4 := by
  rw [basePixels, Finset.mem_filter, mem_cell]

theorem totalOf_empty : totalOf v ∅ = Stat.zero := by simp [totalOf, Stat.zero]

theorem zero_merge (s : Stat R) : Stat.zero.merge s = s := by simp [Stat.zero, Stat.merge]

theorem totalOf_union {S T : Finset (Int × Int)} (h : Disjoint S T) : totalOf v (S ∪ T) = (totalOf v S).merge (totalOf v T) := by
  simp only [totalOf, Stat.merge, Finset.card_union_of_disjoint h, Finset.sum_union h, Nat.cast_add]

theorem inspect_total {l : List (Int × Int)} (h : l.Nodup) (s : Stat R) : inspect v l s = s.merge (totalOf v l.toFinset) := by
  induction l generalizing s with
  | nil => simp [inspect, totalOf, Stat.merge]
  | cons a l ih =>
    rw [List.nodup_cons] at h
    have hn : a ∉ l.toFinset := by simpa using h.1
    have := ih h.2 (s.add (v a.1 a.2))
    unfold inspect at this ⊢
    rw [List.foldl_cons, this, List.toFinset_cons]
    simp only [totalOf, Stat.merge, Stat.add, Finset.card_insert_of_notMem hn, Finset.sum_insert hn, Nat.cast_add, Nat.cast_one]
    ext <;> dsimp only <;> ring

theorem cropBox_mem {c : Pixel} {r : Rect} (hb : IsBox (m.cell c) r) {p : Int × Int} (hp : p ∈ basePixels m c) :
    ((cropBox m r).x0 ≤ p.1 ∧ p.1 < (cropBox m r).x1) ∧ (cropBox m r).y0 ≤ p.2 ∧ p.2 < (cropBox m r).y1 := by
  obtain ⟨h1, h2⟩ := mem_basePixels.1 hp
  have hin := hb.1 p (mem_cell.2 h1)
  have hne : ¬r.isEmpty = true := by
    have := hb.nonempty ⟨p, mem_cell.2 h1⟩
    rw [this]; decide
  have hne2 : ¬(Rect.mk 0 0 (m.w - 4) (m.h - 4)).isEmpty = true := by
    simp only [Rect.isEmpty, Bool.or_eq_true, decide_eq_true_eq]; omega
  unfold cropBox
  rw [if_neg hne, if_neg hne2]
  dsimp only
  omega

theorem cropBox_inside (r : Rect) : m.boxInside (cropBox m r) := by
  unfold cropBox
  split_ifs with h1 h2
  · exact Or.inl h1
  · exact Or.inl h2
  · right
    dsimp only
    omega

theorem cropBox_in {c : Pixel} {r : Rect} (hb : IsBox (m.cell c) r) {x y : Int} (h1 : (cropBox m r).x0 ≤ x ∧ x < (cropBox m r).x1)
    (h2 : (cropBox m r).y0 ≤ y ∧ y < (cropBox m r).y1) : m.inside x y ∧ 0 ≤ x ∧ x < m.w - 4 ∧ 0 ≤ y ∧ y < m.h - 4 := by
  unfold Map.inside
  unfold cropBox at h1 h2
  split_ifs at h1 h2 with e1 e2
  · simp only [Rect.isEmpty, Bool.or_eq_true, decide_eq_true_eq] at e1; omega
  · simp only [Rect.isEmpty, Bool.or_eq_true, decide_eq_true_eq] at e2; dsimp only at h1 h2; omega
  · dsimp only at h1 h2; omega

/-- The scan of a cell visits each of its pixels in the base image once. -/
theorem cellScan_spec {c : Pixel} {r : Rect} (hb : IsBox (m.cell c) r) :
    ∃ l, cellScan m r c = .ok l ∧ l.Nodup ∧ l.toFinset = basePixels m c := by
  unfold cellScan
  dsimp only
  rw [if_pos (cropBox_inside r), Iter.Props.labelScan_exact, bind_ok]
  have hspec := Iter.Props.raster_spec (fun a b : Nat => decide (m.px ((cropBox m r).x0 + a) ((cropBox m r).y0 + b) = c))
    ((cropBox m r).x1 - (cropBox m r).x0).toNat ((cropBox m r).y1 - (cropBox m r).y0).toNat
  refine ⟨_, rfl, ?_, ?_⟩
  · rw [List.map_map]
    refine List.Nodup.map ?_ ?_
    · rintro ⟨a, b⟩ ⟨a', b'⟩ h
      simp only [Function.comp_apply, Prod.mk.injEq] at h
      simp only [Prod.mk.injEq]
      omega
    · refine hspec.2.imp ?_
      rintro a b h rfl
      omega
  · ext p
    obtain ⟨x, y⟩ := p
    rw [List.mem_toFinset, List.map_map, List.mem_map, mem_basePixels]
    constructor
    · rintro ⟨⟨a, b⟩, h1, h2⟩
      simp only [Function.comp_apply, Prod.mk.injEq] at h2
      obtain ⟨q1, q2, q3⟩ := (hspec.1 a b).1 h1
      have hpx := of_decide_eq_true q3
      rw [h2.1, h2.2] at hpx
      have := cropBox_in (m := m) hb (x := x) (y := y) (by omega) (by omega)
      exact ⟨⟨this.1, hpx⟩, this.2⟩
    · intro hp
      have hc := cropBox_mem hb (mem_basePixels.2 hp)
      dsimp only at hc hp
      refine ⟨((x - (cropBox m r).x0).toNat, (y - (cropBox m r).y0).toNat), ?_, ?_⟩
      · refine (hspec.1 _ _).2 ⟨by omega, by omega, ?_⟩
        rw [show (cropBox m r).x0 + ((x - (cropBox m r).x0).toNat : Int) = x by omega,
          show (cropBox m r).y0 + ((y - (cropBox m r).y0).toNat : Int) = y by omega]
        simpa using hp.1.2
      · simp only [Function.comp_apply, Prod.mk.injEq]; omega

/-- the statistics of a face, with the pixels `L` left out -/
def Counts (v : Int → Int → R) (m : Map) (st : List (Stat R)) (L : Finset (Int × Int)) : Prop :=
  ∀ f, (m.cell (.region, f)).Nonempty → st[f]? = some (totalOf v (basePixels m (.region, f) \ L))

/-- what is left out belongs to faces -/
def InFaces (m : Map) (L : Finset (Int × Int)) : Prop := ∀ p ∈ L, m.inside p.1 p.2 → (m.px p.1 p.2).1 = .region

theorem read_ok {st : List (Stat R)} {i : Nat} {s : Stat R} (h : readStat st i = .ok s) : st[i]? = some s := by
  unfold readStat at h
  split at h
  · cases h; assumption
  · cases h

theorem write_ok {st st' : List (Stat R)} {i : Nat} {s : Stat R} (h : writeStat st i s = .ok st') : i < st.length ∧ st' = st.set i s := by
  unfold writeStat at h
  split at h
  · cases h; exact ⟨by assumption, rfl⟩
  · cases h

/-- the darts of a merged edge have different faces at their sides -/
theorem Whole.mergeFaces_ne (hm : Whole m) {d : Dart} {l : Nat} (hd : IsDart m d) (h : mergeFaces m d = .ok (m', l)) : leftL m d ≠ rightL m d := by
  obtain ⟨l1, L, r, R, rd, e, E, g, G, hl, hL, hr, hR, hrd, he, hs, hg, res⟩ := mergeFaces_result hm.cons h
  obtain ⟨e0, E0, q1, q2, q3, q4⟩ := hm.edge hd
  obtain ⟨c1, c2, -, c4, c5⟩ := hm.ends e0 E0 q2 q3
  obtain ⟨f1, f2⟩ := hm.fit e0 E0 q2 q3
  have hrd' : rd = E0.start ∨ rd = E0.stop := by
    split at hrd
    · rw [hm.alpha hd q1 q2 q3] at hrd
      cases hrd
      split
      · right; rfl
      · left; rfl
    · cases hrd; exact q4
  have hne := res.ne
  intro hc
  apply hne
  have hrdd : IsDart m rd := by rcases hrd' with rfl | rfl <;> assumption
  rw [hm.leftFace hrdd] at hs
  rw [hm.rightFace hrdd] at hg
  have hs := Outcome.ok.inj hs
  have hg := Outcome.ok.inj hg
  rw [← hs, ← hg]
  rcases q4 with rfl | rfl <;> rcases hrd' with rfl | rfl <;> omega

/-- the statistics collected before an edge is removed -/
theorem Whole.preRemoveEdge_eq (hm : Whole m) {d : Dart} {st : List (Stat R)} {t : Stat R} (hd : IsDart m d) (h : preRemoveEdge m v st d = .ok t)
    {L : Finset (Int × Int)} (hst : Counts v m st L) :
    t = (totalOf v (basePixels m (.region, leftL m d) \ L)).merge (totalOf v (basePixels m (m.look d.x d.y d.dir))) := by
  unfold preRemoveEdge at h
  rw [hm.leftFace hd, bind_ok] at h
  obtain ⟨s, hs, h⟩ := bind_eq_ok.1 h
  obtain ⟨e, he, h⟩ := bind_eq_ok.1 h
  obtain ⟨E, hE, h⟩ := bind_eq_ok.1 h
  obtain ⟨ps, hps, h⟩ := bind_eq_ok.1 h
  rw [show edgeLabel m d = .ok (m.look d.x d.y d.dir).2 by unfold edgeLabel; rw [hm.nb hd, add_zero]; rfl] at he
  obtain rfl := Outcome.ok.inj he
  obtain ⟨q1, q2⟩ := edge_ok hE
  have hb := hm.cons.edges.box _ E.info (by rw [List.getElem?_map, q1]; rfl) q2
  obtain ⟨l, w1, w2, w3⟩ := cellScan_spec hb
  rw [show cellScan m E.box (.line, (m.look d.x d.y d.dir).2) = .ok l from w1] at hps
  obtain rfl := Outcome.ok.inj hps
  obtain rfl := Outcome.ok.inj h
  rw [inspect_total w2, w3, ← hm.label hd]
  obtain ⟨j, hj⟩ := hm.leftCell hd
  have hne : (m.cell (.region, leftL m d)).Nonempty :=
    ⟨(d.x + dx j, d.y + dy j), mem_cell.2 ⟨hm.clean.near hd.inside hd.rim.nonregion j, hj⟩⟩
  have := read_ok hs
  rw [hst _ hne] at this
  rw [← Option.some.inj this]

theorem Whole.preMergeFaces_eq (hm : Whole m) {d : Dart} {st : List (Stat R)} {t : Stat R} (hd : IsDart m d) (h : preMergeFaces m v st d = .ok t)
    {L : Finset (Int × Int)} (hst : Counts v m st L) :
    t = ((totalOf v (basePixels m (.region, leftL m d) \ L)).merge (totalOf v (basePixels m (m.look d.x d.y d.dir)))).merge
      (totalOf v (basePixels m (.region, rightL m d) \ L)) := by
  unfold preMergeFaces at h
  obtain ⟨t1, h1, h⟩ := bind_eq_ok.1 h
  rw [hm.rightFace hd, bind_ok] at h
  obtain ⟨s, hs, h⟩ := bind_eq_ok.1 h
  cases h
  rw [hm.preRemoveEdge_eq hd h1 hst]
  obtain ⟨j, hj⟩ := hm.rightCell hd
  have hne : (m.cell (.region, rightL m d)).Nonempty :=
    ⟨(d.x + dx j, d.y + dy j), mem_cell.2 ⟨hm.clean.near hd.inside hd.rim.nonregion j, hj⟩⟩
  have := read_ok hs
  rw [hst _ hne] at this
  rw [← Option.some.inj this]

/-- after the removal of an edge -/
theorem counts_removed {e s g : Nat} {E : Edge} (q : EdgeRemoved m m' e s g E) {L : Finset (Int × Int)} (hL : InFaces m L)
    {st st' : List (Stat R)} {t : Stat R} (hst : Counts v m st L) (hw : writeStat st s t = .ok st')
    (ht : t = totalOf v ((basePixels m (.region, s) ∪ basePixels m (.line, e) ∪ basePixels m (.region, g)) \ L)) :
    Counts v m' st' L ∧ InFaces m' L := by
  have hin : ∀ x y, m'.inside x y ↔ m.inside x y := fun x y => by simp only [Map.inside, q.w, q.h]
  obtain ⟨w1, rfl⟩ := write_ok hw
  refine ⟨fun f hf => ?_, fun p hp hpi => ?_⟩
  · by_cases hfs : f = s
    · subst hfs
      rw [List.getElem?_set_self w1, ht]
      congr 3
      ext p
      simp only [Finset.mem_union, mem_basePixels, hin, q.w, q.h]
      by_cases hi : m.inside p.1 p.2
      · rw [q.px _ _ hi]
        by_cases c1 : m.px p.1 p.2 = (.line, e) ∨ m.px p.1 p.2 = (.region, g)
        · rw [if_pos c1]; tauto
        · rw [if_neg c1]; tauto
      · tauto
    · rw [List.getElem?_set_ne (fun e => hfs e.symm)]
      have hfg : ∀ p : Int × Int, m.inside p.1 p.2 → (m'.px p.1 p.2 = (.region, f) ↔ m.px p.1 p.2 = (.region, f) ∧ f ≠ g) := by
        intro p hi
        rw [q.px _ _ hi]
        by_cases c1 : m.px p.1 p.2 = (.line, e) ∨ m.px p.1 p.2 = (.region, g)
        · rw [if_pos c1]
          constructor
          · intro h; exact absurd (Prod.ext_iff.1 h).2.symm hfs
          · rintro ⟨h1, h2⟩
            rcases c1 with c1 | c1
            · rw [c1] at h1; cases h1
            · rw [c1] at h1; exact absurd (Prod.ext_iff.1 h1).2.symm h2
        · rw [if_neg c1]
          constructor
          · intro h; exact ⟨h, fun he => c1 (Or.inr (he ▸ h))⟩
          · exact And.left
      obtain ⟨p, hp⟩ := hf
      obtain ⟨p1, p2⟩ := mem_cell.1 hp
      have p1 := (hin _ _).1 p1
      obtain ⟨p3, p4⟩ := (hfg p p1).1 p2
      rw [hst f ⟨p, mem_cell.2 ⟨p1, p3⟩⟩]
      congr 3
      ext p
      simp only [mem_basePixels, hin, q.w, q.h]
      by_cases hi : m.inside p.1 p.2
      · rw [hfg p hi]; tauto
      · tauto
  · have hpi := (hin _ _).1 hpi
    rw [q.px _ _ hpi]
    split
    · rfl
    · exact hL p hp hpi

theorem disjoint_base {c c' : Pixel} (h : c ≠ c') : Disjoint (basePixels m c) (basePixels m c') := by
  rw [Finset.disjoint_left]
  intro p h1 h2
  have a := (mem_basePixels.1 h1).1.2
  have b := (mem_basePixels.1 h2).1.2
  exact h (a.symm.trans b)

theorem base_sdiff {c : Pixel} {L : Finset (Int × Int)} (hL : InFaces m L) (hc : c.1 ≠ .region) : basePixels m c \ L = basePixels m c := by
  rw [Finset.sdiff_eq_self_iff_disjoint, Finset.disjoint_left]
  intro p h1 h2
  have := (mem_basePixels.1 h1).1
  apply hc
  rw [← this.2]
  exact hL p h2 this.1

/-- the pixels of isolated nodes that an operation gives to a face without telling the statistics -/
def forgotten (m : Map) : Op → Finset (Int × Int)
  | .removeIsolatedNode d => m.cell (m.px d.x d.y)
  | _ => ∅

/-- One operation: the map changes as without statistics, and the statistics are still those of the faces. -/
theorem Whole.statStep (hm : Whole m) {op : Op} (hcall : DartCall m op) {st st' : List (Stat R)} (h : runStat m v st op = .ok (m', st'))
    {L : Finset (Int × Int)} (hst : Counts v m st L) (hL : InFaces m L) :
    (∃ l, run m op = .ok (m', l)) ∧ Counts v m' st' (L ∪ forgotten m op) ∧ InFaces m' (L ∪ forgotten m op) := by
  cases op with
  | removeIsolatedNode d =>
    have hc : AtIsolated m d := hcall
    unfold runStat at h
    obtain ⟨⟨m1, f⟩, h1, h⟩ := bind_eq_ok.1 h
    cases h
    refine ⟨⟨f, h1⟩, ?_⟩
    obtain ⟨_, n, N, hn, hf, res⟩ := removeIsolatedNode_result hm.cons h1
    have e1 : FourEight.nodeLabel m d = .ok (m.px d.x d.y).2 := by
      unfold FourEight.nodeLabel Map.get
      rw [if_pos hc.inside]; rfl
    have e2 : n = (m.px d.x d.y).2 := by rw [e1] at hn; cases hn; rfl
    have e3 : m.px d.x d.y = (.vertex, n) := Prod.ext hc.node e2.symm
    have himg := res.image
    unfold forgotten
    dsimp only
    rw [e3]
    have hF : (m.cell (.region, f)).Nonempty := by
      have hnr : (m.px d.x d.y).1 ≠ .region := by rw [hc.node]; decide
      rw [leftFace_eq hm.clean hc.inside hnr] at hf
      obtain rfl := Outcome.ok.inj hf
      unfold leftL
      by_cases h1 : (m.look d.x d.y (d.dir + 1)).1 = .region
      · rw [if_pos h1]
        exact ⟨(_, _), mem_cell.2 ⟨hm.clean.near hc.inside hnr (d.dir + 1), Prod.ext h1 rfl⟩⟩
      · rw [if_neg h1]
        exact ⟨(_, _), mem_cell.2 ⟨hm.clean.near hc.inside hnr (d.dir + 2), Prod.ext (hc.left.resolve_left h1) rfl⟩⟩
    refine ⟨fun k hk => ?_, fun p hp hpi => ?_⟩
    · have hk0 : (m.cell (.region, k)).Nonempty := by
        obtain ⟨p, hp⟩ := hk
        obtain ⟨p1, p2⟩ := mem_cell.1 hp
        have p1 := himg.inside.1 p1
        rw [himg.px _ _ p1] at p2
        split at p2
        · obtain rfl : f = k := (Prod.ext_iff.1 p2).2
          exact hF
        · exact ⟨p, mem_cell.2 ⟨p1, p2⟩⟩
      rw [hst k hk0]
      congr 2
      ext p
      simp only [Finset.mem_sdiff, Finset.mem_union, mem_basePixels, mem_cell, himg.inside, himg.w, himg.h]
      by_cases hi : m.inside p.1 p.2
      · rw [himg.px _ _ hi]
        by_cases c1 : m.px p.1 p.2 = (.vertex, n)
        · rw [if_pos c1, c1]; simp [hi]
        · rw [if_neg c1]; tauto
      · tauto
    · have hpi := himg.inside.1 hpi
      rw [himg.px _ _ hpi]
      split
      · rfl
      · rename_i hnv
        rcases Finset.mem_union.1 hp with hp | hp
        · exact hL p hp hpi
        · exact absurd (mem_cell.1 hp).2 hnv
  | mergeFaces d =>
    have hd : IsDart m d := hcall
    unfold runStat at h
    obtain ⟨t, ht, h⟩ := bind_eq_ok.1 h
    obtain ⟨⟨m1, s⟩, h1, h⟩ := bind_eq_ok.1 h
    obtain ⟨st1, hw, h⟩ := bind_eq_ok.1 h
    cases h
    refine ⟨⟨s, h1⟩, ?_⟩
    obtain ⟨e, g, E, q, hE⟩ := hm.mergeFaces_removed hd h1
    have hne := hm.mergeFaces_ne hd h1
    obtain ⟨c1, c2, -, c4, c5⟩ := hm.ends e E q.edge q.live
    obtain ⟨f1, f2⟩ := hm.fit e E q.edge q.live
    have hlook : m.look d.x d.y d.dir = (.line, e) := by rcases hE with rfl | rfl <;> assumption
    have hs : leftL m d = s ∧ rightL m d = g ∨ leftL m d = g ∧ rightL m d = s := by
      have := q.sides
      rcases hE with rfl | rfl
      · exact this
      · omega
    rw [show forgotten m (.mergeFaces d) = ∅ from rfl, Finset.union_empty]
    refine counts_removed q hL hst hw ?_
    rw [hm.preMergeFaces_eq hd ht hst, hlook, Finset.union_sdiff_distrib, Finset.union_sdiff_distrib,
      base_sdiff hL (c := (.line, e)) (by simp)]
    have d1 : ∀ f : Nat, Disjoint (basePixels m (.region, f) \ L) (basePixels m (.line, e)) := fun f =>
      Finset.disjoint_of_subset_left Finset.sdiff_subset (disjoint_base (by intro h; cases h))
    have d2 : ∀ f g : Nat, f ≠ g → Disjoint (basePixels m (.region, f) \ L) (basePixels m (.region, g) \ L) := fun f g hfg =>
      Finset.disjoint_of_subset_left Finset.sdiff_subset (Finset.disjoint_of_subset_right Finset.sdiff_subset
        (disjoint_base (fun h => hfg (Prod.ext_iff.1 h).2)))
    rcases hs with ⟨s1, s2⟩ | ⟨s1, s2⟩
    · have hsg : s ≠ g := by omega
      rw [s1, s2, totalOf_union, totalOf_union (d1 s)]
      rw [Finset.disjoint_union_left]
      exact ⟨d2 s g hsg, (d1 g).symm⟩
    · have hsg : g ≠ s := by omega
      rw [s1, s2, Finset.union_comm, ← Finset.union_assoc, Finset.union_right_comm, totalOf_union, totalOf_union (d1 g)]
      rw [Finset.disjoint_union_left]
      exact ⟨d2 g s hsg, (d1 s).symm⟩
  | removeBridge d =>
    have hd : IsDart m d := hcall
    unfold runStat at h
    obtain ⟨t, ht, h⟩ := bind_eq_ok.1 h
    obtain ⟨⟨m1, s⟩, h1, h⟩ := bind_eq_ok.1 h
    obtain ⟨st1, hw, h⟩ := bind_eq_ok.1 h
    cases h
    refine ⟨⟨s, h1⟩, ?_⟩
    obtain ⟨e, g, E, q, hE⟩ := hm.removeBridge_removed hd h1
    obtain ⟨_, -, -, -, hl, hr, -⟩ := removeBridge_result hm.cons h1
    rw [hm.leftFace hd] at hl
    rw [hm.rightFace hd] at hr
    have hl := Outcome.ok.inj hl
    have hr := Outcome.ok.inj hr
    obtain ⟨c1, c2, -, c4, c5⟩ := hm.ends e E q.edge q.live
    obtain ⟨f1, f2⟩ := hm.fit e E q.edge q.live
    have hlook : m.look d.x d.y d.dir = (.line, e) := by rcases hE with rfl | rfl <;> assumption
    have hs : g = s := by
      have := q.sides
      rcases hE with rfl | rfl <;> omega
    subst hs
    rw [show forgotten m (.removeBridge d) = ∅ from rfl, Finset.union_empty]
    refine counts_removed q hL hst hw ?_
    rw [hm.preRemoveEdge_eq hd ht hst, hlook, hl, Finset.union_right_comm, Finset.union_self, Finset.union_sdiff_distrib,
      base_sdiff hL (c := (.line, e)) (by simp), totalOf_union]
    exact Finset.disjoint_of_subset_left Finset.sdiff_subset (disjoint_base (by intro h; cases h))
  | mergeEdges d =>
    unfold runStat at h
    obtain ⟨⟨m1, s⟩, h1, h⟩ := bind_eq_ok.1 h
    cases h
    refine ⟨⟨s, h1⟩, ?_⟩
    obtain ⟨d1, b, a, g, n, N, G, -, -, -, -, -, -, -, res, -⟩ := mergeEdges_full hm.cons h1
    change JoinResult m m1 n s g N G at res
    change Counts v m1 st _ ∧ InFaces m1 _
    obtain ⟨px, i1, i2⟩ := res.image
    have hpx : ∀ x y, m.inside x y → m1.px x y = if m.px x y = (.vertex, n) ∨ m.px x y = (.line, g) then (.line, s) else m.px x y := by
      intro x y hxy
      have h1 := i1.px x y hxy
      dsimp only at h1
      have h2 := i2.px x y hxy
      simp only [h1] at h2
      rw [h2]
      by_cases c1 : m.px x y = (.vertex, n)
      · simp [c1]
      · simp [c1]
    have hin : ∀ x y, m1.inside x y ↔ m.inside x y := fun x y => by simp only [Map.inside, res.w, res.h]
    have hreg : ∀ (p : Int × Int) f, m.inside p.1 p.2 → (m1.px p.1 p.2 = (.region, f) ↔ m.px p.1 p.2 = (.region, f)) := by
      intro p f hi
      rw [hpx _ _ hi]
      split
      · rename_i hc
        constructor
        · intro h; cases h
        · intro h; rw [h] at hc; rcases hc with hc | hc <;> cases hc
      · rfl
    rw [show forgotten m (.mergeEdges d) = ∅ from rfl, Finset.union_empty]
    refine ⟨fun f hf => ?_, fun p hp hpi => ?_⟩
    · obtain ⟨p, hp⟩ := hf
      obtain ⟨p1, p2⟩ := mem_cell.1 hp
      have p1 := (hin _ _).1 p1
      rw [hst f ⟨p, mem_cell.2 ⟨p1, (hreg p f p1).1 p2⟩⟩]
      congr 3
      ext p
      simp only [mem_basePixels, hin, res.w, res.h]
      by_cases hi : m.inside p.1 p.2
      · rw [hreg p f hi]
      · tauto
    · have hpi := (hin _ _).1 hpi
      have := hL p hp hpi
      have h3 := (hreg p (m.px p.1 p.2).2 hpi).2 (Prod.ext this rfl)
      rw [h3]

theorem Whole.edgeLabel_eq (hm : Whole m) {d : Dart} (hd : IsDart m d) : FourEight.edgeLabel m d = .ok (m.look d.x d.y d.dir).2 := by
  unfold FourEight.edgeLabel
  rw [hm.nb hd, add_zero]; rfl

theorem Whole.left_nonempty (hm : Whole m) {d : Dart} (hd : IsDart m d) : (m.cell (.region, leftL m d)).Nonempty := by
  obtain ⟨j, hj⟩ := hm.leftCell hd
  exact ⟨(d.x + dx j, d.y + dy j), mem_cell.2 ⟨hm.clean.near hd.inside hd.rim.nonregion j, hj⟩⟩

theorem Whole.right_nonempty (hm : Whole m) {d : Dart} (hd : IsDart m d) : (m.cell (.region, rightL m d)).Nonempty := by
  obtain ⟨j, hj⟩ := hm.rightCell hd
  exact ⟨(d.x + dx j, d.y + dy j), mem_cell.2 ⟨hm.clean.near hd.inside hd.rim.nonregion j, hj⟩⟩

theorem Whole.preRemoveEdge_ok (hm : Whole m) {d : Dart} (hd : IsDart m d) {st : List (Stat R)} {L : Finset (Int × Int)} (hst : Counts v m st L) :
    ∃ t, preRemoveEdge m v st d = .ok t := by
  obtain ⟨l, E, q1, q2, q3, -⟩ := hm.edge hd
  have hb := hm.cons.edges.box l E.info (by rw [List.getElem?_map, q2]; rfl) q3
  obtain ⟨ps, w1, -, -⟩ := cellScan_spec hb
  have hE : m.edge l = .ok E := by unfold Map.edge; rw [q2]; simp [q3]
  unfold preRemoveEdge
  rw [hm.leftFace hd, bind_ok, hm.edgeLabel_eq hd, q1]
  unfold readStat
  rw [hst _ (hm.left_nonempty hd), bind_ok, bind_ok, hE, bind_ok, show cellScan m E.box (.line, l) = .ok ps from w1]
  exact ⟨_, rfl⟩

theorem Whole.preMergeFaces_ok (hm : Whole m) {d : Dart} (hd : IsDart m d) {st : List (Stat R)} {L : Finset (Int × Int)} (hst : Counts v m st L) :
    ∃ t, preMergeFaces m v st d = .ok t := by
  obtain ⟨t, ht⟩ := hm.preRemoveEdge_ok hd hst
  unfold preMergeFaces
  rw [ht, bind_ok, hm.rightFace hd, bind_ok]
  unfold readStat
  rw [hst _ (hm.right_nonempty hd)]
  exact ⟨_, rfl⟩

theorem Counts.write {st : List (Stat R)} {L : Finset (Int × Int)} (hst : Counts v m st L) {f : Nat} (hf : (m.cell (.region, f)).Nonempty)
    (t : Stat R) : ∃ st', writeStat st f t = .ok st' := by
  have := hst f hf
  unfold writeStat
  rw [if_pos (List.getElem?_eq_some_iff.1 this).1]
  exact ⟨_, rfl⟩

/-- an operation that returns normally does so with the statistics, too -/
theorem Whole.statStep_ok (hm : Whole m) {op : Op} (hcall : DartCall m op) {l : Nat} (h : run m op = .ok (m', l)) {st : List (Stat R)}
    {L : Finset (Int × Int)} (hst : Counts v m st L) : ∃ st', runStat m v st op = .ok (m', st') := by
  cases op with
  | removeIsolatedNode d =>
    refine ⟨st, ?_⟩
    unfold run at h
    unfold runStat
    dsimp only at h ⊢
    rw [h]; rfl
  | mergeEdges d =>
    refine ⟨st, ?_⟩
    unfold run at h
    unfold runStat
    dsimp only at h ⊢
    rw [h]; rfl
  | mergeFaces d =>
    have hd : IsDart m d := hcall
    unfold run at h
    unfold runStat
    dsimp only at h ⊢
    obtain ⟨t, ht⟩ := hm.preMergeFaces_ok hd hst
    have hl : (m.cell (.region, l)).Nonempty := by
      obtain ⟨e, g, E, q, hE⟩ := hm.mergeFaces_removed hd h
      obtain ⟨c1, -⟩ := hm.ends e E q.edge q.live
      rcases q.sides with ⟨s1, -⟩ | ⟨-, s1⟩
      · rw [← s1]; exact hm.left_nonempty c1
      · rw [← s1]; exact hm.right_nonempty c1
    obtain ⟨st', hw⟩ := hst.write hl t
    exact ⟨st', by rw [ht, bind_ok, h, bind_ok, hw, bind_ok]⟩
  | removeBridge d =>
    have hd : IsDart m d := hcall
    unfold run at h
    unfold runStat
    dsimp only at h ⊢
    obtain ⟨t, ht⟩ := hm.preRemoveEdge_ok hd hst
    have hl : (m.cell (.region, l)).Nonempty := by
      obtain ⟨e, g, E, q, hE⟩ := hm.removeBridge_removed hd h
      obtain ⟨c1, -⟩ := hm.ends e E q.edge q.live
      rcases q.sides with ⟨s1, -⟩ | ⟨-, s1⟩
      · rw [← s1]; exact hm.left_nonempty c1
      · rw [← s1]; exact hm.right_nonempty c1
    obtain ⟨st', hw⟩ := hst.write hl t
    exact ⟨st', by rw [ht, bind_ok, h, bind_ok, hw, bind_ok]⟩

/-! ## the constructor -/

theorem statLoop_spec (hm : Consistent m) (ls : List Nat) (hn : ls.Nodup) (st : List (Stat R))
    (hls : ∀ f ∈ ls, f < st.length ∧ ∃ F, m.faces[f]? = some F ∧ F.live = true) :
    ∃ st', statLoop m v ls st = .ok st' ∧ st'.length = st.length ∧
      (∀ f ∈ ls, ∀ s, st[f]? = some s → st'[f]? = some (s.merge (totalOf v (basePixels m (.region, f))))) ∧
      ∀ f, f ∉ ls → st'[f]? = st[f]? := by
  induction ls generalizing st with
  | nil => exact ⟨st, rfl, rfl, by simp, fun _ _ => rfl⟩
  | cons a ls ih =>
    obtain ⟨hlen, F, q1, q2⟩ := hls a (List.mem_cons_self ..)
    rw [List.nodup_cons] at hn
    have hb := hm.faces.box a F.info (by rw [List.getElem?_map, q1]; rfl) q2
    obtain ⟨ps, w1, w2, w3⟩ := cellScan_spec hb
    have hF : m.face a = .ok F := by unfold Map.face; rw [q1]; simp [q2]
    obtain ⟨s0, hs0⟩ : ∃ s, st[a]? = some s := ⟨_, List.getElem?_eq_getElem hlen⟩
    obtain ⟨st', r1, r2, r3, r4⟩ := ih hn.2 (st.set a (inspect v ps s0)) (fun f hf => by
      rw [List.length_set]; exact hls f (List.mem_cons_of_mem _ hf))
    refine ⟨st', ?_, by rw [r2, List.length_set], ?_, ?_⟩
    · unfold statLoop
      rw [hF, bind_ok, show cellScan m F.box (.region, a) = .ok ps from w1, bind_ok]
      unfold readStat writeStat
      rw [hs0]
      dsimp only
      rw [bind_ok, if_pos hlen, bind_ok, r1]
    · intro f hf s hs
      rcases List.mem_cons.1 hf with rfl | hf
      · rw [r4 f hn.1, List.getElem?_set_self hlen, inspect_total w2, w3]
        rw [hs0] at hs
        rw [Option.some.inj hs]
      · have hfa : a ≠ f := fun e => hn.1 (e ▸ hf)
        exact r3 f hf s (by rw [List.getElem?_set_ne hfa]; exact hs)
    · intro f hf
      rw [List.mem_cons, not_or] at hf
      rw [r4 f hf.2, List.getElem?_set_ne (fun e => hf.1 e.symm)]

theorem mem_faceLabels {f : Nat} : f ∈ faceLabels m ↔ ∃ F, m.faces[f]? = some F ∧ F.live = true := by
  unfold faceLabels
  rw [List.mem_filter, List.mem_range]
  constructor
  · rintro ⟨h1, h2⟩
    rw [List.getElem?_eq_getElem h1] at h2 ⊢
    exact ⟨_, rfl, h2⟩
  · rintro ⟨F, h1, h2⟩
    refine ⟨(List.getElem?_eq_some_iff.1 h1).1, ?_⟩
    rw [h1]; exact h2

/-- The first face that the iterator visits is the infinite one. -/
theorem faceLabels_first (hm : Outer m) : ∃ ls, faceLabels m = 0 :: ls ∧ 0 ∉ ls ∧ ls.Nodup := by
  obtain ⟨F, h1, h2⟩ := hm.exists_
  have hl := (List.getElem?_eq_some_iff.1 h1).1
  obtain ⟨n, hn⟩ : ∃ n, m.faces.length = n + 1 := ⟨m.faces.length - 1, by omega⟩
  have hnd : (faceLabels m).Nodup := List.Nodup.filter _ List.nodup_range
  have : faceLabels m = 0 :: ((List.range n).map Nat.succ).filter fun l => (m.faces[l]?.map (·.live)).getD false := by
    unfold faceLabels
    rw [hn, List.range_succ_eq_map, List.filter_cons_of_pos]
    rw [h1]; exact h2
  rw [this] at hnd
  exact ⟨_, this, (List.nodup_cons.1 hnd).1, (List.nodup_cons.1 hnd).2⟩

/-- The constructor returns the statistics of all faces but the infinite one. -/
theorem initStats_counts (hm : Consistent m) (ho : Outer m) : ∃ st : List (Stat R), initStats m v = .ok st ∧
    Counts v m st (basePixels m (.region, 0)) ∧ InFaces m (basePixels m (.region, 0)) := by
  obtain ⟨ls, h1, h2, h3⟩ := faceLabels_first ho
  have hin : ∀ f, f ∈ faceLabels m ↔ f = 0 ∨ f ∈ ls := fun f => by rw [h1, List.mem_cons]
  have hlt : ∀ f ∈ ls, f < (List.replicate (m.faces.length + 1) (Stat.zero : Stat R)).length ∧ ∃ F, m.faces[f]? = some F ∧ F.live = true := by
    intro f hf
    obtain ⟨F, q1, q2⟩ := mem_faceLabels.1 ((hin f).2 (Or.inr hf))
    have := (List.getElem?_eq_some_iff.1 q1).1
    exact ⟨by rw [List.length_replicate]; omega, F, q1, q2⟩
  obtain ⟨st, s1, -, s3, s4⟩ := statLoop_spec (v := v) hm ls h3 _ hlt
  refine ⟨st, ?_, ?_, ?_⟩
  · unfold initStats
    rw [h1]; exact s1
  · intro f hf
    obtain ⟨p, hp⟩ := hf
    obtain ⟨p1, p2⟩ := mem_cell.1 hp
    obtain ⟨a, o1, o2⟩ := hm.faces.owner _ _ _ p1 p2
    rw [List.getElem?_map] at o1
    obtain ⟨F, o3, rfl⟩ := Option.map_eq_some_iff.1 o1
    have hlen := (List.getElem?_eq_some_iff.1 o3).1
    have hz : (List.replicate (m.faces.length + 1) (Stat.zero : Stat R))[f]? = some Stat.zero := by
      rw [List.getElem?_replicate, if_pos (by omega)]
    rcases (hin f).1 (mem_faceLabels.2 ⟨F, o3, o2⟩) with rfl | hfl
    · rw [s4 0 h2, hz, Finset.sdiff_self, totalOf_empty]
    · rw [s3 f hfl _ hz, zero_merge]
      congr 2
      refine (Finset.sdiff_eq_self_iff_disjoint.2 (disjoint_base fun h => ?_)).symm
      have : f = 0 := (Prod.ext_iff.1 h).2
      exact h2 (this ▸ hfl)
  · intro p hp _
    rw [(mem_basePixels.1 hp).1.2]

end

end Verif.FourEight
