import Verif.GeoMap.Effects

/-! # Nodes − edges + faces − components counts the classes of faces joined across edges

Removing the edges of a planar map one after the other (a bridge with `removeBridge`, any other edge
with `mergeFaces`) leaves `euler` unchanged and ends with a map without edges. -/

namespace Verif.GeoMap
open Equiv Equiv.Perm Verif.PermLemmas

variable {K : Type} [Field K] [LinearOrder K]

/-- the faces `f` and `g` are joined by a sequence of faces separated by single edges -/
def GMap.DualConn (s : GMap K) (f g : Nat) : Prop :=
  Relation.ReflTransGen (fun x y => ∃ d, s.left? d = some x ∧ s.left? (-d) = some y) f g

omit [Field K] [LinearOrder K] in
theorem DualConn.symm {s : GMap K} {f g : Nat} (h : s.DualConn f g) : s.DualConn g f := by
  induction h with
  | refl => exact Relation.ReflTransGen.refl
  | tail _ h ih =>
    obtain ⟨d, h1, h2⟩ := h
    exact Relation.ReflTransGen.head ⟨-d, h2, by rw [neg_neg]; exact h1⟩ ih

omit [Field K] [LinearOrder K] in
theorem mem_liveFaces {s : GMap K} (h : ∀ n, (s.face n).isSome = true → n < s.nFaces) {n : Nat} :
    n ∈ s.liveFaces ↔ (s.face n).isSome = true := by
  unfold GMap.liveFaces
  rw [Finset.mem_filter, Finset.mem_range]
  exact ⟨fun h => h.2, fun hn => ⟨h n hn, hn⟩⟩

omit [Field K] [LinearOrder K] in
/-- In a planar map no edge is a loop and a bridge. -/
theorem PlanarOK.no_loop_bridge {s : GMap K} (hM : MapOK s) (hP : PlanarOK s) {d : Int} (hd : s.liveD d)
    (hb : s.left? d = s.left? (-d)) : s.startN? d ≠ s.startN? (-d) := by
  intro hn
  obtain ⟨π, hg⟩ := hM.graph.exists_rep
  have hdL := (hg.live d).mpr hd
  have h0 := hg.ne_zero hdL
  obtain ⟨c, hc⟩ := hP (fun l => if l = d.natAbs then 1 else 0) (by
    intro n
    rw [bd_eraseEdge hdL (hg.symm d hdL) h0, ← hn]
    have : bd (eraseEdge s.darts d) s.startN? (fun l => if l = d.natAbs then 1 else 0) n = 0 := by
      unfold bd
      refine Finset.sum_eq_zero (fun x hx => ?_)
      rw [Finset.mem_filter, mem_eraseEdge] at hx
      refine if_neg (fun e => ?_)
      rcases Int.natAbs_eq_natAbs_iff.mp e with e | e
      · exact hx.1.2.1 e
      · exact hx.1.1 e
    rw [this]
    by_cases hh : s.startN? d = some n
    · rw [if_pos hh, if_pos rfl]; decide
    · rw [if_neg hh]; decide)
  have := hc d hdL
  rw [if_pos rfl, ← hb] at this
  have h2 : ∀ z : ZMod 2, z + z = 0 := by decide
  rw [h2] at this
  exact absurd this (by decide)

/-- Every edge can be removed; one face disappears unless the edge is a bridge. -/
theorem remove_one {s : GMap K} (hs : Good s) (hi : s.initialized) {d : Int} (hd : s.liveD d) :
    ∃ t, Good t ∧ t.initialized ∧ t.euler = s.euler ∧
      ((∃ f, RemoveBridgeEffect s t d f) ∨ ∃ sl ml, MergeFacesEffect s t d sl ml) := by
  have hP := hs.planar hi
  by_cases hb : s.left? d = s.left? (-d)
  · have hn := hP.no_loop_bridge hs.map hd hb
    obtain ⟨f, F, e, s2, t, -, -, -, heq, -⟩ := removeBridge_spec hs.map hi Hooks.none hd hb hn (hP.bridges hs.map hi d hd hb)
    rw [if_pos (show Hooks.none.preRemoveBridge s d = true from rfl)] at heq
    rcases removeBridge_step hs.map hs.planar Hooks.none d with h | ⟨r, t', h, hst⟩
    · rw [heq] at h; cases h
    · rw [heq] at h; cases h
      exact ⟨t, hst.good hs, by unfold GMap.initialized at hi ⊢; rw [hst.init]; exact hi, hst.euler hP, Or.inl ⟨f, removeBridge_effect hs heq⟩⟩
  · obtain ⟨r, sl, ml, S, M, a, b, e, s0, s2, t, -, -, -, -, -, -, -, -, -, -, -, -, heq, -⟩ := mergeFaces_spec hs.map hi Hooks.none hd hb
    rw [if_pos (show Hooks.none.preMergeFaces s0 r = true from rfl)] at heq
    rcases mergeFaces_step hs.map hs.planar Hooks.none d with h | ⟨r, t', h, hst⟩
    · rw [heq] at h; cases h
    · rw [heq] at h; cases h
      obtain ⟨ml, he⟩ := mergeFaces_effect hs heq
      exact ⟨t, hst.good hs, by unfold GMap.initialized at hi ⊢; rw [hst.init]; exact hi, hst.euler hP, Or.inr ⟨_, ml, he⟩⟩

omit [Field K] [LinearOrder K] in
/-- Collapsing faces by `q` keeps the relation of being joined. -/
theorem dualConn_collapse {s t : GMap K} (q : Nat → Nat) (hl : ∀ x, t.liveD x → t.left? x = (s.left? x).map q)
    (hq : ∀ x, s.DualConn x (q x))
    (hr : ∀ x f g, ¬ t.liveD x → s.left? x = some f → s.left? (-x) = some g → q f = q g) (f g : Nat) :
    t.DualConn (q f) (q g) ↔ s.DualConn f g := by
  constructor
  · have key : ∀ a b, t.DualConn a b → s.DualConn a b := by
      intro a b h
      induction h with
      | refl => exact Relation.ReflTransGen.refl
      | tail _ h ih =>
        obtain ⟨d, h1, h2⟩ := h
        have hd := liveD_of_left h1
        rw [hl d hd] at h1
        rw [hl _ (liveD_neg.mpr hd)] at h2
        obtain ⟨u, hu, rfl⟩ := Option.map_eq_some_iff.mp h1
        obtain ⟨v, hv, rfl⟩ := Option.map_eq_some_iff.mp h2
        exact ih.trans ((DualConn.symm (hq u)).trans (Relation.ReflTransGen.head ⟨d, hu, hv⟩ (hq v)))
    intro h
    exact (hq f).trans ((key _ _ h).trans (DualConn.symm (hq g)))
  · intro h
    induction h with
    | refl => exact Relation.ReflTransGen.refl
    | @tail u v _ h ih =>
      obtain ⟨d, h1, h2⟩ := h
      by_cases hd : t.liveD d
      · refine ih.trans (Relation.ReflTransGen.single ⟨d, ?_, ?_⟩)
        · rw [hl d hd, h1]; rfl
        · rw [hl _ (liveD_neg.mpr hd), h2]; rfl
      · rw [hr d u v hd h1 h2] at ih
        exact ih

theorem euler_dual_aux {α : Type} [DecidableEq α] (k : Nat → α) : ∀ n : Nat, ∀ s : GMap K, Good s → s.initialized → s.edgeCount = n →
    (∀ f ∈ s.liveFaces, ∀ g ∈ s.liveFaces, k f = k g ↔ s.DualConn f g) →
    s.euler = ((s.liveFaces.image k).card : Int) := by
  intro n
  induction n with
  | zero =>
    intro s hs hi hn hk
    obtain ⟨π, hg⟩ := hs.map.graph.exists_rep
    have hno : ∀ d, ¬ s.liveD d := by
      intro d hd
      have h1 : d.natAbs ∈ s.liveEdges := by
        unfold GMap.liveEdges
        rw [Finset.mem_filter, Finset.mem_range]
        exact ⟨hg.labels.edge_lt _ hd, hd⟩
      have h2 := hg.labels.edge_count
      rw [hn] at h2
      have := Finset.card_pos.mpr ⟨_, h1⟩
      omega
    have hcomp : s.components = s.liveNodes.card := by
      classical
      unfold GMap.components
      apply Finset.card_image_of_injOn
      intro a ha b hb h
      have : b ∈ s.liveNodes.filter (s.Connected b) := by
        rw [Finset.mem_filter]; exact ⟨hb, Relation.ReflTransGen.refl⟩
      simp only at h
      rw [← h, Finset.mem_filter] at this
      rcases Relation.ReflTransGen.cases_head this.2 with h | ⟨c, ⟨d, h1, -⟩, -⟩
      · exact h
      · exact absurd (liveD_of_start h1) (hno d)
    have hface : (s.liveFaces.image k).card = s.liveFaces.card := by
      apply Finset.card_image_of_injOn
      intro a ha b hb h
      rcases Relation.ReflTransGen.cases_head ((hk a ha b hb).mp h) with h | ⟨c, ⟨d, h1, -⟩, -⟩
      · exact h
      · exact absurd (liveD_of_left h1) (hno d)
    rw [hface]
    unfold GMap.euler
    rw [hcomp, hn, hg.labels.node_count, hg.labels.face_count]
    push_cast
    omega
  | succ n ih =>
    intro s hs hi hn hk
    obtain ⟨π, hg⟩ := hs.map.graph.exists_rep
    obtain ⟨l, hl⟩ : ∃ l, l ∈ s.liveEdges := by
      rw [← Finset.Nonempty, ← Finset.card_pos, ← hg.labels.edge_count]; omega
    have hd : s.liveD (l : Int) := by
      unfold GMap.liveEdges at hl
      rw [Finset.mem_filter] at hl
      exact hl.2
    obtain ⟨t, ht, hti, hte, h⟩ := remove_one hs hi hd
    obtain ⟨π', hg'⟩ := ht.map.graph.exists_rep
    rw [← hte]
    rcases h with ⟨f, he⟩ | ⟨sl, ml, he⟩
    · have hlf : ∀ x, t.liveD x → t.left? x = (s.left? x).map id := by
        intro x hx
        have hne : x.natAbs ≠ (l : Int).natAbs := by
          intro e
          apply he.edge_gone.2
          unfold GMap.liveD at hx ⊢
          rw [← e]; exact hx
        unfold GMap.left?
        rw [he.edges _ hne]
        simp
      have hfaces : t.liveFaces = s.liveFaces := by
        ext g
        rw [mem_liveFaces hg'.labels.face_lt, mem_liveFaces hg.labels.face_lt]
        have := congrArg Option.isSome (he.faces g)
        simp only [Option.isSome_map] at this
        rw [this]
      rw [ih t ht hti (by have := he.counts.2.2.1; omega) ?_, hfaces]
      intro f1 hf1 g1 hg1
      rw [hfaces] at hf1 hg1
      rw [hk f1 hf1 g1 hg1]
      refine (dualConn_collapse (s := s) (t := t) id hlf (fun x => Relation.ReflTransGen.refl) ?_ f1 g1).symm
      intro x a b hx ha hb
      by_cases hxl : x.natAbs = (l : Int).natAbs
      · have h1 := he.face
        rcases Int.natAbs_eq_natAbs_iff.mp hxl with rfl | rfl
        · rw [ha, hb] at h1; simp_all
        · rw [neg_neg] at hb
          rw [ha, hb] at h1; simp_all
      · exfalso
        apply hx
        have := liveD_of_left ha
        unfold GMap.liveD at this ⊢
        rw [he.edges _ hxl]; exact this
    · let q : Nat → Nat := fun x => if x = ml then sl else x
      have hlf : ∀ x, t.liveD x → t.left? x = (s.left? x).map q := by
        intro x hx
        rw [he.lefts x hx]
        cases h : s.left? x with
        | none => simp
        | some y =>
          simp only [q, Option.map_some, Option.some.injEq]
          by_cases hy : y = ml <;> simp [hy]
      have hslml : s.DualConn ml sl := by
        rcases he.sides with h | h
        · exact Relation.ReflTransGen.single ⟨_, h.2, by rw [neg_neg]; exact h.1⟩
        · exact Relation.ReflTransGen.single ⟨_, h.1, h.2⟩
      have hq : ∀ x, s.DualConn x (q x) := by
        intro x
        by_cases hx : x = ml
        · subst hx; simp only [q, if_true]; exact hslml
        · simp only [q, if_neg hx]; exact Relation.ReflTransGen.refl
      have hcol := dualConn_collapse (s := s) (t := t) q hlf hq (by
        intro x a b hx ha hb
        by_cases hxl : x.natAbs = (l : Int).natAbs
        · have h1 := he.sides
          have h2 : (a = sl ∧ b = ml) ∨ (a = ml ∧ b = sl) := by
            rcases Int.natAbs_eq_natAbs_iff.mp hxl with rfl | rfl
            · rw [ha, hb] at h1; simp_all
            · rw [neg_neg] at hb
              rw [ha, hb] at h1
              rcases h1 with ⟨h1, h2⟩ | ⟨h1, h2⟩
              · right; simp_all
              · left; simp_all
          rcases h2 with ⟨rfl, rfl⟩ | ⟨rfl, rfl⟩ <;> simp [q]
        · exfalso
          apply hx
          have h1 := liveD_of_left ha
          have h2 := congrArg Option.isSome (he.edges _ hxl)
          simp only [Option.isSome_map] at h2
          unfold GMap.liveD at h1 ⊢
          rw [h2]; exact h1)
      obtain ⟨S, M, T, hS, hMl, hT, -⟩ := he.areas
      have hfaces : t.liveFaces = s.liveFaces.erase ml := by
        ext g
        rw [Finset.mem_erase, mem_liveFaces hg'.labels.face_lt, mem_liveFaces hg.labels.face_lt]
        by_cases h1 : g = ml
        · subst h1; simp [he.face_gone.2]
        · by_cases h2 : g = sl
          · subst h2; simp [hT, hS, h1]
          · rw [he.faces g h2 h1]; simp [h1]
      have hmlm : ml ∈ s.liveFaces := (mem_liveFaces hg.labels.face_lt).mpr he.face_gone.1
      have hslm : sl ∈ s.liveFaces := (mem_liveFaces hg.labels.face_lt).mpr (by rw [hS]; rfl)
      have himg : t.liveFaces.image k = s.liveFaces.image k := by
        rw [hfaces]
        ext y
        simp only [Finset.mem_image, Finset.mem_erase]
        constructor
        · rintro ⟨x, ⟨-, h1⟩, h2⟩; exact ⟨x, h1, h2⟩
        · rintro ⟨x, h1, h2⟩
          by_cases hx : x = ml
          · refine ⟨sl, ⟨he.distinct.1, hslm⟩, ?_⟩
            rw [← h2, hx, hk sl hslm ml hmlm]
            exact DualConn.symm hslml
          · exact ⟨x, ⟨hx, h1⟩, h2⟩
      rw [ih t ht hti (by have := he.counts.2.2.1; omega) ?_, himg]
      intro f1 hf1 g1 hg1
      rw [hfaces, Finset.mem_erase] at hf1 hg1
      rw [hk f1 hf1.2 g1 hg1.2, ← hcol f1 g1]
      simp only [q, if_neg hf1.1, if_neg hg1.1]

/-- `euler` is the number of classes of faces joined across edges. -/
theorem euler_dual {α : Type} [DecidableEq α] {s : GMap K} (hs : Good s) (hi : s.initialized) (k : Nat → α)
    (hk : ∀ f ∈ s.liveFaces, ∀ g ∈ s.liveFaces, k f = k g ↔ s.DualConn f g) :
    s.euler = ((s.liveFaces.image k).card : Int) :=
  euler_dual_aux k _ s hs hi rfl hk

end Verif.GeoMap
