import Verif.Euler.Props
import Mathlib.Combinatorics.SimpleGraph.Acyclic

/-! # Every contour separates the faces of a map

Join every face with the components its contours belong to.  As nodes, edges, faces and components satisfy Euler's formula, there are as many
contours as there are edges in a tree, and hence removing one contour disconnects this graph. -/

namespace Verif.GeoMap
open Equiv Equiv.Perm Verif.PermLemmas

variable {K : Type} [Field K] [LinearOrder K] [IsStrictOrderedRing K]

/-- A contour separates the faces: one can colour the faces (`S`) and the components (`C`) such that the face of the contour is coloured and its
component is not, while all other contours join faces and components of the same colour. -/
theorem contour_separates {s : GMap K} (hs : Reach s) (hi : s.initialized) {a : Int} (ha : s.liveD a) :
    ∃ S C : Nat → Prop, (∀ d n m, s.startN? d = some n → s.startN? (-d) = some m → (C n ↔ C m)) ∧
      ∀ x f n, s.left? x = some f → s.startN? x = some n → (s.phiReach a x → S f ∧ ¬ C n) ∧ (¬ s.phiReach a x → (S f ↔ C n)) := by
  classical
  have hgood := hs.good
  obtain ⟨π, hg⟩ := hgood.map.graph.exists_rep
  obtain ⟨ψ, hc⟩ := (hgood.map.contours hi).exists_rep hg
  have hlive : ∀ d, d ∈ s.darts ↔ s.liveD d := mem_darts hg.labels.edge_lt
  have had : a ∈ s.darts := (hlive a).mpr ha
  have hreach : ∀ d, s.phiReach a d ↔ SameCycle ψ a d := fun d => (hc.rep.sameCycle_iff had).symm
  let comp : Nat → Finset Nat := fun n => s.liveNodes.filter (s.Connected n)
  let CS : Finset (Finset Nat) := s.edgeNodes.image comp
  have hCS : CS.card = s.edgeComponents := by
    unfold GMap.edgeComponents
    congr!
  have hnode : ∀ x n, s.startN? x = some n → n ∈ s.edgeNodes := by
    intro x n hx
    unfold GMap.edgeNodes
    rw [Finset.mem_filter]
    exact ⟨hg.start_mem ((hlive x).mpr (liveD_of_start hx)) hx, x, hx⟩
  have hnl : ∀ x n, s.startN? x = some n → n ∈ s.liveNodes := fun x n hx => hg.start_mem ((hlive x).mpr (liveD_of_start hx)) hx
  have hcompm : ∀ x n, s.startN? x = some n → comp n ∈ CS := fun x n hx => Finset.mem_image_of_mem _ (hnode x n hx)
  have hfacem : ∀ x f, s.left? x = some f → f ∈ s.liveFaces := by
    intro x f hx
    obtain ⟨f', h1, h2, -⟩ := hc.lefts x ((hlive x).mpr (liveD_of_left hx))
    rw [hx] at h1; cases h1
    exact (mem_liveFaces hg.labels.face_lt).mpr h2
  have hcomp : ∀ d n m, s.startN? d = some n → s.startN? (-d) = some m → comp n = comp m := by
    intro d n m h1 h2
    exact (connected_class (hnl _ _ h2)).mpr (Relation.ReflTransGen.single ⟨d, h1, h2⟩)
  have hcyc : ∀ x y n m, SameCycle ψ x y → s.startN? x = some n → s.startN? y = some m → comp n = comp m := by
    intro x y n m h h1 h2
    exact (connected_class (hnl _ _ h2)).mpr (contour_connected hg hc.rep ((hlive x).mpr (liveD_of_start h1)) h h1 h2)
  have hleft : ∀ x y, x ∈ s.darts → SameCycle ψ x y → s.left? y = s.left? x := by
    intro x y hx h
    obtain ⟨k, rfl⟩ := (hc.rep.sameCycle_iff hx).mp h
    clear h
    induction k with
    | zero => rfl
    | succ k ih =>
      have hk := (hc.rep.iterate_mem hx k).2
      obtain ⟨f, h1, -, h2⟩ := hc.lefts _ hk
      rw [Function.iterate_succ_apply', hc.rep.eq _ hk, h2, ← ih, h1]
  -- the graph of components and faces, joined by all contours but one
  let V := (↥CS) ⊕ (↥s.liveFaces)
  let R : V → V → Prop := fun u v => ∃ x n f, ∃ (h1 : s.startN? x = some n) (h2 : s.left? x = some f), ¬ SameCycle ψ a x ∧
    u = Sum.inl ⟨comp n, hcompm x n h1⟩ ∧ v = Sum.inr ⟨f, hfacem x f h2⟩
  let G : SimpleGraph V := SimpleGraph.fromRel R
  have hadj : ∀ x n f (h1 : s.startN? x = some n) (h2 : s.left? x = some f), ¬ SameCycle ψ a x →
      G.Adj (Sum.inl ⟨comp n, hcompm x n h1⟩) (Sum.inr ⟨f, hfacem x f h2⟩) := by
    intro x n f h1 h2 h3
    rw [SimpleGraph.fromRel_adj]
    exact ⟨by simp, Or.inl ⟨x, n, f, h1, h2, h3, rfl, rfl⟩⟩
  obtain ⟨na, hna⟩ := hg.start_exists a had
  obtain ⟨fa, hfa, -⟩ := hc.lefts a had
  -- number of vertices
  have hV : Nat.card V = s.edgeComponents + s.faceCount := by
    rw [Nat.card_sum, Nat.card_eq_fintype_card, Nat.card_eq_fintype_card, Fintype.card_coe, Fintype.card_coe, hg.labels.face_count, hCS]
  -- number of edges
  have hE : Nat.card G.edgeSet + 1 ≤ s.contourCount := by
    rw [contourCount_eq hg.labels.face_lt hc]
    unfold cycles
    let Y : Finset (Finset Int) := s.darts.image fun d => s.darts.filter (SameCycle ψ d)
    have hY : s.darts.filter (SameCycle ψ a) ∈ Y := Finset.mem_image_of_mem _ had
    have hrep : ∀ y ∈ Y, ∃ x n f, s.startN? x = some n ∧ s.left? x = some f ∧ y = s.darts.filter (SameCycle ψ x) := by
      intro y hy
      obtain ⟨x, hx, rfl⟩ := Finset.mem_image.mp hy
      obtain ⟨n, hn⟩ := hg.start_exists x hx
      obtain ⟨f, hf, -⟩ := hc.lefts x hx
      exact ⟨x, n, f, hn, hf, rfl⟩
    choose! xs ns fs h1 h2 h3 using hrep
    have hsub : G.edgeSet ⊆ ((Y.erase (s.darts.filter (SameCycle ψ a))).attach.image fun y =>
        s((Sum.inl ⟨comp (ns y.1), hcompm _ _ (h1 y.1 (Finset.mem_erase.mp y.2).2)⟩ : V),
          (Sum.inr ⟨fs y.1, hfacem _ _ (h2 y.1 (Finset.mem_erase.mp y.2).2)⟩ : V)) : Finset (Sym2 V)) := by
      intro e he
      have key : ∀ u v : V, R u v → s(u, v) ∈ ((Y.erase (s.darts.filter (SameCycle ψ a))).attach.image fun y =>
        s((Sum.inl ⟨comp (ns y.1), hcompm _ _ (h1 y.1 (Finset.mem_erase.mp y.2).2)⟩ : V),
          (Sum.inr ⟨fs y.1, hfacem _ _ (h2 y.1 (Finset.mem_erase.mp y.2).2)⟩ : V)) : Finset (Sym2 V)) := by
        rintro u v ⟨x, n, f, k1, k2, k3, rfl, rfl⟩
        have hx := (hlive x).mpr (liveD_of_start k1)
        have hy : s.darts.filter (SameCycle ψ x) ∈ Y := Finset.mem_image_of_mem _ hx
        have hne : s.darts.filter (SameCycle ψ x) ≠ s.darts.filter (SameCycle ψ a) := by
          intro e
          apply k3
          have : x ∈ s.darts.filter (SameCycle ψ x) := by rw [Finset.mem_filter]; exact ⟨hx, SameCycle.refl _ _⟩
          rw [e, Finset.mem_filter] at this
          exact this.2
        have hsc : SameCycle ψ x (xs (s.darts.filter (SameCycle ψ x))) := by
          have e := h3 _ hy
          have hxs := (hlive _).mpr (liveD_of_start (h1 _ hy))
          have : xs (s.darts.filter (SameCycle ψ x)) ∈ s.darts.filter (SameCycle ψ (xs (s.darts.filter (SameCycle ψ x)))) := by
            rw [Finset.mem_filter]; exact ⟨hxs, SameCycle.refl _ _⟩
          rw [← e, Finset.mem_filter] at this
          exact this.2
        rw [Finset.mem_image]
        refine ⟨⟨_, Finset.mem_erase.mpr ⟨hne, hy⟩⟩, Finset.mem_attach _ _, ?_⟩
        have e1 : comp n = comp (ns (s.darts.filter (SameCycle ψ x))) := hcyc _ _ _ _ hsc k1 (h1 _ hy)
        have e2 : f = fs (s.darts.filter (SameCycle ψ x)) := by
          have := hleft _ _ hx hsc
          rw [h2 _ hy, k2] at this
          simpa using this.symm
        simp only [← e1, ← e2]
      induction e using Sym2.ind with
      | _ u v =>
        rw [SimpleGraph.mem_edgeSet, SimpleGraph.fromRel_adj] at he
        rcases he.2 with h | h
        · exact key u v h
        · rw [Sym2.eq_swap]; exact key v u h
    have hcard : Nat.card G.edgeSet ≤ (Y.erase (s.darts.filter (SameCycle ψ a))).card := by
      refine (Nat.card_mono (Finset.finite_toSet _) hsub).trans ?_
      rw [Nat.card_eq_card_toFinset, Finset.toFinset_coe]
      refine Finset.card_image_le.trans ?_
      rw [Finset.card_attach]
    have : (Y.erase (s.darts.filter (SameCycle ψ a))).card + 1 = Y.card := Finset.card_erase_add_one hY
    have e : Y.card = (s.darts.image fun d => s.darts.filter (SameCycle ψ d)).card := rfl
    omega
  have hnum : s.contourCount + 1 = s.edgeComponents + s.faceCount := by
    have h1 := (Props.contour_formula hs hi).1
    have h2 := holeSum_eq hg.labels (hgood.map.contours hi).face_zero
    omega
  -- the face of the contour and its component are not joined any more
  have hsep : ¬ G.Reachable (Sum.inr ⟨fa, hfacem a fa hfa⟩) (Sum.inl ⟨comp na, hcompm a na hna⟩) := by
    intro hr
    have hall : ∀ x n f (h1 : s.startN? x = some n) (h2 : s.left? x = some f),
        G.Reachable (Sum.inl ⟨comp n, hcompm x n h1⟩) (Sum.inr ⟨f, hfacem x f h2⟩) := by
      intro x n f h1 h2
      by_cases hx : SameCycle ψ a x
      · have e1 := hcyc _ _ _ _ hx hna h1
        have e2 := hleft _ _ had hx
        rw [h2, hfa] at e2
        cases e2
        simp only [← e1]
        exact hr.symm
      · exact (hadj x n f h1 h2 hx).reachable
    have hface : ∀ f (hf : f ∈ s.liveFaces), G.Reachable (Sum.inr ⟨0, (mem_liveFaces hg.labels.face_lt).mpr (hgood.map.contours hi).face_zero⟩) (Sum.inr ⟨f, hf⟩) := by
      intro f hf
      have := Props.faces_joined hs hi ((mem_liveFaces hg.labels.face_lt).mp hf)
      induction this with
      | refl => exact SimpleGraph.Reachable.refl _
      | @tail b c _ hst ih =>
        obtain ⟨d, q1, q2⟩ := hst
        refine (ih (hfacem _ _ q1)).trans ?_
        obtain ⟨n, hn⟩ := hg.start_exists d ((hlive d).mpr (liveD_of_left q1))
        obtain ⟨m, hm⟩ := hg.start_exists (-d) ((hlive _).mpr (liveD_of_left q2))
        refine (hall d n b hn q1).symm.trans ?_
        have e := hcomp _ _ _ hn hm
        simp only [e]
        exact hall (-d) m c hm q2
    have hcn : G.Connected := by
      refine (SimpleGraph.connected_iff_exists_forall_reachable G).mpr
        ⟨Sum.inr ⟨0, (mem_liveFaces hg.labels.face_lt).mpr (hgood.map.contours hi).face_zero⟩, ?_⟩
      rintro (⟨X, hX⟩ | ⟨f, hf⟩)
      · obtain ⟨n, hn, rfl⟩ := Finset.mem_image.mp hX
        unfold GMap.edgeNodes at hn
        obtain ⟨-, x, hx⟩ := Finset.mem_filter.mp hn
        obtain ⟨f, hf, -⟩ := hc.lefts x ((hlive x).mpr (liveD_of_start hx))
        exact (hface f (hfacem _ _ hf)).trans (hall x n f hx hf).symm
      · exact hface f hf
    have := hcn.card_vert_le_card_edgeSet_add_one
    rw [hV] at this
    omega
  refine ⟨fun f => ∃ hf : f ∈ s.liveFaces, G.Reachable (Sum.inr ⟨fa, hfacem a fa hfa⟩) (Sum.inr ⟨f, hf⟩),
    fun n => ∃ hn : comp n ∈ CS, G.Reachable (Sum.inr ⟨fa, hfacem a fa hfa⟩) (Sum.inl ⟨comp n, hn⟩), ?_, ?_⟩
  · intro d n m h1 h2
    have e := hcomp _ _ _ h1 h2
    simp only [e]
  · intro x f n h1 h2
    rw [hreach]
    refine ⟨fun hx => ⟨⟨hfacem _ _ h1, ?_⟩, ?_⟩, fun hx => ⟨?_, ?_⟩⟩
    · have e2 := hleft _ _ had hx
      rw [h1, hfa] at e2
      cases e2
      exact SimpleGraph.Reachable.refl _
    · rintro ⟨hn, hr⟩
      have e1 := hcyc _ _ _ _ hx hna h2
      simp only [← e1] at hr
      exact hsep hr
    · rintro ⟨hf, hr⟩
      exact ⟨hcompm _ _ h2, hr.trans (hadj x n f h2 h1 hx).symm.reachable⟩
    · rintro ⟨hn, hr⟩
      exact ⟨hfacem _ _ h1, hr.trans (hadj x n f h2 h1 hx).reachable⟩

open Classical in
/-- The sum of any weights along a contour is the sum along all contours of the faces on one side of it. -/
theorem contour_sum {s : GMap K} (hs : Reach s) (hi : s.initialized) {a : Int} (ha : s.liveD a) :
    ∃ S : Nat → Prop, (∀ f, s.left? a = some f → S f) ∧ ∀ {M : Type} [AddCommGroup M] [IsAddTorsionFree M] (w : Int → M),
      (∀ d ∈ s.darts, w (-d) = - w d) →
      (∑ d ∈ s.darts, if s.phiReach a d then w d else 0) = ∑ f ∈ s.liveFaces.filter S, ∑ d ∈ s.darts, if s.left? d = some f then w d else 0 := by
  obtain ⟨S, C, hC, hS⟩ := contour_separates hs hi ha
  have hgood := hs.good
  obtain ⟨π, hg⟩ := hgood.map.graph.exists_rep
  obtain ⟨ψ, hc⟩ := (hgood.map.contours hi).exists_rep hg
  have hlive : ∀ d, d ∈ s.darts ↔ s.liveD d := mem_darts hg.labels.edge_lt
  refine ⟨S, ?_, ?_⟩
  · intro f hf
    obtain ⟨n, hn⟩ := hg.start_exists a ((hlive a).mpr ha)
    exact ((hS a f n hf hn).1 ⟨0, rfl⟩).1
  · intro M _ _ w hw
    -- components
    have hcs : (∑ d ∈ s.darts, if ∃ n, s.startN? d = some n ∧ C n then w d else 0) = 0 := by
      have h2 : (∑ d ∈ s.darts, if ∃ n, s.startN? d = some n ∧ C n then w d else 0) =
          - ∑ d ∈ s.darts, if ∃ n, s.startN? d = some n ∧ C n then w d else 0 := by
        rw [← Finset.sum_neg_distrib]
        refine Finset.sum_bij' (fun d _ => -d) (fun d _ => -d) (fun d hd => hg.symm d hd) (fun d hd => hg.symm d hd) (by simp) (by simp) ?_
        intro d hd
        obtain ⟨n, hn⟩ := hg.start_exists d hd
        obtain ⟨m, hm⟩ := hg.start_exists (-d) (hg.symm d hd)
        have := hC d n m hn hm
        simp only [hn, hm, Option.some.injEq, exists_eq_left', this]
        rw [hw d hd]
        split_ifs <;> simp
      exact self_eq_neg.mp h2
    rw [Finset.sum_comm]
    have : ∀ d ∈ s.darts, (∑ f ∈ s.liveFaces.filter S, if s.left? d = some f then w d else 0) =
        (if s.phiReach a d then w d else 0) + if ∃ n, s.startN? d = some n ∧ C n then w d else 0 := by
      intro d hd
      obtain ⟨f, hf, hF, -⟩ := hc.lefts d hd
      obtain ⟨n, hn⟩ := hg.start_exists d hd
      have h1 : (∑ f ∈ s.liveFaces.filter S, if s.left? d = some f then w d else 0) = if S f then w d else 0 := by
        simp only [hf, Option.some.injEq]
        rw [Finset.sum_ite_eq]
        simp only [Finset.mem_filter, mem_liveFaces hg.labels.face_lt, hF, true_and]
      rw [h1]
      simp only [hn, Option.some.injEq, exists_eq_left']
      by_cases hr : s.phiReach a d
      · have := (hS d f n hf hn).1 hr
        rw [if_pos this.1, if_pos hr, if_neg this.2, add_zero]
      · have := (hS d f n hf hn).2 hr
        rw [if_neg hr, zero_add]
        simp only [this]
    rw [Finset.sum_congr rfl this, Finset.sum_add_distrib, hcs, add_zero]

end Verif.GeoMap
