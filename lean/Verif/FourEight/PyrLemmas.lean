import Verif.FourEight.HistAnchor
import Verif.FourEight.PyrModel

/-!
# Operations of the cell pyramid: lemmas
-/

namespace Verif.FourEight
open Verif Verif.CellImage Verif.Outcome

/-! ## serialized darts -/

theorem pack_lt {a b c : Nat} (hb : b < 2 ^ 14) (hc : c < 2 ^ 14) : a <<< 28 ||| b <<< 14 ||| c = a * 2 ^ 28 + b * 2 ^ 14 + c := by
  have h1 : b <<< 14 < 2 ^ 28 := by rw [Nat.shiftLeft_eq]; omega
  rw [Nat.or_assoc, ← Nat.shiftLeft_add_eq_or_of_lt (b := c) hc, Nat.shiftLeft_eq b,
    ← Nat.shiftLeft_add_eq_or_of_lt (b := b * 2 ^ 14 + c) (by omega), Nat.shiftLeft_eq]
  omega

theorem deserialize_pack {a b c : Nat} (ha : a < 8) (hb : b < 2 ^ 14) (hc : c < 2 ^ 14) :
    deserialize (a <<< 28 ||| b <<< 14 ||| c) = .ok ⟨(b : Int) - 2, (c : Int) - 2, ⟨a, ha⟩⟩ := by
  rw [pack_lt hb hc]
  have e1 : (a * 2 ^ 28 + b * 2 ^ 14 + c) >>> 28 = a := by rw [Nat.shiftRight_eq_div_pow]; omega
  have e2 : (a * 2 ^ 28 + b * 2 ^ 14 + c) >>> 14 &&& 0x3fff = b := by
    rw [Nat.shiftRight_eq_div_pow]
    have : (0x3fff : Nat) = 2 ^ 14 - 1 := rfl
    rw [this, Nat.and_two_pow_sub_one_eq_mod]
    omega
  have e3 : (a * 2 ^ 28 + b * 2 ^ 14 + c) &&& 0x3fff = c := by
    have : (0x3fff : Nat) = 2 ^ 14 - 1 := rfl
    rw [this, Nat.and_two_pow_sub_one_eq_mod]
    omega
  unfold deserialize
  rw [dif_pos (by rw [e1]; exact ha)]
  simp only [e1, e2, e3]

theorem deserialize_small {s : Nat} {d : Dart} (h : deserialize s = .ok d) : d.x + 2 < 2 ^ 14 ∧ d.y + 2 < 2 ^ 14 := by
  unfold deserialize at h
  split at h
  · cases h
    have a1 : s >>> 14 &&& 0x3fff < 2 ^ 14 := Nat.and_lt_two_pow _ (by norm_num)
    have a2 : s &&& 0x3fff < 2 ^ 14 := Nat.and_lt_two_pow _ (by norm_num)
    dsimp only
    omega
  · cases h

section
variable {m m' : Map}

/-! ## operations -/

theorem dartStep_bridge {d : Dart} {l : Nat} (hd : IsDart m d) (h : removeBridge m d = .ok (m', l)) : DartStep m m' :=
  ⟨.removeBridge d, l, hd, h⟩

theorem dartStep_faces {d : Dart} {l : Nat} (hd : IsDart m d) (h : mergeFaces m d = .ok (m', l)) : DartStep m m' := ⟨.mergeFaces d, l, hd, h⟩

theorem removeEdge_step {d : Dart} {l : Nat} (hm : Whole m) (hd : IsDart m d) (h : removeEdge m d = .ok (m', l)) :
    DartStep m m' ∧ ∃ e g E, EdgeRemoved m m' e l g E ∧ (d = E.start ∨ d = E.stop) := by
  unfold removeEdge at h
  obtain ⟨a, -, h⟩ := bind_eq_ok.1 h
  obtain ⟨b, -, h⟩ := bind_eq_ok.1 h
  split at h
  · exact ⟨dartStep_bridge hd h, hm.removeBridge_removed hd h⟩
  · exact ⟨dartStep_faces hd h, hm.mergeFaces_removed hd h⟩

/-- `dropNode` if the anchor of a node without darts is at an isolated node -/
theorem dropNode_step {n : Nat} (hm : Whole m) (ha : Anchors m)
    (hiso : ∀ A, m.nodes[n]? = some A → A.live = true → ¬(dartsAt m n).Nonempty → AtIsolated m A.anchor ∧ (m.px A.anchor.x A.anchor.y).2 = n)
    (h : dropNode m n = .ok m') : (m' = m ∧ (dartsAt m n).Nonempty ∨ DartStep m m' ∧ (∀ A, m'.nodes[n]? = some A → A.live = false) ∧
      m'.nodes = m.nodes.modify n (fun N => { N with live := false }) ∧ m'.edges = m.edges ∧
      (∃ f, Change m m' (fun l => l ≠ n) (fun _ => True) id id ∧ ∀ x y, m.inside x y → m'.px x y = if m.px x y = (.vertex, n) then (.region, f) else m.px x y)) := by
  unfold dropNode at h
  obtain ⟨N, hN, h⟩ := bind_eq_ok.1 h
  obtain ⟨hN1, hN2⟩ := node_ok hN
  have hdeg := hm.degree n N hN1 hN2
  rw [Nat.mod_eq_of_lt (ha.few n)] at hdeg
  by_cases h0 : N.degree = 0
  · right
    rw [if_pos h0] at h
    have hempty : ¬(dartsAt m n).Nonempty := by
      intro hne
      have := (Set.ncard_pos (dartsAt_finite m n)).2 hne
      omega
    obtain ⟨h1, h2⟩ := hiso N hN1 hN2 hempty
    obtain ⟨⟨q, f⟩, h3, h4⟩ := map_ok h
    cases h4
    obtain ⟨_, k, N', hk, hf, res⟩ := removeIsolatedNode_result hm.cons h3
    have hkn : k = n := by
      unfold nodeLabel Map.get at hk
      rw [if_pos h1.inside] at hk
      rw [← h2]
      exact (Outcome.ok.inj hk).symm
    subst hkn
    refine ⟨⟨.removeIsolatedNode N.anchor, f, h1, h3⟩, ?_, res.nodes, res.edges, f, hm.removeNode_change res.image.w res.image.h res.image.px, res.image.px⟩
    intro A hA
    rw [res.nodes, List.getElem?_modify_eq] at hA
    obtain ⟨B, -, rfl⟩ := Option.map_eq_some_iff.1 hA
    rfl
  · left
    rw [if_neg h0] at h
    cases h
    refine ⟨rfl, ?_⟩
    rw [← Set.ncard_pos (dartsAt_finite m n)]
    omega

theorem dartsAt_after (hm : Whole m) {n k : Nat} {φ ψ : Nat → Nat} (hch : Change m m' (fun l => l ≠ n) (fun _ => True) φ ψ) (hn : k ≠ n) :
    dartsAt m' k = dartsAt m k := by
  rw [hch.dartsAt hm hn]
  ext d
  exact ⟨fun q => q.1, fun q => ⟨q, trivial⟩⟩

/-- the node is no longer there or has darts -/
def Settled (m : Map) (n : Nat) : Prop := ∀ A : Node, m.nodes[n]? = some A → A.live = true → (dartsAt m n).Nonempty

/-- what follows from `dropNode_step` -/
theorem dropNode_settled {n : Nat} (hm : Whole m) (ha : Anchors m)
    (hiso : ∀ A, m.nodes[n]? = some A → A.live = true → ¬(dartsAt m n).Nonempty → AtIsolated m A.anchor ∧ (m.px A.anchor.x A.anchor.y).2 = n)
    (h : dropNode m n = .ok m') : DartReach m m' ∧ m'.edges = m.edges ∧ Settled m' n ∧ (∀ k, k ≠ n → Settled m k → Settled m' k) := by
  rcases dropNode_step hm ha hiso h with ⟨rfl, c1⟩ | ⟨st, c1, c2, c3, f, hch, -⟩
  · exact ⟨.refl, rfl, fun _ _ _ => c1, fun _ _ h => h⟩
  · refine ⟨.single st, c3, fun A hA hl => ?_, fun k hk hs A hA hl => ?_⟩
    · rw [c1 A hA] at hl; cases hl
    · rw [c2, modify_ne (fun e => hk e.symm)] at hA
      rw [dartsAt_after hm hch hk]
      exact hs A hA hl

/-- another node without darts after the removal of a node -/
theorem isolated_after (hm : Whole m) {n k : Nat} {φ ψ : Nat → Nat} (hch : Change m m' (fun l => l ≠ n) (fun _ => True) φ ψ) (hn : n ≠ k) {a : Dart}
    (h : ¬(dartsAt m k).Nonempty → AtIsolated m a ∧ (m.px a.x a.y).2 = k) (hno : ¬(dartsAt m' k).Nonempty) :
    AtIsolated m' a ∧ (m'.px a.x a.y).2 = k := by
  have hd : dartsAt m' k = dartsAt m k := by
    rw [hch.dartsAt hm (fun e => hn e.symm)]
    ext d
    exact ⟨fun q => q.1, fun q => ⟨q, trivial⟩⟩
  rw [hd] at hno
  obtain ⟨h1, h2⟩ := h hno
  have hpx : m'.px a.x a.y = (.vertex, k) := (hch.vertex _ _ _ h1.inside).2 ⟨Prod.ext h1.node h2, fun e => hn e.symm⟩
  have hreg : ∀ j, (m.look a.x a.y j).1 = .region → (m'.look a.x a.y j).1 = .region := by
    intro j hj
    have := hch.region _ _ (m.look a.x a.y j).2 (hm.clean.near h1.inside (by rw [h1.node]; decide) j) (Prod.ext hj rfl)
    show (m'.px _ _).1 = _
    rw [this]
  refine ⟨⟨(hch.inside _ _).2 h1.inside, by rw [hpx], hreg _ h1.face, h1.left.imp (hreg _) (hreg _), ?_⟩, by rw [hpx]⟩
  intro d hd' he
  rw [hpx] at he
  refine hno ?_
  rw [← hd]
  exact ⟨d, hd', Prod.ext hd'.node he⟩

end

end Verif.FourEight
