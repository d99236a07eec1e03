import Verif.FourEight.InitLemmas

/-!
# The pixel based map: which cells exist afterwards, the ends of edges (lemmas)
-/

namespace Verif.FourEight
open Verif Verif.CellImage Verif.Outcome

variable {m m' : Map}

def liveAt (l : List Info) (i : Nat) : Prop := ∃ a, l[i]? = some a ∧ a.live = true

theorem hasNode_iff {i : Nat} : HasNode m i ↔ liveAt (m.nodes.map Node.info) i := by
  unfold HasNode liveAt
  rw [List.getElem?_map]
  cases m.nodes[i]? <;> simp [Node.info]
theorem hasEdge_iff {i : Nat} : HasEdge m i ↔ liveAt (m.edges.map Edge.info) i := by
  unfold HasEdge liveAt
  rw [List.getElem?_map]
  cases m.edges[i]? <;> simp [Edge.info]
theorem hasFace_iff {i : Nat} : HasFace m i ↔ liveAt (m.faces.map Face.info) i := by
  unfold HasFace liveAt
  rw [List.getElem?_map]
  cases m.faces[i]? <;> simp [Face.info]

theorem liveAt_kill {l : List Info} {g i : Nat} : liveAt (l.modify g Info.kill) i ↔ liveAt l i ∧ i ≠ g := by
  unfold liveAt
  by_cases h : g = i
  · subst h
    rw [List.getElem?_modify]
    cases l[g]? <;> simp [Info.kill]
  · rw [modify_ne h]
    exact ⟨fun h' => ⟨h', fun e => h e.symm⟩, fun h' => h'.1⟩

theorem liveAt_same {l : List Info} {g i : Nat} {f : Info → Info} (hf : ∀ a, (f a).live = a.live) : liveAt (l.modify g f) i ↔ liveAt l i := by
  unfold liveAt
  rw [List.getElem?_modify]
  cases l[i]? with
  | none => simp
  | some a => by_cases h : g = i <;> simp [h, hf]

theorem map_ok {α β : Type} {f : α → β} {o : Outcome α} {b : β} (h : o.map f = .ok b) : ∃ a, o = .ok a ∧ f a = b := by
  obtain ⟨a, ha, h⟩ := bind_eq_ok.1 h
  exact ⟨a, ha, by cases h; rfl⟩

theorem sigmaLoop_line {k : Fin 8} : ∀ {n : Nat} {d d' : Dart}, sigmaLoop m k n d = .ok d' → ∃ l, m.nb d' 0 = .ok (.line, l)
  | 0, d, d', h => by simp only [sigmaLoop] at h; cases h
  | n + 1, d, d', h => by
    rw [sigmaLoop] at h
    obtain ⟨p, hp, h⟩ := bind_eq_ok.1 h
    by_cases hl : p.1 = .line
    · rw [if_pos hl] at h; cases h
      exact ⟨p.2, by rw [hp, ← hl]⟩
    · rw [if_neg hl] at h
      obtain ⟨d1, _, h⟩ := bind_eq_ok.1 h
      exact sigmaLoop_line h

theorem sigma_line {k : Fin 8} {d d' : Dart} {l : Nat} (hd : m.nb d 0 = .ok (.line, l)) (h : sigma m k d = .ok d') :
    ∃ l', m.nb d' 0 = .ok (.line, l') := by
  unfold sigma at h
  rw [hd, bind_ok] at h
  simp only [ne_eq, not_true_eq_false, if_false] at h
  obtain ⟨d1, _, h⟩ := bind_eq_ok.1 h
  exact sigmaLoop_line h

theorem sigma_singular {k : Fin 8} {d : Dart} {p : Pixel} (hd : m.nb d 0 = .ok p) (hp : p.1 ≠ .line) : sigma m k d = .ok d := by
  unfold sigma
  rw [hd, bind_ok, if_pos hp]

theorem dartEq_line {d d' : Dart} {l : Nat} (hd : m.nb d 0 = .ok (.line, l)) : dartEq m d d' = .ok (decide (d = d')) := by
  unfold dartEq isSingular
  simp [hd]

theorem edgeLabel_line {d : Dart} {l : Nat} {t : CellType} (hd : m.nb d 0 = .ok (t, l)) : edgeLabel m d = .ok l := by
  unfold edgeLabel Outcome.map
  rw [hd]; rfl

theorem alpha_ends {d : Dart} {e : Nat} {E : Edge} (hi : m.init = true) (hd : m.nb d 0 = .ok (.line, e)) (hE : m.edges[e]? = some E)
    (hl : E.live = true) : alpha m d = .ok (if d = E.start then E.stop else E.start) := by
  have hedge : m.edge e = .ok E := by unfold Map.edge; rw [hE]; simp [hl]
  unfold alpha
  rw [hd, bind_ok]
  simp only [ne_eq, not_true_eq_false, if_false, hi, if_true, hedge, bind_ok, dartEq_line hd, decide_eq_true_eq]

end Verif.FourEight
