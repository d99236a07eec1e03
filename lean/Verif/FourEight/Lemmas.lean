import Verif.FourEight.Spec
import Verif.Iter.Props
import Mathlib.Tactic.Linarith
import Mathlib.Data.Finset.Card

/-!
# The pixel based map: helper lemmas
-/

namespace Verif.FourEight
open Verif Verif.CellImage Verif.Outcome

variable {m m' : Map}

theorem mem_pixels {p : Int × Int} : p ∈ m.pixels ↔ m.inside p.1 p.2 := by
  simp only [Map.pixels, Finset.mem_product, Finset.mem_Ico, Map.inside]
  omega

theorem mem_cell {c : Pixel} {p : Int × Int} : p ∈ m.cell c ↔ m.inside p.1 p.2 ∧ m.px p.1 p.2 = c := by
  simp only [Map.cell, Finset.mem_filter, mem_pixels]

/-! ## boxes -/

theorem IsBox.nonempty {S : Finset (Int × Int)} {r : Rect} (h : IsBox S r) (hS : S.Nonempty) : r.isEmpty = false := by
  obtain ⟨p, hp⟩ := hS
  have := h.1 p hp
  simp only [Rect.isEmpty, Bool.or_eq_false_iff, decide_eq_false_iff_not]
  omega

theorem isEmpty_false {r : Rect} (h : r.isEmpty = false) : r.x0 < r.x1 ∧ r.y0 < r.y1 := by
  simp only [Rect.isEmpty, Bool.or_eq_false_iff, decide_eq_false_iff_not] at h
  omega

theorem IsBox.union {S T : Finset (Int × Int)} {r s : Rect} (hS : IsBox S r) (hT : IsBox T s) : IsBox (S ∪ T) (r.union s) := by
  rcases T.eq_empty_or_nonempty with rfl | hTn
  · rw [Finset.union_empty, Rect.union, if_pos (hT.2.1 rfl)]; exact hS
  rcases S.eq_empty_or_nonempty with rfl | hSn
  · rw [Finset.empty_union, Rect.union, if_neg (by rw [hT.nonempty hTn]; simp), if_pos (hS.2.1 rfl)]; exact hT
  rw [Rect.union, if_neg (by rw [hT.nonempty hTn]; simp), if_neg (by rw [hS.nonempty hSn]; simp)]
  refine ⟨?_, ?_, fun _ => ?_⟩
  · intro p hp
    rcases Finset.mem_union.1 hp with hp | hp
    · have := hS.1 p hp; dsimp only; omega
    · have := hT.1 p hp; dsimp only; omega
  · intro h
    exfalso
    rw [Finset.union_eq_empty] at h
    exact hSn.ne_empty h.1
  · obtain ⟨⟨a, ha, ha'⟩, ⟨b, hb, hb'⟩, ⟨c, hc, hc'⟩, ⟨d, hd, hd'⟩⟩ := hS.2.2 hSn
    obtain ⟨⟨a2, ha2, ha2'⟩, ⟨b2, hb2, hb2'⟩, ⟨c2, hc2, hc2'⟩, ⟨d2, hd2, hd2'⟩⟩ := hT.2.2 hTn
    have inl : ∀ {p}, p ∈ S → p ∈ S ∪ T := fun h => Finset.mem_union_left _ h
    have inr : ∀ {p}, p ∈ T → p ∈ S ∪ T := fun h => Finset.mem_union_right _ h
    refine ⟨?_, ?_, ?_, ?_⟩
    · rcases le_total r.x0 s.x0 with h | h
      · exact ⟨a, inl ha, by dsimp only; omega⟩
      · exact ⟨a2, inr ha2, by dsimp only; omega⟩
    · rcases le_total r.x1 s.x1 with h | h
      · exact ⟨b2, inr hb2, by dsimp only; omega⟩
      · exact ⟨b, inl hb, by dsimp only; omega⟩
    · rcases le_total r.y0 s.y0 with h | h
      · exact ⟨c, inl hc, by dsimp only; omega⟩
      · exact ⟨c2, inr hc2, by dsimp only; omega⟩
    · rcases le_total r.y1 s.y1 with h | h
      · exact ⟨d2, inr hd2, by dsimp only; omega⟩
      · exact ⟨d, inl hd, by dsimp only; omega⟩

theorem IsBox.boxInside {c : Pixel} {r : Rect} (h : IsBox (m.cell c) r) : m.boxInside r := by
  rcases (m.cell c).eq_empty_or_nonempty with he | hn
  · exact .inl (h.2.1 he)
  · right
    obtain ⟨⟨a, ha, ha'⟩, ⟨b, hb, hb'⟩, ⟨c', hc, hc'⟩, ⟨d, hd, hd'⟩⟩ := h.2.2 hn
    have := (mem_cell.1 ha).1; have := (mem_cell.1 hb).1; have := (mem_cell.1 hc).1; have := (mem_cell.1 hd).1
    simp only [Map.inside] at *
    omega

/-! ## relabelling -/

/-- the image of `m'` is the one of `m` with all pixels of cell `c` given to `v` -/
structure Relabeled (m m' : Map) (c v : Pixel) : Prop where
  w : m'.w = m.w
  h : m'.h = m.h
  px : ∀ x y, m.inside x y → m'.px x y = if m.px x y = c then v else m.px x y

theorem relabel_spec {r : Rect} {c v : Pixel} (hb : IsBox (m.cell c) r) :
    ∃ px, relabel m r c v = .ok { m with px := px } ∧ Relabeled m { m with px := px } c v := by
  unfold relabel
  rw [if_pos hb.boxInside, Iter.Props.labelScan_exact, bind_ok]
  refine ⟨_, rfl, rfl, rfl, ?_⟩
  intro x y hxy
  simp only [paint, List.map_map]
  by_cases hc : m.px x y = c
  · rw [if_pos hc, if_pos]
    have := hb.1 (x, y) (mem_cell.2 ⟨hxy, hc⟩)
    dsimp only at this
    rw [List.mem_map]
    refine ⟨((x - r.x0).toNat, (y - r.y0).toNat), ?_, ?_⟩
    · refine ((Iter.Props.raster_spec (fun a b : Nat => decide (m.px (r.x0 + a) (r.y0 + b) = c)) _ _).1 _ _).2 ?_
      refine ⟨by omega, by omega, ?_⟩
      rw [show r.x0 + ((x - r.x0).toNat : Int) = x by omega, show r.y0 + ((y - r.y0).toNat : Int) = y by omega]
      simpa using hc
    · simp only [Function.comp_apply, Prod.mk.injEq]; omega
  · rw [if_neg hc, if_neg]
    intro hmem
    rw [List.mem_map] at hmem
    obtain ⟨⟨a, b⟩, h1, h2⟩ := hmem
    have h1 := ((Iter.Props.raster_spec (fun a b : Nat => decide (m.px (r.x0 + a) (r.y0 + b) = c)) _ _).1 _ _).1 h1
    simp only [Function.comp_apply, Prod.mk.injEq] at h2
    apply hc
    rw [← h2.1, ← h2.2]
    simpa using h1.2.2

theorem Relabeled.inside {c v : Pixel} (h : Relabeled m m' c v) {x y : Int} : m'.inside x y ↔ m.inside x y := by
  simp only [Map.inside, h.w, h.h]

theorem Relabeled.cell_other {c v d : Pixel} (h : Relabeled m m' c v) (h1 : d ≠ c) (h2 : d ≠ v) : m'.cell d = m.cell d := by
  ext p
  rw [mem_cell, mem_cell, h.inside]
  refine and_congr_right fun hi => ?_
  rw [h.px _ _ hi]
  by_cases hp : m.px p.1 p.2 = c
  · rw [if_pos hp, hp]; exact ⟨fun e => absurd e.symm h2, fun e => absurd e.symm h1⟩
  · rw [if_neg hp]

theorem Relabeled.cell_to {c v : Pixel} (h : Relabeled m m' c v) : m'.cell v = m.cell v ∪ m.cell c := by
  ext p
  rw [Finset.mem_union, mem_cell, mem_cell, mem_cell, h.inside, ← and_or_left]
  refine and_congr_right fun hi => ?_
  rw [h.px _ _ hi]
  by_cases hp : m.px p.1 p.2 = c
  · rw [if_pos hp]; simp [hp]
  · rw [if_neg hp]; simp [hp]

theorem cell_card_union {c v : Pixel} (h : c ≠ v) : (m.cell v ∪ m.cell c).card = (m.cell v).card + (m.cell c).card := by
  apply Finset.card_union_of_disjoint
  rw [Finset.disjoint_left]
  intro p hp hp'
  exact h ((mem_cell.1 hp').2.symm.trans (mem_cell.1 hp).2)

/-! ## the cell lists -/

theorem modify_ne {α : Type} {l : List α} {i j : Nat} {f : α → α} (h : i ≠ j) : (l.modify i f)[j]? = l[j]? := by
  rw [List.getElem?_modify]; cases l[j]? <;> simp [h]

theorem modify_eq {α : Type} {l : List α} {i : Nat} {f : α → α} {a : α} (h : l[i]? = some a) : (l.modify i f)[i]? = some (f a) := by
  rw [List.getElem?_modify, h]; simp

theorem modify_inv {α : Type} {l : List α} {i : Nat} {f : α → α} {a : α} (h : (l.modify i f)[i]? = some a) :
    ∃ b, l[i]? = some b ∧ a = f b := by
  rw [List.getElem?_modify] at h
  cases hx : l[i]? with
  | none => rw [hx] at h; simp at h
  | some b => rw [hx] at h; simp at h; exact ⟨b, rfl, h.symm⟩

/-- a cell of another type vanishes into another type -/
theorem Exact.other {t : CellType} {l : List Info} {c v : Pixel} (h : Exact m t l) (hr : Relabeled m m' c v) (h1 : c.1 ≠ t) (h2 : v.1 ≠ t) :
    Exact m' t l := by
  have hc : ∀ label, m'.cell (t, label) = m.cell (t, label) := fun label =>
    hr.cell_other (fun e => h1 (by rw [← e])) (fun e => h2 (by rw [← e]))
  refine ⟨?_, ?_, ?_⟩
  · intro x y label hi hp
    rw [hr.inside] at hi
    rw [hr.px _ _ hi] at hp
    by_cases hpc : m.px x y = c
    · rw [if_pos hpc] at hp; exact absurd (by rw [hp]) h2
    · rw [if_neg hpc] at hp; exact h.owner x y label hi hp
  · intro label a ha hl; rw [hc]; exact h.box label a ha hl
  · intro label a ha hl hne; rw [hc]; exact h.size label a ha hl hne

/-- what absorbing a cell does to the stored information -/
def Info.absorb (a : Info) (b : Rect) (z : Nat) : Info := { a with box := a.box.union b, size := addU a.size z }

/-- what removing a cell does to the stored information -/
def Info.kill (a : Info) : Info := { a with live := false }

theorem Exact.absorb {t : CellType} {l : List Info} {c : Pixel} {s : Nat} {b : Rect} {z : Nat} (h : Exact m t l)
    (hr : Relabeled m m' c (t, s)) (h1 : c.1 ≠ t) (hb : IsBox (m.cell c) b) (hz : z = (m.cell c).card % 2 ^ 32)
    (hs : ∃ a, l[s]? = some a ∧ a.live = true) : Exact m' t (l.modify s (·.absorb b z)) := by
  have hne : c ≠ (t, s) := fun e => h1 (by rw [e])
  refine ⟨?_, ?_, ?_⟩
  · intro x y label hi hp
    rw [hr.inside] at hi
    rw [hr.px _ _ hi] at hp
    rw [List.getElem?_modify]
    by_cases hpc : m.px x y = c
    · rw [if_pos hpc] at hp
      obtain ⟨a, ha, hl⟩ := hs
      obtain rfl : s = label := (Prod.mk.inj hp).2
      rw [ha]; exact ⟨_, rfl, by simpa [Info.absorb] using hl⟩
    · rw [if_neg hpc] at hp
      obtain ⟨a, ha, hl⟩ := h.owner x y label hi hp
      rw [ha]
      by_cases hsl : s = label
      · simp only [hsl, if_pos]; exact ⟨_, rfl, by simpa [Info.absorb] using hl⟩
      · simp only [hsl, if_false]; exact ⟨_, rfl, hl⟩
  · intro label a ha hl
    rw [List.getElem?_modify] at ha
    by_cases hsl : s = label
    · subst hsl
      rw [hr.cell_to]
      cases hx : l[s]? with
      | none => rw [hx] at ha; simp at ha
      | some a' =>
        rw [hx] at ha; simp at ha; subst ha
        exact (h.box s a' hx hl).union hb
    · rw [hr.cell_other (fun e => h1 (by rw [← e])) (fun e => hsl (Prod.mk.inj e).2.symm)]
      simp only [if_neg hsl] at ha
      exact h.box label a (by simpa using ha) hl
  · intro label a ha hl hne'
    rw [List.getElem?_modify] at ha
    by_cases hsl : s = label
    · subst hsl
      rw [hr.cell_to, cell_card_union hne]
      cases hx : l[s]? with
      | none => rw [hx] at ha; simp at ha
      | some a' =>
        rw [hx] at ha; simp at ha; subst ha
        have := h.size s a' hx hl hne'
        simp only [Info.absorb, addU, this, hz, ← Nat.add_mod]
    · rw [hr.cell_other (fun e => h1 (by rw [← e])) (fun e => hsl (Prod.mk.inj e).2.symm)]
      simp only [if_neg hsl] at ha
      exact h.size label a (by simpa using ha) hl hne'

theorem Exact.kill {t : CellType} {l : List Info} {g : Nat} {v : Pixel} (h : Exact m t l)
    (hr : Relabeled m m' (t, g) v) (h1 : v.1 ≠ t) : Exact m' t (l.modify g Info.kill) := by
  have key : ∀ (label : Nat) (a : Info), (l.modify g Info.kill)[label]? = some a → a.live = true → l[label]? = some a ∧ label ≠ g := by
    intro label a ha hl
    rw [List.getElem?_modify] at ha
    by_cases hg : g = label
    · subst hg
      cases hx : l[g]? with
      | none => rw [hx] at ha; simp at ha
      | some a' => rw [hx] at ha; simp [Info.kill] at ha; subst ha; simp at hl
    · simp only [if_neg hg] at ha
      exact ⟨by simpa using ha, fun e => hg e.symm⟩
  refine ⟨?_, ?_, ?_⟩
  · intro x y label hi hp
    rw [hr.inside] at hi
    rw [hr.px _ _ hi] at hp
    by_cases hpc : m.px x y = (t, g)
    · rw [if_pos hpc] at hp; exact absurd (by rw [hp]) h1
    · rw [if_neg hpc] at hp
      obtain ⟨a, ha, hl⟩ := h.owner x y label hi hp
      refine ⟨a, ?_, hl⟩
      rw [modify_ne, ha]
      rintro rfl; exact hpc hp
  · intro label a ha hl
    obtain ⟨h2, h3⟩ := key label a ha hl
    rw [hr.cell_other (fun e => h3 (Prod.mk.inj e).2) (fun e => h1 (by rw [← e]))]
    exact h.box label a h2 hl
  · intro label a ha hl hne
    obtain ⟨h2, h3⟩ := key label a ha hl
    rw [hr.cell_other (fun e => h3 (Prod.mk.inj e).2) (fun e => h1 (by rw [← e]))]
    exact h.size label a h2 hl hne

theorem Exact.merge {t : CellType} {l : List Info} {g s : Nat} {b : Rect} {z : Nat} (h : Exact m t l)
    (hr : Relabeled m m' (t, g) (t, s)) (hgs : g ≠ s) (hb : IsBox (m.cell (t, g)) b)
    (hz : (t, s) ≠ (CellType.region, 0) → z = (m.cell (t, g)).card % 2 ^ 32)
    (hs : ∃ a, l[s]? = some a ∧ a.live = true) : Exact m' t ((l.modify s (·.absorb b z)).modify g Info.kill) := by
  have hne : (t, g) ≠ (t, s) := fun e => hgs (Prod.mk.inj e).2
  have key : ∀ (label : Nat) (a : Info), ((l.modify s (·.absorb b z)).modify g Info.kill)[label]? = some a → a.live = true →
      (label ≠ g ∧ label ≠ s ∧ l[label]? = some a) ∨ (label = s ∧ ∃ a', l[s]? = some a' ∧ a'.live = true ∧ a = a'.absorb b z) := by
    intro label a ha hl
    by_cases hg : g = label
    · subst hg
      obtain ⟨a', _, rfl⟩ := modify_inv ha
      simp [Info.kill] at hl
    · rw [modify_ne hg] at ha
      by_cases hsl : s = label
      · subst hsl
        obtain ⟨a', ha', rfl⟩ := modify_inv ha
        exact .inr ⟨rfl, a', ha', hl, rfl⟩
      · rw [modify_ne hsl] at ha
        exact .inl ⟨fun e => hg e.symm, fun e => hsl e.symm, ha⟩
  refine ⟨?_, ?_, ?_⟩
  · intro x y label hi hp
    rw [hr.inside] at hi
    rw [hr.px _ _ hi] at hp
    by_cases hpc : m.px x y = (t, g)
    · rw [if_pos hpc] at hp
      obtain ⟨a, ha, hl⟩ := hs
      obtain rfl : s = label := (Prod.mk.inj hp).2
      rw [modify_ne hgs, modify_eq ha]; exact ⟨_, rfl, by simpa [Info.absorb] using hl⟩
    · rw [if_neg hpc] at hp
      obtain ⟨a, ha, hl⟩ := h.owner x y label hi hp
      have hg : g ≠ label := by rintro rfl; exact hpc hp
      rw [modify_ne hg]
      by_cases hsl : s = label
      · subst hsl; rw [modify_eq ha]; exact ⟨_, rfl, by simpa [Info.absorb] using hl⟩
      · rw [modify_ne hsl]; exact ⟨_, ha, hl⟩
  · intro label a ha hl
    rcases key label a ha hl with ⟨h1, h2, h3⟩ | ⟨rfl, a', h1, h2, rfl⟩
    · rw [hr.cell_other (fun e => h1 (Prod.mk.inj e).2) (fun e => h2 (Prod.mk.inj e).2)]
      exact h.box label a h3 hl
    · rw [hr.cell_to]; exact (h.box label a' h1 h2).union hb
  · intro label a ha hl hne'
    rcases key label a ha hl with ⟨h1, h2, h3⟩ | ⟨rfl, a', h1, h2, rfl⟩
    · rw [hr.cell_other (fun e => h1 (Prod.mk.inj e).2) (fun e => h2 (Prod.mk.inj e).2)]
      exact h.size label a h3 hl hne'
    · rw [hr.cell_to, cell_card_union hne]
      have := h.size label a' h1 h2 hne'
      simp only [Info.absorb, addU, this, hz hne', ← Nat.add_mod]

theorem Exact.congr {t : CellType} {l l' : List Info} (h : Exact m t l) (he : l' = l) : Exact m t l' := he ▸ h

/-- only the image matters -/
theorem Exact.of_px {t : CellType} {l : List Info} (h : Exact m t l) (hw : m'.w = m.w) (hh : m'.h = m.h) (hp : m'.px = m.px) :
    Exact m' t l := by
  have hi : ∀ x y, m'.inside x y ↔ m.inside x y := by intro x y; simp only [Map.inside, hw, hh]
  have hc : ∀ c, m'.cell c = m.cell c := by intro c; ext p; rw [mem_cell, mem_cell, hi, hp]
  refine ⟨?_, ?_, ?_⟩
  · intro x y label h1 h2; rw [hi] at h1; rw [hp] at h2; exact h.owner x y label h1 h2
  · intro label a h1 h2; rw [hc]; exact h.box label a h1 h2
  · intro label a h1 h2 h3; rw [hc]; exact h.size label a h1 h2 h3

theorem map_modify {α β : Type} (i : Nat) (f : α → α) (g : β → β) (k : α → β) (l : List α) (h : ∀ a, k (f a) = g (k a)) :
    (l.modify i f).map k = (l.map k).modify i g := by
  apply List.ext_getElem?
  intro j
  rw [List.getElem?_map, List.getElem?_modify, List.getElem?_modify, List.getElem?_map]
  cases l[j]? with
  | none => simp
  | some a => by_cases hij : i = j <;> simp [hij, h]

theorem map_modify_same {α β : Type} (i : Nat) (f : α → α) (k : α → β) (l : List α) (h : ∀ a, k (f a) = k a) :
    (l.modify i f).map k = l.map k := by
  rw [map_modify i f id k l (by simpa using h)]
  apply List.ext_getElem?
  intro j; rw [List.getElem?_modify]; cases (l.map k)[j]? <;> simp

theorem modify_modify {α : Type} (i : Nat) (f g : α → α) (l : List α) : (l.modify i f).modify i g = l.modify i fun a => g (f a) := by
  apply List.ext_getElem?
  intro j
  rw [List.getElem?_modify, List.getElem?_modify, List.getElem?_modify]
  cases l[j]? with
  | none => simp
  | some a => by_cases h : i = j <;> simp [h]

theorem countP_modify_kill {α : Type} (p : α → Bool) (f : α → α) : ∀ (l : List α) (i : Nat) (a : α), l[i]? = some a → p a = true →
    p (f a) = false → l.countP p = (l.modify i f).countP p + 1
  | [], i, a, h, _, _ => by simp at h
  | b :: l, 0, a, h, hp, hf => by
    simp at h; subst h
    simp [hp, hf]
  | b :: l, i + 1, a, h, hp, hf => by
    simp at h
    have := countP_modify_kill p f l i a h hp hf
    simp only [List.modify_succ_cons, List.countP_cons, this]
    omega

theorem countP_modify_same {α : Type} (p : α → Bool) (f : α → α) (h : ∀ a, p (f a) = p a) : ∀ (l : List α) (i : Nat),
    (l.modify i f).countP p = l.countP p
  | [], i => by simp
  | b :: l, 0 => by simp [List.countP_cons, h]
  | b :: l, i + 1 => by
    have := countP_modify_same p f h l i
    simp [List.countP_cons, this]

theorem decU_spec {a k : Nat} (h : a = (k + 1) % 2 ^ 32) : decU a = k % 2 ^ 32 := by
  subst h; unfold decU
  norm_num
  omega

theorem node_ok {l : Nat} {n : Node} (h : m.node l = .ok n) : m.nodes[l]? = some n ∧ n.live = true := by
  unfold Map.node at h
  cases hx : m.nodes[l]? with
  | none => rw [hx] at h; simp at h
  | some n' =>
    rw [hx] at h; dsimp only at h
    by_cases hl : n'.live = true
    · rw [if_pos hl] at h; cases h; exact ⟨rfl, hl⟩
    · rw [if_neg hl] at h; cases h

theorem edge_ok {l : Nat} {e : Edge} (h : m.edge l = .ok e) : m.edges[l]? = some e ∧ e.live = true := by
  unfold Map.edge at h
  cases hx : m.edges[l]? with
  | none => rw [hx] at h; simp at h
  | some n' =>
    rw [hx] at h; dsimp only at h
    by_cases hl : n'.live = true
    · rw [if_pos hl] at h; cases h; exact ⟨rfl, hl⟩
    · rw [if_neg hl] at h; cases h

theorem face_ok {l : Nat} {f : Face} (h : m.face l = .ok f) : m.faces[l]? = some f ∧ f.live = true := by
  unfold Map.face at h
  cases hx : m.faces[l]? with
  | none => rw [hx] at h; simp at h
  | some n' =>
    rw [hx] at h; dsimp only at h
    by_cases hl : n'.live = true
    · rw [if_pos hl] at h; cases h; exact ⟨rfl, hl⟩
    · rw [if_neg hl] at h; cases h

/-- what `decDegree` may change -/
structure DegreeOnly (m m' : Map) : Prop where
  w : m'.w = m.w
  h : m'.h = m.h
  px : m'.px = m.px
  edges : m'.edges = m.edges
  faces : m'.faces = m.faces
  nodes : m'.nodes.map Node.info = m.nodes.map Node.info
  live : m'.nodes.countP (·.live) = m.nodes.countP (·.live)
  nodeCount : m'.nodeCount = m.nodeCount
  edgeCount : m'.edgeCount = m.edgeCount
  faceCount : m'.faceCount = m.faceCount
  init : m'.init = m.init

theorem decDegree_spec {n : Nat} (h : decDegree m n = .ok m') : DegreeOnly m m' := by
  unfold decDegree at h
  cases hx : m.nodes[n]? with
  | none => rw [hx] at h; simp at h
  | some N =>
    rw [hx] at h; dsimp only at h
    generalize (N.degree + 65535) % 65536 = deg at h
    by_cases hd : deg = 0
    · rw [if_pos hd] at h; cases h
      exact ⟨rfl, rfl, rfl, rfl, rfl, map_modify_same _ _ _ _ fun _ => rfl, (by apply countP_modify_same; intro a; rfl), rfl, rfl, rfl, rfl⟩
    · rw [if_neg hd] at h
      obtain ⟨s, _, h⟩ := bind_eq_ok.1 h
      obtain ⟨a, _, h⟩ := bind_eq_ok.1 h
      cases h
      exact ⟨rfl, rfl, rfl, rfl, rfl, map_modify_same _ _ _ _ fun _ => rfl, (by apply countP_modify_same; intro a; rfl), rfl, rfl, rfl, rfl⟩

end Verif.FourEight
