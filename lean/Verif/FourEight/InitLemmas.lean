import Verif.FourEight.Init
import Verif.FourEight.Ops

/-!
# The pixel based map: construction (lemmas)
-/

namespace Verif.FourEight
open Verif Verif.CellImage Verif.Outcome

theorem foldO_inv {α β : Type} {f : β → α → Outcome β} {P : List α → β → Prop} : ∀ (l done : List α) (b b' : β),
    (∀ done a b b', a ∈ l → P done b → f b a = .ok b' → P (done ++ [a]) b') → foldO f l b = .ok b' → P done b → P (done ++ l) b'
  | [], done, b, b', _, h, h0 => by simp only [foldO] at h; cases h; simpa using h0
  | a :: as, done, b, b', hs, h, h0 => by
    rw [foldO] at h
    obtain ⟨c, hc, h⟩ := bind_eq_ok.1 h
    have := foldO_inv as (done ++ [a]) c b' (fun d x y z hx => hs d x y z (List.mem_cons_of_mem _ hx)) h
      (hs done a b c List.mem_cons_self h0 hc)
    simpa using this

theorem foldO_keep {α β : Type} {f : β → α → Outcome β} {P : β → Prop} (l : List α) (b b' : β)
    (hs : ∀ a b b', a ∈ l → P b → f b a = .ok b' → P b') (h : foldO f l b = .ok b') (h0 : P b) : P b' :=
  foldO_inv (P := fun _ b => P b) l [] b b' (fun _ a b b' ha => hs a b b' ha) h h0

theorem mem_innerPixels {w h : Nat} {p : Int × Int} :
    p ∈ innerPixels w h ↔ -1 ≤ p.1 ∧ p.1 < w - 3 ∧ -1 ≤ p.2 ∧ p.2 < h - 3 := by
  obtain ⟨x, y⟩ := p
  simp only [innerPixels, List.mem_flatMap, List.mem_map, List.mem_range, Prod.mk.injEq]
  constructor
  · rintro ⟨j, hj, i, hi, h1, h2⟩; omega
  · intro h; exact ⟨(y + 1).toNat, by omega, (x + 1).toNat, by omega, by omega, by omega⟩

theorem innerPixels_nodup (w h : Nat) : (innerPixels w h).Nodup := by
  unfold innerPixels
  rw [List.nodup_flatMap]
  refine ⟨fun j _ => List.Nodup.map (fun a b hab => by simp only [Prod.mk.injEq] at hab; omega) List.nodup_range, ?_⟩
  refine List.Pairwise.imp_of_mem ?_ (List.nodup_range (n := h - 2))
  intro a b _ _ hab p hp hq
  simp only [List.mem_map] at hp hq
  obtain ⟨i, _, rfl⟩ := hp
  obtain ⟨i', _, h⟩ := hq
  simp only [Prod.mk.injEq] at h
  omega

theorem mem_rectPixels {r : Rect} {p : Int × Int} :
    p ∈ rectPixels r ↔ (r.x0 ≤ p.1 ∧ p.1 < r.x1) ∧ (r.y0 ≤ p.2 ∧ p.2 < r.y1) := by
  obtain ⟨x, y⟩ := p
  simp only [rectPixels, List.mem_flatMap, List.mem_map, List.mem_range, Prod.mk.injEq]
  constructor
  · rintro ⟨j, hj, i, hi, h1, h2⟩; omega
  · intro h; exact ⟨(y - r.y0).toNat, by omega, (x - r.x0).toNat, by omega, by omega, by omega⟩

theorem rectPixels_nodup (r : Rect) : (rectPixels r).Nodup := by
  unfold rectPixels
  rw [List.nodup_flatMap]
  refine ⟨fun j _ => List.Nodup.map (fun a b hab => by simp only [Prod.mk.injEq] at hab; omega) List.nodup_range, ?_⟩
  refine List.Pairwise.imp_of_mem ?_ (List.nodup_range (n := (r.y1 - r.y0).toNat))
  intro a b _ _ hab p hp hq
  simp only [List.mem_map] at hp hq
  obtain ⟨i, _, rfl⟩ := hp
  obtain ⟨i', _, h⟩ := hq
  simp only [Prod.mk.injEq] at h
  omega

/-! ## collecting bounds and sizes -/

/-- the pixels of a cell among some pixels -/
def among (px : Int → Int → Pixel) (c : Pixel) (done : List (Int × Int)) : List (Int × Int) := done.filter fun p => px p.1 p.2 = c

theorem among_snoc_eq {px : Int → Int → Pixel} {c : Pixel} {done : List (Int × Int)} {p : Int × Int} (h : px p.1 p.2 = c) :
    among px c (done ++ [p]) = among px c done ++ [p] := by simp [among, h]

theorem among_snoc_ne {px : Int → Int → Pixel} {c : Pixel} {done : List (Int × Int)} {p : Int × Int} (h : px p.1 p.2 ≠ c) :
    among px c (done ++ [p]) = among px c done := by simp [among, h]

theorem IsBox.add {S : Finset (Int × Int)} {r : Rect} (h : IsBox S r) (p : Int × Int) : IsBox (insert p S) (r.add p) := by
  have hp : IsBox {p} ⟨p.1, p.2, p.1 + 1, p.2 + 1⟩ := by
    refine ⟨?_, ?_, ?_⟩
    · intro q hq; rw [Finset.mem_singleton] at hq; subst hq; dsimp only; omega
    · intro h; simp at h
    · intro _
      exact ⟨⟨p, by simp, rfl⟩, ⟨p, by simp, rfl⟩, ⟨p, by simp, rfl⟩, ⟨p, by simp, rfl⟩⟩
  have := h.union hp
  rw [Finset.union_comm, ← Finset.insert_eq] at this
  have he : r.union ⟨p.1, p.2, p.1 + 1, p.2 + 1⟩ = r.add p := by
    unfold Rect.union Rect.add
    rw [if_neg (by simp [Rect.isEmpty])]
  rwa [he] at this

theorem IsBox.empty : IsBox ∅ emptyRect :=
  ⟨fun p hp => absurd hp (by simp), fun _ => by decide, fun h => absurd h (by simp)⟩

/-- bounds and sizes of the cells of type `t` fit the pixels seen so far -/
def Collected (px : Int → Int → Pixel) (t : CellType) (done : List (Int × Int)) (l : List Info) : Prop :=
  ∀ (i : Nat) (a : Info), l[i]? = some a → (t, i) ≠ (CellType.region, 0) →
    IsBox (among px (t, i) done).toFinset a.box ∧ a.size = (among px (t, i) done).length % 2 ^ 32

/-- what `bounds |= pos; ++size` does -/
def Info.see (a : Info) (p : Int × Int) : Info := { a with box := a.box.add p, size := addU a.size 1 }

theorem Collected.see {px : Int → Int → Pixel} {t : CellType} {done : List (Int × Int)} {l : List Info} (h : Collected px t done l)
    {p : Int × Int} {j : Nat} (hp : px p.1 p.2 = (t, j)) : Collected px t (done ++ [p]) (l.modify j (·.see p)) := by
  intro i a ha hne
  by_cases hij : j = i
  · subst hij
    obtain ⟨b, hb, rfl⟩ := modify_inv ha
    obtain ⟨h1, h2⟩ := h j b hb hne
    rw [among_snoc_eq hp]
    refine ⟨?_, ?_⟩
    · rw [List.toFinset_append]
      have := h1.add p
      rwa [Finset.insert_eq, Finset.union_comm] at this
    · simp only [Info.see, addU, h2, List.length_append, List.length_cons, List.length_nil]
      omega
  · rw [modify_ne hij] at ha
    rw [among_snoc_ne (by rw [hp]; simpa using hij)]
    exact h i a ha hne

theorem Collected.skip {px : Int → Int → Pixel} {t : CellType} {done : List (Int × Int)} {l : List Info} (h : Collected px t done l)
    {p : Int × Int} (hp : (px p.1 p.2).1 ≠ t) : Collected px t (done ++ [p]) l := by
  intro i a ha hne
  rw [among_snoc_ne (fun e => hp (by rw [e]))]
  exact h i a ha hne

/-- the cells of type `t` with pixels seen so far are the existing ones -/
structure Seen (px : Int → Int → Pixel) (t : CellType) (done : List (Int × Int)) (l : List Info) : Prop where
  live : ∀ p ∈ done, ∀ i, px p.1 p.2 = (t, i) → ∃ a, l[i]? = some a ∧ a.live = true

theorem Seen.skip {px : Int → Int → Pixel} {t : CellType} {done : List (Int × Int)} {l : List Info} (h : Seen px t done l)
    {p : Int × Int} (hp : (px p.1 p.2).1 ≠ t) : Seen px t (done ++ [p]) l := by
  refine ⟨fun q hq i hi => ?_⟩
  rcases List.mem_append.1 hq with hq | hq
  · exact h.live q hq i hi
  · obtain rfl : q = p := by simpa using hq
    exact absurd (by rw [hi]) hp

/-- keeping all existing cells and having the one of the new pixel -/
theorem Seen.step {px : Int → Int → Pixel} {t : CellType} {done : List (Int × Int)} {l l' : List Info} (h : Seen px t done l)
    {p : Int × Int} {j : Nat} (hp : px p.1 p.2 = (t, j))
    (hl : ∀ (i : Nat) (a : Info), l[i]? = some a → a.live = true → ∃ a', l'[i]? = some a' ∧ a'.live = true)
    (hj : ∃ a, l'[j]? = some a ∧ a.live = true) : Seen px t (done ++ [p]) l' := by
  refine ⟨fun q hq i hi => ?_⟩
  rcases List.mem_append.1 hq with hq | hq
  · obtain ⟨a, h1, h2⟩ := h.live q hq i hi
    exact hl i a h1 h2
  · obtain rfl : q = p := by simpa using hq
    rw [hp] at hi
    obtain rfl : j = i := (Prod.mk.inj hi).2
    exact hj

theorem countP_modify_birth {α : Type} (p : α → Bool) (f : α → α) : ∀ (l : List α) (i : Nat) (a : α), l[i]? = some a → p a = false →
    p (f a) = true → (l.modify i f).countP p = l.countP p + 1
  | [], i, a, h, _, _ => by simp at h
  | b :: l, 0, a, h, hp, hf => by
    simp at h; subst h
    simp [hp, hf]
  | b :: l, i + 1, a, h, hp, hf => by
    simp at h
    have := countP_modify_birth p f l i a h hp hf
    simp only [List.modify_succ_cons, List.countP_cons, this]
    omega

/-- From the collected information to the specification. -/
theorem Exact.of_collected {m : Map} {t : CellType} {l : List Info} (hring : ∀ x y, m.inside x y → (x = -2 ∨ y = -2 ∨ x = m.w - 3 ∨ y = m.h - 3) →
      m.px x y = (.region, 0))
    (hc : Collected m.px t (innerPixels m.w m.h) l) (hs : ∀ x y i, m.inside x y → m.px x y = (t, i) → ∃ a, l[i]? = some a ∧ a.live = true)
    (h0 : t = .region → ∀ a, l[0]? = some a → IsBox (m.cell (t, 0)) a.box) : Exact m t l := by
  have hcell : ∀ i, (t, i) ≠ (CellType.region, 0) → (among m.px (t, i) (innerPixels m.w m.h)).toFinset = m.cell (t, i) := by
    intro i hne
    ext p
    simp only [among, List.mem_toFinset, List.mem_filter, decide_eq_true_eq, mem_innerPixels, mem_cell]
    constructor
    · rintro ⟨h1, h2⟩; exact ⟨by simp only [Map.inside]; omega, h2⟩
    · rintro ⟨h1, h2⟩
      refine ⟨?_, h2⟩
      by_contra hcon
      have := hring p.1 p.2 h1 (by simp only [Map.inside] at h1; omega)
      rw [h2] at this
      exact hne this
  have hcard : ∀ i, (t, i) ≠ (CellType.region, 0) → (among m.px (t, i) (innerPixels m.w m.h)).length = (m.cell (t, i)).card := by
    intro i hne
    rw [← hcell i hne]
    exact (List.toFinset_card_of_nodup (l := among m.px (t, i) (innerPixels m.w m.h)) ((innerPixels_nodup _ _).filter _)).symm
  refine ⟨hs, ?_, ?_⟩
  · intro i a ha hl
    by_cases hne : (t, i) = (CellType.region, 0)
    · obtain ⟨h1, h2⟩ := Prod.mk.inj hne
      subst h2
      exact h0 h1 a ha
    · rw [← hcell i hne]; exact (hc i a ha hne).1
  · intro i a ha hl hne
    rw [← hcard i hne]; exact (hc i a ha hne).2

/-! ## `initNodeList` -/

theorem isBoxFull {m : Map} (hring : ∀ x y, m.inside x y → (x = -2 ∨ y = -2 ∨ x = m.w - 3 ∨ y = m.h - 3) → m.px x y = (.region, 0))
    (hw : 0 < m.w) (hh : 0 < m.h) : IsBox (m.cell (.region, 0)) ⟨-2, -2, (m.w : Int) - 2, (m.h : Int) - 2⟩ := by
  have c1 : ((-2 : Int), (-2 : Int)) ∈ m.cell (.region, 0) :=
    mem_cell.2 ⟨by simp only [Map.inside]; omega, hring _ _ (by simp only [Map.inside]; omega) (.inl rfl)⟩
  have c2 : ((m.w : Int) - 3, (m.h : Int) - 3) ∈ m.cell (.region, 0) :=
    mem_cell.2 ⟨by simp only [Map.inside]; omega, hring _ _ (by simp only [Map.inside]; omega) (.inr (.inr (.inl rfl)))⟩
  refine ⟨?_, ?_, fun _ => ⟨⟨_, c1, rfl⟩, ⟨_, c2, by dsimp only; omega⟩, ⟨_, c1, rfl⟩, ⟨_, c2, by dsimp only; omega⟩⟩⟩
  · intro p hp
    have := (mem_cell.1 hp).1
    simp only [Map.inside] at this
    dsimp only; omega
  · intro h; rw [h] at c1; simp at c1

/-- the frame is in face 0 -/
def Framed (m : Map) : Prop := ∀ x y, m.inside x y → (x = -2 ∨ y = -2 ∨ x = m.w - 3 ∨ y = m.h - 3) → m.px x y = (.region, 0)

structure NodesInv (m0 : Map) (done : List (Int × Int)) (m : Map) : Prop where
  w : m.w = m0.w
  h : m.h = m0.h
  px : m.px = m0.px
  edges : m.edges = m0.edges
  faces : m.faces = m0.faces
  edgeCount : m.edgeCount = m0.edgeCount
  faceCount : m.faceCount = m0.faceCount
  collected : Collected m0.px .vertex done (m.nodes.map Node.info)
  seen : Seen m0.px .vertex done (m.nodes.map Node.info)
  nodeCount : m.nodeCount = (m.nodes.countP (·.live)) % 2 ^ 32

theorem initNode_inv {m0 m m' : Map} {done : List (Int × Int)} {p : Int × Int} (h : NodesInv m0 done m) (he : initNode m p = .ok m') :
    NodesInv m0 (done ++ [p]) m' := by
  unfold initNode at he
  rw [h.px] at he
  by_cases ht : (m0.px p.1 p.2).1 ≠ .vertex
  · rw [if_pos ht] at he; cases he
    exact ⟨h.w, h.h, h.px, h.edges, h.faces, h.edgeCount, h.faceCount, h.collected.skip ht, h.seen.skip ht, h.nodeCount⟩
  rw [if_neg ht] at he
  simp only [ne_eq, not_not] at ht
  dsimp only at he
  generalize hl : (m0.px p.1 p.2).2 = l at he
  have hp : m0.px p.1 p.2 = (.vertex, l) := by rw [← hl, ← ht]
  cases hN : m.nodes[l]? with
  | none => rw [hN] at he; cases he
  | some N =>
    rw [hN] at he; dsimp only at he
    obtain ⟨m1, h1, he⟩ := bind_eq_ok.1 he
    have key : m1.w = m.w ∧ m1.h = m.h ∧ m1.px = m.px ∧ m1.edges = m.edges ∧ m1.faces = m.faces ∧ m1.edgeCount = m.edgeCount ∧
        m1.faceCount = m.faceCount ∧ (∃ N1, m1.nodes[l]? = some N1 ∧ N1.live = true) ∧
        (∀ i, l ≠ i → (m1.nodes.map Node.info)[i]? = (m.nodes.map Node.info)[i]?) ∧
        Collected m0.px .vertex done (m1.nodes.map Node.info) ∧ m1.nodeCount = (m1.nodes.countP (·.live)) % 2 ^ 32 := by
      by_cases hlive : N.live = true
      · rw [if_pos hlive] at h1; cases h1
        exact ⟨rfl, rfl, rfl, rfl, rfl, rfl, rfl, ⟨N, hN, hlive⟩, fun _ _ => rfl, h.collected, h.nodeCount⟩
      · rw [if_neg hlive] at h1
        obtain ⟨a, _, h1⟩ := bind_eq_ok.1 h1
        obtain ⟨s, _, h1⟩ := bind_eq_ok.1 h1
        obtain ⟨deg, _, h1⟩ := bind_eq_ok.1 h1
        cases h1
        refine ⟨rfl, rfl, h.px.symm, rfl, rfl, rfl, rfl, ⟨_, modify_eq hN, rfl⟩, ?_, ?_, ?_⟩
        · intro i hi
          dsimp only
          rw [List.getElem?_map, modify_ne hi, List.getElem?_map]
        · intro i b hb hne
          dsimp only at hb
          rw [List.getElem?_map] at hb
          by_cases hi : l = i
          · subst hi
            rw [modify_eq hN] at hb
            obtain rfl := (Option.some.inj hb)
            exact h.collected l N.info (nodes_get hN) hne
          · rw [modify_ne hi, ← List.getElem?_map] at hb
            exact h.collected i b hb hne
        · dsimp only
          rw [countP_modify_birth _ _ _ _ _ hN (by simpa using hlive) rfl, h.nodeCount]
          unfold addU; omega
    obtain ⟨k1, k2, k3, k4, k5, k6, k7, ⟨N1, hN1, hl1⟩, k9, k10, k11⟩ := key
    cases he
    have hinfo : ((m1.nodes.modify l fun N => { N with box := N.box.add p, size := addU N.size 1 }).map Node.info) =
        (m1.nodes.map Node.info).modify l (·.see p) := map_modify _ _ _ _ _ fun _ => rfl
    refine ⟨k1.trans h.w, k2.trans h.h, k3.trans h.px, k4.trans h.edges, k5.trans h.faces, k6.trans h.edgeCount, k7.trans h.faceCount, ?_, ?_, ?_⟩
    · dsimp only; rw [hinfo]; exact k10.see hp
    · dsimp only; rw [hinfo]
      refine h.seen.step hp ?_ ⟨_, modify_eq (nodes_get hN1), hl1⟩
      intro i a ha hla
      by_cases hi : l = i
      · subst hi; exact ⟨_, modify_eq (nodes_get hN1), hl1⟩
      · rw [modify_ne hi, k9 i hi]; exact ⟨a, ha, hla⟩
    · dsimp only
      rw [countP_modify_same _ _ (by intro a; rfl)]; exact k11

/-- the nodes are complete -/
structure NodesDone (m0 m : Map) : Prop where
  w : m.w = m0.w
  h : m.h = m0.h
  edges : m.edges = m0.edges
  faces : m.faces = m0.faces
  edgeCount : m.edgeCount = m0.edgeCount
  faceCount : m.faceCount = m0.faceCount
  framed : Framed m
  nodes : Exact m .vertex (m.nodes.map Node.info)
  nodeCount : m.nodeCount = (m.nodes.countP (·.live)) % 2 ^ 32
  lines : ∀ x y l, m.inside x y → (m.px x y = (.line, l) ↔ m0.px x y = (.line, l))

theorem fillHole_inv {m0 m : Map} {l : Nat} {c : Pixel} (h : NodesDone m0 m) (hc : c.1 = .region) (hlive : ∃ N, m.nodes[l]? = some N ∧ N.live = true) :
    NodesDone m0 (fillHole m l c) ∧ ∃ N, (fillHole m l c).nodes[l]? = some N ∧ N.live = true := by
  obtain ⟨N, hN, hl⟩ := hlive
  unfold fillHole
  rw [hN]
  dsimp only
  set pts := (rectPixels N.box).filter fun p => m.px p.1 p.2 = c with hpts
  have mem : ∀ x y, (x, y) ∈ pts ↔ ((N.box.x0 ≤ x ∧ x < N.box.x1) ∧ (N.box.y0 ≤ y ∧ y < N.box.y1)) ∧ m.px x y = c := by
    intro x y; rw [hpts, List.mem_filter, mem_rectPixels]; simp
  have bN : IsBox (m.cell (.vertex, l)) N.box := h.nodes.box l N.info (nodes_get hN) hl
  have inner : ∀ x y, (x, y) ∈ pts → -1 ≤ x ∧ x < m.w - 3 ∧ -1 ≤ y ∧ y < m.h - 3 := by
    intro x y hxy
    have hb := ((mem x y).1 hxy).1
    have hne : (m.cell (.vertex, l)).Nonempty := by
      rw [Finset.nonempty_iff_ne_empty]
      intro h0
      have := bN.2.1 h0
      simp only [Rect.isEmpty, Bool.or_eq_true, decide_eq_true_eq] at this
      omega
    obtain ⟨⟨a, ha, ha'⟩, ⟨b, hb', hb''⟩, ⟨c', hc', hc''⟩, ⟨d, hd, hd'⟩⟩ := bN.2.2 hne
    have noring : ∀ p ∈ m.cell (.vertex, l), -1 ≤ p.1 ∧ p.1 < m.w - 3 ∧ -1 ≤ p.2 ∧ p.2 < m.h - 3 := by
      intro p hp
      obtain ⟨h1, h2⟩ := mem_cell.1 hp
      by_contra hcon
      have := h.framed p.1 p.2 h1 (by simp only [Map.inside] at h1; omega)
      rw [h2] at this; simp at this
    have := noring a ha; have := noring b hb'; have := noring c' hc'; have := noring d hd
    omega
  have hi : ∀ x y, ({ m with
      px := paint m.px pts (.vertex, l)
      nodes := m.nodes.modify l fun N => { N with size := addU N.size pts.length } } : Map).inside x y ↔ m.inside x y := fun _ _ => Iff.rfl
  have hin : ∀ x y, (x, y) ∈ pts → m.inside x y := by intro x y hxy; have := inner x y hxy; simp only [Map.inside]; omega
  have hpx : ∀ x y, (x, y) ∈ pts → paint m.px pts (.vertex, l) x y = (.vertex, l) := by intro x y hxy; simp [paint, hxy]
  have hpx' : ∀ x y, (x, y) ∉ pts → paint m.px pts (.vertex, l) x y = m.px x y := by intro x y hxy; simp [paint, hxy]
  have hcell : ({ m with
      px := paint m.px pts (.vertex, l)
      nodes := m.nodes.modify l fun N => { N with size := addU N.size pts.length } } : Map).cell (.vertex, l) = m.cell (.vertex, l) ∪ pts.toFinset := by
    ext ⟨x, y⟩
    rw [Finset.mem_union, List.mem_toFinset, mem_cell, mem_cell, hi]
    by_cases hxy : (x, y) ∈ pts
    · simp [hpx x y hxy, hin x y hxy, hxy]
    · simp [hpx' x y hxy, hxy]
  have hother : ∀ i, l ≠ i → ({ m with
      px := paint m.px pts (.vertex, l)
      nodes := m.nodes.modify l fun N => { N with size := addU N.size pts.length } } : Map).cell (.vertex, i) = m.cell (.vertex, i) := by
    intro i hli
    ext ⟨x, y⟩
    rw [mem_cell, mem_cell, hi]
    by_cases hxy : (x, y) ∈ pts
    · have : m.px x y ≠ (.vertex, i) := by rw [((mem x y).1 hxy).2]; intro e; rw [e] at hc; simp at hc
      simp [hpx x y hxy, hli, this]
    · simp [hpx' x y hxy]
  have hdisj : Disjoint (m.cell (.vertex, l)) pts.toFinset := by
    rw [Finset.disjoint_left]
    rintro ⟨x, y⟩ h1 h2
    rw [List.mem_toFinset, mem] at h2
    have := (mem_cell.1 h1).2
    rw [h2.2] at this; rw [this] at hc; simp at hc
  refine ⟨⟨h.w, h.h, h.edges, h.faces, h.edgeCount, h.faceCount, ?_, ?_, ?_, ?_⟩, _, modify_eq hN, hl⟩
  · intro x y hxy hr
    have h1 : (x, y) ∉ pts := by intro hm; have := inner x y hm; dsimp only at hr; omega
    dsimp only
    rw [hpx' x y h1]; exact h.framed x y hxy hr
  · refine ⟨?_, ?_, ?_⟩
    · intro x y i hxy hpi
      dsimp only at hpi ⊢
      rw [List.getElem?_map]
      by_cases hxy' : (x, y) ∈ pts
      · rw [hpx x y hxy'] at hpi
        obtain rfl : l = i := (Prod.mk.inj hpi).2
        rw [modify_eq hN]; exact ⟨_, rfl, hl⟩
      · rw [hpx' x y hxy'] at hpi
        obtain ⟨a, ha, hla⟩ := h.nodes.owner x y i hxy hpi
        by_cases hli : l = i
        · subst hli; rw [modify_eq hN]; exact ⟨_, rfl, hl⟩
        · rw [modify_ne hli, ← List.getElem?_map]; exact ⟨a, ha, hla⟩
    · intro i a ha hla
      dsimp only at ha
      rw [List.getElem?_map] at ha
      by_cases hli : l = i
      · subst hli
        rw [modify_eq hN] at ha
        obtain rfl := Option.some.inj ha
        rw [hcell]
        show IsBox _ N.box
        refine ⟨?_, ?_, ?_⟩
        · rintro ⟨x, y⟩ hp
          rcases Finset.mem_union.1 hp with hp | hp
          · exact bN.1 _ hp
          · rw [List.mem_toFinset, mem] at hp; exact hp.1
        · intro h0; rw [Finset.union_eq_empty] at h0; exact bN.2.1 h0.1
        · intro hne
          have hne' : (m.cell (.vertex, l)).Nonempty := by
            rw [Finset.nonempty_iff_ne_empty]
            intro h0
            have he := bN.2.1 h0
            obtain ⟨⟨x, y⟩, hp⟩ := hne
            rw [h0, Finset.empty_union, List.mem_toFinset, mem] at hp
            simp only [Rect.isEmpty, Bool.or_eq_true, decide_eq_true_eq] at he
            omega
          obtain ⟨⟨a, ha, ha'⟩, ⟨b, hb, hb'⟩, ⟨c', hc', hc''⟩, ⟨d, hd, hd'⟩⟩ := bN.2.2 hne'
          exact ⟨⟨a, Finset.mem_union_left _ ha, ha'⟩, ⟨b, Finset.mem_union_left _ hb, hb'⟩, ⟨c', Finset.mem_union_left _ hc', hc''⟩,
            ⟨d, Finset.mem_union_left _ hd, hd'⟩⟩
      · rw [modify_ne hli, ← List.getElem?_map] at ha
        rw [hother i hli]; exact h.nodes.box i a ha hla
    · intro i a ha hla hne
      dsimp only at ha
      rw [List.getElem?_map] at ha
      by_cases hli : l = i
      · subst hli
        rw [modify_eq hN] at ha
        obtain rfl := Option.some.inj ha
        have hnd : pts.Nodup := (rectPixels_nodup _).filter _
        rw [hcell, Finset.card_union_of_disjoint hdisj, List.toFinset_card_of_nodup hnd]
        have := h.nodes.size l N.info (nodes_get hN) hl hne
        simp only [Node.info] at this ⊢
        rw [this]; unfold addU; omega
      · rw [modify_ne hli, ← List.getElem?_map] at ha
        rw [hother i hli]; exact h.nodes.size i a ha hla hne
  · dsimp only; rw [countP_modify_same _ _ (by intro a; rfl)]; exact h.nodeCount
  · intro x y i hxy
    rw [← h.lines x y i hxy]
    dsimp only
    by_cases hxy' : (x, y) ∈ pts
    · rw [hpx x y hxy', ((mem x y).1 hxy').2]
      constructor
      · intro e; simp at e
      · intro e; rw [e] at hc; simp at hc
    · rw [hpx' x y hxy']

theorem stuffRow_inv {o : Oracle} {m0 : Map} {l : Nat} {box : Rect} {y : Int} : ∀ (n : Nat) (x : Int) (m : Map) (r : Map × Bool),
    NodesDone m0 m → (∃ N, m.nodes[l]? = some N ∧ N.live = true) → stuffRow o l box y n x m = .ok r →
    NodesDone m0 r.1 ∧ ∃ N, r.1.nodes[l]? = some N ∧ N.live = true
  | 0, x, m, r, h, hl, he => by simp only [stuffRow] at he; cases he; exact ⟨h, hl⟩
  | n + 1, x, m, r, h, hl, he => by
    rw [stuffRow] at he
    by_cases hx : box.x1 - 1 ≤ x
    · rw [if_pos hx] at he; cases he; exact ⟨h, hl⟩
    rw [if_neg hx] at he
    obtain ⟨p, _, he⟩ := bind_eq_ok.1 he
    by_cases hp : p = (.vertex, l)
    · rw [if_pos hp] at he
      obtain ⟨q, _, he⟩ := bind_eq_ok.1 he
      by_cases hq : q.1 = .region ∧ q.2 ∉ o.outerRegions l
      · rw [if_pos hq] at he
        dsimp only at he
        obtain ⟨h1, hl1⟩ := fillHole_inv h hq.1 hl
        obtain ⟨N, hN, hNl⟩ := hl1
        rw [hN] at he; dsimp only at he
        by_cases hdone : o.crackArea l = N.size
        · rw [if_pos hdone] at he; cases he; exact ⟨h1, N, hN, hNl⟩
        · rw [if_neg hdone] at he; exact stuffRow_inv n _ _ r h1 ⟨N, hN, hNl⟩ he
      · rw [if_neg hq] at he; exact stuffRow_inv n _ _ r h hl he
    · rw [if_neg hp] at he; exact stuffRow_inv n _ _ r h hl he

theorem stuffRows_inv {o : Oracle} {m0 : Map} {l : Nat} {box : Rect} : ∀ (ys : List Int) (m m' : Map),
    NodesDone m0 m → (∃ N, m.nodes[l]? = some N ∧ N.live = true) → stuffRows o l box ys m = .ok m' → NodesDone m0 m'
  | [], m, m', h, hl, he => by simp only [stuffRows] at he; cases he; exact h
  | y :: ys, m, m', h, hl, he => by
    rw [stuffRows] at he
    obtain ⟨r, hr, he⟩ := bind_eq_ok.1 he
    obtain ⟨h1, hl1⟩ := stuffRow_inv _ _ _ r h hl hr
    by_cases hb : r.2 = true
    · rw [if_pos hb] at he; cases he; exact h1
    · rw [if_neg hb] at he; exact stuffRows_inv ys _ _ h1 hl1 he

theorem stuffNode_inv {o : Oracle} {m0 m m' : Map} {l : Nat} (h : NodesDone m0 m) (he : stuffNode o m l = .ok m') : NodesDone m0 m' := by
  unfold stuffNode at he
  cases hN : m.nodes[l]? with
  | none => rw [hN] at he; cases he; exact h
  | some N =>
    rw [hN] at he; dsimp only at he
    by_cases hl : N.live = true
    · simp only [hl, Bool.not_true, Bool.false_eq_true, if_false] at he
      by_cases hc : o.crackArea l = N.size
      · rw [if_pos hc] at he; cases he; exact h
      · rw [if_neg hc] at he; exact stuffRows_inv _ _ _ h ⟨N, hN, hl⟩ he
    · simp only [hl] at he
      cases he; exact h

theorem getElem?_replicate_some {α : Type} {n i : Nat} {a b : α} (h : (List.replicate n a)[i]? = some b) : b = a := by
  rw [List.getElem?_replicate] at h
  by_cases hi : i < n
  · rw [if_pos hi] at h; exact (Option.some.inj h).symm
  · rw [if_neg hi] at h; cases h

theorem initNodeList_done {o : Oracle} {m m' : Map} {k : Nat} (hf : Framed m) (hc : m.nodeCount = 0) (h : initNodeList o m k = .ok m') :
    NodesDone m m' := by
  unfold initNodeList at h
  obtain ⟨m1, h1, h⟩ := bind_eq_ok.1 h
  have i1 : NodesInv m ([] ++ innerPixels m.w m.h) m1 := by
    refine foldO_inv (P := NodesInv m) _ _ _ _ (fun done a b b' _ hb he => initNode_inv hb he) h1 ?_
    refine ⟨rfl, rfl, rfl, rfl, rfl, rfl, rfl, ?_, ⟨by simp⟩, ?_⟩
    · intro i a ha _
      simp only [List.map_replicate] at ha
      rw [getElem?_replicate_some ha]
      exact ⟨IsBox.empty, rfl⟩
    · simp [hc, List.countP_replicate]
  rw [List.nil_append] at i1
  have hin : ∀ x y, m1.inside x y ↔ m.inside x y := by intro x y; simp only [Map.inside, i1.w, i1.h]
  have hframed : Framed m1 := by
    intro x y hi hr
    rw [i1.w, i1.h] at hr
    rw [i1.px]; exact hf x y ((hin x y).1 hi) hr
  have d1 : NodesDone m m1 := by
    refine ⟨i1.w, i1.h, i1.edges, i1.faces, i1.edgeCount, i1.faceCount, hframed, ?_, i1.nodeCount, ?_⟩
    · refine Exact.of_collected hframed ?_ ?_ (by simp)
      · rw [i1.w, i1.h, i1.px]; exact i1.collected
      · intro x y i hi hp
        have hr : ¬ (x = -2 ∨ y = -2 ∨ x = m1.w - 3 ∨ y = m1.h - 3) := by
          intro hr; rw [hframed x y hi hr] at hp; simp at hp
        rw [i1.px] at hp
        refine i1.seen.live (x, y) (mem_innerPixels.2 ?_) i hp
        rw [i1.w, i1.h] at hr
        rw [hin] at hi
        simp only [Map.inside] at hi
        dsimp only; omega
    · intro x y l _; rw [i1.px]
  exact foldO_keep (P := NodesDone m) _ _ _ (fun a b b' _ hb he => stuffNode_inv hb he) h d1

/-! ## `initEdgeList` -/

structure EdgesInv (m0 m : Map) : Prop where
  w : m.w = m0.w
  h : m.h = m0.h
  px : m.px = m0.px
  nodes : m.nodes = m0.nodes
  faces : m.faces = m0.faces
  nodeCount : m.nodeCount = m0.nodeCount
  faceCount : m.faceCount = m0.faceCount
  fresh : ∀ (i : Nat) (E : Edge), m.edges[i]? = some E → E.box = emptyRect ∧ E.size = 0
  edgeCount : m.edgeCount = (m.edges.countP (·.live)) % 2 ^ 32

theorem initEdge_inv {m0 m m' : Map} {d : Dart} (h : EdgesInv m0 m) (he : initEdge m d = .ok m') : EdgesInv m0 m' := by
  unfold initEdge at he
  obtain ⟨l, _, he⟩ := bind_eq_ok.1 he
  cases hE : m.edges[l]? with
  | none => rw [hE] at he; cases he
  | some E =>
    rw [hE] at he; dsimp only at he
    by_cases hl : E.live = true
    · rw [if_pos hl] at he; cases he; exact h
    · rw [if_neg hl] at he
      obtain ⟨e, _, he⟩ := bind_eq_ok.1 he
      cases he
      refine ⟨h.w, h.h, h.px, h.nodes, h.faces, h.nodeCount, h.faceCount, ?_, ?_⟩
      · intro i E' hE'
        dsimp only at hE'
        by_cases hi : l = i
        · subst hi
          rw [modify_eq hE] at hE'
          obtain rfl := Option.some.inj hE'
          exact ⟨(h.fresh l E hE).1, rfl⟩
        · rw [modify_ne hi] at hE'; exact h.fresh i E' hE'
      · dsimp only
        rw [countP_modify_birth _ _ _ _ _ hE (by simpa using hl) rfl, h.edgeCount]
        unfold addU; omega

theorem initEdges_inv {m0 : Map} {anchor : Dart} : ∀ (n : Nat) (d : Dart) (m m' : Map), EdgesInv m0 m → initEdges anchor n d m = .ok m' → EdgesInv m0 m'
  | 0, d, m, m', h, he => by simp only [initEdges] at he; cases he
  | n + 1, d, m, m', h, he => by
    rw [initEdges] at he
    obtain ⟨m1, h1, he⟩ := bind_eq_ok.1 he
    obtain ⟨d', _, he⟩ := bind_eq_ok.1 he
    obtain ⟨b, _, he⟩ := bind_eq_ok.1 he
    have := initEdge_inv h h1
    by_cases hb : b = true
    · rw [if_pos hb] at he; cases he; exact this
    · rw [if_neg hb] at he; exact initEdges_inv n d' m1 m' this he

theorem initEdgeList_inv {m m' : Map} {k : Nat} (hc : m.edgeCount = 0) (h : initEdgeList m k = .ok m') : EdgesInv m m' := by
  unfold initEdgeList at h
  refine foldO_keep (P := EdgesInv m) _ _ _ ?_ h ?_
  · intro l b b' _ hb he
    unfold initNodeEdges at he
    cases hN : b.nodes[l]? with
    | none => rw [hN] at he; cases he; exact hb
    | some N =>
      rw [hN] at he; dsimp only at he
      by_cases hl : N.live = true
      · simp only [hl, Bool.not_true, Bool.false_eq_true, if_false] at he
        obtain ⟨s, _, he⟩ := bind_eq_ok.1 he
        by_cases hs : s = true
        · rw [if_pos hs] at he; cases he; exact hb
        · rw [if_neg hs] at he; exact initEdges_inv _ _ _ _ hb he
      · simp only [hl] at he; cases he; exact hb
  · refine ⟨rfl, rfl, rfl, rfl, rfl, rfl, rfl, ?_, ?_⟩
    · intro i E hE
      dsimp only at hE
      rw [getElem?_replicate_some hE]; exact ⟨rfl, rfl⟩
    · simp [hc, List.countP_replicate]

/-! ## `initFaceList` -/

structure FacesInv (m0 : Map) (done : List (Int × Int)) (m : Map) : Prop where
  w : m.w = m0.w
  h : m.h = m0.h
  px : m.px = m0.px
  nodes : m.nodes = m0.nodes
  nodeCount : m.nodeCount = m0.nodeCount
  edgeCount : m.edgeCount = m0.edgeCount
  edgesLive : m.edges.countP (·.live) = m0.edges.countP (·.live)
  lines : Collected m0.px .line done (m.edges.map Edge.info)
  collected : Collected m0.px .region done (m.faces.map Face.info)
  seen : Seen m0.px .region done (m.faces.map Face.info)
  outer : ∃ F, m.faces[0]? = some F ∧ F.live = true ∧ F.box = ⟨-2, -2, (m0.w : Int) - 2, (m0.h : Int) - 2⟩
  faceCount : m.faceCount = (m.faces.countP (·.live)) % 2 ^ 32

theorem innerContour_inv {o : Oracle} {m0 : Map} {done : List (Int × Int)} {f : Nat} {p : Int × Int} {st st' : FaceState} {k : Fin 8}
    (h : FacesInv m0 done st.1 ∧ ∃ F, st.1.faces[f]? = some F ∧ F.live = true) (he : innerContour o f p st k = .ok st') :
    FacesInv m0 done st'.1 ∧ ∃ F, st'.1.faces[f]? = some F ∧ F.live = true := by
  unfold innerContour at he
  dsimp only at he
  by_cases hc : o.contour (p.1 + dx k) (p.2 + dy k) = 0
  · rw [if_pos hc] at he; cases he; exact h
  rw [if_neg hc] at he
  cases hb : st.2[o.contour (p.1 + dx k) (p.2 + dy k)]? with
  | none => rw [hb] at he; cases he
  | some b =>
    rw [hb] at he
    cases b with
    | true => cases he; exact h
    | false =>
      dsimp only at he
      obtain ⟨a, _, he⟩ := bind_eq_ok.1 he
      cases he
      obtain ⟨h, F, hF, hl⟩ := h
      have hinfo : (st.1.faces.modify f fun F => { F with contours := F.contours ++ [a] }).map Face.info = st.1.faces.map Face.info :=
        map_modify_same _ _ _ _ (by intro a; rfl)
      refine ⟨⟨h.w, h.h, h.px, h.nodes, h.nodeCount, h.edgeCount, h.edgesLive, h.lines, ?_, ?_, ?_, ?_⟩, _, modify_eq hF, hl⟩
      · dsimp only; rw [hinfo]; exact h.collected
      · dsimp only; rw [hinfo]; exact h.seen
      · obtain ⟨F0, h1, h2, h3⟩ := h.outer
        dsimp only
        by_cases h0 : f = 0
        · subst h0; exact ⟨_, modify_eq h1, h2, h3⟩
        · rw [modify_ne h0]; exact ⟨F0, h1, h2, h3⟩
      · dsimp only; rw [countP_modify_same _ _ (by intro a; rfl)]; exact h.faceCount

theorem initFace_inv {o : Oracle} {m0 : Map} {done : List (Int × Int)} {p : Int × Int} {st st' : FaceState}
    (hp : p ∈ innerPixels m0.w m0.h) (h : FacesInv m0 done st.1) (he : initFace o st p = .ok st') :
    FacesInv m0 (done ++ [p]) st'.1 := by
  unfold initFace at he
  dsimp only at he
  rw [h.px] at he
  by_cases ht : (m0.px p.1 p.2).1 ≠ .region
  · rw [if_pos ht] at he
    by_cases hl : (m0.px p.1 p.2).1 = .line
    · rw [if_pos hl] at he
      generalize hll : (m0.px p.1 p.2).2 = l at he
      have hpl : m0.px p.1 p.2 = (.line, l) := by rw [← hll, ← hl]
      cases hE : st.1.edges[l]? with
      | none => rw [hE] at he; cases he
      | some E =>
        rw [hE] at he; cases he
        have hinfo : ((st.1.edges.modify l fun E => { E with box := E.box.add p, size := addU E.size 1 }).map Edge.info) =
            (st.1.edges.map Edge.info).modify l (·.see p) := map_modify _ _ _ _ _ fun _ => rfl
        refine ⟨h.w, h.h, rfl, h.nodes, h.nodeCount, h.edgeCount, ?_, ?_, h.collected.skip ht, h.seen.skip ht, h.outer, h.faceCount⟩
        · dsimp only; rw [countP_modify_same _ _ (by intro a; rfl)]; exact h.edgesLive
        · dsimp only; rw [hinfo]; exact h.lines.see hpl
    · rw [if_neg hl] at he; cases he
      exact ⟨h.w, h.h, h.px, h.nodes, h.nodeCount, h.edgeCount, h.edgesLive, h.lines.skip hl, h.collected.skip ht, h.seen.skip ht, h.outer,
        h.faceCount⟩
  rw [if_neg ht] at he
  simp only [ne_eq, not_not] at ht
  generalize hll : (m0.px p.1 p.2).2 = f at he
  have hpf : m0.px p.1 p.2 = (.region, f) := by rw [← hll, ← ht]
  cases hF : st.1.faces[f]? with
  | none => rw [hF] at he; cases he
  | some F =>
    rw [hF] at he; dsimp only at he
    obtain ⟨st1, h1, he⟩ := bind_eq_ok.1 he
    have key : FacesInv m0 done st1.1 ∧ ∃ F, st1.1.faces[f]? = some F ∧ F.live = true := by
      by_cases hl : F.live = true
      · simp only [hl, Bool.not_true, Bool.false_eq_true, if_false] at h1
        exact foldO_keep (P := fun s : FaceState => FacesInv m0 done s.1 ∧ ∃ F, s.1.faces[f]? = some F ∧ F.live = true) _ _ _
          (fun k b b' _ hb hbe => innerContour_inv hb hbe) h1 ⟨h, F, hF, hl⟩
      · simp only [Bool.not_eq_true] at hl
        simp only [hl, Bool.not_false, if_true] at h1
        obtain ⟨a, _, h1⟩ := bind_eq_ok.1 h1
        cases h1
        refine ⟨⟨h.w, h.h, rfl, h.nodes, h.nodeCount, h.edgeCount, h.edgesLive, h.lines, ?_, ?_, ?_, ?_⟩, _, modify_eq hF, rfl⟩
        · intro i b hb hne
          dsimp only at hb
          rw [List.getElem?_map] at hb
          by_cases hi : f = i
          · subst hi
            rw [modify_eq hF] at hb
            obtain rfl := Option.some.inj hb
            exact h.collected f F.info (faces_get hF) hne
          · rw [modify_ne hi, ← List.getElem?_map] at hb
            exact h.collected i b hb hne
        · refine ⟨fun q hq i hi => ?_⟩
          obtain ⟨b, hb, hbl⟩ := h.seen.live q hq i hi
          dsimp only
          rw [List.getElem?_map]
          by_cases hfi : f = i
          · subst hfi; rw [modify_eq hF]; exact ⟨_, rfl, rfl⟩
          · rw [modify_ne hfi, ← List.getElem?_map]; exact ⟨b, hb, hbl⟩
        · obtain ⟨F0, g1, g2, g3⟩ := h.outer
          dsimp only
          have h0 : f ≠ 0 := by rintro rfl; rw [hF] at g1; obtain rfl := Option.some.inj g1; rw [hl] at g2; cases g2
          rw [modify_ne h0]; exact ⟨F0, g1, g2, g3⟩
        · dsimp only
          rw [countP_modify_birth (fun F : Face => F.live) _ _ _ _ hF hl rfl, h.faceCount]
          unfold addU; omega
    obtain ⟨k, F1, hF1, hl1⟩ := key
    cases he
    have hinfo : ((st1.1.faces.modify f fun F => { F with box := F.box.add p, size := addU F.size 1 }).map Face.info) =
        (st1.1.faces.map Face.info).modify f (·.see p) := map_modify _ _ _ _ _ fun _ => rfl
    refine ⟨k.w, k.h, k.px, k.nodes, k.nodeCount, k.edgeCount, k.edgesLive, k.lines.skip (by rw [ht]; simp), ?_, ?_, ?_, ?_⟩
    · dsimp only; rw [hinfo]; exact k.collected.see hpf
    · dsimp only; rw [hinfo]
      refine k.seen.step hpf ?_ ⟨_, modify_eq (faces_get hF1), hl1⟩
      intro i a ha hla
      by_cases hi : f = i
      · subst hi; exact ⟨_, modify_eq (faces_get hF1), hl1⟩
      · rw [modify_ne hi]; exact ⟨a, ha, hla⟩
    · obtain ⟨F0, g1, g2, g3⟩ := k.outer
      dsimp only
      by_cases h0 : f = 0
      · subst h0
        refine ⟨_, modify_eq g1, g2, ?_⟩
        have := mem_innerPixels.1 hp
        dsimp only
        rw [g3, Rect.add, if_neg]
        · simp only [Rect.mk.injEq]; omega
        · simp only [Rect.isEmpty, Bool.or_eq_true, decide_eq_true_eq]; omega
      · rw [modify_ne h0]; exact ⟨F0, g1, g2, g3⟩
    · dsimp only; rw [countP_modify_same _ _ (by intro a; rfl)]; exact k.faceCount

/-- the lists before the scan -/
theorem facesInv_start {m : Map} (hw : 1 ≤ m.w) (hh : 1 ≤ m.h) (hc : m.faceCount = 0)
    (hfresh : ∀ (i : Nat) (E : Edge), m.edges[i]? = some E → E.box = emptyRect ∧ E.size = 0) (a : Dart) (k : Nat) :
    FacesInv m [] { m with
        faces := ⟨true, (emptyRect.add (-2, -2)).add ((m.w : Int) - 3, (m.h : Int) - 3), 2 ^ 32 - 1, [a]⟩ :: List.replicate k ⟨false, emptyRect, 0, []⟩
        faceCount := addU m.faceCount 1 } := by
  refine ⟨rfl, rfl, rfl, rfl, rfl, rfl, rfl, ?_, ?_, ⟨by simp⟩, ⟨_, rfl, rfl, ?_⟩, ?_⟩
  · intro i b hb _
    dsimp only at hb
    rw [List.getElem?_map] at hb
    cases hE : m.edges[i]? with
    | none => rw [hE] at hb; cases hb
    | some E =>
      rw [hE] at hb
      obtain rfl := Option.some.inj hb
      obtain ⟨h1, h2⟩ := hfresh i E hE
      simp only [Edge.info, h1, h2]
      exact ⟨IsBox.empty, rfl⟩
  · intro i b hb hne
    dsimp only at hb
    cases i with
    | zero => exact absurd rfl hne
    | succ i =>
      simp only [List.map_cons, List.getElem?_cons_succ, List.map_replicate] at hb
      rw [getElem?_replicate_some hb]
      exact ⟨IsBox.empty, rfl⟩
  · dsimp only [Rect.add, Rect.isEmpty, emptyRect]
    norm_num
    omega
  · simp [hc, List.countP_replicate, addU]

theorem initFaceList_inv {o : Oracle} {m m' : Map} {k : Nat} (hw : 1 ≤ m.w) (hh : 1 ≤ m.h) (hc : m.faceCount = 0)
    (hfresh : ∀ (i : Nat) (E : Edge), m.edges[i]? = some E → E.box = emptyRect ∧ E.size = 0) (h : initFaceList o m k = .ok m') :
    FacesInv m (innerPixels m.w m.h) m' := by
  unfold initFaceList at h
  obtain ⟨a, _, h⟩ := bind_eq_ok.1 h
  obtain ⟨a', _, h⟩ := bind_eq_ok.1 h
  dsimp only at h
  obtain ⟨st, h1, h⟩ := bind_eq_ok.1 h
  cases h
  have := foldO_inv (P := fun done (s : FaceState) => FacesInv m done s.1) _ [] _ _ (fun done p b b' hp hb he => initFace_inv hp hb he) h1
    (facesInv_start hw hh hc hfresh a' k)
  simpa using this

end Verif.FourEight
