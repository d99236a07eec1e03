import Verif.Sigma.Props

/-!
# Entries of the sigma mapping outside the labels of a map are 0
-/

namespace Verif.Sigma
open Verif Verif.GeoMap

/-- all entries for labels from `m` on are 0 -/
structure Outside (f : Fn) (m : Nat) : Prop where
  s : ∀ i : Int, m ≤ i.natAbs → f.sigma i = 0
  i : ∀ i : Int, m ≤ i.natAbs → f.inv i = 0

namespace Outside
variable {f : Fn} {m : Nat}

theorem mono (h : Outside f m) {k : Nat} (hk : m ≤ k) : Outside f k :=
  ⟨fun i hi => h.s i (by omega), fun i hi => h.i i (by omega)⟩

theorem withN (h : Outside f m) {k : Nat} : Outside { f with n := k } m := ⟨h.s, h.i⟩

theorem setS (h : Outside f m) {i : Int} (v : Int) (hi : i.natAbs < m) : Outside (f.setS i v) m := by
  refine ⟨fun j hj => ?_, h.i⟩
  have : j ≠ i := by rintro rfl; omega
  simpa [Fn.setS, this] using h.s j hj

theorem setI (h : Outside f m) {i : Int} (v : Int) (hi : i.natAbs < m) : Outside (f.setI i v) m := by
  refine ⟨h.s, fun j hj => ?_⟩
  have : j ≠ i := by rintro rfl; omega
  simpa [Fn.setI, this] using h.i j hj

theorem insert (h : Outside f m) (hB : Bounded f m) {s x : Int} (hs : s.natAbs < m) (hx : x.natAbs < m) : Outside (f.insert s x) m := by
  unfold Fn.insert
  split_ifs
  · exact (h.setS _ hx).setI _ hx
  · exact (((h.setS _ (hB.i s)).setS _ hx).setI _ hs).setI _ hx

theorem detach (h : Outside f m) (hB : Bounded f m) (d : Int) : Outside (f.detach d) m := (h.setS _ (hB.i d)).setI _ (hB.s d)

theorem replaceDart (h : Outside f m) (hB : Bounded f m) {d1 : Int} (h1 : d1.natAbs < m) (d2 : Int) : Outside (f.replaceDart d1 d2) m := by
  unfold Fn.replaceDart
  split_ifs
  · exact (h.setS _ h1).setI _ h1
  · exact (((h.setS _ (hB.i _)).setS _ h1).setI _ (hB.s _)).setI _ h1

theorem splitEdge (h : Outside f m) (hB : Bounded f m) {l r : Nat} (hl : l < m) (hr : r < m) : Outside (f.splitEdge l r) m := by
  have g := (((h.setS (i := -(l : Int)) r (by omega)).setS (i := (r : Int)) (-(l : Int)) (by omega)).setI (i := (r : Int)) (-(l : Int)) (by omega)).setI (i := -(l : Int)) r (by omega)
  unfold Fn.splitEdge
  simp only
  split_ifs
  · exact (g.setS _ (by omega)).setI _ (by omega)
  · exact (((g.setS _ (hB.i _)).setS _ (by omega)).setI _ (hB.s _)).setI _ (by omega)

theorem linkCycle {first : Int} (h1 : first.natAbs < m) : ∀ (rest : List Int) (p : Int) (f : Fn), Outside f m → p.natAbs < m →
    (∀ d ∈ rest, d.natAbs < m) → Outside (Fn.linkCycle first p rest f) m := by
  intro rest
  induction rest with
  | nil => intro p f h hp _; exact (h.setS _ hp).setI _ h1
  | cons x xs ih =>
    intro p f h hp hr
    exact ih x _ ((h.setS _ hp).setI _ (hr x (by simp))) (hr x (by simp)) fun d hd => hr d (by simp [hd])

theorem copyEntries (given : List Int) : ∀ (k : Nat) (i : Int) (f : Fn), Outside f m → -(m : Int) < i → i + k ≤ m →
    Outside (Fn.copyEntries given k i f) m := by
  intro k
  induction k with
  | zero => intro i f h _ _; exact h
  | succ k ih =>
    intro i f h h1 h2
    exact ih (i + 1) _ (h.setS _ (by omega)) (by omega) (by omega)

theorem invertEdges : ∀ (ls : List Nat) (f : Fn), Outside f m → Bounded f m → (∀ l ∈ ls, l < m) → Outside (Fn.invertEdges ls f) m := by
  intro ls
  induction ls with
  | nil => intro f h _ _; exact h
  | cons l ls ih =>
    intro f h hB hl
    have := hl l (by simp)
    exact ih _ ((h.setI _ (hB.s _)).setI _ (hB.s _)) ((hB.setI _ (by omega)).setI _ (by omega)) fun x hx => hl x (by simp [hx])

theorem call (h : Outside f f.n) (hB : Bounded f f.n) (c : Call) (hv : c.valid f.n) :
    Outside (c.apply f) (c.size f.n) := by
  have hpos := hB.pos
  cases c with
  | addEdge l s1 s2 =>
    obtain ⟨hl, h1, h2⟩ := hv
    have hB1 : Bounded (f.insert s1 l) (l + 1) := (hB.mono (by omega)).insert (by omega) (by omega)
    exact (((h.mono (k := l + 1) (by omega)).insert (hB.mono (by omega)) (by omega) (by omega)).insert hB1 (by omega) (by omega)).withN
  | splitEdge l =>
    have hl : l < f.n := hv
    exact ((h.mono (Nat.le_succ _)).splitEdge (hB.mono (Nat.le_succ _)) (by omega) (by omega)).withN
  | replaceDart d1 d2 => exact h.replaceDart hB hv.1 d2
  | detach d => exact h.detach hB d
  | sortNode first rest => exact Outside.linkCycle hv.1 rest first f h hv.1 hv.2
  | setMapping edges given =>
    show Outside _ f.n
    refine Outside.invertEdges _ _ (Outside.copyEntries given _ _ f h (by omega) (by omega)) ?_ hv.2.1
    exact Bounded.copyEntries _ _ _ hB fun j j1 j2 => hv.2.2 j (by omega)

theorem calls : ∀ (cs : List Call) {a : Arrays} {f : Fn}, Rep a f → Outside f f.n → validCalls cs f.n →
    Outside (applyCalls cs f) (applyCalls cs f).n := by
  intro cs
  induction cs with
  | nil => intro a f _ h _; exact h
  | cons c cs ih =>
    intro a f hr h hv
    obtain ⟨b, e1, hb, hn⟩ := hr.call c hv.1
    refine ih hb ?_ (by rw [hn]; exact hv.2)
    rw [hn]; exact h.call hr.bounded c hv.1

end Outside

variable {K : Type} [Field K] [LinearOrder K] [IsStrictOrderedRing K]

/-- The mappings of a map have no entries for labels that no edge ever had. -/
theorem reach_outside {s : GMap K} (hs : Reach s) : Outside (Fn.of s) s.nEdges := by
  induction hs with
  | empty => exact ⟨fun _ _ => rfl, fun _ _ => rfl⟩
  | @call s t h op h0 hl hr hp ih =>
    obtain ⟨ds, v2, -, e2⟩ := op_traces h0.good.map.graph op hr
    obtain ⟨-, a, -, ha, -⟩ := map_storage h0
    have := Outside.calls ds ha ih v2
    rw [e2] at this
    exact this
  | @rename s t lab new size h0 hz e ih =>
    have hq := (rename_good h0.good hz e).2.1.sigma
    have h1 : Fn.of t = Fn.of s := by unfold Fn.of; rw [hq.1, hq.2.1, hq.2.2.2.2.1]
    have h2 : t.nEdges = s.nEdges := congrArg Fn.n h1
    rw [h1, h2]; exact ih

/-- a storage for a map with at most 50 labels of edges -/
def store {K : Type} (s : GMap K) : Arrays :=
  ⟨(List.range 101).map fun i => s.sigma ((i : Int) - 50), (List.range 101).map fun i => s.sigmaInv ((i : Int) - 50), 50⟩

theorem store_holds {s : GMap K} (hs : Reach s) (hn : s.nEdges ≤ 51) : Holds (store s) s := by
  obtain ⟨-, a, -, ha, -⟩ := map_storage hs
  have ho := reach_outside hs
  have key : ∀ (g : Int → Int) (i : Int), i.natAbs ≤ 50 → ((List.range 101).map fun (i : Nat) => g ((i : Int) - 50))[(((50 : Nat) : Int) + i).toNat]? = some (g i) := by
    intro g i hi
    rw [List.getElem?_map, List.getElem?_range (by omega)]
    simp only [Option.map_some]
    congr 2; omega
  exact ⟨⟨by simp [store], by simp [store], by simp [store], key _, key _, fun i hi => ho.s i (by simp only [store] at hi; omega),
    fun i hi => ho.i i (by simp only [store] at hi; omega)⟩, ha.bounded, by simpa [store, Fn.of] using hn⟩

end Verif.Sigma
