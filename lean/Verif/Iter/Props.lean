import Verif.Iter.Lemmas
import Verif.GeoMap.Props

/-!
# Properties of the iterators (C03, C41)
-/

namespace Verif.Iter.Props
open Verif Verif.Iter Verif.GeoMap

/-! ## C03: iteration over the cells -/

/-- **C03.** A loop over the cells `0 ... fin - 1` that does not remove any cell visits exactly the existing cells, in increasing
order of labels, and ends. -/
theorem iteration_exact {S : Type} (live : S → Nat → Bool) (body : S → Nat → S) (hbody : ∀ s q k, live (body s q) k = live s k) (fin : Nat) (s : S) :
    ∃ t, forEach live (fun s q => .ok (body s q)) fin s = .ok ((List.range fin).filter (live s), t) := by
  obtain ⟨p, hc, h1, h2, h3, h4⟩ := check_spec (live s) fin (fin + 1) 0 (by omega) (by omega)
  have ht := loop_total (live := live) (body := fun s q => .ok (body s q)) (by simp) fin (fin + 1) p s h2 (by omega)
  have keep : ∀ fuel pos s vis t, loop live (fun s q => .ok (body s q)) fin fuel pos s = .ok (vis, t) → ∀ k, live t k = live s k := by
    intro fuel
    induction fuel with
    | zero => intro pos s vis t h; simp [loop] at h
    | succ fuel ih =>
      intro pos s vis t h k
      unfold loop at h
      obtain ⟨p, _, h⟩ := Outcome.bind_eq_ok.mp h
      split at h
      · simp only [Outcome.ok.injEq, Prod.mk.injEq] at h; rw [h.2]
      · obtain ⟨q, _, h⟩ := Outcome.bind_eq_ok.mp h
        split at h
        · simp at h
        · obtain ⟨s', hs', h⟩ := Outcome.bind_eq_ok.mp h
          simp only [Outcome.ok.injEq] at hs'; subst hs'
          obtain ⟨r, _, h⟩ := Outcome.bind_eq_ok.mp h
          obtain ⟨v, hv, h⟩ := Outcome.bind_eq_ok.mp h
          simp only [Outcome.ok.injEq, Prod.mk.injEq] at h
          rw [← h.2, ih r _ v.1 v.2 hv k, hbody]
  have nop : ∀ fuel pos s, loop live (fun s q => .ok (body s q)) fin fuel pos s ≠ .precond := by
    intro fuel
    induction fuel with
    | zero => intro pos s; simp [loop]
    | succ fuel ih =>
      intro pos s
      have nck : ∀ (s : S) fuel pos, check (live s) fin fuel pos ≠ .precond := by
        intro s fuel
        induction fuel with
        | zero => intro pos; simp [check]
        | succ fuel ih2 =>
          intro pos
          unfold check
          split; · simp
          split; · simp
          split; · simp
          · exact ih2 _
      unfold loop
      simp only [bind]
      cases e1 : check (live s) fin (fin + 1) pos with
      | precond => exact absurd e1 (nck _ _ _)
      | ub => simp
      | hang => simp
      | ok p =>
        simp only [Outcome.bind_ok]
        split; · simp
        cases e2 : check (live s) fin (fin + 1) p with
        | precond => exact absurd e2 (nck _ _ _)
        | ub => simp
        | hang => simp
        | ok q =>
          simp only [Outcome.bind_ok]
          split; · simp
          case isFalse hq =>
            unfold incr
            rw [if_neg hq]
            cases e3 : check (live (body s q)) fin (fin + 1) (q + 1) with
            | precond => exact absurd e3 (nck _ _ _)
            | ub => simp
            | hang => simp
            | ok r =>
              simp only [Outcome.bind_ok]
              cases e4 : loop live (fun s q => .ok (body s q)) fin fuel r (body s q) with
              | precond => exact absurd e4 (ih _ _)
              | ub => simp
              | hang => simp
              | ok v => simp
  cases e : loop live (fun s q => .ok (body s q)) fin (fin + 1) p s with
  | ub => exact absurd e ht.1
  | hang => exact absurd e ht.2
  | precond => exact absurd e (nop _ _ _)
  | ok v =>
    obtain ⟨vis, t⟩ := v
    refine ⟨t, ?_⟩
    unfold forEach
    rw [hc]
    change loop _ _ _ _ _ _ = _
    rw [e]
    obtain ⟨g1, g2, g3, g4⟩ := loop_spec (live := live) (body := fun s q => .ok (body s q))
      (fun s q s' h k hk => by simp only [Outcome.ok.injEq] at h; subst h; rwa [hbody] at hk) fin (fin + 1) p s vis t h2 e
    congr 2
    refine sorted_ext g1 (List.Pairwise.filter _ List.pairwise_lt_range) (fun x => ?_)
    rw [List.mem_filter, List.mem_range]
    constructor
    · intro hx; exact ⟨(g2 x hx).2.1, (g2 x hx).2.2⟩
    · rintro ⟨hx, hl⟩
      refine g3 x ?_ hx (by rw [keep _ _ _ _ _ e]; exact hl)
      by_contra hc
      rw [h3 x (by omega) (by omega)] at hl; simp at hl

/-- **C03, removal during the loop.** If the loop body removes cells (the current one or any others), then the loop still visits cells
in increasing order, never one that did not exist at the beginning, and misses none that exists at the end. -/
theorem iteration_with_removal {S : Type} (live : S → Nat → Bool) (body : S → Nat → Outcome S)
    (hbody : ∀ s q s', body s q = .ok s' → ∀ k, live s' k = true → live s k = true) (fin : Nat) (s t : S) (vis : List Nat)
    (h : forEach live body fin s = .ok (vis, t)) :
    vis.Pairwise (· < ·) ∧ (∀ q ∈ vis, q < fin ∧ live s q = true) ∧ (∀ k, k < fin → live t k = true → k ∈ vis) := by
  obtain ⟨p, hc, h1, h2, h3, h4⟩ := check_spec (live s) fin (fin + 1) 0 (by omega) (by omega)
  unfold forEach at h
  rw [hc] at h
  obtain ⟨g1, g2, g3, g4⟩ := loop_spec hbody fin (fin + 1) p s vis t h2 h
  refine ⟨g1, fun q hq => ⟨(g2 q hq).2.1, (g2 q hq).2.2⟩, fun k hk hl => ?_⟩
  refine g3 k ?_ hk hl
  by_contra hcon
  have := g4 k hl
  rw [h3 k (by omega) (by omega)] at this; simp at this

/-- **C03.** ... and it terminates without touching anything outside the range, as long as the body itself does. -/
theorem iteration_safe {S : Type} (live : S → Nat → Bool) (body : S → Nat → Outcome S)
    (hsafe : ∀ s q, live s q = true → body s q ≠ .ub ∧ body s q ≠ .hang) (fin : Nat) (s : S) :
    forEach live body fin s ≠ .ub ∧ forEach live body fin s ≠ .hang := by
  obtain ⟨p, hc, h1, h2, h3, h4⟩ := check_spec (live s) fin (fin + 1) 0 (by omega) (by omega)
  unfold forEach
  rw [hc]
  exact loop_total hsafe fin (fin + 1) p s h2 (by omega)

/-- removing the current and the next cell at each step: cells 1, 2, 5, 6 of 8 exist -/
example : forEach (S := Nat → Bool) (fun s => s) (fun s q => .ok fun k => s k && k != q && k != q + 1) 8
    (fun k => k == 1 || k == 2 || k == 5 || k == 6) = .ok ([1, 5], fun k => (((k == 1 || k == 2 || k == 5 || k == 6) && k != 1 && k != 1 + 1) && k != 5 && k != 5 + 1)) := by
  rfl

/-- **C03, for the map.** In every reachable map, iterating over the nodes, edges, faces visits exactly the existing cells in
increasing order; the number of visited cells is `nodeCount()`, `edgeCount()`, `faceCount()`. -/
theorem map_iteration {K : Type} [Field K] [LinearOrder K] {s : GMap K} (hs : Reach s) :
    (∃ vis, forEach (fun s q => (s.node q).isSome) (fun (s : GMap K) _ => .ok s) s.nNodes s = .ok (vis, s) ∧ vis.Pairwise (· < ·) ∧
      (∀ q, q ∈ vis ↔ (s.node q).isSome = true) ∧ vis.length = s.nodeCount) ∧
    (∃ vis, forEach (fun s q => (s.edge q).isSome) (fun (s : GMap K) _ => .ok s) s.nEdges s = .ok (vis, s) ∧ vis.Pairwise (· < ·) ∧
      (∀ q, q ∈ vis ↔ (s.edge q).isSome = true) ∧ vis.length = s.edgeCount) ∧
    (∃ vis, forEach (fun s q => (s.face q).isSome) (fun (s : GMap K) _ => .ok s) s.nFaces s = .ok (vis, s) ∧ vis.Pairwise (· < ·) ∧
      (∀ q, q ∈ vis ↔ (s.face q).isSome = true) ∧ vis.length = s.faceCount) := by
  have idle : ∀ (live : GMap K → Nat → Bool) fin fuel pos (s : GMap K) vis t,
      loop live (fun s _ => .ok s) fin fuel pos s = .ok (vis, t) → t = s := by
    intro live fin fuel
    induction fuel with
    | zero => intro pos s vis t h; simp [loop] at h
    | succ fuel ih =>
      intro pos s vis t h
      unfold loop at h
      obtain ⟨p, _, h⟩ := Outcome.bind_eq_ok.mp h
      split at h
      · simp only [Outcome.ok.injEq, Prod.mk.injEq] at h; exact h.2.symm
      · obtain ⟨q, _, h⟩ := Outcome.bind_eq_ok.mp h
        split at h
        · simp at h
        · obtain ⟨s', hs', h⟩ := Outcome.bind_eq_ok.mp h
          simp only [Outcome.ok.injEq] at hs'; subst hs'
          obtain ⟨r, _, h⟩ := Outcome.bind_eq_ok.mp h
          obtain ⟨v, hv, h⟩ := Outcome.bind_eq_ok.mp h
          simp only [Outcome.ok.injEq, Prod.mk.injEq] at h
          rw [← h.2, ih r _ v.1 v.2 hv]
  have main : ∀ (live : GMap K → Nat → Bool) fin, (∀ q, live s q = true → q < fin) → ∃ vis, forEach live (fun s _ => .ok s) fin s = .ok (vis, s) ∧ vis.Pairwise (· < ·) ∧
      (∀ q, q ∈ vis ↔ live s q = true) ∧ vis.length = ((Finset.range fin).filter fun q => live s q = true).card := by
    intro live fin hlt
    obtain ⟨t, ht⟩ := iteration_exact live (fun s _ => s) (fun _ _ _ => rfl) fin s
    have hts : t = s := by
      unfold forEach at ht
      obtain ⟨p, _, h⟩ := Outcome.bind_eq_ok.mp ht
      exact idle _ _ _ _ _ _ _ h
    subst hts
    refine ⟨_, ht, List.Pairwise.filter _ List.pairwise_lt_range, fun q => ?_, ?_⟩
    · rw [List.mem_filter, List.mem_range]; exact ⟨fun h => h.2, fun h => ⟨hlt q h, h⟩⟩
    · have hn : ((List.range fin).filter (live t)).Nodup := List.Nodup.filter _ List.nodup_range
      rw [← List.toFinset_card_of_nodup hn]
      congr 1
      ext q; simp
  have hg := hs.good.map.graph
  refine ⟨?_, ?_, ?_⟩
  · rw [hg.node_count]; exact main (fun s q => (s.node q).isSome) _ hg.node_lt
  · rw [hg.edge_count]; exact main (fun s q => (s.edge q).isSome) _ hg.edge_lt
  · rw [hg.face_count]; exact main (fun s q => (s.face q).isSome) _ hg.face_lt

/-- **C03.** `finiteFacesBegin()`: if face 0 exists, the finite faces are those with label at least 1. -/
theorem finite_faces {S : Type} (live : S → Nat → Bool) (body : S → Nat → Outcome S)
    (hbody : ∀ s q s', body s q = .ok s' → ∀ k, live s' k = true → live s k = true) (fin : Nat) (s t : S) (vis : List Nat)
    (h0 : live s 0 = true) (hfin : 0 < fin) (h : forEachFinite live body fin s = .ok (vis, t)) :
    vis.Pairwise (· < ·) ∧ (∀ q ∈ vis, 1 ≤ q ∧ q < fin ∧ live s q = true) ∧ (∀ k, 1 ≤ k → k < fin → live t k = true → k ∈ vis) := by
  unfold forEachFinite at h
  rw [check_live (fuel := fin) hfin h0] at h
  obtain ⟨p0, hp0, h⟩ := Outcome.bind_eq_ok.mp h
  simp only [Outcome.ok.injEq] at hp0; subst hp0
  obtain ⟨q, hq, h⟩ := Outcome.bind_eq_ok.mp h
  unfold incr at hq
  rw [if_neg (by omega)] at hq
  obtain ⟨r, hr, k1, k2, k3, k4⟩ := check_spec (live s) fin (fin + 1) (0 + 1) (by omega) (by omega)
  rw [hr] at hq
  simp only [Outcome.ok.injEq] at hq; subst hq
  obtain ⟨g1, g2, g3, g4⟩ := loop_spec hbody fin (fin + 1) r s vis t k2 h
  refine ⟨g1, fun q hq => ⟨by have := (g2 q hq).1; omega, (g2 q hq).2.1, (g2 q hq).2.2⟩, fun k h1 hk hl => ?_⟩
  refine g3 k ?_ hk hl
  by_contra hcon
  have := g4 k hl
  rw [k3 k (by omega) (by omega)] at this; simp at this

example : forEachFinite (S := Nat → Bool) (fun s => s) (fun s _ => .ok s) 4 (fun k => k != 2) = .ok ([1, 3], fun k => k != 2) := rfl

/-- `finiteFacesBegin()` on a map without faces (before `initializeMap`) increments the end iterator. -/
theorem finite_faces_uninitialized {S : Type} (live : S → Nat → Bool) (body : S → Nat → Outcome S) (s : S) :
    forEachFinite live body 0 s = .ub := rfl

/-! ## C41: scanning a rectangle -/

/-- **C41.** A `LabelScanIterator` over a rectangle of any size (empty and degenerate ones included) visits exactly the positions with the
wanted pixel value, once each, in raster order, and the image iterator is at the same position each time. -/
theorem labelScan_exact (pix : Nat → Nat → Bool) (w h : Int) :
    scanAll pix w h = .ok (((raster w.toNat h.toNat).filter fun c => pix c.1 c.2).map fun c => (c, ((c.1 : Int), (c.2 : Int)))) := by
  unfold scanAll scanInit
  by_cases hwh : 0 < w ∧ 0 < h
  · rw [if_neg (by simpa using hwh)]
    obtain ⟨w, rfl⟩ : ∃ n : Nat, w = n := ⟨w.toNat, by omega⟩
    obtain ⟨h, rfl⟩ : ∃ n : Nat, h = n := ⟨h.toNat, by omega⟩
    simp only [Int.toNat_natCast]
    have hw : 0 < w := by omega
    have hh : 0 < h := by omega
    have hall : (raster w h).filter (fun c => pix c.1 c.2) = rowFrom pix w 0 0 ++ rowsFrom pix w h (0 + 1) := by
      rw [raster_filter, rowsFrom_step pix hh]
    have hlen : ((raster w h).filter (fun c => pix c.1 c.2)).length < w * h + 1 := by
      have := List.length_filter_le (fun c : Nat × Nat => pix c.1 c.2) (raster w h)
      rw [raster_length] at this; omega
    have hinit : ∃ s, (if pix 0 0 = true then Outcome.ok (⟨some (0, 0), (0, 0)⟩ : Scan) else scanNext pix w h h 0 0 (0, 0)) = .ok s ∧
        Ahead s (rowFrom pix w 0 0 ++ rowsFrom pix w h (0 + 1)) := by
      rw [rowFrom_step pix hw]
      by_cases hp : pix 0 0 = true
      · rw [if_pos hp, if_pos hp]
        refine ⟨_, rfl, rfl, ?_⟩
        intro c hc; simp only [Option.some.injEq] at hc; subst hc; rfl
      · rw [if_neg hp, if_neg hp]
        obtain ⟨s, h1, h2⟩ := scanNext_spec pix w h hw h 0 0 hw hh (by omega)
        exact ⟨s, h1, by simpa using h2⟩
    obtain ⟨s, h1, h2⟩ := hinit
    rw [h1]
    change scanLoop _ _ _ _ _ = _
    rw [hall]
    exact scanLoop_spec pix w h (w * h + 1) 0 0 s _ (by omega) hh rfl h2 (hall ▸ hlen)
  · rw [if_pos (by simpa using hwh)]
    have : (raster w.toNat h.toNat) = [] := by
      have := raster_length w.toNat h.toNat
      rw [show w.toNat * h.toNat = 0 by
        rw [Nat.mul_eq_zero]; omega] at this
      exact List.length_eq_zero_iff.mp this
    rw [this]; rfl

example : scanAll (fun x y => x != y) 2 2 = .ok [((1, 0), (1, 0)), ((0, 1), (0, 1))] := by decide +kernel

/-- The specification is the obvious one: the visited positions are the matching ones inside the rectangle, each once. -/
theorem raster_spec (pix : Nat → Nat → Bool) (w h : Nat) :
    (∀ x y, (x, y) ∈ (raster w h).filter (fun c => pix c.1 c.2) ↔ x < w ∧ y < h ∧ pix x y = true) ∧
    ((raster w h).filter fun c => pix c.1 c.2).Pairwise (fun a b => a.2 < b.2 ∨ a.2 = b.2 ∧ a.1 < b.1) := by
  constructor
  · intro x y
    simp only [raster, List.mem_filter, List.mem_flatMap, List.mem_range, List.mem_map, Prod.mk.injEq]
    constructor
    · rintro ⟨⟨y', hy, x', hx, rfl, rfl⟩, hp⟩; exact ⟨hx, hy, hp⟩
    · rintro ⟨hx, hy, hp⟩; exact ⟨⟨y, hy, x, hx, rfl, rfl⟩, hp⟩
  · refine List.Pairwise.filter _ ?_
    unfold raster
    rw [List.pairwise_flatMap]
    constructor
    · intro y _
      rw [List.pairwise_map]
      exact List.pairwise_lt_range.imp fun h => Or.inr ⟨rfl, h⟩
    · refine List.pairwise_lt_range.imp fun h a ha b hb => ?_
      simp only [List.mem_map] at ha hb
      obtain ⟨_, _, rfl⟩ := ha
      obtain ⟨_, _, rfl⟩ := hb
      exact Or.inl h

/-- **C41.** An `ImageFilterIterator` over a nonempty rectangle, or one with `upperLeft == lowerRight`, visits exactly the positions
whose pixel satisfies the predicate, in raster order. -/
theorem imageFilter_exact (pix : Nat → Nat → Bool) (w h : Nat) (hwh : w = 0 ↔ h = 0) :
    filterAll pix w h = .ok ((raster w h).filter fun c => pix c.1 c.2) := by
  unfold filterAll filterInit
  by_cases hw : w = 0
  · have hh := hwh.mp hw
    subst hw; subst hh
    rfl
  · have hh : h ≠ 0 := fun e => hw (hwh.mpr e)
    rw [if_neg (by tauto), if_neg (by tauto)]
    have hall : (raster w h).filter (fun c => pix c.1 c.2) = rowFrom pix w 0 0 ++ rowsFrom pix w h (0 + 1) := by
      rw [raster_filter, rowsFrom_step pix (by omega)]
    have hlen : ((raster w h).filter (fun c => pix c.1 c.2)).length < w * h + 1 := by
      have := List.length_filter_le (fun c : Nat × Nat => pix c.1 c.2) (raster w h)
      rw [raster_length] at this; omega
    have hinit : (if pix 0 0 = true then Outcome.ok (some (0, 0)) else filterNext pix w h h 1 0) =
        .ok (rowFrom pix w 0 0 ++ rowsFrom pix w h (0 + 1)).head? := by
      rw [rowFrom_step pix (by omega)]
      by_cases hp : pix 0 0 = true
      · rw [if_pos hp, if_pos hp]; rfl
      · rw [if_neg hp, if_neg hp, filterNext_spec pix w h h 1 0 (by omega) (by omega) (by omega)]
        simp
    rw [hinit, hall]
    exact filterLoop_spec pix w h (w * h + 1) 0 0 _ (by omega) rfl (hall ▸ hlen)

example : filterAll (fun x y => x != y) 2 2 = .ok [(1, 0), (0, 1)] := by decide +kernel

/-- An empty rectangle that is not recognised as empty: the first pixel is read although there is none. -/
theorem imageFilter_degenerate (pix : Nat → Nat → Bool) (w h : Nat) (hwh : ¬ (w = 0 ↔ h = 0)) : filterAll pix w h = .ub := by
  unfold filterAll filterInit
  rw [if_neg (by tauto), if_pos (by tauto)]; rfl

end Verif.Iter.Props
