import Verif.Midcrack.Lemmas
import Verif.GeoMap.Props2
import Verif.Crack.Props
import Verif.DartPos.Spec

/-! # Midcracks: properties -/

namespace Verif.Midcrack
open Verif Verif.GeoMap

section Main
variable {K : Type} [Field K] [CharZero K]

omit [Field K] [CharZero K] in
theorem dropCaches_topology (s : GMap K) : SameTopology s (dropCaches s) := by
  unfold dropCaches
  split_ifs with h
  · refine ⟨⟨rfl, rfl, rfl⟩, ⟨rfl, rfl, rfl⟩, ⟨rfl, rfl, rfl⟩, fun _ => rfl, fun _ => rfl, fun f => ?_⟩
    simp only [Option.map_map]
    rfl
  · exact .refl s

/-- `crackEdgesToMidcracks` ends normally for every consistent map and keeps it consistent: cells, darts, faces and flags are the same, the
edges are replaced by the polygons through the midpoints of their segments, nodes stay where they are except those of single loops,
and the ends of all edges are at their nodes. -/
theorem crackEdgesToMidcracks_ok {s : GMap K} (hs : MapOK s) (hG : GeomOK s) (hlong : Long s) : ∃ t, crackEdgesToMidcracks s = .ok t ∧
    SameTopology s t ∧ Midcracked (fun _ => True) s t ∧ MapOK t ∧ GeomOK t ∧ Long t := by
  obtain ⟨u, e, hT, hm, hl⟩ := edgeSteps_ok hs hlong s.nEdges 0 (.refl s) (Midcracked.start s) hlong
  rw [Nat.zero_add] at hm
  have hlt : ∀ l e, s.edge l = some e → l < s.nEdges := fun l e h => hs.graph.edge_lt l (by rw [h]; rfl)
  have hD := dropCaches_topology u
  have hTd := hT.trans hD
  have hedge : (dropCaches u).edge = u.edge := by unfold dropCaches; split_ifs <;> rfl
  have hnode : (dropCaches u).node = u.node := by unfold dropCaches; split_ifs <;> rfl
  have hmid : Midcracked (fun _ => True) s (dropCaches u) := by
    refine ⟨fun l el hle => ?_, fun n nd hn => ?_⟩
    · obtain ⟨e', h1, -, h3, h4⟩ := hm.edge l el hle
      exact ⟨e', by rw [hedge]; exact h1, fun h => absurd trivial h, fun _ => h3 (hlt l el hle), fun _ => h4 (hlt l el hle)⟩
    · obtain ⟨nd', h1, h2, h3⟩ := hm.node n nd hn
      exact ⟨nd', by rw [hnode]; exact h1, fun h => h2 fun l el _ => h l el trivial, fun l el e' _ ho hle hn' hu => h3 l el e' (hlt l el hle) ho hle hn' (by rw [← hedge]; exact hu)⟩
  have hLong : Long (dropCaches u) := fun l e he => hl l e (by rw [← hedge]; exact he)
  refine ⟨dropCaches u, by rw [crackEdgesToMidcracks, List.range_eq_range', e]; rfl, hTd, hmid, hTd.mapOK hs (fun l e he h => by have := hLong l e he; rw [h] at this; simp at this), ?_, hLong⟩
  intro l e' he'
  obtain ⟨e, he, g1, g2, -⟩ := hTd.edge_some he'
  obtain ⟨e2, q1, -, q2, q3⟩ := hmid.edge l e he
  rw [he'] at q1; cases q1
  obtain ⟨k1, k2⟩ := hG l e he
  have hl0 : l ≠ 0 := fun h => by rw [h, hs.graph.edge_zero] at he; cases he
  have hs1 : s.startN? (l : Int) = some e.startN := by
    unfold GMap.startN?
    rw [Int.natAbs_natCast, he, Option.map_some, Edge.startOf, if_pos (by omega)]
  have hs2 : s.startN? (-(l : Int)) = some e.endN := by
    unfold GMap.startN?
    rw [Int.natAbs_neg, Int.natAbs_natCast, he, Option.map_some, Edge.startOf, if_neg (by omega)]
  rw [g1, g2]
  by_cases ho : OnlyLoop s l
  · have hk := q2 trivial ho
    obtain ⟨e1, he1, hloop, -⟩ := id ho
    rw [he] at he1; cases he1
    obtain ⟨nd, hnd⟩ := Option.isSome_iff_exists.1 (hs.graph.start_live _ _ hs1)
    obtain ⟨nd', h1, -, h3⟩ := hmid.node _ nd hnd
    have hh := h3 l e e' trivial ho he rfl he'
    exact ⟨by rw [h1, hh]; rfl, by rw [← hk.closed, ← hloop, h1, hh]; rfl⟩
  · have hk := q3 trivial ho
    -- the end nodes do not move
    have stay : ∀ (d : Int) (n : Nat), d.natAbs = l → s.startN? d = some n → ((dropCaches u).node n).map (·.pos) = (s.node n).map (·.pos) := by
      intro d n hd hn
      obtain ⟨nd, hnd⟩ := Option.isSome_iff_exists.1 (hs.graph.start_live _ _ hn)
      obtain ⟨nd', h1, h2, -⟩ := hmid.node _ nd hnd
      rw [h1, hnd, Option.map_some, Option.map_some, h2]
      rintro l2 e2 - ho2 he2 rfl
      obtain ⟨e3, he3, -, honly⟩ := id ho2
      rw [he2] at he3; cases he3
      have := honly d hn
      rw [hd] at this
      exact ho (this ▸ ho2)
    exact ⟨by rw [hk.head, k1, stay l _ (by omega) hs1], by rw [hk.last, k2, stay (-(l : Int)) _ (by omega) hs2]⟩

/-- After `crackEdgesToMidcracks` no face uses an area computed before: `area()` is the area of the new contours. -/
theorem crackEdgesToMidcracks_area {s t : GMap K} (hs : MapOK s) (hG : GeomOK s) (hlong : Long s) (e : crackEdgesToMidcracks s = .ok t) {f : Nat} (hf : (s.face f).isSome = true) :
    ∃ t', t.faceArea (some f) = .ok (t.faceSum f, t') := by
  obtain ⟨t', e', hT, -, hM, -, -⟩ := crackEdgesToMidcracks_ok hs hG hlong
  rw [e] at e'; cases e'
  have hi : t.initialized := by
    rw [hT.initialized]
    have := hs.graph.face_lt f hf
    unfold GMap.initialized; omega
  have hA : AreaOK t := by
    intro g F a hF ha
    exfalso
    unfold crackEdgesToMidcracks at e
    cases h : edgeSteps (List.range s.nEdges) s with
    | ok u =>
      rw [h] at e
      cases e
      have hiu : u.initialized := by
        have := (dropCaches_topology u).initialized
        exact this.1 hi
      unfold dropCaches at hF
      rw [if_pos hiu] at hF
      simp only [Option.map_eq_some_iff] at hF
      obtain ⟨F', -, rfl⟩ := hF
      cases ha
    | precond => rw [h] at e; cases e
    | ub => rw [h] at e; cases e
    | hang => rw [h] at e; cases e
  obtain ⟨t', h, -⟩ := faceArea_value hM hA (f := f) (by rw [map_isSome (hT.face f)]; exact hf)
  exact ⟨t', h⟩

end Main

end Verif.Midcrack
