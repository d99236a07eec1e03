import Verif.FaceStats.Props

/-!
# How many samples a small face gets (C44)

`ensureMinSampleCount` (facestatistics.hxx:533-579): one grid after the other, each finer than the one before, until there are enough samples.
-/

set_option linter.unusedSectionVars false

namespace Verif.FaceStats
open Verif Verif.GeoMap Verif.LabelImage

variable {K V : Type} [Field K] [LinearOrder K] [IsStrictOrderedRing K] [FloorRing K]

/-- the samples of the grids 1 to `k` -/
def rounds (grid : Nat → List V) (k : Nat) : Multiset V := ((List.range' 1 k).flatMap grid : List V)

theorem rounds_succ (grid : Nat → List V) (k : Nat) : rounds grid (k + 1) = rounds grid k + (grid (k + 1) : Multiset V) := by
  unfold rounds
  rw [List.range'_concat, List.flatMap_append]
  simp [Nat.add_comm]

theorem sampleLoop_spec (grid : Nat → List V) (c : Nat) (b : Multiset V) : ∀ left s : Nat, (∀ j ≤ s, (b + rounds grid j).card < c) →
    ∃ k, s ≤ k ∧ k ≤ s + left ∧ (sampleLoop grid c left s (b + rounds grid s)).2 = b + rounds grid k ∧ (∀ j < k, (b + rounds grid j).card < c) ∧
      ((c ≤ (b + rounds grid k).card ∧ (sampleLoop grid c left s (b + rounds grid s)).1 = k) ∨
        ((b + rounds grid k).card < c ∧ k = s + left ∧ (sampleLoop grid c left s (b + rounds grid s)).1 = k + 1))
  | 0, s, hs => ⟨s, le_rfl, le_rfl, rfl, fun j hj => hs j hj.le, Or.inr ⟨hs s le_rfl, rfl, rfl⟩⟩
  | left + 1, s, hs => by
    have e : b + rounds grid s + (grid (s + 1) : Multiset V) = b + rounds grid (s + 1) := by rw [rounds_succ, add_assoc]
    unfold sampleLoop
    simp only [e]
    by_cases hc : (b + rounds grid (s + 1)).card < c
    · rw [if_pos hc]
      obtain ⟨k, h1, h2, h3, h4, h5⟩ := sampleLoop_spec grid c b left (s + 1) (fun j hj => by
        rcases Nat.lt_or_ge j (s + 1) with h | h
        · exact hs j (by omega)
        · obtain rfl : j = s + 1 := by omega
          exact hc)
      refine ⟨k, by omega, by omega, h3, h4, h5.imp_right fun h => ⟨h.1, by omega, h.2.2⟩⟩
    · rw [if_neg hc]
      exact ⟨s + 1, by omega, by omega, rfl, fun j hj => hs j (by omega), Or.inl ⟨by omega, rfl⟩⟩

theorem ensure_other (g : GMap K) (grid : Nat → Nat → List V) (c : Nat) {f : Nat} : ∀ {fs : List Nat} {fn : Nat → Option (Multiset V)}
    {t : Nat → Nat} {n : Nat}, f ∉ fs → (ensure g grid c fs (fn, t, n)).1 f = fn f ∧ (ensure g grid c fs (fn, t, n)).2.1 f = t f
  | [], _, _, _, _ => ⟨rfl, rfl⟩
  | x :: fs, fn, t, n, h => by
    have h1 : f ≠ x := fun e => h (by rw [e]; exact List.mem_cons_self)
    have h2 : f ∉ fs := fun e => h (List.mem_cons_of_mem _ e)
    unfold ensure
    split
    · rename_i F a _ _
      split_ifs
      · obtain ⟨q1, q2⟩ := ensure_other g grid c (fs := fs) (fn := Function.update fn x (some (sampleLoop (grid x) c 16 0 a).2))
          (t := Function.update t x (sampleLoop (grid x) c 16 0 a).1) (n := n + 1) h2
        rw [Function.update_of_ne h1] at q1 q2
        exact ⟨q1, q2⟩
      · exact ensure_other g grid c h2
    · exact ensure_other g grid c h2

theorem ensure_face (g : GMap K) (grid : Nat → Nat → List V) (c : Nat) {f : Nat} {a : Multiset V} (hF : (g.face f).isSome = true) :
    ∀ {fs : List Nat} {fn : Nat → Option (Multiset V)} {t : Nat → Nat} {n : Nat}, f ∈ fs → fs.Nodup → fn f = some a →
    (ensure g grid c fs (fn, t, n)).1 f = some (if a.card < c then (sampleLoop (grid f) c 16 0 a).2 else a) ∧
    (ensure g grid c fs (fn, t, n)).2.1 f = if a.card < c then (sampleLoop (grid f) c 16 0 a).1 else t f
  | x :: fs, fn, t, n, h, hnd, ha => by
    obtain ⟨hx, hnd⟩ := List.nodup_cons.1 hnd
    obtain ⟨F, hF'⟩ := Option.isSome_iff_exists.1 hF
    by_cases e : f = x
    · subst e
      unfold ensure
      simp only [hF', ha]
      by_cases hc : a.card < c
      · simp only [if_pos hc]
        obtain ⟨q1, q2⟩ := ensure_other g grid c (fs := fs) (fn := Function.update fn f (some (sampleLoop (grid f) c 16 0 a).2))
          (t := Function.update t f (sampleLoop (grid f) c 16 0 a).1) (n := n + 1) hx
        rw [Function.update_self] at q1 q2
        exact ⟨q1, q2⟩
      · simp only [if_neg hc]
        obtain ⟨q1, q2⟩ := ensure_other g grid c (fn := fn) (t := t) (n := n) hx
        exact ⟨q1.trans ha, q2⟩
    · have hf : f ∈ fs := (List.mem_cons.1 h).resolve_left e
      unfold ensure
      split
      · rename_i F' b _ _
        by_cases hb : b.card < c
        · rw [if_pos hb]
          obtain ⟨q1, q2⟩ := ensure_face g grid c hF (fn := Function.update fn x (some (sampleLoop (grid x) c 16 0 b).2))
            (t := Function.update t x (sampleLoop (grid x) c 16 0 b).1) (n := n + 1) hf hnd (by rw [Function.update_of_ne e]; exact ha)
          rw [Function.update_of_ne e] at q2
          exact ⟨q1, q2⟩
        · rw [if_neg hb]
          exact ensure_face g grid c hF (t := t) (n := n) hf hnd ha
      · exact ensure_face g grid c hF (t := t) (n := n) hf hnd ha

/-- The mark of a face, 0 if there are no marks. -/
def Stats.mark (st : Stats V) (f : Nat) : Nat :=
  match st.ss with
  | none => 0
  | some t => t f

/-- C44: new statistics with minimum `c`, for every finite face.  A face with `c` pixels or more has the values of its pixels and no mark.
Every other face is marked: it gets the samples of the first `k` grids, `k` being the first number of grids that is enough, and the mark `k`;
or, if 16 grids are not enough, the samples of all 16 and the mark 17. -/
theorem construct_samples (env : Env K V) (grid : Nat → Nat → List V) {c : Nat} (hc : c ≠ 0) {m : LMap K} (hm : LReach m) {st : Stats V}
    (h : construct env grid c m = .ok st) {f : Nat} (h0 : f ≠ 0) (hf : (m.g.face f).isSome = true) :
    let b := faceValues env.orig m f
    (c ≤ b.card ∧ st.fn f = some b ∧ st.mark f = 0) ∨
    (b.card < c ∧ ∃ k, 1 ≤ k ∧ k ≤ 16 ∧ st.fn f = some (b + rounds (grid f) k) ∧ (∀ j < k, (b + rounds (grid f) j).card < c) ∧
      ((c ≤ (b + rounds (grid f) k).card ∧ st.mark f = k) ∨ ((b + rounds (grid f) k).card < c ∧ k = 16 ∧ st.mark f = 17))) := by
  intro b
  obtain ⟨fn, h1, h2⟩ := inspect_spec (env := env) hm (l := LMap.allPixels m.w m.h) (fun p hp => (mem_allPixels).mp hp)
    (fn := fun f => (m.g.face f).map fun _ => (0 : Multiset V)) (fun f => by simp)
  have hv : fn f = some b := by
    obtain ⟨F, hF⟩ := Option.isSome_iff_exists.mp hf
    have hr := rescan_values (env := ⟨env.orig, fun _ _ _ => true⟩) (fun _ _ _ _ _ => rfl) hm f
    rw [h2, hF]
    simp only [Option.map_some, zero_add, Option.some.injEq]
    show _ = faceValues env.orig m f
    rw [← hr]
    unfold rescan
    simp
  obtain ⟨st', e', hI, -⟩ := construct_inv env grid c hm
  rw [h] at e'; cases e'
  have hlt := face_lt hm hf
  have hmem : f ∈ List.range' 1 (m.g.nFaces - 1) := by rw [List.mem_range'_1]; omega
  obtain ⟨q1, q2⟩ := ensure_face m.g grid c hf (t := fun _ => 0) (n := 0) hmem (List.nodup_range' (h := by omega)) hv
  unfold construct at h
  simp only [h1, bind, Outcome.bind_ok] at h
  rw [if_neg hc] at h
  have h := Outcome.ok.inj h
  have e1 : st.fn f = (ensure m.g grid c (List.range' 1 (m.g.nFaces - 1)) (fn, fun _ => 0, 0)).1 f := by rw [← h]
  have e2 : st.mark f = (ensure m.g grid c (List.range' 1 (m.g.nFaces - 1)) (fn, fun _ => 0, 0)).2.1 f := by
    have hq := (ensure_spec hm grid c env.orig (fs := List.range' 1 (m.g.nFaces - 1)) (List.nodup_range' (h := by omega)) (fn := fn)
      (t := fun _ => 0) (n := 0) (fun _ _ => rfl) (fun f => by rw [h2]; simp) (by unfold markCount; simp) (fun f hf _ => by
        obtain ⟨F, hF⟩ := Option.isSome_iff_exists.mp hf
        have hr := rescan_values (env := ⟨env.orig, fun _ _ _ => true⟩) (fun _ _ _ _ _ => rfl) hm f
        rw [h2, hF]
        simp only [Option.map_some, zero_add, Option.some.injEq]
        rw [← hr]
        unfold rescan
        simp)).2.1
    rw [← h]
    unfold Stats.mark
    by_cases hz : (ensure m.g grid c (List.range' 1 (m.g.nFaces - 1)) (fn, fun _ => 0, 0)).2.2 = 0
    · simp only [if_pos hz]
      by_contra hne
      have := markCount_pos hf (face_lt hm hf) (Ne.symm hne)
      omega
    · simp only [if_neg hz]
  rw [q1] at e1
  rw [q2] at e2
  by_cases hb : b.card < c
  · right
    rw [if_pos hb] at e1 e2
    have hz : b + rounds (grid f) 0 = b := by simp [rounds]
    obtain ⟨k, k1, k2, k3, k4, k5⟩ := sampleLoop_spec (grid f) c b 16 0 (fun j hj => by
      obtain rfl : j = 0 := by omega
      rw [hz]; exact hb)
    rw [hz] at k3 k5
    have hk : k ≠ 0 := by
      rintro rfl
      rcases k5 with ⟨k5, -⟩ | ⟨-, k5, -⟩
      · rw [hz] at k5; omega
      · omega
    refine ⟨hb, k, by omega, by omega, by rw [e1, k3], k4, ?_⟩
    rcases k5 with ⟨k5, k6⟩ | ⟨k5, k6, k7⟩
    · exact Or.inl ⟨k5, by rw [e2, k6]⟩
    · exact Or.inr ⟨k5, by omega, by rw [e2, k7]; omega⟩
  · left
    rw [if_neg hb] at e1 e2
    exact ⟨by omega, e1, e2⟩

set_option maxRecDepth 100000 in
/-- The hypotheses are met: with minimum 5, face 1 of the example has no pixel and face 3 has four; both are marked, each with one grid of ten points. -/
example : (pst 5).mark 1 = 1 ∧ (pst 5).mark 3 = 1 ∧ ((pst 5).fn 1).map Multiset.card = some 10 ∧ ((pst 5).fn 3).map Multiset.card = some 14 ∧
    (plab1.g.face 1).isSome = true ∧ (plab1.g.face 3).isSome = true := by decide +kernel

end Verif.FaceStats
