import Verif.Utils.Bridges
import Verif.Utils.Nodes

/-! # Lemmas about `removeEdges` and `mergeFacesCompletely` -/

namespace Verif.GeoMap
open Verif Equiv Equiv.Perm Verif.PermLemmas

variable {K : Type} [Field K] [LinearOrder K]

/-- a callback refused to merge the faces at edge `l` at some moment after state `s` -/
def RefusedFaces (h : Hooks K) (s : GMap K) (l : Nat) : Prop :=
  ∃ u d, Later s u ∧ u.liveD d ∧ d.natAbs = l ∧ h.preMergeFaces u d = false

theorem RefusedFaces.mono {h : Hooks K} {s t : GMap K} {l : Nat} (hl : Later s t) (g : RefusedFaces h t l) : RefusedFaces h s l := by
  obtain ⟨u, d, h1, h2⟩ := g
  exact ⟨u, d, hl.trans h1, h2⟩

/-- the geometry of an edge and its end nodes -/
def SameLine (e e' : Edge K) : Prop :=
  e'.startN = e.startN ∧ e'.endN = e.endN ∧ e'.pts = e.pts ∧ ∀ j, j ≠ 19 → j ≠ 31 → e'.flags.testBit j = e.flags.testBit j

omit [Field K] [LinearOrder K] in
theorem SameLine.refl (e : Edge K) : SameLine e e := ⟨rfl, rfl, rfl, fun _ _ _ => rfl⟩

omit [Field K] [LinearOrder K] in
theorem SameLine.trans {e e' e'' : Edge K} (h : SameLine e e') (g : SameLine e' e'') : SameLine e e'' :=
  ⟨g.1.trans h.1, g.2.1.trans h.2.1, g.2.2.1.trans h.2.2.1, fun j h1 h2 => (g.2.2.2 j h1 h2).trans (h.2.2.2 j h1 h2)⟩

/-- From `s` to `t` exactly `k` edges were removed (all of them satisfying `P`); the other edges keep their
geometry, and an edge with the same face on both sides keeps that property. -/
structure Thinned (P : Nat → Prop) (s t : GMap K) (k : Nat) : Prop where
  later : Later s t
  sizes : t.nNodes = s.nNodes ∧ t.nEdges = s.nEdges ∧ t.nFaces = s.nFaces
  edges : ∀ l e', t.edge l = some e' → ∃ e, s.edge l = some e ∧ SameLine e e'
  bridges : ∀ d, t.liveD d → s.left? d = s.left? (-d) → t.left? d = t.left? (-d)
  gone : ∀ l, (s.edge l).isSome = true → t.edge l = none → P l
  count : t.edgeCount + k = s.edgeCount
  faces : t.faceCount ≤ s.faceCount ∧ ∀ f, (t.face f).isSome = true → (s.face f).isSome = true
  nodes : ∀ n nd, t.node n = some nd → ∃ nd', s.node n = some nd' ∧ nd.pos = nd'.pos

theorem Thinned.init {P : Nat → Prop} {s t : GMap K} {k : Nat} (h : Thinned P s t k) (hi : s.initialized) : t.initialized := by
  unfold GMap.initialized at hi ⊢; rw [h.sizes.2.2]; exact hi

theorem Thinned.refl (P : Nat → Prop) (s : GMap K) : Thinned P s s 0 :=
  ⟨.refl s, ⟨rfl, rfl, rfl⟩, fun _ e h => ⟨e, h, SameLine.refl e⟩, fun _ _ h => h, fun l h1 h2 => (by rw [h2] at h1; cases h1), rfl, ⟨le_rfl, fun _ => id⟩,
    fun _ nd h => ⟨nd, h, rfl⟩⟩

theorem Thinned.liveD {P : Nat → Prop} {s t : GMap K} {k : Nat} (h : Thinned P s t k) {d : Int} (hd : t.liveD d) : s.liveD d := by
  obtain ⟨e, he⟩ := liveD_exists hd
  obtain ⟨e', he', -⟩ := h.edges _ _ he
  exact liveD_edge he'

theorem Thinned.trans {P Q : Nat → Prop} {s t u : GMap K} {k j : Nat} (h : Thinned P s t k) (g : Thinned Q t u j)
    (hPQ : ∀ l e, t.edge l = some e → Q l → P l) : Thinned P s u (k + j) where
  later := h.later.trans g.later
  sizes := ⟨g.sizes.1.trans h.sizes.1, g.sizes.2.1.trans h.sizes.2.1, g.sizes.2.2.trans h.sizes.2.2⟩
  edges := fun l e' he' => by
    obtain ⟨e1, h1, h2⟩ := g.edges l e' he'
    obtain ⟨e, h3, h4⟩ := h.edges l e1 h1
    exact ⟨e, h3, h4.trans h2⟩
  bridges := fun d hd hb => g.bridges d hd (h.bridges d (g.liveD hd) hb)
  gone := fun l h1 h2 => by
    cases he : t.edge l with
    | none => exact h.gone l h1 he
    | some e => exact hPQ l e he (g.gone l (by simp [he]) h2)
  count := by rw [← h.count, ← g.count]; omega
  faces := ⟨g.faces.1.trans h.faces.1, fun f hf => h.faces.2 f (g.faces.2 f hf)⟩
  nodes := fun n nd hn => by
    obtain ⟨n1, h1, h2⟩ := g.nodes n nd hn
    obtain ⟨n2, h3, h4⟩ := h.nodes n n1 h1
    exact ⟨n2, h3, h2.trans h4⟩

theorem Thinned.weaken {P Q : Nat → Prop} {s t : GMap K} {k : Nat} (h : Thinned P s t k) (hPQ : ∀ l, (s.edge l).isSome = true → P l → Q l) :
    Thinned Q s t k :=
  { h with gone := fun l h1 h2 => hPQ l h1 (h.gone l h1 h2) }

omit [Field K] [LinearOrder K] in
theorem face_some_of_map {s t : GMap K} {A : Type} {F : Face K → A} {f : Nat} (h : (t.face f).map F = (s.face f).map F) (hf : (t.face f).isSome = true) :
    (s.face f).isSome = true := by
  obtain ⟨x, hx⟩ := Option.isSome_iff_exists.mp hf
  rw [hx] at h
  cases hs : s.face f with
  | none => rw [hs] at h; cases h
  | some _ => rfl

theorem Removed.thinned {i : Nat} (hi : i = 19 ∨ i = 31) {P : Nat → Prop} {s t : GMap K} {k : Nat} (h : Removed i P s t k) : Thinned P s t k where
  later := h.later
  sizes := h.sizes
  edges := fun l e' he' => by
    obtain ⟨e, h1, h2⟩ := h.edges l e' he'
    exact ⟨e, h1, h2.1, h2.2.1, h2.2.2.2.2.1, fun j h3 h4 => h2.2.2.2.2.2 j (by omega)⟩
  bridges := fun d hd hb => by
    have hm : t.liveD (-d) := by unfold GMap.liveD at hd ⊢; simpa using hd
    rw [(h.left hd).1, (h.left hm).1]; exact hb
  gone := h.gone
  count := h.count
  faces := ⟨h.faceCount.le, fun f hf => face_some_of_map (h.faces f) hf⟩
  nodes := h.nodes

theorem Thinned.ofMerge {P : Nat → Prop} {s t : GMap K} {d : Int} {sl ml : Nat} (hl : Later s t) (h : MergeFacesEffect s t d sl ml) (hP : P d.natAbs) :
    Thinned P s t 1 where
  later := hl
  sizes := h.sizes
  edges := fun l e' he' => by
    have hne : l ≠ d.natAbs := by
      rintro rfl
      exact h.edge_gone.2 (by unfold GMap.liveD; simp [he'])
    have := h.edges l hne
    rw [he'] at this
    cases hs : s.edge l with
    | none => rw [hs] at this; cases this
    | some e =>
      rw [hs] at this
      simp only [Option.map_some, Option.some.injEq, Prod.mk.injEq] at this
      exact ⟨e, rfl, this.1, this.2.1, this.2.2.1, fun j _ _ => by rw [this.2.2.2]⟩
  bridges := fun x hx hb => by
    have hm : t.liveD (-x) := by unfold GMap.liveD at hx ⊢; simpa using hx
    rw [h.lefts x hx, h.lefts _ hm, hb]
  gone := fun l h1 h2 => by
    by_cases hne : l = d.natAbs
    · rw [hne]; exact hP
    · have := h.edges l hne
      rw [h2] at this
      obtain ⟨e, he⟩ := Option.isSome_iff_exists.mp h1
      rw [he] at this; cases this
  count := h.counts.2.2.1
  faces := by
    refine ⟨by have := h.counts.2.2.2; omega, fun f hf => ?_⟩
    by_cases h1 : f = sl
    · obtain ⟨S, M, T, h2, -⟩ := h.areas
      rw [h1, h2]; rfl
    · by_cases h2 : f = ml
      · rw [h2]; exact h.face_gone.1
      · rw [← h.faces f h1 h2]; exact hf
  nodes := fun n nd hn => by
    rcases h.nodes n with g | ⟨g, -⟩
    · rw [hn] at g
      cases hs : s.node n with
      | none => rw [hs] at g; cases g
      | some nd' => rw [hs] at g; exact ⟨nd', rfl, by simpa using g⟩
    · rw [hn] at g; cases g

omit [LinearOrder K] in
theorem AreasCached.face_iff {s t : GMap K} (h : AreasCached s t) (f : Nat) : (t.face f).isSome = true ↔ (s.face f).isSome = true := by
  rcases h.faces f with h1 | ⟨F, h1, -, h2⟩
  · rw [h1]
  · rw [h1, h2]; simp

theorem Thinned.ofAreas {P : Nat → Prop} {s t : GMap K} (hl : Later s t) (h : AreasCached s t) : Thinned P s t 0 := by
  have hf := h.face_iff
  obtain ⟨f, e⟩ := h.eq
  subst e
  exact ⟨hl, ⟨rfl, rfl, rfl⟩, fun _ e h => ⟨e, h, SameLine.refl e⟩, fun _ _ h => h,
    fun l h1 h2 => (by rw [show s.edge l = none from h2] at h1; cases h1), rfl, ⟨le_rfl, fun f => (hf f).mp⟩, fun _ nd h => ⟨nd, h, rfl⟩⟩

theorem edge_pos {s : GMap K} (hs : Reach s) {l : Nat} {e : Edge K} (he : s.edge l = some e) : 0 < l := by
  rcases Nat.eq_zero_or_pos l with rfl | h
  · rw [hs.good.map.graph.edge_zero] at he; cases he
  · exact h

theorem isBridge_iff {s : GMap K} (hs : Reach s) {l : Nat} {e : Edge K} (he : s.edge l = some e) :
    e.leftF = e.rightF ↔ s.left? (l : Int) = s.left? (-(l : Int)) := by
  have := edge_pos hs he
  rw [left?_of (d := (l : Int)) (e := e) (by simpa using he), left?_of (d := -(l : Int)) (e := e) (by simpa using he)]
  unfold Edge.leftOf
  rw [if_pos (by omega), if_neg (by omega)]

/-- a marked edge after the call is marked before, or gets its mark as a member of the list -/
theorem removeEdgesLoop_spec (h : Hooks K) : ∀ (ls : List Nat) {s : GMap K} (_ : Reach s) (_ : s.initialized) (c : Nat) (bs : List Nat) (_ : ls.Nodup)
    (_ : ∀ l ∈ ls, (s.edge l).isSome = true),
    ∃ k t bs', GMap.removeEdgesLoop h ls c bs s = .ok (c + k, bs ++ bs', t) ∧ Thinned (· ∈ ls) s t k ∧ bs'.Nodup ∧ (∀ l ∈ bs', l ∈ ls) ∧
      (∀ l ∈ bs', (t.edge l).isSome = true ∧ t.left? (l : Int) = t.left? (-(l : Int))) ∧
      (∀ l ∈ ls, l ∉ bs' → (t.edge l).isSome = true → RefusedFaces h s l) ∧
      (∀ l e', t.edge l = some e' → ∃ e, s.edge l = some e ∧ e'.flags.testBit 19 = e.flags.testBit 19 ∧ (e'.flags.testBit 31 = true → e.flags.testBit 31 = true ∨ l ∈ bs')) := by
  intro ls
  induction ls with
  | nil =>
    intro s hs hi c bs _ _
    exact ⟨0, s, [], by simp [GMap.removeEdgesLoop], Thinned.refl _ s, by simp, by simp, by simp, by simp, fun l e he => ⟨e, he, rfl, Or.inl⟩⟩
  | cons l ls ih =>
    intro s hs hi c bs hnd hb
    obtain ⟨hnl, hnd'⟩ := List.nodup_cons.mp hnd
    obtain ⟨e, he⟩ := Option.isSome_iff_exists.mp (hb l (by simp))
    have hlt := hs.good.map.graph.edge_lt l (by simp [he])
    unfold GMap.removeEdgesLoop
    rw [if_pos hlt, he]
    dsimp only
    by_cases hbr : e.leftF = e.rightF
    · rw [if_pos hbr]
      rw [removeBridgeFlag_eq]
      have hR := (Removed.ofFlag (i := 31) (P := fun _ => False) he true)
      have hT := hR.thinned (Or.inr rfl)
      have hrt := hT.later.reach hs
      have hel : (s.setEdge l (some (e.setFlag (2 ^ 31) true))).edge l = some (e.setFlag (2 ^ 31) true) := by simp [GMap.setEdge]
      have heo : ∀ m, m ≠ l → (s.setEdge l (some (e.setFlag (2 ^ 31) true))).edge m = s.edge m := by
        intro m hm; simp [GMap.setEdge, hm]
      obtain ⟨k, t, bs', g1, g2, g3, g4, g5, g6, g7⟩ := ih hrt (hT.init hi) c (bs ++ [l]) hnd' (fun m hm => by
        rw [heo m (by rintro rfl; exact hnl hm)]; exact hb m (List.mem_cons_of_mem _ hm))
      have hlt' : (t.edge l).isSome = true := by
        cases ht : t.edge l with
        | some _ => rfl
        | none => exact absurd (g2.gone l (by rw [hel]; rfl) ht) hnl
      have hTt : Thinned (· ∈ l :: ls) s t k := by
        have := hT.trans (P := fun _ => False) (Q := fun _ => False) (u := _) (Thinned.refl _ _) (fun _ _ _ => id)
        have h2 := (hT.weaken (Q := (· ∈ l :: ls)) (fun _ _ hh => hh.elim)).trans g2 (fun m _ _ hm => List.mem_cons_of_mem _ hm)
        rwa [zero_add] at h2
      refine ⟨k, t, l :: bs', ?_, hTt, List.nodup_cons.mpr ⟨fun hh => hnl (g4 l hh), g3⟩, ?_, ?_, ?_, ?_⟩
      · rw [g1]; simp
      · intro m hm
        rcases List.mem_cons.mp hm with rfl | hm
        · simp
        · exact List.mem_cons_of_mem _ (g4 m hm)
      · intro m hm
        rcases List.mem_cons.mp hm with rfl | hm
        · refine ⟨hlt', hTt.bridges _ (by unfold GMap.liveD; simpa using hlt') ((isBridge_iff hs he).mp hbr)⟩
        · exact g5 m hm
      · intro m hm hm' hmt
        rcases List.mem_cons.mp hm with rfl | hm
        · simp at hm'
        · exact (g6 m hm (fun hh => hm' (List.mem_cons_of_mem _ hh)) hmt).mono hT.later
      · intro m e' he'
        obtain ⟨e1, h1, h2, h3⟩ := g7 m e' he'
        by_cases hml : m = l
        · subst hml
          rw [hel] at h1; cases h1
          refine ⟨e, he, ?_, fun _ => Or.inr (by simp)⟩
          rw [h2, setFlag_testBit, if_neg (by decide)]
        · rw [heo m hml] at h1
          refine ⟨e1, h1, h2, fun hh => ?_⟩
          rcases h3 hh with h4 | h4
          · exact Or.inl h4
          · exact Or.inr (List.mem_cons_of_mem _ h4)
    · rw [if_neg hbr]
      have hlv : s.liveD (l : Int) := by unfold GMap.liveD; simp [he]
      have hne : s.left? (l : Int) ≠ s.left? (-(l : Int)) := fun hh => hbr ((isBridge_iff hs he).mpr hh)
      -- common part of the two cases
      have fin : ∀ (u : GMap K) (j : Nat) (r : Option Nat), s.mergeFaces h l = .ok (r, u) → (if r.isSome then 1 else 0) = j → Thinned (· = l) s u j →
          (∀ m, m ≠ l → (u.edge m).map (·.flags) = (s.edge m).map (·.flags)) → ((u.edge l).map (·.flags) = (s.edge l).map (·.flags) ∨ u.edge l = none) →
          ((u.edge l).isSome = true → RefusedFaces h s l) →
          ∃ k t bs', (s.mergeFaces h l >>= fun x => GMap.removeEdgesLoop h ls (if x.1.isSome then c + 1 else c) bs x.2) = .ok (c + k, bs ++ bs', t) ∧ Thinned (· ∈ l :: ls) s t k ∧ bs'.Nodup ∧ (∀ m ∈ bs', m ∈ l :: ls) ∧
            (∀ m ∈ bs', (t.edge m).isSome = true ∧ t.left? (m : Int) = t.left? (-(m : Int))) ∧
            (∀ m ∈ l :: ls, m ∉ bs' → (t.edge m).isSome = true → RefusedFaces h s m) ∧
            (∀ m e', t.edge m = some e' → ∃ e, s.edge m = some e ∧ e'.flags.testBit 19 = e.flags.testBit 19 ∧ (e'.flags.testBit 31 = true → e.flags.testBit 31 = true ∨ m ∈ bs')) := by
        intro u j r hr hj hT hfl hfl' href
        have hru := hT.later.reach hs
        obtain ⟨k, t, bs', g1, g2, g3, g4, g5, g6, g7⟩ := ih hru (hT.init hi) (c + j) bs hnd' (fun m hm => by
          have hm1 := hb m (List.mem_cons_of_mem _ hm)
          cases hu : u.edge m with
          | some _ => rfl
          | none =>
            have : m = l := hT.gone m hm1 hu
            rw [this] at hm; exact absurd hm hnl)
        refine ⟨j + k, t, bs', ?_, ?_, g3, fun m hm => List.mem_cons_of_mem _ (g4 m hm), g5, ?_, ?_⟩
        · simp only [bind, hr, Outcome.bind_ok]
          have : (if r.isSome = true then c + 1 else c) = c + j := by rw [← hj]; split_ifs <;> omega
          rw [this, g1, add_assoc]
        · refine (hT.weaken (Q := (· ∈ l :: ls)) (fun m _ hm => by rw [hm]; simp)).trans g2 (fun m _ _ hm => List.mem_cons_of_mem _ hm)
        · intro m hm hm' hmt
          rcases List.mem_cons.mp hm with rfl | hm
          · refine href ?_
            obtain ⟨e', he'⟩ := Option.isSome_iff_exists.mp hmt
            obtain ⟨e1, h1, -⟩ := g2.edges m e' he'
            simp [h1]
          · exact (g6 m hm hm' hmt).mono hT.later
        · intro m e' he'
          obtain ⟨e1, h1, h2, h3⟩ := g7 m e' he'
          have hfm : (u.edge m).map (·.flags) = (s.edge m).map (·.flags) := by
            by_cases hml : m = l
            · subst hml
              rcases hfl' with h4 | h4
              · exact h4
              · rw [h4] at h1; cases h1
            · exact hfl m hml
          rw [h1] at hfm
          cases hsm : s.edge m with
          | none => rw [hsm] at hfm; cases hfm
          | some e0 =>
            rw [hsm] at hfm
            simp only [Option.map_some, Option.some.injEq] at hfm
            exact ⟨e0, rfl, by rw [h2, hfm], fun hh => by rw [← hfm]; exact h3 hh⟩
      rcases mergeFaces_cases hs hi h hlv hne with ⟨sl, ml, u, e1, hlat, -, hE⟩ | ⟨u, r, e1, hlat, hA, hr, hv⟩
      · refine fin u 1 (some sl) e1 rfl (Thinned.ofMerge hlat hE (by simp)) (fun m hm => ?_) (Or.inr ?_) (fun hh => ?_)
        · have := hE.edges m (by simpa using hm)
          have h2 := congrArg (Option.map fun x => x.2.2.2) this
          simpa [Option.map_map, Function.comp_def] using h2
        · have := hE.edge_gone.2
          unfold GMap.liveD at this
          simpa using this
        · exact absurd (by unfold GMap.liveD; simpa using hh) hE.edge_gone.2
      · have hee : u.edge = s.edge := by obtain ⟨f, e2⟩ := hA.eq; rw [e2]
        refine fin u 0 none e1 rfl (Thinned.ofAreas hlat hA) (fun m _ => by rw [hee]) (Or.inl (by rw [hee])) (fun _ => ?_)
        refine ⟨u, r, hlat, ?_, ?_, hv⟩
        · unfold GMap.liveD
          rw [hee]
          rcases hr with rfl | rfl
          · exact hlv
          · simpa [GMap.liveD] using hlv
        · rcases hr with rfl | rfl <;> simp

end Verif.GeoMap
