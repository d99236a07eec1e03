import Verif.Pickle.Spec
import Verif.GeoMap.AreaOrder

/-!
# `embedFaces` groups the contours as in a given map
-/

namespace Verif.Pickle
open Equiv Equiv.Perm Verif Verif.GeoMap Verif.PermLemmas

variable {K : Type} [Field K] [LinearOrder K]

/-- labels of `s` refine the classes `cls` -/
structure Refines (s : GMap K) (L : Finset Int) (cls : Int → Option Nat) : Prop where
  groups : ∀ d ∈ L, ∀ e ∈ L, ∀ f, s.left? d = some f → s.left? e = some f → cls d = cls e
  infinite : ∀ d ∈ L, s.left? d = some 0 → cls d = some 0

/-- at a stage of the loop, the search returns a face of the right class -/
def PicksClass (pick : GMap K → Int → Option Nat) (L : Finset Int) (cls : Int → Option Nat) (u : GMap K) (a : Int) : Prop :=
  ∀ p, u.parentOf pick a = p → (p = 0 → cls a = some 0) ∧ ∀ d ∈ L, u.left? d = some p → cls d = cls a

theorem embedLoop_groups (pick : GMap K → Int → Option Nat) (L : Finset Int) (cls : Int → Option Nat) (Q : GMap K → List (Nat × Face K × K) → Prop)
    (hQ1 : ∀ x s T, Q s (x :: T) → 0 < x.2.2 → Q (s.setFace x.1 (some x.2.1)) T)
    (ψ : Perm Int) (π : Perm Int)
    (hQ : ∀ (f : Nat) (F : Face K) (x : K) (a : Int) (T : List (Nat × Face K × K)) (s : GMap K), Q s ((f, F, x) :: T) → ¬ 0 < x → F.anchors = [a] →
      Todo s ((f, F, x) :: T) → GraphRep (restore s ((f, F, x) :: T)) L π → ContoursRep (restore s ((f, F, x) :: T)) L ψ → Refines s L cls →
      PicksClass pick L cls s a ∧ ∀ t, s.embedContour (s.parentOf pick a) a = .ok t → Q (t.uninitFace f) T) :
    ∀ (T : List (Nat × Face K × K)) {s t : GMap K}, Todo s T → Q s T → GraphRep (restore s T) L π → ContoursRep (restore s T) L ψ → Refines s L cls →
      GMap.embedLoop pick T s = .ok t → Refines t L cls := by
  intro T
  induction T with
  | nil => intro s t _ _ _ _ hR e; cases e; exact hR
  | cons z T ih =>
    obtain ⟨f, F, x⟩ := z
    intro s t hT hq hg hc hR e
    obtain ⟨a, hFa⟩ : ∃ a, F.anchors = [a] := hT.one (f, F, x) (by simp)
    have hnd := hT.nodup
    rw [List.map_cons, List.nodup_cons] at hnd
    have hunfold : GMap.embedLoop pick ((f, F, x) :: T) s =
        (if 0 < x then GMap.embedLoop pick T (s.setFace f (some F))
         else (s.embedContour (s.parentOf pick a) a).bind fun s => GMap.embedLoop pick T (s.uninitFace f)) := by
      rw [GMap.embedLoop]
      rw [hFa]
      rfl
    rw [hunfold] at e
    by_cases hx : 0 < x
    · rw [if_pos hx] at e
      have hr : restore s ((f, F, x) :: T) = restore (s.setFace f (some F)) T := restore_cons s hnd.1
      have hq' := hQ1 (f, F, x) s T hq hx
      rw [hr] at hg hc
      refine ih ?_ hq' hg hc ?_ e
      · refine ⟨hnd.2, fun y hy => ?_, fun y hy => hT.ne_zero y (by simp [hy]), fun y hy => hT.one y (by simp [hy])⟩
        show Function.update s.face f _ y.1 = _
        rw [Function.update_of_ne]
        · exact hT.none y (by simp [hy])
        · intro e; exact hnd.1 (List.mem_map.mpr ⟨y, hy, e⟩)
      · exact ⟨hR.groups, hR.infinite⟩
    · rw [if_neg hx] at e
      classical
      obtain ⟨hpk, hnext⟩ := hQ f F x a T s hq hx hFa hT hg hc hR
      obtain ⟨p, hp⟩ : ∃ p, p = s.parentOf pick a := ⟨_, rfl⟩
      obtain ⟨hp0, hpc⟩ := hpk p hp.symm
      have h0T : 0 ∉ ((f, F, x) :: T).map (·.1) := by
        intro h
        rw [List.mem_map] at h
        obtain ⟨y, hy, e⟩ := h
        exact hT.ne_zero y hy e
      have h0 : (s.face 0).isSome = true := by
        rw [← restore_not_mem s h0T]; exact hc.face_zero
      obtain ⟨P, hP⟩ : ∃ P, s.face p = some P := by
        rw [← Option.isSome_iff_exists, hp]
        unfold GMap.parentOf
        cases pick s a with
        | none => exact h0
        | some g =>
          simp only
          split_ifs with h
          · exact h
          · exact h0
      rw [← hp] at e hnext
      obtain ⟨t1, P', e1, e2, e3, e4, e5⟩ := embedContour_spec hT.nodup hT.none hg hc hFa hP
      have hq' := hnext t1 e1
      obtain ⟨O, hO⟩ : ∃ O, O = L.filter (SameCycle ψ a) := ⟨_, rfl⟩
      rw [← hO] at e3 e4 e5
      rw [e1] at e
      simp only [Outcome.bind_ok] at e
      have hsf : s.face f = none := hT.none (f, F, x) (by simp)
      have hpf : p ≠ f := by rintro rfl; rw [hsf] at hP; cases hP
      have hf0 : f ≠ 0 := hT.ne_zero (f, F, x) (by simp)
      have huf : (restore s ((f, F, x) :: T)).face f = some F := restore_mem s hT.nodup (x := (f, F, x)) (by simp)
      have hpT : p ∉ ((f, F, x) :: T).map (·.1) := by
        intro h
        rw [List.mem_map] at h
        obtain ⟨y, hy, rfl⟩ := h
        rw [hT.none y hy] at hP; cases hP
      have hup : (restore s ((f, F, x) :: T)).face p = some P := by rw [restore_not_mem s hpT, hP]
      obtain ⟨k1, k2⟩ := embed_consistent hg hc huf hFa hup hpf hf0 e2
      have hlt := fun {y} hy => embed_left (p := p) (P' := P') hg hc huf hFa (x := y) hy
      rw [← hO] at k1 k2 hlt
      obtain ⟨s', hs'⟩ : ∃ s', s' = t1.uninitFace f := ⟨_, rfl⟩
      rw [← hs'] at e3 e4 e hq'
      have hface' : s'.face = Function.update s.face p (some P') := by rw [e4]
      have hsome' : ∀ g, (s'.face g).isSome = (s.face g).isSome := by
        intro g
        rw [hface']
        by_cases e : g = p
        · subst e; simp [hP]
        · rw [Function.update_of_ne e]
      rw [← e3] at k1 k2
      have hT' : Todo s' T := by
        refine ⟨hnd.2, fun y hy => ?_, fun y hy => hT.ne_zero y (by simp [hy]), fun y hy => hT.one y (by simp [hy])⟩
        have := hsome' y.1
        rw [hT.none y (by simp [hy])] at this
        simpa using this
      obtain ⟨fr, hfr⟩ := restore_frame s ((f, F, x) :: T)
      have hleftu : (restore s ((f, F, x) :: T)).left? = s.left? := by rw [hfr]; rfl
      obtain ⟨fr', hfr'⟩ := restore_frame s' T
      have hleft' : (restore s' T).left? = s'.left? := by rw [hfr']; rfl
      have hls' : ∀ y ∈ L, s'.left? y = if s.left? y = some f then some p else s.left? y := by
        intro y hy
        have := hlt hy
        rw [← e3, hleft', hleftu] at this
        exact this
      have clF := hc.faces f F huf
      have haL := clF.left a (by simp [hFa])
      have hcls : ∀ y ∈ L, s.left? y = some f → cls y = cls a := by
        intro y hy hl
        have h2 : s.left? a = some f := by rw [← hleftu]; exact haL.2
        exact hR.groups y hy a haL.1 f hl h2
      refine ih hT' hq' k1 k2 ?_ e
      refine ⟨fun d hd e' he g g1 g2 => ?_, fun d hd h => ?_⟩
      · rw [hls' d hd] at g1
        rw [hls' e' he] at g2
        split_ifs at g1 with a1 <;> split_ifs at g2 with a2
        · rw [hcls d hd a1, hcls e' he a2]
        · cases g1; rw [hcls d hd a1, hpc e' he g2]
        · cases g2; rw [hcls e' he a2, hpc d hd g1]
        · exact hR.groups d hd e' he g g1 g2
      · rw [hls' d hd] at h
        split_ifs at h with a1
        · cases h; rw [hcls d hd a1]; exact hp0 rfl
        · exact hR.infinite d hd h

/-! ## areas of contours -/

open Classical in
theorem orbitArea_eq {s : GMap K} {L : Finset Int} {π ψ : Perm Int} (hg : GraphRep s L π) (hr : GeoMap.Rep L s.phi s.phiInv ψ) {a : Int} (ha : a ∈ L) :
    s.orbitArea a = ∑ x ∈ L.filter (SameCycle ψ a), s.dartArea x := by
  unfold GMap.orbitArea GMap.phiReach
  have hd : s.darts = L := by
    ext d; rw [mem_darts hg.labels.edge_lt, hg.live]
  rw [hd]
  congr 1
  ext d
  rw [Finset.mem_filter, Finset.mem_filter, hr.sameCycle_iff ha]

theorem orbitArea_const {s : GMap K} {L : Finset Int} {π ψ : Perm Int} (hg : GraphRep s L π) (hr : GeoMap.Rep L s.phi s.phiInv ψ) {a b : Int} (ha : a ∈ L)
    (hb : b ∈ L) (h : SameCycle ψ a b) : s.orbitArea a = s.orbitArea b := by
  rw [orbitArea_eq hg hr ha, orbitArea_eq hg hr hb]
  congr 1
  ext d
  simp only [Finset.mem_filter]
  constructor
  · rintro ⟨h1, h2⟩; exact ⟨h1, h.symm.trans h2⟩
  · rintro ⟨h1, h2⟩; exact ⟨h1, h.trans h2⟩

theorem orbitArea_same {s t : GMap K} {L : Finset Int} {π π' ψ : Perm Int} (hg : GraphRep s L π) (hr : GeoMap.Rep L s.phi s.phiInv ψ)
    (hg' : GraphRep t L π') (hr' : GeoMap.Rep L t.phi t.phiInv ψ) (hp : ∀ l, (t.edge l).map (·.pts) = (s.edge l).map (·.pts)) {a : Int} (ha : a ∈ L) :
    t.orbitArea a = s.orbitArea a := by
  rw [orbitArea_eq hg hr ha, orbitArea_eq hg' hr' ha, dartArea_congr hp]

theorem less_of_larger {a d : K} [IsStrictOrderedRing K] (h : |a| + 1 / 100 ≤ |d|) : GMap.absAreaLess d a = true := by
  have h100 : (0 : K) < 1 / 100 := by norm_num
  rw [AreaOrder.less_iff]
  by_cases h1 : d < 0 <;> by_cases h2 : a < 0
  · exact Or.inl ⟨h1, h2, by linarith⟩
  · exact Or.inr (Or.inr (Or.inl ⟨h1, h2, by linarith⟩))
  · exact Or.inr (Or.inr (Or.inr ⟨h1, h2, h⟩))
  · exact Or.inr (Or.inl ⟨h1, h2, by linarith⟩)

/-! ## the embedding of a copy of the graph of `o` -/

section
variable [IsStrictOrderedRing K] {o g : GMap K} {L : Finset Int} {π ψ : Perm Int}

/-- what is kept while embedding: the graph, the order of the contours left, and their areas -/
structure Loop (o g s : GMap K) (T : List (Nat × Face K × K)) : Prop where
  graph : SameGraph g s
  sorted : (T.map (·.2.2)).Pairwise (fun x y => GMap.absAreaLess y x = false)
  area : ∀ x ∈ T, ∀ a, x.2.1.anchors = [a] → x.2.2 = o.orbitArea a

theorem map_proj {e1 e2 : Option (Edge K)} (h : e1.map (fun e => (e.startN, e.endN, e.pts)) = e2.map (fun e => (e.startN, e.endN, e.pts))) :
    e1.map (·.pts) = e2.map (·.pts) := by
  have := congrArg (Option.map (fun x : Nat × Nat × List (Pt K) => x.2.2)) h
  simpa [Option.map_map, Function.comp_def] using this

theorem SameGraph.edge3 {s t : GMap K} (h : SameGraph s t) (l : Nat) :
    (t.edge l).map (fun e => (e.startN, e.endN, e.pts)) = (s.edge l).map (fun e => (e.startN, e.endN, e.pts)) := by
  have := congrArg (Option.map (fun x : Nat × Nat × List (Pt K) × Nat => (x.1, x.2.1, x.2.2.1))) (h.edge l)
  simpa [Option.map_map, Function.comp_def] using this

theorem stage_of_loop (ho : GraphRep o L π) (hco : ContoursRep o L ψ) (he : ∀ l, (g.edge l).map (fun e => (e.startN, e.endN, e.pts)) = (o.edge l).map (fun e => (e.startN, e.endN, e.pts)))
    (hsg : ∀ d ∈ L, g.sigma d = o.sigma d) {f : Nat} {F : Face K} {x : K} {a : Int} {T : List (Nat × Face K × K)} {s : GMap K} (hq : Loop o g s ((f, F, x) :: T))
    (hFa : F.anchors = [a]) (hT : Todo s ((f, F, x) :: T)) (hg : GraphRep (restore s ((f, F, x) :: T)) L π) (hc : ContoursRep (restore s ((f, F, x) :: T)) L ψ)
    (hR : Refines s L o.left?) : Stage o s a := by
  obtain ⟨fr, hfr⟩ := restore_frame s ((f, F, x) :: T)
  have hleftu : (restore s ((f, F, x) :: T)).left? = s.left? := by rw [hfr]; rfl
  have hmem : ∀ d k, s.left? d = some k → d ∈ L := fun d k h => by
    rw [← hleftu] at h
    exact (hg.live d).mpr (liveD_of_left h)
  refine ⟨fun l => by rw [SameGraph.edge3 hq.graph l, he], fun d hd => ?_, fun d hd => ?_, fun d e k h1 h2 => hR.groups d (hmem d k h1) e (hmem e k h2) k h1 h2,
    fun d h => hR.infinite d (hmem d 0 h) h, fun d hd hl => ?_⟩
  · have hdL := (ho.live d).mpr hd
    show s.sigma d = o.sigma d
    rw [hq.graph.sigma, hsg d hdL]
  · have hdL := (ho.live d).mpr hd
    obtain ⟨k, k1, -, k2⟩ := hc.lefts d hdL
    rw [hleftu] at k1 k2
    rw [hco.rep.eq d hdL, k1, k2]
  · have hdL := (ho.live d).mpr hd
    obtain ⟨k, k1, k2, -⟩ := hc.lefts d hdL
    rw [hleftu] at k1
    refine ⟨k, k1, ?_⟩
    by_contra hk
    have hkT : k ∈ ((f, F, x) :: T).map (·.1) := by
      by_contra hkT
      rw [restore_not_mem s hkT] at k2
      exact hk k2
    obtain ⟨y, hy, hyk⟩ := List.mem_map.mp hkT
    obtain ⟨b, hb⟩ := hT.one y hy
    have hyf := restore_mem s hT.nodup hy
    have cl := hc.faces y.1 y.2.1 hyf
    obtain ⟨b', hb', hbd⟩ := cl.cover d hdL (by rw [hleftu, k1, hyk])
    rw [hb, List.mem_singleton] at hb'
    subst hb'
    have hbL := (cl.left b' (by simp [hb])).1
    have harea := hq.area y hy b' hb
    rw [orbitArea_const ho hco.rep hbL hdL hbd] at harea
    have hx := hq.area (f, F, x) (by simp) a hFa
    simp only at hx
    have hless := less_of_larger hl
    rw [← hx, ← harea] at hless
    rcases List.mem_cons.mp hy with rfl | hy
    · exact absurd hless (by simpa using AreaOrder.absAreaLess_strictWeak.irrefl x)
    · have hs := hq.sorted
      rw [List.map_cons, List.pairwise_cons] at hs
      have := hs.1 y.2.2 (List.mem_map_of_mem hy)
      simp only at this
      rw [hless] at this
      cases this

theorem picks_of_finds {pick : GMap K → Int → Option Nat} (ho : GraphRep o L π) (hco : ContoursRep o L ψ) (hreg : Regions o) (hfind : Finds o pick) {s : GMap K} {a : Int} (haL : a ∈ L)
    (hneg : ¬ 0 < o.orbitArea a) (hst : Stage o s a) (hface0 : (s.face 0).isSome = true) : PicksClass pick L o.left? s a := by
  have h100 : (0 : K) < 1 / 100 := by norm_num
  have hal := (ho.live a).mp haL
  obtain ⟨hf1, hf2⟩ := hfind s a hal (not_lt.mp hneg) hst
  obtain ⟨f, k1, k2, -⟩ := hco.lefts a haL
  rintro p rfl
  by_cases h0 : f = 0
  · subst h0
    have hp : s.parentOf pick a = 0 := by
      unfold GMap.parentOf
      cases hpk : pick s a with
      | none => rfl
      | some g =>
        simp only
        split_ifs with h
        · by_contra hg0
          rw [hf1 k1 g hpk hg0] at h
          cases h
        · rfl
    rw [hp]
    exact ⟨fun _ => k1, fun d hd h => by rw [hst.infinite d h, k1]⟩
  · obtain ⟨F, hF⟩ := Option.isSome_iff_exists.mp k2
    obtain ⟨b, hb, hb0, hbs⟩ := hreg.outer f F hF h0
    have cl := hco.faces f F hF
    obtain ⟨hbL, hbf⟩ := cl.left b hb
    -- the contour of `a` is another contour of the face
    obtain ⟨c, hc, hca⟩ := cl.cover a haL k1
    have hcL := (cl.left c hc).1
    have hac := orbitArea_const ho hco.rep hcL haL hca
    have hcb : c ≠ b := by
      rintro rfl
      rw [hac] at hb0; exact hneg hb0
    have hsep := (hbs c hc hcb).2
    rw [hac] at hsep
    obtain ⟨g, g1, g2⟩ := hst.larger b ((ho.live b).mp hbL) (by rw [abs_of_pos hb0]; exact hsep)
    have hpk := hf2 b f g h0 k1 hbf hb0 g1 g2
    have hp : s.parentOf pick a = g := by
      unfold GMap.parentOf
      rw [hpk]
      simp only [g2, if_true]
    rw [hp]
    refine ⟨fun hg0 => ?_, fun d hd h => ?_⟩
    · rw [hg0] at g1
      rw [hst.infinite b g1] at hbf
      exact absurd (Option.some.inj hbf).symm h0
    · rw [hst.groups d b g h g1, hbf, k1]

end

end Verif.Pickle
