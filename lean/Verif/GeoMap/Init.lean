import Verif.GeoMap.Embed

/-! # `embedFaces` and `initializeMap` -/

namespace Verif.GeoMap
open Equiv Equiv.Perm Verif.PermLemmas

variable {K : Type} [Field K] [LinearOrder K]

omit [LinearOrder K] in
theorem contourList_spec : ∀ (fs : List Nat) {s : GMap K} {π ψ : Perm Int}, GraphRep s s.darts π → ContoursRep s s.darts ψ → fs.Nodup →
    (∀ f ∈ fs, ∃ F, s.face f = some F ∧ F.area = none) →
    ∃ cs, s.contourList fs = .ok cs ∧ cs.map (·.1) = fs ∧
      ∀ x ∈ cs, x.2.2 = s.faceSum x.1 ∧ ∃ F, s.face x.1 = some F ∧ F.area = none ∧ x.2.1 = { F with area := some x.2.2 } := by
  intro fs
  induction fs with
  | nil => intro s π ψ _ _ _ _; exact ⟨[], rfl, rfl, by simp⟩
  | cons f fs ih =>
    intro s π ψ hg hc hn hF
    rw [List.nodup_cons] at hn
    obtain ⟨F, hF1, hF2⟩ := hF f (by simp)
    obtain ⟨x, t, h1, h2, h3, h4, h5⟩ := faceArea_spec hg hc hF1
    have hx : x = s.faceSum f := by
      rcases h5 with h | ⟨-, h⟩
      · rw [hF2] at h; cases h
      · rw [h, trueArea_eq hg.labels]
    have hdarts : t.darts = s.darts := by obtain ⟨f', e⟩ := h2.eq; rw [e]; rfl
    have hsum : ∀ g, t.faceSum g = s.faceSum g := by
      intro g; obtain ⟨f', e⟩ := h2.eq; rw [e]; rfl
    obtain ⟨cs, k1, k2, k3⟩ := ih (s := t) (π := π) (ψ := ψ) (by rw [hdarts]; exact h2.graphRep hg) (by rw [hdarts]; exact h2.contoursRep hc) hn.2 (by
      intro g hg'
      rw [h4 g (by rintro rfl; exact hn.1 hg')]
      exact hF g (by simp [hg']))
    refine ⟨(f, { F with area := some x }, x) :: cs, ?_, by rw [List.map_cons, k2], ?_⟩
    · unfold GMap.contourList
      simp only [bind, derefFace_of hg.labels hF1, Outcome.bind_ok, h1, k1]
    · intro y hy
      rw [List.mem_cons] at hy
      rcases hy with rfl | hy
      · exact ⟨hx, F, hF1, hF2, rfl⟩
      · obtain ⟨q1, G, q2, q3, q4⟩ := k3 y hy
        rw [hsum] at q1
        have : y.1 ≠ f := by
          intro e
          apply hn.1
          rw [← k2, ← e]; exact List.mem_map_of_mem hy
        rw [h4 _ this] at q2
        exact ⟨q1, G, q2, q3, q4⟩

open Classical in
/-- signed area enclosed by the contour (phi orbit) of a dart -/
noncomputable def GMap.orbitArea (s : GMap K) (d : Int) : K := ∑ x ∈ s.darts.filter (s.phiReach d), s.dartArea x

/-- Outer contours come first and enclose positive area; all other contours are holes.  The infinite
face has only holes. -/
structure ContoursSigned (s : GMap K) : Prop where
  outer : ∀ f F, s.face f = some F → f ≠ 0 → ∃ a rest, F.anchors = a :: rest ∧ 0 < s.orbitArea a ∧ ∀ b ∈ rest, s.orbitArea b ≤ 0
  infinite : ∀ F, s.face 0 = some F → ∀ b ∈ F.anchors, s.orbitArea b ≤ 0

omit [LinearOrder K] in
theorem SameGraph.dartArea {s t : GMap K} (h : SameGraph s t) : t.dartArea = s.dartArea := by
  apply dartArea_congr
  intro l
  have := congrArg (Option.map (fun x : Nat × Nat × List (Pt K) × Nat => x.2.2.1)) (h.edge l)
  simpa [Option.map_map, Function.comp_def] using this

omit [Field K] [LinearOrder K] in
theorem SameGraph.darts {s t : GMap K} (h : SameGraph s t) : t.darts = s.darts := by
  unfold GMap.darts
  rw [h.nEdges]
  congr 1
  funext d
  have := congrArg Option.isSome (h.edge d.natAbs)
  simp only [Option.isSome_map] at this
  rw [this]

omit [Field K] [LinearOrder K] in
theorem SameGraph.phi {s t : GMap K} (h : SameGraph s t) : t.phi = s.phi := GMap.phi_congr h.sigmaInv

omit [Field K] [LinearOrder K] in
theorem SameGraph.startN? {s t : GMap K} (h : SameGraph s t) : t.startN? = s.startN? := by
  funext d
  have := congrArg (Option.map (fun x : Nat × Nat × List (Pt K) × Nat => if 0 < d then x.1 else x.2.1)) (h.edge d.natAbs)
  simp only [Option.map_map, Function.comp_def] at this
  exact this

omit [LinearOrder K] in
theorem SameGraph.orbitArea {s t : GMap K} (h : SameGraph s t) (d : Int) : t.orbitArea d = s.orbitArea d := by
  unfold GMap.orbitArea GMap.phiReach
  rw [h.darts, h.dartArea, h.phi]

/-- `embedFaces` after all contours were collected -/
theorem embedFaces_spec (pick : GMap K → Int → Option Nat) {s : GMap K} {π ψ : Perm Int} (hC : Collect s s.darts π ψ) (hc : ContoursRep s s.darts ψ) :
    ∃ t, s.embedFaces pick = .ok t ∧ GraphRep t s.darts π ∧ ContoursRep t s.darts ψ ∧ SameGraph s t ∧ t.nFaces = s.nFaces ∧
      (BridgesOK t → AreaOK t) ∧ ContoursSigned t := by
  have hg := hC.graph
  obtain ⟨cs, k1, k2, k3⟩ := contourList_spec (List.range' 1 (s.nFaces - 1)) hg hc (List.nodup_range' ..) (by
    intro f hf
    rw [List.mem_range'_1] at hf
    obtain ⟨as, h1, -⟩ := hC.face f (by omega)
    exact ⟨_, h1, rfl⟩)
  obtain ⟨T, hTd⟩ : ∃ T, T = cs.insertionSort (fun x y => GMap.absAreaLess y.2.2 x.2.2 = false) := ⟨_, rfl⟩
  have hperm : T.Perm cs := by rw [hTd]; exact List.perm_insertionSort _ _
  have hmemT : ∀ x ∈ T, x.2.2 = s.faceSum x.1 ∧ ∃ F, s.face x.1 = some F ∧ F.area = none ∧ x.2.1 = { F with area := some x.2.2 } :=
    fun x hx => k3 x (hperm.mem_iff.mp hx)
  have hlab : ∀ g, g ∈ T.map (·.1) ↔ (g ≠ 0 ∧ g < s.nFaces) := by
    intro g
    rw [(hperm.map _).mem_iff, k2, List.mem_range'_1]
    have := hC.pos
    omega
  have hnd : (T.map (·.1)).Nodup := by
    rw [(hperm.map _).nodup_iff, k2]; exact List.nodup_range' ..
  have hT : Todo s.clearFaces T := by
    refine ⟨hnd, fun x hx => ?_, fun x hx => ?_, fun x hx => ?_⟩
    · have := (hlab x.1).mp (List.mem_map_of_mem hx)
      simp only [GMap.clearFaces, if_neg this.1]
    · exact ((hlab x.1).mp (List.mem_map_of_mem hx)).1
    · have hl := (hlab x.1).mp (List.mem_map_of_mem hx)
      obtain ⟨-, F, h1, -, h3⟩ := hmemT x hx
      obtain ⟨as, g1, g2⟩ := hC.face x.1 hl.2
      rw [g1] at h1; cases h1
      rcases g2 with g2 | ⟨-, a, g2⟩
      · exact absurd g2.1 hl.1
      · exact ⟨a, by rw [h3]; exact g2⟩
  have hsum : s.trueArea = s.faceSum := by funext f; exact trueArea_eq hg.labels f
  have hcache : AreasCached s (restore s.clearFaces T) := by
    refine ⟨?_, fun f => ?_⟩
    · obtain ⟨f', e⟩ := restore_frame s.clearFaces T
      exact ⟨f', by rw [e]; rfl⟩
    · by_cases hf : f ∈ T.map (·.1)
      · right
        obtain ⟨x, hx, rfl⟩ := List.mem_map.mp hf
        obtain ⟨h0, F, h1, h2, h3⟩ := hmemT x hx
        exact ⟨F, h1, h2, by rw [restore_mem _ hnd hx, h3, h0, hsum]⟩
      · left
        rw [restore_not_mem _ hf]
        rw [hlab] at hf
        by_cases h0 : f = 0
        · subst h0; rfl
        · simp only [GMap.clearFaces, if_neg h0]
          cases hh : s.face f with
          | none => rfl
          | some F =>
            have := hg.labels.face_lt f (by simp [hh])
            exact absurd ⟨h0, this⟩ hf
  have hA : AreaOK (restore s.clearFaces T) := by
    intro f F a hF ha
    have e : (restore s.clearFaces T).faceSum f = s.faceSum f := by
      obtain ⟨f', e⟩ := hcache.eq; rw [e]; rfl
    rw [e]
    rcases hcache.faces f with h | ⟨G, h1, h2, h3⟩
    · rw [h] at hF
      obtain ⟨as, g1, -⟩ := hC.face f (hg.labels.face_lt f (by simp [hF]))
      rw [g1] at hF; cases hF; cases ha
    · rw [h3] at hF; cases hF
      rw [← hsum]; exact (Option.some.inj ha).symm
  obtain ⟨t, h1, h2, h3, h4, h5, -, h7, h8, h9⟩ := embedLoop_spec pick T hT (hcache.graphRep hg) (hcache.contoursRep hc)
  have hgr : SameGraph s t := (⟨rfl, rfl, rfl, rfl, rfl, rfl, rfl, rfl, fun _ => rfl⟩ : SameGraph s s.clearFaces).trans h4
  -- the orbit area of an anchor is the area of its preliminary face
  have horb : ∀ x ∈ T, ∀ a, x.2.1.anchors = [a] → t.orbitArea a = x.2.2 := by
    intro x hx a ha
    obtain ⟨q0, F, q1, -, q3⟩ := hmemT x hx
    rw [hgr.orbitArea, q0]
    unfold GMap.orbitArea GMap.faceSum
    congr 1
    have hFa : F.anchors = [a] := by rw [q3] at ha; exact ha
    have cl := hc.faces x.1 F q1
    have haL := cl.left a (by simp [hFa])
    ext d
    classical
    rw [Finset.mem_filter, mem_leftDarts hg.labels]
    unfold GMap.phiReach
    constructor
    · rintro ⟨hd, hr⟩
      have := (hc.rep.sameCycle_iff haL.1).mpr hr
      rw [left_of_sameCycle hc.rep hc.lefts haL.1 this]; exact haL.2
    · intro hd
      have hdL := (hg.live d).mpr (liveD_of_left hd)
      obtain ⟨b, hb, hbc⟩ := cl.cover d hdL hd
      rw [hFa, List.mem_singleton] at hb
      subst hb
      exact ⟨hdL, (hc.rep.sameCycle_iff haL.1).mp hbc⟩
  have hholes : ∀ g G, t.face g = some G → ∃ G0 as, (restore s.clearFaces T).face g = some G0 ∧ G.anchors = G0.anchors ++ as ∧ ∀ b ∈ as, t.orbitArea b ≤ 0 := by
    intro g G hG
    obtain ⟨G0, as, q1, q2, q3⟩ := h9 g G hG
    refine ⟨G0, as, q1, q2, fun b hb => ?_⟩
    obtain ⟨x, hx, p1, p2⟩ := q3 b hb
    rw [horb x hx b p1]; exact p2
  refine ⟨t, ?_, h2, h3, hgr, h5, fun hB => h7 hB hA, ?_, ?_⟩
  · unfold GMap.embedFaces
    simp only [bind, k1, Outcome.bind_ok, ← hTd, h1]
  · intro g G hG hg0
    obtain ⟨G0, as, q1, q2, q3⟩ := hholes g G hG
    rcases (h8 g).mp (by simp [hG]) with h | ⟨x, hx, rfl, hpos⟩
    · simp [GMap.clearFaces, hg0] at h
    · rw [restore_mem _ hnd hx] at q1
      cases q1
      obtain ⟨a, ha⟩ := hT.one x hx
      exact ⟨a, as, by rw [q2, ha]; rfl, by rw [horb x hx a ha]; exact hpos, q3⟩
  · intro G hG
    obtain ⟨G0, as, q1, q2, q3⟩ := hholes 0 G hG
    have h0T : 0 ∉ T.map (·.1) := by rw [hlab]; exact fun h => h.1 rfl
    rw [restore_not_mem _ h0T] at q1
    have q1' : s.face 0 = some G0 := q1
    obtain ⟨bs, g1, g2⟩ := hC.face 0 hC.pos
    rw [g1] at q1'; cases q1'
    rcases g2 with ⟨-, g2⟩ | ⟨g2, -⟩
    · intro b hb
      rw [q2] at hb
      have hb' : b ∈ bs ++ as := hb
      rw [g2, List.nil_append] at hb'
      exact q3 b hb'
    · exact absurd rfl g2

/-- no face labels before `initializeMap` -/
def FreshOK (s : GMap K) : Prop := ¬ s.initialized → ∀ d, s.left? d = none

/-- `initializeMap` on a consistent graph: fails only if `sortEdgesDirectly` fails; otherwise the
result is a consistent initialised map on the same graph. -/
theorem initializeMap_spec (pick : GMap K → Int → Option Nat) {s : GMap K} (hM : MapOK s) (hi : ¬ s.initialized) (hf : FreshOK s) :
    (s.initializeMap pick = .precond ∧ s.edgesSorted = false ∧ s.sortEdgesDirectly = .precond) ∨
    ∃ s1 t, ((s.edgesSorted = true ∧ s1 = s) ∨ (s.edgesSorted = false ∧ s.sortEdgesDirectly = .ok s1)) ∧
      s.initializeMap pick = .ok t ∧ MapOK t ∧ t.initialized ∧ SameGraph s1 t ∧ (BridgesOK t → AreaOK t) ∧ ContoursSigned t := by
  obtain ⟨π, hg⟩ := hM.graph.exists_rep
  have main : ∀ {s1 : GMap K} {π : Perm Int}, GraphRep s1 s.darts π → s1.nFaces = 0 → s1.left? = s.left? → s1.darts = s.darts →
      ∃ t, (s1.initContours.bind fun s => s.embedFaces pick) = .ok t ∧ MapOK t ∧ t.initialized ∧ SameGraph s1 t ∧ (BridgesOK t → AreaOK t) ∧ ContoursSigned t := by
    intro s1 π h1 h2 h3 h4
    obtain ⟨ψ, hψ⟩ := h1.rep.exists_phi h1.symm
    have hψ : Rep s.darts s1.phi s1.phiInv ψ := hψ
    obtain ⟨u, g1, g2, g3, g4⟩ := initContours_spec h1 hψ h2 (fun d _ => by rw [h3]; exact hf hi d)
    have hd : u.darts = s.darts := by rw [g4.darts, h4]
    rw [← hd] at g2 g3
    obtain ⟨t, k1, k2, k3, k4, k5, k6, k7⟩ := embedFaces_spec pick g2 g3
    refine ⟨t, by rw [g1]; exact k1, MapOK.of_reps (L := t.darts) (π := π) ?_ (fun _ => ⟨ψ, ?_⟩), ?_, g4.trans k4, k6, k7⟩
    · rw [k4.darts]; exact k2
    · rw [k4.darts]; exact k3
    · show 0 < t.nFaces
      rw [k5]; exact g2.pos
  have hn0 : s.nFaces = 0 := by
    unfold GMap.initialized at hi; omega
  unfold GMap.initializeMap
  rw [if_neg hi]
  unfold GMap.ensureSorted
  by_cases hs : s.edgesSorted = true
  · right
    obtain ⟨t, h1, h2⟩ := main hg hn0 rfl rfl
    refine ⟨s, t, Or.inl ⟨hs, rfl⟩, ?_, h2⟩
    simp only [hs, if_true, bind, Outcome.bind_ok]
    exact h1
  · have hs' : s.edgesSorted = false := by simpa using hs
    rcases sortEdgesDirectly_spec hg hi with ⟨h, -⟩ | ⟨s1, π', h1, h2, ⟨sg, sgi, h3⟩, -⟩
    · left
      refine ⟨?_, hs', h⟩
      simp only [hs', bind, h, Bool.false_eq_true, if_false, Outcome.bind_precond]
    · right
      obtain ⟨t, g1, g2⟩ := main h2 (by rw [h3]; exact hn0) (by rw [h3]; rfl) (by rw [h3]; rfl)
      refine ⟨s1, t, Or.inr ⟨hs', h1⟩, ?_, g2⟩
      simp only [hs', bind, h1, Bool.false_eq_true, if_false, Outcome.bind_ok]
      exact g1

end Verif.GeoMap
