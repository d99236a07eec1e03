import Verif.Pickle.Groups

/-!
# `initializeMap` on a copy of the graph of a map gives faces with the same contours
-/

namespace Verif.Pickle
open Equiv Equiv.Perm Verif Verif.GeoMap Verif.PermLemmas

variable {K : Type} [Field K] [LinearOrder K] [IsStrictOrderedRing K]

/-- the faces of `t` have the same contours as those of `o`, under other labels -/
structure SameFaces (o t : GMap K) (L : Finset Int) : Prop where
  same : ∀ d ∈ L, ∀ e ∈ L, t.left? d = t.left? e ↔ o.left? d = o.left? e
  zero : ∀ d ∈ L, t.left? d = some 0 ↔ o.left? d = some 0

theorem embedFaces_groups {pick : GMap K → Int → Option Nat} {o g s : GMap K} {π ψ : Perm Int}
    (ho : GraphRep o s.darts π) (hco : ContoursRep o s.darts ψ) (hreg : Regions o) (hfind : Finds o pick)
    (he : ∀ l, (g.edge l).map (fun e => (e.startN, e.endN, e.pts)) = (o.edge l).map (fun e => (e.startN, e.endN, e.pts)))
    (hsg : ∀ d ∈ s.darts, g.sigma d = o.sigma d) (hgs : SameGraph g s)
    (hC : Collect s s.darts π ψ) (hc : ContoursRep s s.darts ψ) {t : GMap K} (ht : s.embedFaces pick = .ok t) : Refines t s.darts o.left? := by
  have hg := hC.graph
  obtain ⟨cs, k1, k2, k3⟩ := contourList_spec (List.range' 1 (s.nFaces - 1)) hg hc (List.nodup_range' ..) (by
    intro f hf
    rw [List.mem_range'_1] at hf
    obtain ⟨as, h1, -⟩ := hC.face f (by omega)
    exact ⟨_, h1, rfl⟩)
  obtain ⟨T, hTd⟩ : ∃ T, T = cs.insertionSort (fun x y => GMap.absAreaLess y.2.2 x.2.2 = false) := ⟨_, rfl⟩
  have hsort := AreaOrder.embed_sorted cs
  rw [← hTd] at hsort
  have hperm : T.Perm cs := hsort.1
  have hmemT : ∀ x ∈ T, x.2.2 = s.faceSum x.1 ∧ ∃ F, s.face x.1 = some F ∧ F.area = none ∧ x.2.1 = { F with area := some x.2.2 } :=
    fun x hx => k3 x (hperm.mem_iff.mp hx)
  have hlab : ∀ g, g ∈ T.map (·.1) ↔ (g ≠ 0 ∧ g < s.nFaces) := by
    intro g
    rw [(hperm.map _).mem_iff, k2, List.mem_range'_1]
    have := hC.pos
    omega
  have hnd : (T.map (·.1)).Nodup := by
    rw [(hperm.map _).nodup_iff, k2]; exact List.nodup_range' ..
  have hT : Todo s.clearFaces T := by
    refine ⟨hnd, fun x hx => ?_, fun x hx => ?_, fun x hx => ?_⟩
    · have := (hlab x.1).mp (List.mem_map_of_mem hx)
      simp only [GMap.clearFaces, if_neg this.1]
    · exact ((hlab x.1).mp (List.mem_map_of_mem hx)).1
    · have hl := (hlab x.1).mp (List.mem_map_of_mem hx)
      obtain ⟨-, F, h1, -, h3⟩ := hmemT x hx
      obtain ⟨as, g1, g2⟩ := hC.face x.1 hl.2
      rw [g1] at h1; cases h1
      rcases g2 with g2 | ⟨-, a, g2⟩
      · exact absurd g2.1 hl.1
      · exact ⟨a, by rw [h3]; exact g2⟩
  have hsum : s.trueArea = s.faceSum := by funext f; exact trueArea_eq hg.labels f
  have hcache : AreasCached s (restore s.clearFaces T) := by
    refine ⟨?_, fun f => ?_⟩
    · obtain ⟨f', e⟩ := restore_frame s.clearFaces T
      exact ⟨f', by rw [e]; rfl⟩
    · by_cases hf : f ∈ T.map (·.1)
      · right
        obtain ⟨x, hx, rfl⟩ := List.mem_map.mp hf
        obtain ⟨h0, F, h1, h2, h3⟩ := hmemT x hx
        exact ⟨F, h1, h2, by rw [restore_mem _ hnd hx, h3, h0, hsum]⟩
      · left
        rw [restore_not_mem _ hf]
        rw [hlab] at hf
        by_cases h0 : f = 0
        · subst h0; rfl
        · simp only [GMap.clearFaces, if_neg h0]
          cases hh : s.face f with
          | none => rfl
          | some F =>
            have := hg.labels.face_lt f (by simp [hh])
            exact absurd ⟨h0, this⟩ hf
  have hpts : ∀ l, (s.edge l).map (·.pts) = (o.edge l).map (·.pts) := fun l => map_proj ((SameGraph.edge3 hgs l).trans (he l))
  have hsc : SameGraph s s.clearFaces := ⟨rfl, rfl, rfl, rfl, rfl, rfl, rfl, rfl, fun _ => rfl⟩
  have hloop : Loop o g s.clearFaces T := by
    refine ⟨hgs.trans hsc, hsort.2, fun x hx a ha => ?_⟩
    obtain ⟨q0, F, q1, -, q3⟩ := hmemT x hx
    have hFa : F.anchors = [a] := by rw [q3] at ha; exact ha
    have cl := hc.faces x.1 F q1
    have haL := cl.left a (by simp [hFa])
    rw [q0, ← orbitArea_same ho hco.rep hg hc.rep hpts haL.1, orbitArea_eq hg hc.rep haL.1]
    unfold GMap.faceSum
    congr 1
    ext d
    classical
    rw [Finset.mem_filter, mem_leftDarts hg.labels]
    constructor
    · intro hd
      have hdL := (hg.live d).mpr (liveD_of_left hd)
      obtain ⟨b, hb, hbc⟩ := cl.cover d hdL hd
      rw [hFa, List.mem_singleton] at hb
      subst hb
      exact ⟨hdL, hbc⟩
    · rintro ⟨hd, hr⟩
      rw [left_of_sameCycle hc.rep hc.lefts haL.1 hr]; exact haL.2
  have hleftc : s.clearFaces.left? = s.left? := rfl
  have href : Refines s.clearFaces s.darts o.left? := by
    refine ⟨fun d hd e he' f h1 h2 => ?_, fun d hd h => ?_⟩
    · rw [hleftc] at h1 h2
      obtain ⟨hf0, hfs⟩ := hC.left d hd f h1
      obtain ⟨F, hF⟩ := Option.isSome_iff_exists.mp hfs
      obtain ⟨as, g1, g2⟩ := hC.face f (hg.labels.face_lt f hfs)
      rw [hF] at g1
      have hFas : F.anchors = as := by cases g1; rfl
      rcases g2 with g2 | ⟨-, a, g2⟩
      · exact absurd g2.1 hf0
      · rw [g2] at hFas
        have cl := hc.faces f F hF
        obtain ⟨b, hb, hbd⟩ := cl.cover d hd h1
        obtain ⟨c, hc', hce⟩ := cl.cover e he' h2
        rw [hFas, List.mem_singleton] at hb hc'
        rw [hb] at hbd
        rw [hc'] at hce
        have hbL := (cl.left a (by simp [hFas])).1
        rw [left_of_sameCycle hco.rep hco.lefts hbL hbd, left_of_sameCycle hco.rep hco.lefts hbL hce]
    · rw [hleftc] at h
      exact absurd rfl (hC.left d hd 0 h).1
  unfold GMap.embedFaces at ht
  simp only [bind, k1, Outcome.bind_ok, ← hTd] at ht
  refine embedLoop_groups pick s.darts o.left? (Loop o g) ?_ ψ π ?_ T hT hloop (hcache.graphRep hg) (hcache.contoursRep hc) href ht
  · intro x u T' hq _
    have hs := hq.sorted
    rw [List.map_cons, List.pairwise_cons] at hs
    exact ⟨hq.graph.trans ⟨rfl, rfl, rfl, rfl, rfl, rfl, rfl, rfl, fun _ => rfl⟩, hs.2, fun y hy => hq.area y (by simp [hy])⟩
  · intro f F x a T' u hq hx hFa hT' hg' hc' hR'
    have hst := stage_of_loop ho hco he hsg hq hFa hT' hg' hc' hR'
    have hxa := hq.area (f, F, x) (by simp) a hFa
    simp only at hxa
    have huf : (restore u ((f, F, x) :: T')).face f = some F := restore_mem u hT'.nodup (x := (f, F, x)) (by simp)
    have haL := ((hc'.faces f F huf).left a (by simp [hFa])).1
    have h0T : 0 ∉ ((f, F, x) :: T').map (·.1) := by
      intro h
      rw [List.mem_map] at h
      obtain ⟨y, hy, e⟩ := h
      exact hT'.ne_zero y hy e
    have h0 : (u.face 0).isSome = true := by
      rw [← restore_not_mem u h0T]; exact hc'.face_zero
    refine ⟨picks_of_finds ho hco hreg hfind haL (by rw [← hxa]; exact hx) hst h0, fun w hw => ?_⟩
    obtain ⟨P, hP⟩ : ∃ P, u.face (u.parentOf pick a) = some P := by
      rw [← Option.isSome_iff_exists]
      unfold GMap.parentOf
      cases pick u a with
      | none => exact h0
      | some g =>
        simp only
        split_ifs with h
        · exact h
        · exact h0
    classical
    obtain ⟨t1, P', e1, -, -, e4, -⟩ := embedContour_spec hT'.nodup hT'.none hg' hc' hFa hP
    rw [e1] at hw; cases hw
    have hs := hq.sorted
    rw [List.map_cons, List.pairwise_cons] at hs
    refine ⟨hq.graph.trans ?_, hs.2, fun y hy => hq.area y (by simp [hy])⟩
    rw [e4]
    have := SameGraph.relabel u (s.darts.filter (SameCycle ψ a)) (u.parentOf pick a)
    exact ⟨this.node, this.sigma, this.sigmaInv, this.nNodes, this.nEdges, this.nodeCount, this.edgeCount, this.sorted, this.edge⟩

/-- labels that refine the faces of `o` are the faces of `o`, if every finite face of both maps has
exactly one contour of positive area -/
theorem sameFaces_of_refines {o t : GMap K} {L : Finset Int} {π π' ψ : Perm Int} (ho : GraphRep o L π) (hco : ContoursRep o L ψ) (hreg : Regions o)
    (ht : GraphRep t L π') (hct : ContoursRep t L ψ) (hsig : ContoursSigned t) (hpts : ∀ l, (t.edge l).map (·.pts) = (o.edge l).map (·.pts))
    (hR : Refines t L o.left?) : SameFaces o t L := by
  have harea : ∀ a ∈ L, t.orbitArea a = o.orbitArea a := fun a ha => orbitArea_same ho hco.rep ht hct.rep hpts ha
  -- the outer contour of the face of a dart in `t`
  have hout : ∀ d ∈ L, t.left? d ≠ some 0 → ∃ b ∈ L, t.left? b = t.left? d ∧ o.left? b = o.left? d ∧ 0 < o.orbitArea b := by
    intro d hd h0
    obtain ⟨g, g1, g2, -⟩ := hct.lefts d hd
    obtain ⟨G, hG⟩ := Option.isSome_iff_exists.mp g2
    have hg0 : g ≠ 0 := by rintro rfl; exact h0 g1
    obtain ⟨a, rest, e1, e2, -⟩ := hsig.outer g G hG hg0
    obtain ⟨haL, hag⟩ := (hct.faces g G hG).left a (by simp [e1])
    exact ⟨a, haL, by rw [hag, g1], hR.groups a haL d hd g hag g1, by rw [← harea a haL]; exact e2⟩
  -- two positive contours of a face of `o` are equal
  have huniq : ∀ b ∈ L, ∀ c ∈ L, o.left? b = o.left? c → 0 < o.orbitArea b → 0 < o.orbitArea c → SameCycle ψ b c ∧ o.left? b ≠ some 0 := by
    intro b hb c hc hbc h1 h2
    obtain ⟨f, f1, f2, -⟩ := hco.lefts b hb
    obtain ⟨F, hF⟩ := Option.isSome_iff_exists.mp f2
    have cl := hco.faces f F hF
    have hanch : ∀ x ∈ L, o.left? x = some f → 0 < o.orbitArea x → f ≠ 0 ∧ ∀ a ∈ F.anchors, 0 < o.orbitArea a → (∀ b ∈ F.anchors, b ≠ a → o.orbitArea b ≤ 0) → SameCycle ψ a x := by
      intro x hx hxf hx0
      obtain ⟨y, hy, hyx⟩ := cl.cover x hx hxf
      have hyL := (cl.left y hy).1
      have hyx' := orbitArea_const ho hco.rep hyL hx hyx
      have hf0 : f ≠ 0 := by
        rintro rfl
        have := (hreg.infinite F hF).2 y hy
        rw [hyx'] at this
        exact absurd hx0 (not_lt.mpr this)
      refine ⟨hf0, fun a ha ha0 hrest => ?_⟩
      by_cases hya : y = a
      · rw [← hya]; exact hyx
      · have := hrest y hy hya
        rw [hyx'] at this
        exact absurd hx0 (not_lt.mpr this)
    obtain ⟨hf0, k1⟩ := hanch b hb f1 h1
    obtain ⟨-, k2⟩ := hanch c hc (by rw [← hbc]; exact f1) h2
    obtain ⟨a, ha, ha0, has⟩ := hreg.outer f F hF hf0
    refine ⟨(k1 a ha ha0 fun b hb hne => (has b hb hne).1).symm.trans (k2 a ha ha0 fun b hb hne => (has b hb hne).1), ?_⟩
    rw [f1]; exact fun h => hf0 (Option.some.inj h)
  have hzero : ∀ d ∈ L, t.left? d = some 0 ↔ o.left? d = some 0 := by
    intro d hd
    refine ⟨hR.infinite d hd, fun h => ?_⟩
    by_contra h0
    obtain ⟨b, hb, -, hbo, hb0⟩ := hout d hd h0
    exact (huniq b hb b hb rfl hb0 hb0).2 (by rw [hbo, h])
  refine ⟨fun d hd e he => ⟨fun h => ?_, fun h => ?_⟩, hzero⟩
  · obtain ⟨g, g1, -⟩ := hct.lefts d hd
    exact hR.groups d hd e he g g1 (by rw [← h]; exact g1)
  · by_cases h0 : o.left? d = some 0
    · rw [(hzero d hd).mpr h0, (hzero e he).mpr (by rw [← h]; exact h0)]
    · obtain ⟨b, hb, hbt, hbo, hb0⟩ := hout d hd (fun hc => h0 ((hzero d hd).mp hc))
      obtain ⟨c, hc, hct', hco', hc0⟩ := hout e he (fun hc => h0 (by rw [h]; exact (hzero e he).mp hc))
      have := (huniq b hb c hc (by rw [hbo, hco', h]) hb0 hc0).1
      rw [← hbt, ← hct', left_of_sameCycle hct.rep hct.lefts hb this]

/-- `initializeMap` on a graph with the edges and the order around nodes of `o` -/
theorem initializeMap_groups {pick : GMap K → Int → Option Nat} {o g : GMap K} {π ψ : Perm Int}
    (ho : GraphRep o g.darts π) (hco : ContoursRep o g.darts ψ) (hreg : Regions o) (hfind : Finds o pick)
    (he : ∀ l, (g.edge l).map (fun e => (e.startN, e.endN, e.pts)) = (o.edge l).map (fun e => (e.startN, e.endN, e.pts)))
    (hsg : ∀ d ∈ g.darts, g.sigma d = o.sigma d)
    (hg : GraphRep g g.darts π) (hr : GeoMap.Rep g.darts g.phi g.phiInv ψ) (hn : g.nFaces = 0) (hl : ∀ d, g.left? d = none) (hs : g.edgesSorted = true) :
    ∃ t, g.initializeMap pick = .ok t ∧ GraphRep t g.darts π ∧ ContoursRep t g.darts ψ ∧ SameGraph g t ∧ t.initialized ∧ ContoursSigned t ∧
      (BridgesOK t → AreaOK t) ∧ SameFaces o t g.darts := by
  obtain ⟨u, g1, g2, g3, g4⟩ := initContours_spec hg hr hn (fun d _ => hl d)
  have hd : u.darts = g.darts := g4.darts
  rw [← hd] at g2 g3
  obtain ⟨t, k1, k2, k3, k4, k5, k6, k7⟩ := embedFaces_spec pick g2 g3
  rw [hd] at k2 k3
  have hi : ¬ g.initialized := by unfold GMap.initialized; omega
  have href : Refines t g.darts o.left? := by
    have := embedFaces_groups (pick := pick) (o := o) (g := g) (s := u) (by rw [hd]; exact ho) (by rw [hd]; exact hco) hreg hfind he (by rw [hd]; exact hsg) g4 g2 g3 k1
    rw [hd] at this; exact this
  have hpts : ∀ l, (t.edge l).map (·.pts) = (o.edge l).map (·.pts) := fun l => map_proj ((SameGraph.edge3 (g4.trans k4) l).trans (he l))
  refine ⟨t, ?_, k2, k3, g4.trans k4, ?_, k7, k6, sameFaces_of_refines ho hco hreg k2 k3 k7 hpts href⟩
  · unfold GMap.initializeMap
    rw [if_neg hi]
    simp only [GMap.ensureSorted, hs, if_true, bind, Outcome.bind_ok, g1]
    exact k1
  · show 0 < t.nFaces
    rw [k5]; exact g2.pos

end Verif.Pickle
