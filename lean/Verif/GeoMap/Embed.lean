import Verif.GeoMap.Area

/-! # `embedFaces` -/

namespace Verif.GeoMap
open Equiv Equiv.Perm Verif.PermLemmas

variable {K : Type}

/-- put the contours that are still to be embedded back into the table of faces -/
def restore (s : GMap K) : List (Nat × Face K × K) → GMap K
  | [] => s
  | x :: T => (restore s T).setFace x.1 (some x.2.1)

theorem restore_frame (s : GMap K) (T : List (Nat × Face K × K)) : ∃ face', restore s T = { s with face := face' } := by
  induction T with
  | nil => exact ⟨_, rfl⟩
  | cons x T ih => obtain ⟨f', e⟩ := ih; exact ⟨_, by rw [restore, e]; rfl⟩

theorem restore_not_mem (s : GMap K) {T : List (Nat × Face K × K)} {g : Nat} (h : g ∉ T.map (·.1)) :
    (restore s T).face g = s.face g := by
  induction T with
  | nil => rfl
  | cons x T ih =>
    rw [List.map_cons, List.mem_cons, not_or] at h
    show Function.update (restore s T).face x.1 _ g = _
    rw [Function.update_of_ne h.1, ih h.2]

theorem restore_mem (s : GMap K) {T : List (Nat × Face K × K)} (hn : (T.map (·.1)).Nodup) {x : Nat × Face K × K} (h : x ∈ T) :
    (restore s T).face x.1 = some x.2.1 := by
  induction T with
  | nil => simp at h
  | cons y T ih =>
    rw [List.map_cons, List.nodup_cons] at hn
    show Function.update (restore s T).face y.1 _ x.1 = _
    rw [List.mem_cons] at h
    rcases h with rfl | h
    · rw [Function.update_self]
    · rw [Function.update_of_ne, ih hn.2 h]
      intro e; exact hn.1 (by rw [← e]; exact List.mem_map_of_mem h)

theorem restore_cons (s : GMap K) {T : List (Nat × Face K × K)} {x : Nat × Face K × K} (h : x.1 ∉ T.map (·.1)) :
    restore s (x :: T) = restore (s.setFace x.1 (some x.2.1)) T := by
  induction T with
  | nil => rfl
  | cons y T ih =>
    rw [List.map_cons, List.mem_cons, not_or] at h
    have ih := ih h.2
    show ((restore s T).setFace y.1 _).setFace x.1 _ = (restore (s.setFace x.1 _) T).setFace y.1 _
    rw [← ih]
    show _ = ((restore s T).setFace x.1 _).setFace y.1 _
    unfold GMap.setFace
    simp only
    rw [Function.update_comm h.1]

/-- the whole table after restoring -/
theorem restore_face_congr {s t : GMap K} {T : List (Nat × Face K × K)} {g : Nat} (h : s.face g = t.face g) :
    (restore s T).face g = (restore t T).face g := by
  induction T with
  | nil => exact h
  | cons x T ih =>
    show Function.update (restore s T).face x.1 _ g = Function.update (restore t T).face x.1 _ g
    rw [Function.update_apply, Function.update_apply, ih]

/-- the state after a contour `f` was made a hole of face `p` -/
def embedState (u : GMap K) (orbit : Finset Int) (p f : Nat) (P' : Face K) : GMap K :=
  { u.relabel orbit p with face := Function.update (Function.update u.face p (some P')) f none, faceCount := u.faceCount - 1 }

section Consistent
variable {u : GMap K} {L : Finset Int} {π ψ : Perm Int} {f p : Nat} {F P P' : Face K} {a : Int}

open Classical in
theorem embed_left (hg : GraphRep u L π) (hc : ContoursRep u L ψ) (hF : u.face f = some F) (hFa : F.anchors = [a]) {x : Int} (hx : x ∈ L) :
    (embedState u (L.filter (SameCycle ψ a)) p f P').left? x = if u.left? x = some f then some p else u.left? x := by
  have cl := hc.faces f F hF
  show (u.relabel (L.filter (SameCycle ψ a)) p).left? x = _
  rw [relabel_left u _ _ ((hg.live x).mp hx) (hg.ne_zero hx)]
  have ha := cl.left a (by simp [hFa])
  congr 1
  rw [Finset.mem_filter, eq_iff_iff]
  constructor
  · rintro ⟨-, h⟩
    rw [left_of_sameCycle hc.rep hc.lefts ha.1 h]; exact ha.2
  · intro h
    obtain ⟨b, hb, hbc⟩ := cl.cover x hx h
    rw [hFa, List.mem_singleton] at hb
    subst hb
    exact ⟨hx, hbc⟩

open Classical in
theorem embed_consistent (hg : GraphRep u L π) (hc : ContoursRep u L ψ) (hF : u.face f = some F) (hFa : F.anchors = [a])
    (hP : u.face p = some P) (hpf : p ≠ f) (hf0 : f ≠ 0) (hP' : P'.anchors = P.anchors ++ [a]) :
    GraphRep (embedState u (L.filter (SameCycle ψ a)) p f P') L π ∧
    ContoursRep (embedState u (L.filter (SameCycle ψ a)) p f P') L ψ := by
  have hlt := fun {x} hx => embed_left (p := p) (P' := P') hg hc hF hFa (x := x) hx
  obtain ⟨t, ht⟩ : ∃ t, t = embedState u (L.filter (SameCycle ψ a)) p f P' := ⟨_, rfl⟩
  rw [← ht] at hlt ⊢
  have hface : t.face = Function.update (Function.update u.face p (some P')) f none := by rw [ht]; rfl
  have hR := hg.relabel (L.filter (SameCycle ψ a)) p
  have hsome : ∀ g, g ≠ f → (t.face g).isSome = (u.face g).isSome := by
    intro g hgf
    rw [hface, Function.update_of_ne hgf]
    by_cases e : g = p
    · subst e; simp [hP]
    · rw [Function.update_of_ne e]
  have hfn : t.face f = none := by rw [hface, Function.update_self]
  refine ⟨?_, ?_⟩
  · have hl := hR.labels
    have hF1 : t.liveFaces = u.liveFaces.erase f := by
      ext m
      have hn : t.nFaces = u.nFaces := by rw [ht]; rfl
      simp only [GMap.liveFaces, Finset.mem_erase, Finset.mem_filter, Finset.mem_range, hn]
      by_cases e : m = f
      · subst e; simp [hfn]
      · simp [e, hsome m e]
    have hFc : t.faceCount = t.liveFaces.card := by
      rw [hF1, Finset.card_erase_of_mem, ← hg.labels.face_count, ht]
      · rfl
      · simp only [GMap.liveFaces, Finset.mem_filter, Finset.mem_range]
        exact ⟨hg.labels.face_lt f (by simp [hF]), by simp [hF]⟩
    have hFl : ∀ n, (t.face n).isSome = true → n < t.nFaces := by
      intro n hn
      by_cases e : n = f
      · subst e; rw [hfn] at hn; cases hn
      · rw [hsome n e] at hn
        rw [ht]; exact hg.labels.face_lt n hn
    subst ht
    exact ⟨⟨hl.edges_pos, hl.edge_zero, hl.node_lt, hl.edge_lt, hFl, hl.node_count, hl.edge_count, hFc, hl.pts_ne⟩,
      hR.live, hR.rep, hR.starts, hR.nodes⟩
  · refine ⟨by rw [ht]; exact hc.rep, ?_, ?_, ?_⟩
    · intro x hx
      obtain ⟨g, g1, g2, g3⟩ := hc.lefts x hx
      rw [hlt hx, hlt (hc.rep.mem hx), g1, g3]
      by_cases e : g = f
      · subst e
        exact ⟨p, by rw [if_pos rfl], by rw [hsome p hpf, hP]; rfl, by rw [if_pos rfl]⟩
      · have e' : ¬ some g = some f := fun h => e (Option.some.inj h)
        exact ⟨g, by rw [if_neg e'], by rw [hsome g e]; exact g2, by rw [if_neg e']⟩
    · intro g G hG
      rw [hface] at hG
      have hgf : g ≠ f := by
        rintro rfl; rw [Function.update_self] at hG; cases hG
      rw [Function.update_of_ne hgf] at hG
      by_cases e : g = p
      · subst e
        rw [Function.update_self] at hG
        cases hG
        have clP := hc.faces g P hP
        have clF := hc.faces f F hF
        have ha := clF.left a (by simp [hFa])
        rw [hP']
        refine ⟨?_, ?_, ?_⟩
        · intro b hb
          rw [List.mem_append, List.mem_singleton] at hb
          rcases hb with hb | rfl
          · obtain ⟨q1, q2⟩ := clP.left b hb
            refine ⟨q1, ?_⟩
            rw [hlt q1, q2, if_neg (fun h => hgf (Option.some.inj h))]
          · exact ⟨ha.1, by rw [hlt ha.1, if_pos ha.2]⟩
        · intro x hx hxl
          rw [hlt hx] at hxl
          split_ifs at hxl with h1
          · obtain ⟨b, hb, hbc⟩ := clF.cover x hx h1
            exact ⟨b, by rw [hFa] at hb; simp [List.mem_singleton.mp hb], hbc⟩
          · obtain ⟨b, hb, hbc⟩ := clP.cover x hx hxl
            exact ⟨b, by simp [hb], hbc⟩
        · rw [List.pairwise_append]
          refine ⟨clP.unique, List.pairwise_singleton _ _, fun b hb c hc' hbc => ?_⟩
          rw [List.mem_singleton] at hc'; subst hc'
          obtain ⟨q1, q2⟩ := clP.left b hb
          rw [← left_of_sameCycle hc.rep hc.lefts q1 hbc, ] at q2
          rw [ha.2] at q2
          exact hgf (Option.some.inj q2).symm
      · rw [Function.update_of_ne e] at hG
        have cl := hc.faces g G hG
        have hne : ¬ some g = some f := fun h => hgf (Option.some.inj h)
        have hne' : ¬ some p = some g := fun h => e (Option.some.inj h).symm
        refine ⟨fun b hb => ?_, fun x hx hxl => ?_, cl.unique⟩
        · obtain ⟨q1, q2⟩ := cl.left b hb
          exact ⟨q1, by rw [hlt q1, q2, if_neg hne]⟩
        · rw [hlt hx] at hxl
          split_ifs at hxl with h1
          · exact absurd hxl hne'
          · exact cl.cover x hx hxl
    · rw [hsome 0 (Ne.symm hf0)]; exact hc.face_zero

end Consistent

section Loop
variable [Field K] [LinearOrder K]

open Classical in
/-- `embedContour` followed by `uninitialize()` of the contour's preliminary face -/
theorem embedContour_spec {s : GMap K} {T : List (Nat × Face K × K)} {L : Finset Int} {π ψ : Perm Int} {f p : Nat} {F P : Face K} {x : K} {a : Int}
    (hn : (((f, F, x) :: T).map (·.1)).Nodup) (hT : ∀ y ∈ (f, F, x) :: T, s.face y.1 = none)
    (hg : GraphRep (restore s ((f, F, x) :: T)) L π) (hc : ContoursRep (restore s ((f, F, x) :: T)) L ψ)
    (hFa : F.anchors = [a]) (hP : s.face p = some P) :
    ∃ t P', s.embedContour p a = .ok t ∧ P'.anchors = P.anchors ++ [a] ∧
      restore (t.uninitFace f) T = embedState (restore s ((f, F, x) :: T)) (L.filter (SameCycle ψ a)) p f P' ∧
      t.uninitFace f = { s.relabel (L.filter (SameCycle ψ a)) p with face := Function.update s.face p (some P'), faceCount := s.faceCount - 1 } ∧
      P'.area = P.area.map (fun b => b + ∑ d ∈ L.filter (SameCycle ψ a), (s.relabel (L.filter (SameCycle ψ a)) p).areaTerm d) := by
  obtain ⟨u, hu⟩ : ∃ u, u = restore s ((f, F, x) :: T) := ⟨_, rfl⟩
  rw [← hu] at hg hc ⊢
  obtain ⟨face', hfr⟩ := restore_frame s ((f, F, x) :: T)
  rw [← hu] at hfr
  have hsf : s.face f = none := hT (f, F, x) (by simp)
  have huf : u.face f = some F := by rw [hu]; exact restore_mem s hn (x := (f, F, x)) (by simp)
  have hpT : p ∉ ((f, F, x) :: T).map (·.1) := by
    intro h
    rw [List.mem_map] at h
    obtain ⟨y, hy, rfl⟩ := h
    rw [hT y hy] at hP; cases hP
  have hpf : p ≠ f := by rintro rfl; rw [hsf] at hP; cases hP
  have hup : u.face p = some P := by rw [hu, restore_not_mem s hpT, hP]
  have hplt : p < s.nFaces := by
    have := hg.labels.face_lt p (by simp [hup])
    rw [hfr] at this; exact this
  have hd : s.derefFace (some p) = .ok P := by simp [GMap.derefFace, hP, hplt]
  obtain ⟨P1, hP1⟩ : ∃ P1 : Face K, P1 = { P with anchors := P.anchors ++ [a] } := ⟨_, rfl⟩
  obtain ⟨s1, hs1⟩ : ∃ s1, s1 = s.setFace p (some P1) := ⟨_, rfl⟩
  have cl := hc.faces f F huf
  have ha := cl.left a (by simp [hFa])
  have hL1 : ∀ d ∈ L, s1.liveD d ∧ d ≠ 0 := by
    intro d hd
    have h1 := (hg.live d).mp hd
    rw [hfr] at h1
    exact ⟨by rw [hs1]; exact h1, hg.ne_zero hd⟩
  have hR1 : Rep L s1.phi s1.phiInv ψ := by
    have := hc.rep
    rw [hfr] at this
    rw [hs1]; exact this
  have hcard : L.card ≤ 2 * s1.nEdges := by
    have := hg.card_le
    rw [hfr] at this
    rw [hs1]; exact this
  have hleft : s1.left? = u.left? := by rw [hfr, hs1]; rfl
  have hml := markLoop_eq hR1 hL1 hcard p (fun l => l = some p) (by simp) ha.1 (by
    intro y hy
    rw [hleft, left_of_sameCycle hc.rep hc.lefts ha.1 hy, ha.2]
    simp only [decide_eq_false_iff_not]
    exact fun h => hpf (Option.some.inj h).symm)
  obtain ⟨O, hO⟩ : ∃ O, O = L.filter (SameCycle ψ a) := ⟨_, rfl⟩
  rw [← hO] at hml ⊢
  have hs2 : s1.relabel O p = { s.relabel O p with face := Function.update s.face p (some P1) } := by rw [hs1]; rfl
  have hca : (s1.relabel O p).contourArea a = .ok (∑ d ∈ O, (s.relabel O p).areaTerm d) := by
    have := contourArea_eq (s := s1.relabel O p) hR1 (fun d hd => relabel_liveD.mpr (hL1 d hd).1) hcard ha.1
    rw [this, hO, hs1]
    rfl
  -- the final states
  have fin : ∀ P' : Face K, restore (({ s.relabel O p with face := Function.update s.face p (some P') } : GMap K).uninitFace f) T = embedState u O p f P' ∧
      ({ s.relabel O p with face := Function.update s.face p (some P') } : GMap K).uninitFace f =
        { s.relabel O p with face := Function.update s.face p (some P'), faceCount := s.faceCount - 1 } := by
    intro P'
    have hupd : Function.update (Function.update s.face p (some P')) f none = Function.update s.face p (some P') := by
      rw [Function.update_eq_self_iff, Function.update_of_ne (Ne.symm hpf), hsf]
    have e2 : ({ s.relabel O p with face := Function.update s.face p (some P') } : GMap K).uninitFace f =
        { s.relabel O p with face := Function.update s.face p (some P'), faceCount := s.faceCount - 1 } := by
      unfold GMap.uninitFace GMap.setFace
      simp only [hupd]
      rfl
    refine ⟨?_, e2⟩
    rw [e2]
    obtain ⟨fc, e3⟩ := restore_frame ({ s.relabel O p with face := Function.update s.face p (some P'), faceCount := s.faceCount - 1 } : GMap K) T
    have hfc : (restore ({ s.relabel O p with face := Function.update s.face p (some P'), faceCount := s.faceCount - 1 } : GMap K) T).face =
        Function.update (Function.update u.face p (some P')) f none := by
      funext g
      rw [List.map_cons, List.nodup_cons] at hn
      rw [List.map_cons, List.mem_cons, not_or] at hpT
      by_cases e : g = f
      · subst e
        rw [restore_not_mem _ hn.1, Function.update_self]
        show Function.update s.face p (some P') g = none
        rw [Function.update_of_ne (Ne.symm hpf), hsf]
      · rw [Function.update_of_ne e]
        by_cases e' : g = p
        · subst e'
          rw [restore_not_mem _ hpT.2, Function.update_self]
          show Function.update s.face g (some P') g = _
          rw [Function.update_self]
        · rw [Function.update_of_ne e']
          have h1 := restore_face_congr (s := ({ s.relabel O p with face := Function.update s.face p (some P'), faceCount := s.faceCount - 1 } : GMap K))
            (t := s) (T := T) (g := g) (Function.update_of_ne e' _ _)
          rw [h1, hu]
          show _ = Function.update (restore s T).face f _ g
          rw [Function.update_of_ne e]
    rw [e3] at hfc ⊢
    simp only at hfc
    rw [hfc, hfr]
    rfl
  unfold GMap.embedContour
  simp only [bind, hd, Outcome.bind_ok]
  rw [← hP1, ← hs1, hml]
  simp only [Outcome.bind_ok]
  cases hPa : P.area with
  | none =>
    refine ⟨_, P1, rfl, by rw [hP1], ?_, ?_, by rw [hP1, hPa]; rfl⟩
    · rw [hs2]; exact (fin P1).1
    · rw [hs2]; exact (fin P1).2
  | some b =>
    simp only [hca, Outcome.bind_ok]
    obtain ⟨P2, hP2⟩ : ∃ P2 : Face K, P2 = { P with anchors := P.anchors ++ [a], area := some (b + ∑ d ∈ O, (s.relabel O p).areaTerm d) } := ⟨_, rfl⟩
    have hs3 : (s1.relabel O p).setFace p (some P2) = { s.relabel O p with face := Function.update s.face p (some P2) } := by
      rw [hs2]; unfold GMap.setFace; simp
    refine ⟨(s1.relabel O p).setFace p (some P2), P2, by rw [hP2], by rw [hP2], ?_, ?_, by rw [hP2]; rfl⟩
    · rw [hs3]; exact (fin P2).1
    · rw [hs3]; exact (fin P2).2

omit [LinearOrder K] in
theorem dartArea_congr {s t : GMap K} (h : ∀ l, (t.edge l).map (·.pts) = (s.edge l).map (·.pts)) : t.dartArea = s.dartArea := by
  funext d
  unfold GMap.dartArea
  have := h d.natAbs
  cases h1 : t.edge d.natAbs <;> cases h2 : s.edge d.natAbs <;> simp_all [Edge.areaOf]

theorem relabel_dartArea (s : GMap K) (P : Finset Int) (S : Nat) : (s.relabel P S).dartArea = s.dartArea := by
  apply dartArea_congr
  intro l
  simp only [GMap.relabel, Option.map_map]
  congr 1

/-- one contour per entry, each with a nonzero label that is not in the table -/
structure Todo (s : GMap K) (T : List (Nat × Face K × K)) : Prop where
  nodup : (T.map (·.1)).Nodup
  none : ∀ x ∈ T, s.face x.1 = Option.none
  ne_zero : ∀ x ∈ T, x.1 ≠ 0
  one : ∀ x ∈ T, ∃ a, x.2.1.anchors = [a]

theorem embedLoop_spec (pick : GMap K → Int → Option Nat) : ∀ (T : List (Nat × Face K × K)) {s : GMap K} {L : Finset Int} {π ψ : Perm Int}, Todo s T →
    GraphRep (restore s T) L π → ContoursRep (restore s T) L ψ →
    ∃ t, GMap.embedLoop pick T s = .ok t ∧ GraphRep t L π ∧ ContoursRep t L ψ ∧ SameGraph s t ∧ t.nFaces = s.nFaces ∧
      (∀ d ∈ L, ∀ g, s.left? d = some g → (s.face g).isSome = true → t.left? d = some g) ∧
      (BridgesOK t → AreaOK (restore s T) → AreaOK t) ∧
      (∀ g, (t.face g).isSome = true ↔ ((s.face g).isSome = true ∨ ∃ x ∈ T, x.1 = g ∧ 0 < x.2.2)) ∧
      (∀ g G, t.face g = some G → ∃ G0 as, (restore s T).face g = some G0 ∧ G.anchors = G0.anchors ++ as ∧
        ∀ b ∈ as, ∃ x ∈ T, x.2.1.anchors = [b] ∧ x.2.2 ≤ 0) := by
  intro T
  induction T with
  | nil =>
    intro s L π ψ _ hg hc
    refine ⟨s, rfl, hg, hc, SameGraph.refl s, rfl, fun _ _ _ h _ => h, fun _ h => h, fun g => by simp, fun g G h => ⟨G, [], h, by simp, by simp⟩⟩
  | cons z T ih =>
    obtain ⟨f, F, x⟩ := z
    intro s L π ψ hT hg hc
    obtain ⟨a, hFa⟩ : ∃ a, F.anchors = [a] := hT.one (f, F, x) (by simp)
    have hnd := hT.nodup
    rw [List.map_cons, List.nodup_cons] at hnd
    have hunfold : GMap.embedLoop pick ((f, F, x) :: T) s =
        (if 0 < x then GMap.embedLoop pick T (s.setFace f (some F))
         else (s.embedContour (s.parentOf pick a) a).bind fun s => GMap.embedLoop pick T (s.uninitFace f)) := by
      rw [GMap.embedLoop]
      rw [hFa]
      rfl
    rw [hunfold]
    by_cases hx : 0 < x
    · rw [if_pos hx]
      have hr : restore s ((f, F, x) :: T) = restore (s.setFace f (some F)) T := restore_cons s hnd.1
      rw [hr] at hg hc ⊢
      have hT' : Todo (s.setFace f (some F)) T := by
        refine ⟨hnd.2, fun y hy => ?_, fun y hy => hT.ne_zero y (by simp [hy]), fun y hy => hT.one y (by simp [hy])⟩
        show Function.update s.face f _ y.1 = _
        rw [Function.update_of_ne]
        · exact hT.none y (by simp [hy])
        · intro e; exact hnd.1 (List.mem_map.mpr ⟨y, hy, e⟩)
      obtain ⟨t, h1, h2, h3, h4, h5, h6, h7, h8, h9⟩ := ih hT' hg hc
      refine ⟨t, h1, h2, h3, ?_, h5, ?_, h7, ?_, ?_⟩
      · exact (⟨rfl, rfl, rfl, rfl, rfl, rfl, rfl, rfl, fun _ => rfl⟩ : SameGraph s (s.setFace f (some F))).trans h4
      · intro d hd g hdg hgs
        refine h6 d hd g hdg ?_
        show (Function.update s.face f (some F) g).isSome = true
        by_cases e : g = f
        · subst e; simp
        · rw [Function.update_of_ne e]; exact hgs
      · intro g
        rw [h8]
        have e1 : (s.setFace f (some F)).face g = Function.update s.face f (some F) g := rfl
        rw [e1]
        by_cases e : g = f
        · subst e
          rw [Function.update_self]
          simp [hx]
        · rw [Function.update_of_ne e]
          simp only [List.mem_cons, exists_eq_or_imp]
          constructor
          · rintro (h | h)
            · exact Or.inl h
            · exact Or.inr (Or.inr h)
          · rintro (h | ⟨h, -⟩ | h)
            · exact Or.inl h
            · exact absurd h.symm e
            · exact Or.inr h
      · intro g G hG
        obtain ⟨G0, as, q1, q2, q3⟩ := h9 g G hG
        exact ⟨G0, as, q1, q2, fun b hb => by
          obtain ⟨y, hy, hy'⟩ := q3 b hb
          exact ⟨y, by simp [hy], hy'⟩⟩
    · rw [if_neg hx]
      classical
      obtain ⟨p, hp⟩ : ∃ p, p = s.parentOf pick a := ⟨_, rfl⟩
      have h0T : 0 ∉ ((f, F, x) :: T).map (·.1) := by
        intro h
        rw [List.mem_map] at h
        obtain ⟨y, hy, e⟩ := h
        exact hT.ne_zero y hy e
      have h0 : (s.face 0).isSome = true := by
        rw [← restore_not_mem s h0T]; exact hc.face_zero
      obtain ⟨P, hP⟩ : ∃ P, s.face p = some P := by
        rw [← Option.isSome_iff_exists, hp]
        unfold GMap.parentOf
        cases pick s a with
        | none => exact h0
        | some g =>
          simp only
          split_ifs with h
          · exact h
          · exact h0
      rw [← hp]
      obtain ⟨t1, P', e1, e2, e3, e4, e5⟩ := embedContour_spec hT.nodup hT.none hg hc hFa hP
      obtain ⟨O, hO⟩ : ∃ O, O = L.filter (SameCycle ψ a) := ⟨_, rfl⟩
      rw [← hO] at e3 e4 e5
      rw [e1]
      simp only [Outcome.bind_ok]
      have hsf : s.face f = none := hT.none (f, F, x) (by simp)
      have hpf : p ≠ f := by rintro rfl; rw [hsf] at hP; cases hP
      have hf0 : f ≠ 0 := hT.ne_zero (f, F, x) (by simp)
      have huf : (restore s ((f, F, x) :: T)).face f = some F := restore_mem s hT.nodup (x := (f, F, x)) (by simp)
      have hpT : p ∉ ((f, F, x) :: T).map (·.1) := by
        intro h
        rw [List.mem_map] at h
        obtain ⟨y, hy, rfl⟩ := h
        rw [hT.none y hy] at hP; cases hP
      have hup : (restore s ((f, F, x) :: T)).face p = some P := by rw [restore_not_mem s hpT, hP]
      obtain ⟨k1, k2⟩ := embed_consistent hg hc huf hFa hup hpf hf0 e2
      have hlt := fun {y} hy => embed_left (p := p) (P' := P') hg hc huf hFa (x := y) hy
      rw [← hO] at k1 k2 hlt
      obtain ⟨s', hs'⟩ : ∃ s', s' = t1.uninitFace f := ⟨_, rfl⟩
      rw [← hs'] at e3 e4 ⊢
      have hface' : s'.face = Function.update s.face p (some P') := by rw [e4]
      have hsome' : ∀ g, (s'.face g).isSome = (s.face g).isSome := by
        intro g
        rw [hface']
        by_cases e : g = p
        · subst e; simp [hP]
        · rw [Function.update_of_ne e]
      rw [← e3] at k1 k2
      have hT' : Todo s' T := by
        refine ⟨hnd.2, fun y hy => ?_, fun y hy => hT.ne_zero y (by simp [hy]), fun y hy => hT.one y (by simp [hy])⟩
        have := hsome' y.1
        rw [hT.none y (by simp [hy])] at this
        simpa using this
      obtain ⟨fr, hfr⟩ := restore_frame s ((f, F, x) :: T)
      have hleftu : (restore s ((f, F, x) :: T)).left? = s.left? := by rw [hfr]; rfl
      obtain ⟨fr', hfr'⟩ := restore_frame s' T
      have hleft' : (restore s' T).left? = s'.left? := by rw [hfr']; rfl
      have hls' : ∀ y ∈ L, s'.left? y = if s.left? y = some f then some p else s.left? y := by
        intro y hy
        have := hlt hy
        rw [← e3, hleft', hleftu] at this
        exact this
      obtain ⟨t, h1, h2, h3, h4, h5, h6, h7, h8, h9⟩ := ih hT' k1 k2
      have hgr : SameGraph s s' := by
        rw [e4]
        have := SameGraph.relabel s O p
        exact ⟨this.node, this.sigma, this.sigmaInv, this.nNodes, this.nEdges, this.nodeCount, this.edgeCount, this.sorted, this.edge⟩
      have hds : s'.dartArea = s.dartArea := by
        rw [e4]; exact relabel_dartArea s O p
      have hsp : s'.phi = s.phi := GMap.phi_congr hgr.sigmaInv
      have htp : t.phi = s.phi := GMap.phi_congr (hgr.trans h4).sigmaInv
      have hrep : Rep L s.phi s.phiInv ψ := by have := hc.rep; rw [hfr] at this; exact this
      have clF := hc.faces f F huf
      have hOmem : ∀ y, y ∈ O ↔ (y ∈ L ∧ s.left? y = some f) := by
        intro y
        rw [hO, Finset.mem_filter]
        have ha := clF.left a (by simp [hFa])
        constructor
        · rintro ⟨q1, q2⟩
          exact ⟨q1, by rw [← hleftu, left_of_sameCycle hc.rep hc.lefts ha.1 q2]; exact ha.2⟩
        · rintro ⟨q1, q2⟩
          obtain ⟨b, hb, hbc⟩ := clF.cover y q1 (by rw [hleftu]; exact q2)
          rw [hFa, List.mem_singleton] at hb
          subst hb
          exact ⟨q1, hbc⟩
      refine ⟨t, h1, h2, h3, hgr.trans h4, ?_, ?_, ?_, ?_, ?_⟩
      · rw [h5, e4]; rfl
      · intro d hd g hdg hgs
        refine h6 d hd g ?_ (by rw [hsome']; exact hgs)
        rw [hls' d hd, hdg, if_neg]
        intro h; cases h; rw [hsf] at hgs; cases hgs
      · intro hB hA
        refine h7 hB ?_
        intro g G b hG hb
        -- edges between the hole contour and its new face would be bridges
        have hO0 : ∀ d ∈ O, d ≠ 0 := fun d hd => hg.ne_zero ((hOmem d).mp hd).1
        have hbr : ∀ d ∈ O, (s.relabel O p).left? d = (s.relabel O p).left? (-d) → -d ∈ O := by
          intro d hd hdd
          have hdL := ((hOmem d).mp hd).1
          have hmL := hg.symm d hdL
          have hl1 : s'.left? = (s.relabel O p).left? := by rw [e4]; rfl
          rw [← hl1] at hdd
          have a1 : s'.left? d = some p := by rw [hls' d hdL, if_pos ((hOmem d).mp hd).2]
          have hps' : (s'.face p).isSome = true := by rw [hsome', hP]; rfl
          have b1 := h6 d hdL p a1 hps'
          have b2 := h6 (-d) hmL p (by rw [← hdd]; exact a1) hps'
          obtain ⟨k, hk⟩ := hB d ((h2.live d).mp hdL) (by rw [b1, b2])
          rw [htp] at hk
          have hcy : SameCycle ψ d (-d) := (hrep.sameCycle_iff hdL).mpr ⟨k, hk⟩
          rw [hO, Finset.mem_filter] at hd ⊢
          exact ⟨hmL, hd.2.trans hcy⟩
        have hterm := sum_areaTerm (s.relabel O p) O hO0 hbr
        rw [relabel_dartArea] at hterm
        have hlu := hg.labels
        have hdu : (restore s ((f, F, x) :: T)).dartArea = s.dartArea := by rw [hfr]; rfl
        have hdu' : (restore s' T).dartArea = s.dartArea := by rw [hfr', ← hds]; rfl
        have hgf : g ≠ f := by
          intro e
          rw [e3] at hG
          simp only [embedState] at hG
          rw [e, Function.update_self] at hG
          cases hG
        have hmemg : ∀ d, d ∈ (restore s' T).leftDarts g ↔ (d ∈ L ∧ (if s.left? d = some f then some p else s.left? d) = some g) := by
          intro d
          rw [mem_leftDarts k1.labels]
          constructor
          · intro hd
            have hdL := (k1.live d).mpr (liveD_of_left hd)
            refine ⟨hdL, ?_⟩
            rw [← hls' d hdL, ← hleft']; exact hd
          · rintro ⟨hdL, hd⟩
            rw [hleft', hls' d hdL]; exact hd
        have hmemu : ∀ d, d ∈ (restore s ((f, F, x) :: T)).leftDarts g ↔ (d ∈ L ∧ s.left? d = some g) := by
          intro d
          rw [mem_leftDarts hlu, hleftu]
          constructor
          · intro hd; exact ⟨(hg.live d).mpr (liveD_of_left (by rw [hleftu]; exact hd)), hd⟩
          · exact fun h => h.2
        rw [e3] at hG
        simp only [embedState] at hG
        rw [Function.update_of_ne hgf] at hG
        by_cases e : g = p
        · subst e
          rw [Function.update_self] at hG
          cases hG
          rw [hb] at e5
          cases hPa : P.area with
          | none => rw [hPa] at e5; cases e5
          | some c =>
            rw [hPa] at e5
            have e5 : b = c + ∑ d ∈ O, (s.relabel O g).areaTerm d := Option.some.inj e5
            have hc' := hA g P c hup hPa
            rw [e5, hterm, hc']
            unfold GMap.faceSum
            rw [hdu, hdu', ← Finset.sum_union]
            · congr 1
              ext d
              rw [Finset.mem_union, hmemg, hmemu, hOmem]
              constructor
              · rintro (⟨q1, q2⟩ | ⟨q1, q2⟩)
                · exact ⟨q1, by rw [q2, if_neg (fun h => hgf (Option.some.inj h))]⟩
                · exact ⟨q1, by rw [q2, if_pos rfl]⟩
              · rintro ⟨q1, q2⟩
                split_ifs at q2 with h
                · exact Or.inr ⟨q1, h⟩
                · exact Or.inl ⟨q1, q2⟩
            · rw [Finset.disjoint_left]
              intro d hd hd'
              rw [hmemu] at hd
              rw [hOmem] at hd'
              rw [hd.2] at hd'
              exact hgf (Option.some.inj hd'.2)
        · rw [Function.update_of_ne e] at hG
          rw [hA g G b hG hb]
          unfold GMap.faceSum
          rw [hdu, hdu']
          congr 1
          ext d
          rw [hmemg, hmemu]
          constructor
          · rintro ⟨q1, q2⟩; exact ⟨q1, by rw [q2, if_neg (fun h => hgf (Option.some.inj h))]⟩
          · rintro ⟨q1, q2⟩
            split_ifs at q2 with h
            · exact absurd (Option.some.inj q2).symm e
            · exact ⟨q1, q2⟩
      · intro g
        rw [h8, hsome']
        simp only [List.mem_cons, exists_eq_or_imp]
        constructor
        · rintro (h | h)
          · exact Or.inl h
          · exact Or.inr (Or.inr h)
        · rintro (h | ⟨-, h⟩ | h)
          · exact Or.inl h
          · exact absurd h hx
          · exact Or.inr h
      · intro g G hG
        obtain ⟨G0, as, q1, q2, q3⟩ := h9 g G hG
        rw [e3] at q1
        simp only [embedState] at q1
        have hgf : g ≠ f := by
          rintro rfl
          rw [Function.update_self] at q1
          cases q1
        rw [Function.update_of_ne hgf] at q1
        have q3' : ∀ b ∈ as, ∃ y ∈ (f, F, x) :: T, y.2.1.anchors = [b] ∧ y.2.2 ≤ 0 := fun b hb => by
          obtain ⟨y, hy, hy'⟩ := q3 b hb
          exact ⟨y, by simp [hy], hy'⟩
        by_cases e : g = p
        · subst e
          rw [Function.update_self] at q1
          cases q1
          refine ⟨P, a :: as, hup, by rw [q2, e2]; simp, fun b hb => ?_⟩
          rw [List.mem_cons] at hb
          rcases hb with rfl | hb
          · exact ⟨(f, F, x), by simp, hFa, not_lt.mp hx⟩
          · exact q3' b hb
        · rw [Function.update_of_ne e] at q1
          exact ⟨G0, as, q1, q2, q3'⟩

end Loop
end Verif.GeoMap
