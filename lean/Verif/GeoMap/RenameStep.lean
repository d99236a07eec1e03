import Verif.GeoMap.Rename
import Verif.GeoMap.Planar2

/-! # `changeFaceLabels` keeps the map consistent -/

namespace Verif.GeoMap
open Verif

variable {K : Type}

/-- `t` is `s` with faces renamed by the list. -/
structure RenamedBy (new : List Nat) (size : Nat) (s t : GMap K) : Prop where
  eq : ∃ face' edge', t = { s with face := face', edge := edge', nFaces := size }
  edges : ∀ l, t.edge l = (s.edge l).map fun e => { e with
    leftF := e.leftF.bind (new[·]?)
    rightF := e.rightF.bind (new[·]?) }
  faces : ∀ f F, t.face f = some F ↔ ∃ l : Nat, s.face l = some F ∧ new[l]? = some f
  inj : ∀ l k f : Nat, (s.face l).isSome = true → (s.face k).isSome = true → new[l]? = some f → new[k]? = some f → l = k
  bound : ∀ l f : Nat, (s.face l).isSome = true → new[l]? = some f → f < size
  defd : ∀ l, (s.face l).isSome = true → ∃ f, new[l]? = some f
  length : new.length = s.nFaces

/-! ## the loops -/

theorem moveFaces_spec (face : Nat → Option (Face K)) (new : List Nat) (size : Nat) :
    ∀ (ls : List Nat) (done : List Nat) (nf : Nat → Option (Face K × Nat)) (lab : Nat → Nat), (done ++ ls).Nodup →
      (∀ l ∈ done ++ ls, l < new.length) →
      (∀ f F k, nf f = some (F, k) ↔ k = f ∧ ∃ l ∈ done, face l = some F ∧ new[l]? = some f) →
      (∀ l ∈ done, ∀ k ∈ done, ∀ f, (face l).isSome = true → (face k).isSome = true → new[l]? = some f → new[k]? = some f → l = k) →
      (∀ l ∈ done, ∀ f, (face l).isSome = true → new[l]? = some f → f < size) →
      ((moveFaces face new size ls nf lab).1 = false ∧
        ((∃ l ∈ done ++ ls, (face l).isSome = true ∧ ∃ f, new[l]? = some f ∧ size ≤ f) ∨
        ∃ l ∈ done ++ ls, ∃ k ∈ done ++ ls, l ≠ k ∧ (face l).isSome = true ∧ (face k).isSome = true ∧ new[l]? = new[k]?)) ∨
      ∃ nf' lab', moveFaces face new size ls nf lab = (true, nf', lab') ∧
        (∀ f F k, nf' f = some (F, k) ↔ k = f ∧ ∃ l ∈ done ++ ls, face l = some F ∧ new[l]? = some f) ∧
        (∀ l ∈ done ++ ls, ∀ k ∈ done ++ ls, ∀ f, (face l).isSome = true → (face k).isSome = true → new[l]? = some f → new[k]? = some f → l = k) ∧
        (∀ l ∈ done ++ ls, ∀ f, (face l).isSome = true → new[l]? = some f → f < size) := by
  intro ls
  induction ls with
  | nil =>
    intro done nf lab _ _ h1 h2 h3
    right
    rw [List.append_nil]
    exact ⟨nf, lab, rfl, h1, h2, h3⟩
  | cons x ls ih =>
    intro done nf lab hnd hlt h1 h2 h3
    have happ : done ++ x :: ls = (done ++ [x]) ++ ls := by simp
    have hx : x ∉ done := by
      have := List.nodup_append.mp hnd
      intro hx
      exact this.2.2 x hx x (by simp) rfl
    rw [moveFaces]
    cases hF : face x with
    | none =>
      rw [happ] at hnd hlt ⊢
      refine ih (done ++ [x]) nf lab hnd hlt ?_ ?_ ?_
      · intro f F k
        rw [h1]
        constructor
        · rintro ⟨a, l, b, c⟩; exact ⟨a, l, List.mem_append_left _ b, c⟩
        · rintro ⟨a, l, b, c, d⟩
          rcases List.mem_append.mp b with b | b
          · exact ⟨a, l, b, c, d⟩
          · rw [List.mem_singleton.mp b, hF] at c; cases c
      · intro l hl k hk f hl' hk'
        rcases List.mem_append.mp hl with b | b
        · rcases List.mem_append.mp hk with c | c
          · exact h2 l b k c f hl' hk'
          · rw [List.mem_singleton.mp c, hF] at hk'; cases hk'
        · rw [List.mem_singleton.mp b, hF] at hl'; cases hl'
      · intro l hl f hl'
        rcases List.mem_append.mp hl with b | b
        · exact h3 l b f hl'
        · rw [List.mem_singleton.mp b, hF] at hl'; cases hl'
    | some F =>
      have hxl : x < new.length := hlt x (by simp)
      have hget : new[x]? = some (new.getD x 0) := by
        rw [List.getD_eq_getElem?_getD, List.getElem?_eq_getElem hxl]; rfl
      simp only
      split_ifs with c1 c2
      · left
        exact ⟨rfl, Or.inl ⟨x, by simp, by simp [hF], _, hget, c1⟩⟩
      · left
        refine ⟨rfl, Or.inr ?_⟩
        obtain ⟨⟨G, k⟩, hG⟩ := Option.isSome_iff_exists.mp c2
        obtain ⟨-, l, hl, hl1, hl2⟩ := (h1 _ _ _).mp hG
        refine ⟨l, by simp [hl], x, by simp, fun h => hx (h ▸ hl), by simp [hl1], by simp [hF], by rw [hl2, hget]⟩
      · have hnone : nf (new.getD x 0) = none := by
          cases h : nf (new.getD x 0) with
          | none => rfl
          | some v => rw [h] at c2; exact absurd rfl c2
        have hfree : ∀ l ∈ done, (face l).isSome = true → new[l]? ≠ some (new.getD x 0) := by
          intro l hl hl' h
          obtain ⟨G, hG⟩ := Option.isSome_iff_exists.mp hl'
          have := (h1 (new.getD x 0) G (new.getD x 0)).mpr ⟨rfl, l, hl, hG, h⟩
          rw [hnone] at this; cases this
        rw [happ] at hnd hlt ⊢
        refine ih (done ++ [x]) _ _ hnd hlt ?_ ?_ ?_
        · intro f G k
          by_cases hf : f = new.getD x 0
          · subst hf
            rw [Function.update_self]
            constructor
            · intro h
              cases h
              exact ⟨rfl, x, by simp, hF, hget⟩
            · rintro ⟨rfl, l, hl, hl1, hl2⟩
              rcases List.mem_append.mp hl with b | b
              · exact absurd hl2 (hfree l b (by simp [hl1]))
              · rw [List.mem_singleton.mp b, hF] at hl1; cases hl1; rfl
          · rw [Function.update_of_ne hf, h1]
            constructor
            · rintro ⟨a, l, b, c⟩; exact ⟨a, l, List.mem_append_left _ b, c⟩
            · rintro ⟨a, l, b, c, d⟩
              rcases List.mem_append.mp b with b | b
              · exact ⟨a, l, b, c, d⟩
              · rw [List.mem_singleton.mp b, hget] at d; cases d; exact absurd rfl hf
        · intro l hl k hk f hl' hk' el ek
          rcases List.mem_append.mp hl with b | b <;> rcases List.mem_append.mp hk with c | c
          · exact h2 l b k c f hl' hk' el ek
          · rw [List.mem_singleton.mp c, hget] at ek; cases ek
            exact absurd el (hfree l b hl')
          · rw [List.mem_singleton.mp b, hget] at el; cases el
            exact absurd ek (hfree k c hk')
          · rw [List.mem_singleton.mp b, List.mem_singleton.mp c]
        · intro l hl f hl' el
          rcases List.mem_append.mp hl with b | b
          · exact h3 l b f hl' el
          · rw [List.mem_singleton.mp b, hget] at el; cases el; omega

theorem newLabel_ok {new : List Nat} {f t : Nat} (h : new[f]? = some t) : newLabel new (some f) = .ok t := by
  simp [newLabel, h]

theorem renameEdges_spec (new : List Nat) : ∀ (ls : List Nat) (s : GMap K), ls.Nodup →
    (∀ l ∈ ls, ∀ e, s.edge l = some e → (∃ f t, e.leftF = some f ∧ new[f]? = some t) ∧ ∃ f t, e.rightF = some f ∧ new[f]? = some t) →
    ∃ edge', renameEdges new ls s = .ok { s with edge := edge' } ∧
      ∀ l, edge' l = if l ∈ ls then (s.edge l).map (fun e => { e with leftF := e.leftF.bind (new[·]?), rightF := e.rightF.bind (new[·]?) }) else s.edge l := by
  intro ls
  induction ls with
  | nil => intro s _ _; exact ⟨s.edge, rfl, fun l => by simp⟩
  | cons x ls ih =>
    intro s hnd h
    rw [renameEdges]
    have hx := (List.nodup_cons.mp hnd).1
    cases he : s.edge x with
    | none =>
      obtain ⟨edge', e1, e2⟩ := ih s (List.nodup_cons.mp hnd).2 (fun l hl => h l (List.mem_cons_of_mem _ hl))
      refine ⟨edge', e1, fun l => ?_⟩
      rw [e2]
      by_cases hl : l = x
      · subst hl; simp [he]
      · simp [hl]
    | some e =>
      obtain ⟨⟨f, t, h1, h2⟩, g, u, h3, h4⟩ := h x (by simp) e he
      simp only [h1, h3, newLabel_ok h2, newLabel_ok h4, bind, Outcome.bind_ok]
      obtain ⟨edge', e1, e2⟩ := ih (s.setEdge x (some { e with leftF := some t, rightF := some u })) (List.nodup_cons.mp hnd).2 (fun l hl e' he' => by
        have hlx : l ≠ x := fun hh => hx (hh ▸ hl)
        simp only [GMap.setEdge, Function.update_of_ne hlx] at he'
        exact h l (List.mem_cons_of_mem _ hl) e' he')
      refine ⟨edge', e1, fun l => ?_⟩
      rw [e2]
      simp only [GMap.setEdge]
      by_cases hl : l = x
      · subst hl
        simp [hx, he, h1, h3, h2, h4]
      · rw [Function.update_of_ne hl]
        simp [hl]

/-- `changeFaceLabels`: it throws exactly in the documented cases, otherwise it renames the faces. -/
theorem changeFaceLabels_spec {s : GMap K} (hM : MapOK s) (new : List Nat) (size : Nat) :
    (∃ lab, s.changeFaceLabels new size = .ok ⟨false, s, lab⟩ ∧
      (¬ s.initialized ∨ new.length ≠ s.nFaces ∨ (∃ l, (s.face l).isSome = true ∧ ∃ f, new[l]? = some f ∧ size ≤ f) ∨
        ∃ l k, l ≠ k ∧ (s.face l).isSome = true ∧ (s.face k).isSome = true ∧ new[l]? = new[k]?)) ∨
    ∃ t lab, s.changeFaceLabels new size = .ok ⟨true, t, lab⟩ ∧ s.initialized ∧ RenamedBy new size s t ∧
      ∀ f, (t.face f).isSome = true → lab f = f := by
  unfold GMap.changeFaceLabels
  by_cases hi : s.initialized
  swap
  · left; exact ⟨id, by rw [if_pos hi], Or.inl hi⟩
  rw [if_neg (not_not.mpr hi)]
  by_cases hn : new.length = s.nFaces
  swap
  · left; exact ⟨id, by rw [if_pos hn], Or.inr (Or.inl hn)⟩
  rw [if_neg (not_not.mpr hn)]
  have hlt := hM.graph.face_lt
  rcases moveFaces_spec s.face new size (List.range new.length) [] (fun _ => none) id (by simpa using List.nodup_range)
    (by simp) (by simp) (by simp) (by simp) with ⟨h1, h2⟩ | ⟨nf, lab, h1, h2, h3, h4⟩
  · left
    generalize moveFaces s.face new size (List.range new.length) (fun _ => none) id = r at h1
    obtain ⟨r1, r2, r3⟩ := r
    simp only at h1
    subst h1
    refine ⟨r3, rfl, Or.inr (Or.inr ?_)⟩
    rcases h2 with ⟨l, -, h2⟩ | ⟨l, -, k, -, h2⟩
    · exact Or.inl ⟨l, h2⟩
    · exact Or.inr ⟨l, k, h2⟩
  · right
    rw [h1]
    simp only [List.nil_append, List.mem_range] at h2 h3 h4
    have hdef : ∀ l, (s.face l).isSome = true → l < new.length := fun l hl => by rw [hn]; exact hlt l hl
    have hedge : ∀ l ∈ List.range s.nEdges, ∀ e, s.edge l = some e →
        (∃ f t, e.leftF = some f ∧ new[f]? = some t) ∧ ∃ f t, e.rightF = some f ∧ new[f]? = some t := by
      intro l _ e he
      have hl0 : l ≠ 0 := by rintro rfl; rw [hM.graph.edge_zero] at he; cases he
      have key : ∀ d : Int, d.natAbs = l → ∃ f t, e.leftOf d = some f ∧ new[f]? = some t := by
        intro d hd
        obtain ⟨f, F, h1, h2⟩ := (hM.contours hi).face_live d (by unfold GMap.liveD; rw [hd, he]; rfl)
        rw [left?_of (by rw [hd]; exact he)] at h1
        exact ⟨f, _, h1, List.getElem?_eq_getElem (hdef f (by simp [h2]))⟩
      constructor
      · have := key l (by simp)
        unfold Edge.leftOf at this
        rwa [if_pos (by omega)] at this
      · have := key (-(l : Int)) (by simp)
        unfold Edge.leftOf at this
        rwa [if_neg (by omega)] at this
    obtain ⟨edge', e1, e2⟩ := renameEdges_spec new (List.range s.nEdges) { s with
        face := fun l => (nf l).map (·.1)
        nFaces := size } List.nodup_range hedge
    have e2 : ∀ l, edge' l = (s.edge l).map (fun e => { e with leftF := e.leftF.bind (new[·]?), rightF := e.rightF.bind (new[·]?) }) := by
      intro l
      rw [e2]
      by_cases hl : l < s.nEdges
      · rw [if_pos (List.mem_range.mpr hl)]
      · rw [if_neg (fun h => hl (List.mem_range.mp h))]
        have : s.edge l = none := by
          cases h : s.edge l with
          | none => rfl
          | some e => exact absurd (hM.graph.edge_lt l (by simp [h])) hl
        show s.edge l = _
        rw [this]; rfl
    have hfaces : ∀ f F, (nf f).map (·.1) = some F ↔ ∃ l : Nat, s.face l = some F ∧ new[l]? = some f := by
      intro f F
      rw [Option.map_eq_some_iff]
      constructor
      · rintro ⟨⟨G, k⟩, h, rfl⟩
        obtain ⟨-, l, -, h5⟩ := (h2 _ _ _).mp h
        exact ⟨l, h5⟩
      · rintro ⟨l, h5, h6⟩
        exact ⟨(F, f), (h2 _ _ _).mpr ⟨rfl, l, hdef l (by simp [h5]), h5, h6⟩, rfl⟩
    simp only [e1, bind, Outcome.bind_ok]
    refine ⟨_, _, rfl, hi, ⟨⟨_, _, rfl⟩, e2, hfaces, ?_, ?_, ?_, hn⟩, ?_⟩
    · exact fun l k f hl hk => h3 l (hdef l hl) k (hdef k hk) f hl hk
    · exact fun l f hl => h4 l (hdef l hl) f hl
    · exact fun l hl => ⟨_, List.getElem?_eq_getElem (hdef l hl)⟩
    · intro f hf
      cases hv : nf f with
      | none => simp
      | some v =>
        obtain ⟨F, k⟩ := v
        have := ((h2 _ _ _).mp hv).1
        simp [this]

/-! ## the renamed map -/

section
variable {s t : GMap K} {new : List Nat} {size : Nat}

theorem RenamedBy.liveD (h : RenamedBy new size s t) (d : Int) : t.liveD d ↔ s.liveD d := by
  unfold GMap.liveD
  rw [h.edges]
  simp

theorem RenamedBy.left (h : RenamedBy new size s t) (d : Int) : t.left? d = (s.left? d).bind (new[·]?) := by
  unfold GMap.left?
  rw [h.edges]
  cases s.edge d.natAbs with
  | none => rfl
  | some e =>
    simp only [Option.map_some, Option.bind_some, Edge.leftOf]
    split_ifs <;> rfl

theorem RenamedBy.start (h : RenamedBy new size s t) (d : Int) : t.startN? d = s.startN? d := by
  unfold GMap.startN?
  rw [h.edges]
  cases s.edge d.natAbs with
  | none => rfl
  | some e => rfl

theorem RenamedBy.sigma (h : RenamedBy new size s t) : t.sigma = s.sigma ∧ t.sigmaInv = s.sigmaInv ∧ t.node = s.node ∧ t.nNodes = s.nNodes ∧
    t.nEdges = s.nEdges ∧ t.nFaces = size ∧ t.nodeCount = s.nodeCount ∧ t.edgeCount = s.edgeCount ∧ t.faceCount = s.faceCount := by
  obtain ⟨a, b, e⟩ := h.eq
  subst e
  exact ⟨rfl, rfl, rfl, rfl, rfl, rfl, rfl, rfl, rfl⟩

theorem RenamedBy.phi (h : RenamedBy new size s t) : t.phi = s.phi := by
  obtain ⟨a, b, e⟩ := h.eq
  subst e
  rfl

theorem RenamedBy.face (h : RenamedBy new size s t) {l f : Nat} (hl : (s.face l).isSome = true) (hf : new[l]? = some f) : t.face f = s.face l := by
  obtain ⟨F, hF⟩ := Option.isSome_iff_exists.mp hl
  rw [hF]
  exact (h.faces f F).mpr ⟨l, hF, hf⟩

/-- Darts left of which a face lies, before and after. -/
theorem RenamedBy.left_iff (h : RenamedBy new size s t) (hM : MapOK s) (hi : s.initialized) {l f : Nat} (hl : (s.face l).isSome = true)
    (hf : new[l]? = some f) (d : Int) : t.left? d = some f ↔ s.left? d = some l := by
  rw [h.left]
  constructor
  · intro hd
    rw [Option.bind_eq_some_iff] at hd
    obtain ⟨k, h1, h2⟩ := hd
    have hlive : s.liveD d := by
      unfold GMap.left? at h1
      unfold GMap.liveD
      cases he : s.edge d.natAbs with
      | none => rw [he] at h1; cases h1
      | some e => rfl
    obtain ⟨k', F, g1, g2⟩ := (hM.contours hi).face_live d hlive
    rw [g1] at h1
    cases h1
    rw [g1, h.inj _ l f (by simp [g2]) hl h2 hf]
  · intro hd
    rw [hd]; exact hf

theorem RenamedBy.liveFaces (h : RenamedBy new size s t) (hM : MapOK s) : t.liveFaces.card = s.liveFaces.card := by
  symm
  refine Finset.card_bij (fun l _ => new.getD l 0) ?_ ?_ ?_
  · intro l hl
    simp only [GMap.liveFaces, Finset.mem_filter, Finset.mem_range] at hl ⊢
    obtain ⟨f, hf⟩ := h.defd l hl.2
    have hg : new.getD l 0 = f := by rw [List.getD_eq_getElem?_getD, hf]; rfl
    rw [hg, h.sigma.2.2.2.2.2.1, h.face hl.2 hf]
    exact ⟨h.bound l f hl.2 hf, hl.2⟩
  · intro l hl k hk e
    simp only [GMap.liveFaces, Finset.mem_filter, Finset.mem_range] at hl hk
    obtain ⟨f, hf⟩ := h.defd l hl.2
    obtain ⟨g, hg⟩ := h.defd k hk.2
    rw [List.getD_eq_getElem?_getD, List.getD_eq_getElem?_getD, hf, hg] at e
    simp only [Option.getD_some] at e
    subst e
    exact h.inj l k f hl.2 hk.2 hf hg
  · intro f hf
    simp only [GMap.liveFaces, Finset.mem_filter, Finset.mem_range] at hf
    obtain ⟨F, hF⟩ := Option.isSome_iff_exists.mp hf.2
    obtain ⟨l, h1, h2⟩ := (h.faces f F).mp hF
    refine ⟨l, ?_, by rw [List.getD_eq_getElem?_getD, h2]; rfl⟩
    simp only [GMap.liveFaces, Finset.mem_filter, Finset.mem_range]
    exact ⟨hM.graph.face_lt l (by simp [h1]), by simp [h1]⟩

theorem RenamedBy.graphOK (h : RenamedBy new size s t) (hM : MapOK s) : GraphOK t := by
  obtain ⟨q1, q2, q3, q4, q5, q6, q7, q8, q9⟩ := h.sigma
  have g := hM.graph
  have hes : ∀ l, (t.edge l).isSome = (s.edge l).isSome := fun l => by rw [h.edges]; simp
  have hns : t.nextSigma = s.nextSigma := by unfold GMap.nextSigma; rw [q1]
  have hps : t.prevSigma = s.prevSigma := by unfold GMap.prevSigma; rw [q2]
  refine ⟨by rw [q5]; exact g.edges_pos, by rw [h.edges, g.edge_zero]; rfl, by rw [q3, q4]; exact g.node_lt,
    fun l hl => by rw [hes] at hl; rw [q5]; exact g.edge_lt l hl, fun f hf => ?_, ?_, ?_, ?_, ?_, ?_, ?_, ?_, ?_, ?_, ?_, ?_⟩
  · obtain ⟨F, hF⟩ := Option.isSome_iff_exists.mp hf
    obtain ⟨l, h1, h2⟩ := (h.faces f F).mp hF
    rw [q6]
    exact h.bound l f (by simp [h1]) h2
  · rw [q7, g.node_count]; unfold GMap.liveNodes; rw [q3, q4]
  · rw [q8, g.edge_count]; unfold GMap.liveEdges; rw [q5]; simp only [hes]
  · rw [q9, g.face_count, h.liveFaces hM]
  · intro l e he
    rw [h.edges] at he
    obtain ⟨e', h1, rfl⟩ := Option.map_eq_some_iff.mp he
    exact g.pts_ne l e' h1
  · intro d hd
    rw [h.liveD] at hd
    rw [h.liveD, hns, hps]; exact g.sigma_live d hd
  · intro d hd
    rw [h.liveD] at hd
    rw [h.liveD, hns, hps]; exact g.sigmaInv_live d hd
  · intro d n; rw [h.start, q3]; exact g.start_live d n
  · intro d hd
    rw [h.liveD] at hd
    rw [h.start, h.start, hns]; exact g.start_sigma d hd
  · intro n nd hn hz d
    rw [q3] at hn; rw [h.start]; exact g.anchor_zero n nd hn hz d
  · intro n nd hn hz
    rw [q3] at hn; rw [h.start]; exact g.anchor_start n nd hn hz
  · intro n nd hn hz d
    rw [q3] at hn; rw [h.start]
    unfold GMap.sigmaReach
    rw [hns]
    exact g.anchor_cover n nd hn hz d

theorem RenamedBy.mapOK (h : RenamedBy new size s t) (hM : MapOK s) (hi : s.initialized) (h0 : new[0]? = some 0) : MapOK t := by
  have c := hM.contours hi
  have key : ∀ f F, t.face f = some F → ∃ l : Nat, s.face l = some F ∧ new[l]? = some f ∧ ∀ d, t.left? d = some f ↔ s.left? d = some l := by
    intro f F hF
    obtain ⟨l, h1, h2⟩ := (h.faces f F).mp hF
    exact ⟨l, h1, h2, h.left_iff hM hi (by simp [h1]) h2⟩
  have hr : t.phiReach = s.phiReach := by
    unfold GMap.phiReach; rw [h.phi]
  refine ⟨h.graphOK hM, fun _ => ⟨?_, ?_, ?_, ?_, ?_, ?_⟩⟩
  · intro d hd
    obtain ⟨l, F, h1, h2⟩ := c.face_live d ((h.liveD d).mp hd)
    obtain ⟨f, hf⟩ := h.defd l (by simp [h2])
    exact ⟨f, F, by rw [h.left, h1]; exact hf, (h.faces f F).mpr ⟨l, h2, hf⟩⟩
  · intro d hd
    rw [h.left, h.left, h.phi, c.left_phi d ((h.liveD d).mp hd)]
  · intro f F a hF ha
    obtain ⟨l, h1, h2, h3⟩ := key f F hF
    rw [h3]; exact c.anchor_left l F a h1 ha
  · intro f F d hF hd
    obtain ⟨l, h1, h2, h3⟩ := key f F hF
    rw [hr]; exact c.anchor_cover l F d h1 ((h3 d).mp hd)
  · intro f F hF
    obtain ⟨l, h1, h2, h3⟩ := key f F hF
    rw [hr]; exact c.anchor_unique l F h1
  · rw [h.face c.face_zero h0]; exact c.face_zero

theorem RenamedBy.darts (h : RenamedBy new size s t) : t.darts = s.darts := by
  unfold GMap.darts
  rw [h.sigma.2.2.2.2.1]
  refine Finset.filter_congr fun d _ => ?_
  rw [h.edges]; simp

theorem RenamedBy.planarOK (h : RenamedBy new size s t) (hM : MapOK s) (hi : s.initialized) (hP : PlanarOK s) : PlanarOK t := by
  classical
  have hst : t.startN? = s.startN? := funext h.start
  unfold PlanarOK
  rw [h.darts, hst]
  intro w hw
  obtain ⟨c, hc⟩ := hP w hw
  refine ⟨fun o => if hx : ∃ l : Nat, (s.face l).isSome = true ∧ new[l]? = o then c (some hx.choose) else 0, fun d hd => ?_⟩
  have hd' := (mem_darts hM.graph.edge_lt d).mp hd
  have key : ∀ d, s.liveD d → (if hx : ∃ l : Nat, (s.face l).isSome = true ∧ new[l]? = t.left? d then c (some hx.choose) else 0) = c (s.left? d) := by
    intro d hd
    obtain ⟨l, F, h1, h2⟩ := (hM.contours hi).face_live d hd
    obtain ⟨f, hf⟩ := h.defd l (by simp [h2])
    have hex : ∃ l : Nat, (s.face l).isSome = true ∧ new[l]? = t.left? d := ⟨l, by simp [h2], by rw [h.left, h1]; rfl⟩
    rw [dif_pos hex, h1]
    have hs := hex.choose_spec
    have : hex.choose = l := by
      refine h.inj _ l f hs.1 (by simp [h2]) ?_ hf
      rw [hs.2, h.left, h1]; exact hf
    rw [this]
  have hnd : s.liveD (-d) := by unfold GMap.liveD at *; rwa [Int.natAbs_neg]
  show _ = (if hx : ∃ l : Nat, (s.face l).isSome = true ∧ new[l]? = t.left? d then c (some hx.choose) else 0) +
    (if hx : ∃ l : Nat, (s.face l).isSome = true ∧ new[l]? = t.left? (-d) then c (some hx.choose) else 0)
  rw [key d hd', key (-d) hnd]
  exact hc d hd

end

end Verif.GeoMap
