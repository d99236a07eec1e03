import Verif.Locate.Example

/-!
# The faces of a map partition the plane, and operations keep points in their faces

Property theorems (C57).  See `Spec` for what it means to lie in a face.
-/

set_option linter.unusedSectionVars false

namespace Verif.Locate
open Verif Verif.GeoMap Verif.Polygon Verif.Scan Verif.LabelImage

variable {K : Type} [Field K] [LinearOrder K] [IsStrictOrderedRing K]

theorem Drawn.placed {s : GMap K} (hs : Drawn s) : Placed s := by
  induction hs with
  | start h hi hS => exact ⟨h.reach.good, h.geom, hi, hS⟩
  | call h op _ hl hf e ih =>
    obtain ⟨hg, hG, hi, ren, hm, -⟩ := call_moves ih.good ih.geom ih.init hl hf e
    exact ih.next hg hG hi hm
  | rename new size _ h0 e ih =>
    obtain ⟨hg, hR, hi, -⟩ := rename_good ih.good h0 e
    refine ih.next hg (hR.geom ih.good.map hi hg.map ih.geom) ?_ (moves_rename ih.good.map hi h0 hg.map hR)
    obtain ⟨face', edge', heq⟩ := hR.eq
    have := hR.bound 0 0 (ih.good.map.contours hi).face_zero h0
    unfold GMap.initialized
    rw [heq]; exact this

theorem Moves.onEdge {s t : GMap K} {ren : Nat → Nat} (h : Moves s t ren) {c : Pt K} (hc : OnEdge t c) : OnEdge s c := by
  obtain ⟨l, e, he, hq⟩ := hc
  obtain ⟨d', e', h1, h2, -⟩ := h.edge (l : Int) e (by simpa using he) c hq
  exact ⟨_, e', h1, h2⟩

/-- A point of an edge that is no longer on an edge lies in the face the edge's side belongs to now. -/
theorem Placed.freed {s t : GMap K} (hs : Placed s) (ht : Placed t) {ren : Nat → Nat} (h : Moves s t ren) {d : Int} {e : Edge K} {q : Pt K} {f : Nat}
    (he : s.edge d.natAbs = some e) (hq : OnLine e.pts q) (hf : s.left? d = some f) (hn : ¬ OnEdge t q) : Located t q (ren f) := by
  obtain ⟨ε, h0, hb⟩ := exists_box ht.good.map.graph.labels.edge_lt hn
  obtain ⟨c, f', h1, h2, h3, h4, h5⟩ := hs.sub.border d e he q hq ε h0
  rw [hf] at h1
  cases h1
  exact Located.near ht.good.map ht.init ht.geom.geom hb h2 h3 (h.loc c _ h4 h5)

/-! ## The theorems -/

/-- **C57a** At any time the faces partition the plane: every point that is not on an edge lies in exactly one face,
and this is an existing one. -/
theorem faces_partition {s : GMap K} (hs : Drawn s) (c : Pt K) (hc : ¬ OnEdge s c) : ∃! f, Located s c f := by
  obtain ⟨f, h⟩ := hs.placed.sub.located c hc
  exact ⟨f, h, fun f' h' => h'.unique h⟩

/-- **C57b** At any time an edge borders the faces that its darts report: any point of the edge has, arbitrarily near,
points of the face left of the dart. -/
theorem edge_borders {s : GMap K} (hs : Drawn s) {d : Int} {e : Edge K} (he : s.edge d.natAbs = some e) {q : Pt K} (hq : OnLine e.pts q)
    {ε : K} (hε : 0 < ε) : ∃ c f, s.left? d = some f ∧ |c.1 - q.1| < ε ∧ |c.2 - q.2| < ε ∧ ¬ OnEdge s c ∧ Located s c f :=
  hs.placed.sub.border d e he q hq ε hε

/-- **C57c** No operation moves a point to another face: a point off the edges stays off the edges, and it stays in its
face as long as this exists; no operation but `mergeFaces` or `removeEdge` removes a face. -/
theorem call_keeps_face {s t : GMap K} (hs : Drawn s) {h : Hooks K} {op : LOp K} (hl : op.op.legal s) (hf : op.fits s) (e : op.op.run h s = .ok t)
    {c : Pt K} (hc : ¬ OnEdge s c) :
    ¬ OnEdge t c ∧ ∀ f, Located s c f → (t.face f).isSome = true → Located t c f := by
  have hp := hs.placed
  obtain ⟨-, -, -, ren, hm, hr⟩ := call_moves hp.good hp.geom hp.init hl hf e
  exact ⟨fun h => hc (hm.onEdge h), fun f h1 h2 => by have := hm.loc c f hc h1; rwa [hr f h2] at this⟩

/-- **C57d** `mergeFaces` unites the two faces: afterwards the surviving face consists of the points of both and the
points of the removed edge (that are on no other edge); all other faces keep exactly their points. -/
theorem mergeFaces_points {s t : GMap K} (hs : Drawn s) {h : Hooks K} {d : Int} {sl : Nat} (e : s.mergeFaces h d = .ok (some sl, t)) :
    ∃ ml ed, ((s.left? d = some sl ∧ s.left? (-d) = some ml) ∨ (s.left? d = some ml ∧ s.left? (-d) = some sl)) ∧ sl ≠ ml ∧
    s.edge d.natAbs = some ed ∧
    (∀ c, OnEdge t c → OnEdge s c) ∧ (∀ c, OnEdge s c → ¬ OnEdge t c → OnLine ed.pts c) ∧
    (∀ c, ¬ OnEdge t c → (Located t c sl ↔ OnLine ed.pts c ∨ (¬ OnEdge s c ∧ (Located s c sl ∨ Located s c ml)))) ∧
    ∀ c f, f ≠ sl → ¬ OnEdge t c → (Located t c f ↔ ¬ OnEdge s c ∧ f ≠ ml ∧ Located s c f) := by
  have hp := hs.placed
  have hrun : (Op.mergeFaces d : Op K).run h s = .ok t := by
    show (s.mergeFaces h d).map (·.2) = .ok t
    rw [e]; rfl
  have ht : Placed t := (Drawn.call (op := .mergeFaces d) h hs trivial trivial hrun).placed
  obtain ⟨ml, E, hm⟩ := mergeFaces_moves hp.good ht.good.map e
  obtain ⟨ed, hed⟩ := Option.isSome_iff_exists.mp (show (s.edge d.natAbs).isSome = true from E.edge_gone.1)
  have hold : ∀ c, OnEdge s c → ¬ OnEdge t c → OnLine ed.pts c := by
    rintro c ⟨l, e', he', hq⟩ hn
    by_cases hl : l = d.natAbs
    · rw [hl, hed] at he'; cases he'; exact hq
    · exfalso
      have := congrArg (Option.map fun x => x.2.2.1) (E.edges l hl)
      rw [he'] at this
      cases h1 : t.edge l with
      | none => rw [h1] at this; cases this
      | some a =>
        rw [h1] at this
        simp only [Option.map_some, Option.some.injEq] at this
        exact hn ⟨l, a, h1, by rw [this]; exact hq⟩
  have hfree : ∀ c, ¬ OnEdge t c → OnLine ed.pts c → Located t c sl := by
    intro c hn hq
    rcases E.sides with ⟨h1, h2⟩ | ⟨h1, h2⟩
    · have := hp.freed ht hm hed hq h1 hn
      rwa [if_neg E.distinct.1] at this
    · have := hp.freed ht hm hed hq h1 hn
      rwa [if_pos rfl] at this
  have hoff : ∀ c, ¬ OnEdge t c → ¬ OnLine ed.pts c → ¬ OnEdge s c := fun c h1 h2 h3 => h2 (hold c h3 h1)
  refine ⟨ml, ed, E.sides, E.distinct.1, hed, fun c => hm.onEdge, hold, fun c hn => ⟨fun hl => ?_, ?_⟩, fun c f hf hn => ⟨fun hl => ?_, ?_⟩⟩
  · by_cases hq : OnLine ed.pts c
    · exact Or.inl hq
    · right
      have hns := hoff c hn hq
      refine ⟨hns, ?_⟩
      obtain ⟨f, hlf⟩ := hp.sub.located c hns
      have h1 := (hm.loc c f hns hlf).unique hl
      split_ifs at h1 with h2
      · subst h2; exact Or.inr hlf
      · subst h1; exact Or.inl hlf
  · rintro (hq | ⟨hns, h1 | h1⟩)
    · exact hfree c hn hq
    · have := hm.loc c _ hns h1
      rwa [if_neg E.distinct.1] at this
    · have := hm.loc c _ hns h1
      rwa [if_pos rfl] at this
  · by_cases hq : OnLine ed.pts c
    · exact absurd (hl.unique (hfree c hn hq)) hf
    · have hns := hoff c hn hq
      obtain ⟨f', hlf⟩ := hp.sub.located c hns
      have h1 := (hm.loc c f' hns hlf).unique hl
      split_ifs at h1 with h2
      · exact absurd h1.symm hf
      · subst h1; exact ⟨hns, h2, hlf⟩
  · rintro ⟨hns, h1, h2⟩
    have := hm.loc c f hns h2
    rwa [if_neg h1] at this

/-- **C57e** `removeBridge` adds the points of the removed edge (that are on no other edge) to its face; nothing else
changes. -/
theorem removeBridge_points {s t : GMap K} (hs : Drawn s) {h : Hooks K} {d : Int} {f : Nat} (e : s.removeBridge h d = .ok (some f, t)) :
    ∃ ed, s.left? d = some f ∧ s.edge d.natAbs = some ed ∧
    (∀ c, OnEdge t c → OnEdge s c) ∧ (∀ c, OnEdge s c → ¬ OnEdge t c → OnLine ed.pts c) ∧
    ∀ c k, ¬ OnEdge t c → (Located t c k ↔ (k = f ∧ OnLine ed.pts c) ∨ (¬ OnEdge s c ∧ Located s c k)) := by
  have hp := hs.placed
  have hrun : (Op.removeBridge d : Op K).run h s = .ok t := by
    show (s.removeBridge h d).map (·.2) = .ok t
    rw [e]; rfl
  have ht : Placed t := (Drawn.call (op := .removeBridge d) h hs trivial trivial hrun).placed
  have E := removeBridge_effect hp.good e
  have hm := moves_removeBridge hp.good.map ht.good.map E
  obtain ⟨ed, hed⟩ := Option.isSome_iff_exists.mp (show (s.edge d.natAbs).isSome = true from E.edge_gone.1)
  have hold : ∀ c, OnEdge s c → ¬ OnEdge t c → OnLine ed.pts c := by
    rintro c ⟨l, e', he', hq⟩ hn
    by_cases hl : l = d.natAbs
    · rw [hl, hed] at he'; cases he'; exact hq
    · exact absurd ⟨l, e', by rw [E.edges l hl]; exact he', hq⟩ hn
  refine ⟨ed, E.face.1, hed, fun c => hm.onEdge, hold, fun c k hn => ⟨fun hl => ?_, ?_⟩⟩
  · by_cases hq : OnLine ed.pts c
    · exact Or.inl ⟨hl.unique (hp.freed ht hm hed hq E.face.1 hn), hq⟩
    · have hns : ¬ OnEdge s c := fun h => hq (hold c h hn)
      obtain ⟨f', hlf⟩ := hp.sub.located c hns
      have := (hm.loc c f' hns hlf).unique hl
      exact Or.inr ⟨hns, this ▸ hlf⟩
  · rintro (⟨rfl, hq⟩ | ⟨hns, h1⟩)
    · exact hp.freed ht hm hed hq E.face.1 hn
    · exact hm.loc c k hns h1

/-- **C57f** `mergeEdges`, `splitEdge` (at a point of the edge) and the calls that change no edge leave every face exactly
its points, and the edges together keep theirs. -/
theorem keeps_points {s t : GMap K} (hs : Drawn s) {h : Hooks K} {op : LOp K} (hl : op.op.legal s) (hf : op.fits s) (e : op.op.run h s = .ok t)
    (hop : (∃ d, op = .mergeEdges d) ∨ (∃ l i np, op = .splitEdge l i np) ∨ (∃ p n, op = .addNode p n) ∨ (∃ n, op = .removeIsolatedNode n) ∨
      (∃ f, op = .area f) ∨ ∃ l x, op = .setFlags l x) :
    (∀ c, OnEdge t c ↔ OnEdge s c) ∧ ∀ c f, ¬ OnEdge s c → (Located t c f ↔ Located s c f) := by
  have hp := hs.placed
  obtain ⟨hk, hfs⟩ := call_keeps hp.good hp.geom hl hf e hop
  have hn : ∀ c, OnEdge t c → OnEdge s c := fun c => by
    contrapose
    exact fun hc => (call_keeps_face hs hl hf e hc).1
  have hgo : ∀ c f, ¬ OnEdge s c → Located s c f → Located t c f := fun c f hc h1 =>
    (call_keeps_face hs hl hf e hc).2 f h1 (by rw [hfs]; exact h1.1)
  refine ⟨fun c => ⟨hn c, hk c⟩, fun c f hc => ⟨fun h1 => ?_, hgo c f hc⟩⟩
  obtain ⟨f', h2⟩ := hp.sub.located c hc
  rw [h1.unique (hgo c f' hc h2)]
  exact h2

/-- **C57g** `changeFaceLabels` renames the faces and moves no point. -/
theorem changeFaceLabels_points {s t : GMap K} (hs : Drawn s) {new : List Nat} {size : Nat} {lab : Nat → Nat} (h0 : new[0]? = some 0)
    (e : s.changeFaceLabels new size = .ok ⟨true, t, lab⟩) :
    (∀ c, OnEdge t c ↔ OnEdge s c) ∧
    ∀ c f, ¬ OnEdge s c → (Located s c f → ∃ k, new[f]? = some k ∧ Located t c k) ∧ (Located t c f → ∃ l : Nat, new[l]? = some f ∧ Located s c l) := by
  have hp := hs.placed
  obtain ⟨hg, hR, hi, -⟩ := rename_good hp.good h0 e
  have hm := moves_rename hp.good.map hi h0 hg.map hR
  have hgo : ∀ c f, ¬ OnEdge s c → Located s c f → ∃ k, new[f]? = some k ∧ Located t c k := by
    intro c f hc h1
    obtain ⟨k, hk⟩ := hR.defd f h1.1
    have := hm.loc c f hc h1
    simp only [List.getD_eq_getElem?_getD, hk, Option.getD_some] at this
    exact ⟨k, hk, this⟩
  refine ⟨fun c => ⟨hm.onEdge, ?_⟩, fun c f hc => ⟨hgo c f hc, fun h1 => ?_⟩⟩
  · rintro ⟨l, a, ha, hq⟩
    have := hR.edges l
    rw [ha] at this
    exact ⟨l, _, this, hq⟩
  · obtain ⟨l, hl⟩ := hp.sub.located c hc
    obtain ⟨k, hk, h2⟩ := hgo c l hc hl
    rw [h2.unique h1] at hk
    exact ⟨l, hk, hl⟩

/-! ### Non-vacuity: two nested rectangles; the inner one is merged into the outer one -/

theorem pair_drawn : Drawn FaceStats.pair := .start FaceStats.pair_reach (by decide +kernel) pair_subdivision

/-- the inner rectangle's edge removed -/
def united : GMap ℚ := (Example.val (none, GMap.empty) (FaceStats.pair.mergeFaces Hooks.none 2)).2

theorem united_ok : FaceStats.pair.mergeFaces Hooks.none 2 = .ok (some 1, united) := by
  have h := Example.ok_val (a := (none, GMap.empty)) (o := FaceStats.pair.mergeFaces Hooks.none 2) (by decide +kernel)
  have h1 : (Example.val (none, GMap.empty) (FaceStats.pair.mergeFaces Hooks.none 2)).1 = some 1 := by decide +kernel
  rw [h]
  exact congrArg Outcome.ok (Prod.ext h1 rfl)

example : ∃! f, Located FaceStats.pair (7, 7) f := faces_partition pair_drawn (7, 7) (by
  rw [pair_onEdge]; unfold OnRect; norm_num)

/-- A point of the ring, of the inner rectangle and of the removed edge lie in the united face now. -/
example : Located united (7, 7) 1 ∧ Located united (2, 2) 1 ∧ Located united (1, 2) 1 := by
  obtain ⟨ml, ed, hs, -, hed, hsub, -, hl, -⟩ := mergeFaces_points pair_drawn united_ok
  have hml : ml = 3 := by
    have h2 : FaceStats.pair.left? 2 = some 3 := pair_left.2.2.1
    rcases hs with ⟨h, -⟩ | ⟨h, -⟩
    · rw [h2] at h; cases h
    · rw [h2] at h; exact (Option.some.inj h).symm
  subst hml
  have hp : ed.pts = rect 1 1 5 5 := by
    rcases pair_edges 2 ed hed with ⟨h, -⟩ | ⟨-, h⟩
    · cases h
    · exact h
  have hone : ∀ c, OnEdge united c → OnRect 0 0 9 9 c := by
    rintro c ⟨l, e, he, hq⟩
    have h2 : united.edge 2 = none := by
      have : (united.edge 2).isSome = false := by decide +kernel
      simpa using this
    have h1 : (united.edge 1).map (·.pts) = some (rect 0 0 9 9) := by decide +kernel
    have hlt : l < 3 := by
      have ht : Good united := (Drawn.call (op := .mergeFaces 2) Hooks.none pair_drawn trivial trivial
        (by show (FaceStats.pair.mergeFaces Hooks.none 2).map (·.2) = _; rw [united_ok]; rfl)).placed.good
      have := ht.map.graph.labels.edge_lt l (by rw [he]; rfl)
      have h3 : united.nEdges = 3 := by decide +kernel
      omega
    have h0 : united.edge 0 = none := by
      have : (united.edge 0).isSome = false := by decide +kernel
      simpa using this
    obtain rfl | rfl | rfl : l = 0 ∨ l = 1 ∨ l = 2 := by omega
    · rw [h0] at he; cases he
    · rw [he] at h1
      have h1 : e.pts = rect 0 0 9 9 := Option.some.inj h1
      rw [h1, onLine_rect (by norm_num) (by norm_num)] at hq
      exact hq
    · rw [h2] at he; cases he
  refine ⟨(hl _ ?_).mpr (Or.inr ⟨?_, Or.inl ?_⟩), (hl _ ?_).mpr (Or.inr ⟨?_, Or.inr ?_⟩), (hl _ ?_).mpr (Or.inl ?_)⟩
  · intro h; have := hone _ h; unfold OnRect at this; norm_num at this
  · rw [pair_onEdge]; unfold OnRect; norm_num
  · have := pair_located (7, 7)
    have h : pairFace (7, 7) = 1 := by decide +kernel
    rwa [h] at this
  · intro h; have := hone _ h; unfold OnRect at this; norm_num at this
  · rw [pair_onEdge]; unfold OnRect; norm_num
  · have := pair_located (2, 2)
    have h : pairFace (2, 2) = 3 := by decide +kernel
    rwa [h] at this
  · intro h; have := hone _ h; unfold OnRect at this; norm_num at this
  · rw [hp, onLine_rect (by norm_num) (by norm_num)]; unfold OnRect; norm_num

/-- splitting the inner edge at one of its points keeps all faces -/
example : ∃ t, (Op.splitEdge 2 1 (some (3, 5)) : Op ℚ).run Hooks.none FaceStats.pair = .ok t ∧
    ∀ c f, ¬ OnEdge FaceStats.pair c → (Located t c f ↔ Located FaceStats.pair c f) := by
  have e := Example.ok_val (a := GMap.empty) (o := (Op.splitEdge 2 1 (some (3, 5)) : Op ℚ).run Hooks.none FaceStats.pair) (by decide +kernel)
  refine ⟨_, e, (keeps_points (op := .splitEdge 2 1 (some (3, 5))) pair_drawn trivial ?_ e (Or.inr (Or.inl ⟨_, _, _, rfl⟩))).2⟩
  intro ed a b he ha hb
  rcases pair_edges 2 ed he with ⟨h, -⟩ | ⟨-, h⟩
  · cases h
  · rw [h] at ha hb
    cases ha
    cases hb
    exact ⟨1 / 2, by norm_num, by norm_num, by norm_num⟩

end Verif.Locate
