import Verif.Query.Spec
import Verif.Query.Lemmas

/-! # Bounding boxes of faces: the steps -/

set_option linter.unusedSectionVars false

namespace Verif.Query
open Verif Verif.GeoMap Verif.Polygon Verif.Scan Verif.LabelImage Verif.PermLemmas Verif.Locate

variable {K : Type} [Field K] [LinearOrder K] [IsStrictOrderedRing K]

/-! ## Boxes -/

/-- A box is closed. -/
theorem inBox_closed {x : Box K} {c : Pt K} (h : ∀ ε : K, 0 < ε → ∃ c' : Pt K, |c'.1 - c.1| < ε ∧ |c'.2 - c.2| < ε ∧ inBox x c' = true) : inBox x c = true := by
  by_contra hn
  cases x with
  | none =>
    obtain ⟨c', -, -, h⟩ := h 1 one_pos
    cases h
  | some x =>
    obtain ⟨lo, hi⟩ := x
    simp only [inBox, decide_eq_true_eq] at hn h
    have key : ∀ ε : K, 0 < ε → ¬ ∀ c' : Pt K, |c'.1 - c.1| < ε → |c'.2 - c.2| < ε → ¬ (lo.1 ≤ c'.1 ∧ c'.1 ≤ hi.1 ∧ lo.2 ≤ c'.2 ∧ c'.2 ≤ hi.2) := by
      intro ε hε hh
      obtain ⟨c', h1, h2, h3⟩ := h ε hε
      exact hh c' h1 h2 h3
    by_cases h1 : lo.1 ≤ c.1
    · by_cases h2 : c.1 ≤ hi.1
      · by_cases h3 : lo.2 ≤ c.2
        · by_cases h4 : c.2 ≤ hi.2
          · exact hn ⟨h1, h2, h3, h4⟩
          · push Not at h4
            refine key (c.2 - hi.2) (by linarith) fun c' _ q r => ?_
            have := (abs_lt.mp q).1; linarith [r.2.2.2]
        · push Not at h3
          refine key (lo.2 - c.2) (by linarith) fun c' _ q r => ?_
          have := (abs_lt.mp q).2; linarith [r.2.2.1]
      · push Not at h2
        refine key (c.1 - hi.1) (by linarith) fun c' q _ r => ?_
        have := (abs_lt.mp q).1; linarith [r.2.1]
    · push Not at h1
      refine key (lo.1 - c.1) (by linarith) fun c' q _ r => ?_
      have := (abs_lt.mp q).2; linarith [r.1]

theorem inBox_union {x y : Box K} {c : Pt K} (h : inBox x c = true ∨ inBox y c = true) : inBox (boxUnion x y) c = true := by
  cases y with
  | none =>
    rcases h with h | h
    · exact h
    · cases h
  | some y =>
    obtain ⟨lo, hi⟩ := y
    cases x with
    | none =>
      rcases h with h | h
      · cases h
      · simp only [inBox, boxUnion, boxPoint, decide_eq_true_eq] at h ⊢
        exact ⟨(min_le_left _ _).trans h.1, h.2.1.trans (le_max_right _ _), (min_le_left _ _).trans h.2.2.1, h.2.2.2.trans (le_max_right _ _)⟩
    | some x =>
      obtain ⟨l, u⟩ := x
      simp only [inBox, boxUnion, boxPoint, decide_eq_true_eq] at h ⊢
      rcases h with h | h
      · exact ⟨(min_le_left _ _).trans ((min_le_left _ _).trans h.1), h.2.1.trans ((le_max_left _ _).trans (le_max_left _ _)),
          (min_le_left _ _).trans ((min_le_left _ _).trans h.2.2.1), h.2.2.2.trans ((le_max_left _ _).trans (le_max_left _ _))⟩
      · exact ⟨((min_le_left _ _).trans (min_le_right _ _)).trans h.1, h.2.1.trans (le_max_right _ _),
          ((min_le_left _ _).trans (min_le_right _ _)).trans h.2.2.1, h.2.2.2.trans (le_max_right _ _)⟩

/-- A box that contains the faces that become one contains this face. -/
theorem covers_next {s t : GMap K} (hs : Placed s) (ht : Placed t) {ren : Nat → Nat} (hm : Moves s t ren) {f : Nat} {x : Box K}
    (hx : ∀ k, (s.face k).isSome = true → ren k = f → Covers s x k) : Covers t x f := by
  intro c hc hl
  by_cases hcs : OnEdge s c
  · obtain ⟨l, e, he, hq⟩ := hcs
    have he' : s.edge ((l : Int)).natAbs = some e := by simpa using he
    obtain ⟨k, F, hk, hF⟩ := (hs.good.map.contours hs.init).face_live (l : Int) (liveD_edge he')
    have h1 := hs.freed ht hm he' hq hk hc
    have hren := h1.unique hl
    refine inBox_closed fun ε hε => ?_
    obtain ⟨c', k', a1, a2, a3, a4, a5⟩ := hs.sub.border l e he' c hq ε hε
    rw [hk] at a1; cases a1
    exact ⟨c', a2, a3, hx k (by rw [hF]; rfl) hren c' a4 a5⟩
  · obtain ⟨k, hk⟩ := hs.sub.located c hcs
    exact hx k hk.1 ((hm.loc c k hcs hk).unique hl) c hcs hk

/-- All boxes contain their faces. -/
def BoxesOK (g : GMap K) (b : Boxes K) : Prop := ∀ f x, b f = some x → Covers g x f

/-- First contours are outer contours. -/
theorem Oriented.outer {g : GMap K} (hP : Placed g) (hO : Oriented g) {f : Nat} {F : Face K} (hF : g.face f = some F) (hf : f ≠ 0) {c : Pt K} (hc : ¬ OnEdge g c) :
    ∃ a as, F.anchors = a :: as ∧ (Located g c f ↔ contourWind g c a % 2 = 1 ∧ ∀ b ∈ as, ¬ contourWind g c b % 2 = 1) ∧
      (Located g c f → contourWind g c a = 1) := by
  obtain ⟨a, as, ha, hw, hws⟩ := (hO c hc f F hF).1 hf
  obtain ⟨k, hk⟩ := hP.sub.located c hc
  have hsum := faceWind_contours hP.good.map hP.init hF c
  rw [hk.2 f (by rw [hF]; rfl), ha, List.map_cons, List.sum_cons, if_neg hf, sub_zero] at hsum
  have hneg : ∀ l : List Int, (∀ b ∈ l, contourWind g c b = 0 ∨ contourWind g c b = -1) →
      (l.map fun a => contourWind g c a).sum ≤ 0 ∧ ((l.map fun a => contourWind g c a).sum = 0 ↔ ∀ b ∈ l, contourWind g c b = 0) := by
    intro l
    induction l with
    | nil => simp
    | cons b l ih =>
      intro hl
      obtain ⟨i1, i2⟩ := ih fun x hx => hl x (List.mem_cons_of_mem _ hx)
      rw [List.map_cons, List.sum_cons]
      rcases hl b List.mem_cons_self with h | h
      · rw [h]
        refine ⟨by omega, ?_⟩
        rw [zero_add, i2]
        constructor
        · intro h' x hx
          rcases List.mem_cons.mp hx with rfl | hx
          · exact h
          · exact h' x hx
        · exact fun h' x hx => h' x (List.mem_cons_of_mem _ hx)
      · refine ⟨by omega, ⟨fun h' => by omega, fun h' => ?_⟩⟩
        have := h' b List.mem_cons_self
        omega
  obtain ⟨n1, n2⟩ := hneg as hws
  have hodd : (∀ b ∈ as, ¬ contourWind g c b % 2 = 1) ↔ ∀ b ∈ as, contourWind g c b = 0 := by
    constructor
    · intro h b hb
      rcases hws b hb with h' | h'
      · exact h'
      · have := h b hb
        rw [h'] at this
        exact absurd rfl this
    · intro h b hb
      rw [h b hb]
      decide
  refine ⟨a, as, ha, ?_, ?_⟩
  · rw [hodd, ← n2]
    constructor
    · intro hl
      rw [if_pos (hl.unique hk)] at hsum
      rcases hw with h | h <;> rw [h] at hsum ⊢
      · omega
      · exact ⟨by decide, by omega⟩
    · rintro ⟨h1, h2⟩
      have : f = k := by
        by_contra hne
        rw [if_neg hne] at hsum
        rcases hw with h | h <;> omega
      rw [this]; exact hk
  · intro hl
    rw [if_pos (hl.unique hk)] at hsum
    rcases hw with h | h
    · omega
    · exact h

theorem Oriented.zero {g : GMap K} (hP : Placed g) (hO : Oriented g) {F : Face K} (hF : g.face 0 = some F) {c : Pt K} (hc : ¬ OnEdge g c) :
    Located g c 0 ↔ ∀ b ∈ F.anchors, ¬ contourWind g c b % 2 = 1 := by
  have hws := (hO c hc 0 F hF).2 rfl
  obtain ⟨k, hk⟩ := hP.sub.located c hc
  have hsum := faceWind_contours hP.good.map hP.init hF c
  rw [hk.2 0 (by rw [hF]; rfl), if_pos rfl] at hsum
  have hneg : ∀ l : List Int, (∀ b ∈ l, contourWind g c b = 0 ∨ contourWind g c b = -1) →
      (l.map fun a => contourWind g c a).sum ≤ 0 ∧ ((l.map fun a => contourWind g c a).sum = 0 ↔ ∀ b ∈ l, ¬ contourWind g c b % 2 = 1) := by
    intro l
    induction l with
    | nil => simp
    | cons b l ih =>
      intro hl
      obtain ⟨i1, i2⟩ := ih fun x hx => hl x (List.mem_cons_of_mem _ hx)
      rw [List.map_cons, List.sum_cons]
      rcases hl b List.mem_cons_self with h | h
      · rw [h]
        refine ⟨by omega, ?_⟩
        rw [zero_add, i2]
        constructor
        · intro h' x hx
          rcases List.mem_cons.mp hx with rfl | hx
          · rw [h]; decide
          · exact h' x hx
        · exact fun h' x hx => h' x (List.mem_cons_of_mem _ hx)
      · refine ⟨by omega, ⟨fun h' => by omega, fun h' => ?_⟩⟩
        have := h' b List.mem_cons_self
        omega
  obtain ⟨n1, n2⟩ := hneg F.anchors hws
  rw [← n2, ← hsum]
  constructor
  · intro hl
    rw [if_pos (hl.unique hk)]; rfl
  · intro h
    have : 0 = k := by
      by_contra hne
      rw [if_neg hne] at h
      omega
    rw [this]; exact hk

/-- `boundingBox()`. -/
theorem faceBox_ok {g : GMap K} (hP : Placed g) {b : Boxes K} (hb : BoxesOK g b) {f : Nat} (hf : f ≠ 0) (hlive : (g.face f).isSome = true)
    (hO : b f = none → Oriented g) :
    ∃ x b', faceBox g b f = .ok (x, b') ∧ Covers g x f ∧ BoxesOK g b' := by
  unfold faceBox
  rw [if_neg hf]
  cases hbf : b f with
  | some x => exact ⟨x, b, rfl, hb f x hbf, hb⟩
  | none =>
    have hO := hO hbf
    obtain ⟨F, hF⟩ := Option.isSome_iff_exists.mp hlive
    simp only [derefFace_of hP.good.map.graph.labels hF, bind, Outcome.bind_ok]
    -- some point off the edges exists
    obtain ⟨a, as, ha⟩ : ∃ a as, F.anchors = a :: as := by
      obtain ⟨c, hc⟩ : ∃ c : Pt K, ¬ OnEdge g c := by
        by_contra hn
        push Not at hn
        obtain ⟨l, e, he, hq⟩ := hn (0, 0)
        obtain ⟨c, _, _, _, _, hc, _⟩ := hP.sub.border (l : Int) e (by simpa using he) _ hq 1 one_pos
        exact hc (hn c)
      obtain ⟨a, as, ha, -⟩ := (hO c hc f F hF).1 hf
      exact ⟨a, as, ha⟩
    have hla := (hP.good.map.contours hP.init).anchor_left f F a hF (by rw [ha]; simp)
    have hal : g.liveD a := by
      unfold GMap.left? at hla
      unfold GMap.liveD
      cases he : g.edge a.natAbs with
      | none => rw [he] at hla; cases hla
      | some e => rfl
    obtain ⟨x, m, h1, h2, h3, h4⟩ := boxLoop_of hP.good.map hP.init hP.geom.geom hal
    have hcov : Covers g x f := by
      intro c hc hl
      obtain ⟨a', as', ha', -, h5⟩ := hO.outer hP hF hf hc
      rw [ha] at ha'; cases ha'
      by_contra hn
      have := h4 c (by simpa using hn)
      have := h5 hl
      omega
    refine ⟨x, Function.update b f (some x), ?_, hcov, fun k y hy => ?_⟩
    · simp only [ha, h1, Outcome.bind_ok]
    · by_cases hk : k = f
      · subst hk
        rw [Function.update_self] at hy
        cases hy; exact hcov
      · rw [Function.update_of_ne hk] at hy
        exact hb k y hy

theorem faceBox_boxes {g : GMap K} (hP : Placed g) {b b' : Boxes K} (hb : BoxesOK g b) {f : Nat} (hlive : (g.face f).isSome = true)
    (hO : Oriented g) {x : Box K} (e : faceBox g b f = .ok (x, b')) : Covers g x f ∧ BoxesOK g b' := by
  by_cases hf : f = 0
  · unfold faceBox at e
    rw [if_pos hf] at e; cases e
  · obtain ⟨y, b'', e', h1, h2⟩ := faceBox_ok hP hb hf hlive fun _ => hO
    rw [e'] at e; cases e
    exact ⟨h1, h2⟩

theorem mergeBoxes_ok {s t : GMap K} (hs : Placed s) (ht : Placed t) {sl ml : Nat} (hm : Moves s t fun f => if f = ml then sl else f) (hml : ml ≠ 0)
    (hlive : (s.face ml).isSome = true) {b : Boxes K} (hb : BoxesOK s b) (hO : Oriented s) :
    ∃ b', mergeBoxes s b sl ml = .ok b' ∧ BoxesOK t b' := by
  have other : ∀ f x, f ≠ sl → f ≠ ml → b f = some x → Covers t x f := by
    intro f x h1 h2 hx
    refine covers_next hs ht hm fun k _ hk => ?_
    split_ifs at hk with h
    · exact absurd hk.symm h1
    · subst hk; exact hb k x hx
  unfold mergeBoxes
  cases hx : b sl with
  | none =>
    refine ⟨_, rfl, fun f x hf => ?_⟩
    by_cases h1 : f = ml
    · subst h1; rw [Function.update_self] at hf; cases hf
    · rw [Function.update_of_ne h1] at hf
      refine other f x ?_ h1 hf
      rintro rfl
      rw [hx] at hf; cases hf
  | some x =>
    obtain ⟨y, b', e, hy, -⟩ := faceBox_ok hs hb hml hlive fun _ => hO
    refine ⟨_, by simp only [e, bind, Outcome.bind_ok]; rfl, fun f z hf => ?_⟩
    by_cases h1 : f = sl
    · subst h1
      rw [Function.update_self] at hf
      cases hf
      refine covers_next hs ht hm fun k _ hk c hc hl => inBox_union ?_
      by_cases h : k = ml
      · right; rw [h] at hl; exact hy c hc hl
      · left; rw [if_neg h] at hk; subst hk; exact hb k x hx c hc hl
    · rw [Function.update_of_ne h1] at hf
      by_cases h2 : f = ml
      · subst h2; rw [Function.update_self] at hf; cases hf
      · rw [Function.update_of_ne h2] at hf
        exact other f z h1 h2 hf

/-! ## Calls with and without label image -/

section calls
variable [FloorRing K]

theorem associate_pix {g g' : GMap K} {f : Nat} {px : List (Int × Int)} (e : LMap.associate g f px = .ok g') : PixChanged g g' := by
  unfold LMap.associate at e
  split_ifs at e
  · cases e; exact .refl _
  · obtain ⟨F, hF, e⟩ := Outcome.bind_eq_ok.mp e
    cases e
    unfold GMap.derefFace at hF
    refine pixChanged_set ?_ _
    cases h : g.face f with
    | none =>
      simp only [h] at hF
      split_ifs at hF
    | some F' =>
      simp only [h] at hF
      split_ifs at hF
      cases hF; rfl

theorem mergeFaces_pix {m n : LMap K} {h : Hooks K} {d : Int} {r : Option Nat} {px : List (Int × Int)} (e : m.mergeFaces h d = .ok (r, n, px)) :
    ∃ g, m.g.mergeFaces h d = .ok (r, g) ∧ PixChanged g n.g ∧ (m.img = none → n = { m with g := n.g }) := by
  unfold LMap.mergeFaces at e
  obtain ⟨ed, -, e⟩ := Outcome.bind_eq_ok.mp e
  obtain ⟨⟨r', g⟩, e', e⟩ := Outcome.bind_eq_ok.mp e
  simp only at e
  split at e
  · next hi =>
    split at e
    · cases e
    · obtain ⟨lut, -, e⟩ := Outcome.bind_eq_ok.mp e
      obtain ⟨g', h1, e⟩ := Outcome.bind_eq_ok.mp e
      cases e
      exact ⟨g, e', associate_pix h1, fun hn => by rw [hi] at hn; cases hn⟩
  · cases e
    exact ⟨g, e', .refl _, fun _ => rfl⟩

theorem removeBridge_pix {m n : LMap K} {h : Hooks K} {d : Int} {r : Option Nat} {px : List (Int × Int)} (e : m.removeBridge h d = .ok (r, n, px)) :
    ∃ g, m.g.removeBridge h d = .ok (r, g) ∧ PixChanged g n.g ∧ (m.img = none → n = { m with g := n.g }) := by
  unfold LMap.removeBridge at e
  obtain ⟨ed, -, e⟩ := Outcome.bind_eq_ok.mp e
  obtain ⟨⟨r', g⟩, e', e⟩ := Outcome.bind_eq_ok.mp e
  simp only at e
  split at e
  · next hi =>
    obtain ⟨g', h1, e⟩ := Outcome.bind_eq_ok.mp e
    cases e
    exact ⟨g, e', associate_pix h1, fun hn => by rw [hi] at hn; cases hn⟩
  · cases e
    exact ⟨g, e', .refl _, fun _ => rfl⟩

/-- The operations do to the map what they do without a label image. -/
theorem run_pix {m n : LMap K} (hi : m.g.initialized) {h : Hooks K} {op : LOp K} (e : op.run h m = .ok n) :
    ∃ t, op.op.run h m.g = .ok t ∧ PixChanged t n.g := by
  cases op with
  | addNode p l => cases e; exact ⟨_, rfl, .refl _⟩
  | removeIsolatedNode k =>
    obtain ⟨r, e₁, rfl⟩ := map_ok e
    clear e
    have e := e₁
    exact ⟨r.2, by show (m.g.removeIsolatedNode h k).map _ = _; rw [e]; rfl, .refl _⟩
  | area f =>
    obtain ⟨r, e₁, rfl⟩ := map_ok e
    clear e
    have e := e₁
    exact ⟨r.2, by show (m.g.faceArea (some f)).map _ = _; rw [e]; rfl, .refl _⟩
  | setFlags l x =>
    obtain ⟨r, e₁, rfl⟩ := map_ok e
    clear e
    have e := e₁
    exact ⟨r, e, .refl _⟩
  | removeBridge d =>
    obtain ⟨⟨r, n', px⟩, e₁, rfl⟩ := map_ok e
    clear e
    have e := e₁
    obtain ⟨g, h1, h2, -⟩ := removeBridge_pix e
    exact ⟨g, by show (m.g.removeBridge h d).map _ = _; rw [h1]; rfl, h2⟩
  | mergeFaces d =>
    obtain ⟨⟨r, n', px⟩, e₁, rfl⟩ := map_ok e
    clear e
    have e := e₁
    obtain ⟨g, h1, h2, -⟩ := mergeFaces_pix e
    exact ⟨g, by show (m.g.mergeFaces h d).map _ = _; rw [h1]; rfl, h2⟩
  | removeEdge d =>
    obtain ⟨⟨r, n', px⟩, e₁, rfl⟩ := map_ok e
    clear e
    have e := e₁
    unfold LMap.removeEdge at e
    obtain ⟨ed, he, e⟩ := Outcome.bind_eq_ok.mp e
    split_ifs at e with hl
    · obtain ⟨g, h1, h2, -⟩ := removeBridge_pix e
      refine ⟨g, ?_, h2⟩
      show (m.g.removeEdge h d).map _ = _
      unfold GMap.removeEdge
      rw [if_pos hi, he]
      simp only [bind, Outcome.bind_ok, if_pos hl, h1]; rfl
    · obtain ⟨g, h1, h2, -⟩ := mergeFaces_pix e
      refine ⟨g, ?_, h2⟩
      show (m.g.removeEdge h d).map _ = _
      unfold GMap.removeEdge
      rw [if_pos hi, he]
      simp only [bind, Outcome.bind_ok, if_neg hl, h1]; rfl
  | mergeEdges d =>
    obtain ⟨⟨r, n'⟩, e₁, rfl⟩ := map_ok e
    clear e
    have e := e₁
    unfold LMap.mergeEdges at e
    obtain ⟨nd, -, e⟩ := Outcome.bind_eq_ok.mp e
    obtain ⟨⟨r', t⟩, e2, e⟩ := Outcome.bind_eq_ok.mp e
    refine ⟨t, by show (m.g.mergeEdges h d).map _ = _; rw [e2]; rfl, ?_⟩
    simp only at e
    split at e
    · cases e; exact .refl _
    · obtain ⟨e1, -, e⟩ := Outcome.bind_eq_ok.mp e
      obtain ⟨e2, -, e⟩ := Outcome.bind_eq_ok.mp e
      split at e
      · cases e; exact .refl _
      · split at e
        · cases e; exact .refl _
        · split at e
          · cases e
          · cases e; exact .refl _
  | splitEdge l i np =>
    obtain ⟨⟨r, n'⟩, e₁, rfl⟩ := map_ok e
    clear e
    have e := e₁
    unfold LMap.splitEdge at e
    obtain ⟨ed, -, e⟩ := Outcome.bind_eq_ok.mp e
    obtain ⟨⟨r', t⟩, e2, e⟩ := Outcome.bind_eq_ok.mp e
    refine ⟨t, by show (m.g.splitEdge l i np).map _ = _; rw [e2]; rfl, ?_⟩
    simp only at e
    obtain ⟨e1, -, e⟩ := Outcome.bind_eq_ok.mp e
    obtain ⟨e2, -, e⟩ := Outcome.bind_eq_ok.mp e
    split at e <;> cases e <;> exact .refl _

/-- Without a label image and cached scanlines it stays like this. -/
theorem run_off {m n : LMap K} (hm : m = LMap.ofMap m.g m.w m.h m.lut) {h : Hooks K} {op : LOp K} (e : op.run h m = .ok n) :
    n = LMap.ofMap n.g n.w n.h n.lut := by
  have himg : m.img = none := by rw [hm]; rfl
  have hscan : m.scan = fun _ => none := by rw [hm]; rfl
  have plain : ∀ n : LMap K, n = { m with g := n.g } → n = LMap.ofMap n.g n.w n.h n.lut := by
    intro n hn
    rw [hn]
    show (⟨n.g, m.w, m.h, m.img, m.lut, m.scan⟩ : LMap K) = ⟨n.g, m.w, m.h, none, m.lut, fun _ => none⟩
    rw [himg, hscan]
  cases op with
  | addNode p l => cases e; exact plain _ rfl
  | removeIsolatedNode k =>
    obtain ⟨r, e₁, rfl⟩ := map_ok e
    clear e
    have e := e₁
    exact plain _ rfl
  | area f =>
    obtain ⟨r, e₁, rfl⟩ := map_ok e
    clear e
    have e := e₁
    exact plain _ rfl
  | setFlags l x =>
    obtain ⟨r, e₁, rfl⟩ := map_ok e
    clear e
    have e := e₁
    exact plain _ rfl
  | removeBridge d =>
    obtain ⟨⟨r, n', px⟩, e₁, rfl⟩ := map_ok e
    clear e
    have e := e₁
    obtain ⟨g, h1, h2, h3⟩ := removeBridge_pix e
    exact plain _ (h3 himg)
  | mergeFaces d =>
    obtain ⟨⟨r, n', px⟩, e₁, rfl⟩ := map_ok e
    clear e
    have e := e₁
    obtain ⟨g, h1, h2, h3⟩ := mergeFaces_pix e
    exact plain _ (h3 himg)
  | removeEdge d =>
    obtain ⟨⟨r, n', px⟩, e₁, rfl⟩ := map_ok e
    clear e
    have e := e₁
    unfold LMap.removeEdge at e
    obtain ⟨ed, he, e⟩ := Outcome.bind_eq_ok.mp e
    split_ifs at e with hl
    · obtain ⟨g, h1, h2, h3⟩ := removeBridge_pix e
      exact plain _ (h3 himg)
    · obtain ⟨g, h1, h2, h3⟩ := mergeFaces_pix e
      exact plain _ (h3 himg)
  | mergeEdges d =>
    obtain ⟨⟨r, n'⟩, e₁, rfl⟩ := map_ok e
    clear e
    have e := e₁
    unfold LMap.mergeEdges at e
    obtain ⟨nd, -, e⟩ := Outcome.bind_eq_ok.mp e
    obtain ⟨⟨r', t⟩, e2, e⟩ := Outcome.bind_eq_ok.mp e
    simp only at e
    cases r' with
    | none => cases e; exact plain _ rfl
    | some l =>
      simp only at e
      obtain ⟨e1, -, e⟩ := Outcome.bind_eq_ok.mp e
      obtain ⟨e2, -, e⟩ := Outcome.bind_eq_ok.mp e
      simp only [himg, hscan] at e
      cases e
      rfl
  | splitEdge l i np =>
    obtain ⟨⟨r, n'⟩, e₁, rfl⟩ := map_ok e
    clear e
    have e := e₁
    unfold LMap.splitEdge at e
    obtain ⟨ed, -, e⟩ := Outcome.bind_eq_ok.mp e
    obtain ⟨⟨r', t⟩, e2, e⟩ := Outcome.bind_eq_ok.mp e
    simp only at e
    obtain ⟨e1, -, e⟩ := Outcome.bind_eq_ok.mp e
    obtain ⟨e2, -, e⟩ := Outcome.bind_eq_ok.mp e
    simp only [himg, hscan] at e
    cases e
    show (⟨t, m.w, m.h, none, m.lut, Function.update (fun _ => none) r none⟩ : LMap K) = ⟨t, m.w, m.h, none, m.lut, fun _ => none⟩
    congr 1
    exact Function.update_eq_self_iff.mpr rfl

/-- The invariant along histories. -/
structure QInv (m : LMap K) (b : Boxes K) : Prop where
  placed : Placed m.g
  boxes : BoxesOK m.g b
  image : m = LMap.ofMap m.g m.w m.h m.lut ∨ ∃ im, Inv m im ∧ Pict m im

theorem run_image {m n : LMap K} (hP : Placed m.g) (hi : m = LMap.ofMap m.g m.w m.h m.lut ∨ ∃ im, Inv m im ∧ Pict m im) {h : Hooks K} {op : LOp K}
    (hl : op.op.legal m.g) (hf : op.fits m.g) (e : op.run h m = .ok n) :
    Placed n.g ∧ (n = LMap.ofMap n.g n.w n.h n.lut ∨ ∃ im, Inv n im ∧ Pict n im) := by
  rcases hi with hm | ⟨im, hI, hpic⟩
  · refine ⟨?_, Or.inl (run_off hm e)⟩
    obtain ⟨t, e1, hpc⟩ := run_pix hP.init e
    obtain ⟨hgood, hG, hi, ren, hmv, -⟩ := call_moves hP.good hP.geom hP.init hl hf e1
    refine hP.next (hpc.good hgood) (hpc.geom hG) ?_ (hmv.trans (pix_moves hgood.map hpc))
    obtain ⟨face', hf'⟩ := hpc.eq
    rw [hf']; exact hi
  · obtain ⟨h1, h2⟩ := call_pict hI hP hpic hl hf e
    exact ⟨h1, Or.inr h2⟩

/-- An operation that renames no face keeps the boxes valid. -/
theorem boxes_keep {s t : GMap K} (hs : Placed s) (ht : Placed t) {ren : Nat → Nat} (hm : Moves s t ren)
    (hk : ∀ k, (s.face k).isSome = true → ren k = k) {b : Boxes K} (hb : BoxesOK s b) : BoxesOK t b := fun f x hx =>
  covers_next hs ht hm fun k h1 h2 => by rw [hk k h1] at h2; subst h2; exact hb k x hx

theorem otherFace_of {s t : GMap K} (h0 : s.edge 0 = none) {d : Int} {sl ml : Nat} (E : MergeFacesEffect s t d sl ml) {e : Edge K} (he : s.edge d.natAbs = some e) :
    LMap.otherFace e sl = some ml ∧ e.leftF ≠ e.rightF := by
  have d0 : d ≠ 0 := by
    rintro rfl
    rw [Int.natAbs_zero, h0] at he
    cases he
  have hl : s.left? d = e.leftOf d := left?_of he
  have hr : s.left? (-d) = e.leftOf (-d) := left?_of (by simpa using he)
  have hs := E.sides
  rw [hl, hr] at hs
  have hne := E.distinct.1
  unfold LMap.otherFace
  unfold Edge.leftOf at hs
  rcases lt_or_gt_of_ne d0 with h1 | h1
  · rw [if_neg (by omega), if_pos (by omega)] at hs
    rcases hs with ⟨a, b⟩ | ⟨a, b⟩
    · rw [if_neg (by rw [b]; simpa using hne.symm), b, a]
      exact ⟨rfl, by simpa using hne.symm⟩
    · rw [if_pos b, a, b]
      exact ⟨rfl, by simpa using hne⟩
  · rw [if_pos h1, if_neg (by omega)] at hs
    rcases hs with ⟨a, b⟩ | ⟨a, b⟩
    · rw [if_pos a, b, a]
      exact ⟨rfl, by simpa using hne⟩
    · rw [if_neg (by rw [a]; simpa using hne.symm), a, b]
      exact ⟨rfl, by simpa using hne.symm⟩

/-- `mergeFaces` and the boxes. -/
theorem mergeFaces_boxes {m n : LMap K} {b : Boxes K} (hP : Placed m.g) (hPn : Placed n.g) (hb : BoxesOK m.g b) (hO : Oriented m.g) {h : Hooks K} {d : Int}
    {r : Option Nat} {px : List (Int × Int)} (e : m.mergeFaces h d = .ok (r, n, px)) : ∃ b', boxesAfter m.g b d r = .ok b' ∧ BoxesOK n.g b' := by
  obtain ⟨g, e1, hpc, -⟩ := mergeFaces_pix e
  have hgd : MapOK g := by
    rcases call_safe hP.good h (.mergeFaces d) trivial with e' | ⟨t', e', hg⟩
    · have e' : (m.g.mergeFaces h d).map (·.2) = .precond := e'
      rw [e1] at e'; cases e'
    · have e' : (m.g.mergeFaces h d).map (·.2) = .ok t' := e'
      rw [e1] at e'; cases e'
      exact (hg fun hn => absurd hP.init hn).map
  cases r with
  | none =>
    obtain ⟨hm, -, -⟩ := mergeFaces_moves_none hP.good hgd e1
    exact ⟨b, rfl, boxes_keep hP hPn (hm.trans (pix_moves hgd hpc)) (fun _ _ => rfl) hb⟩
  | some sl =>
    obtain ⟨ml, E, hm⟩ := mergeFaces_moves hP.good hgd e1
    have hm := hm.trans (pix_moves hgd hpc)
    obtain ⟨ed, he⟩ : ∃ ed, m.g.edge d.natAbs = some ed := by
      have := E.edge_gone.1
      unfold GMap.liveD at this
      exact Option.isSome_iff_exists.mp this
    obtain ⟨o1, o2⟩ := otherFace_of hP.good.map.graph.edge_zero E he
    obtain ⟨S, M, T, hS, hM, hT, hTa⟩ := E.areas
    obtain ⟨b', q1, q2⟩ := mergeBoxes_ok (sl := sl) (ml := ml) hP hPn hm E.distinct.2 (by rw [hM]; rfl) hb hO
    refine ⟨b', ?_, q2⟩
    unfold boxesAfter
    simp only [guaranteedEdge_of he, bind, Outcome.bind_ok, if_neg o2, o1]
    exact q1

theorem removeBridge_boxes {m n : LMap K} {b : Boxes K} (hP : Placed m.g) (hPn : Placed n.g) (hb : BoxesOK m.g b) {h : Hooks K} {d : Int}
    {r : Option Nat} {px : List (Int × Int)} (e : m.removeBridge h d = .ok (r, n, px)) : BoxesOK n.g b := by
  obtain ⟨g, e1, hpc, -⟩ := removeBridge_pix e
  have hgd : MapOK g := by
    rcases call_safe hP.good h (.removeBridge d) trivial with e' | ⟨t', e', hg⟩
    · have e' : (m.g.removeBridge h d).map (·.2) = .precond := e'
      rw [e1] at e'; cases e'
    · have e' : (m.g.removeBridge h d).map (·.2) = .ok t' := e'
      rw [e1] at e'; cases e'
      exact (hg fun hn => absurd hP.init hn).map
  have hm : Moves m.g g id := by
    cases r with
    | none =>
      have := removeBridge_vetoed hP.good e1
      rw [this]
      exact moves_same hP.good.map hP.good.map rfl (fun _ => rfl) (fun _ => rfl) fun _ => rfl
    | some f => exact moves_removeBridge hP.good.map hgd (removeBridge_effect hP.good e1)
  exact boxes_keep hP hPn (hm.trans (pix_moves hgd hpc)) (fun _ _ => rfl) hb

/-- A call, as with the boxes left out. -/
theorem run_eq {m : LMap K} {b : Boxes K} (hq : QInv m b) {h : Hooks K} {op : LOp K} (hl : op.op.legal m.g) (hf : op.fits m.g) (hO : mayMerge op → Oriented m.g)
    {n : LMap K} (e : op.run h m = .ok n) : ∃ b', run h m b op = .ok (n, b') ∧ QInv n b' := by
  obtain ⟨hPn, him⟩ := run_image hq.placed hq.image hl hf e
  have plain : run h m b op = (op.run h m).map (fun n => (n, b)) →
      ((∃ d, op = .mergeEdges d) ∨ (∃ l i np, op = .splitEdge l i np) ∨ (∃ p n, op = .addNode p n) ∨ (∃ n, op = .removeIsolatedNode n) ∨
      (∃ f, op = .area f) ∨ ∃ l x, op = .setFlags l x) → ∃ b', run h m b op = .ok (n, b') ∧ QInv n b' := by
    intro hr ho
    refine ⟨b, by rw [hr, e]; rfl, hPn, ?_, him⟩
    obtain ⟨t, e1, hpc⟩ := run_pix hq.placed.init e
    obtain ⟨hgood, hG, hi, ren, hmv, hren⟩ := call_moves hq.placed.good hq.placed.geom hq.placed.init hl hf e1
    obtain ⟨-, hk⟩ := call_keeps hq.placed.good hq.placed.geom hl hf e1 ho
    exact boxes_keep hq.placed hPn (hmv.trans (pix_moves hgood.map hpc)) (fun k h1 => hren k (by rw [hk]; exact h1)) hq.boxes
  cases op with
  | addNode p l => exact plain rfl (by simp)
  | removeIsolatedNode k => exact plain rfl (by simp)
  | area f => exact plain rfl (by simp)
  | setFlags l x => exact plain rfl (by simp)
  | mergeEdges d => exact plain rfl (by simp)
  | splitEdge l i np => exact plain rfl (by simp)
  | removeBridge d =>
    refine ⟨b, by show (LOp.run h m (.removeBridge d)).map _ = _; rw [e]; rfl, hPn, ?_, him⟩
    obtain ⟨⟨r, n', px⟩, e₁, rfl⟩ := map_ok e
    clear e
    have e := e₁
    exact removeBridge_boxes hq.placed hPn hq.boxes e
  | mergeFaces d =>
    obtain ⟨⟨r, n', px⟩, e₁, rfl⟩ := map_ok e
    clear e
    have e := e₁
    obtain ⟨b', h1, h2⟩ := mergeFaces_boxes hq.placed hPn hq.boxes (hO trivial) e
    refine ⟨b', ?_, hPn, h2, him⟩
    unfold run
    simp only [e, bind, Outcome.bind_ok, h1]
  | removeEdge d =>
    obtain ⟨⟨r, n', px⟩, e₁, rfl⟩ := map_ok e
    clear e
    have e := e₁
    have e0 := e
    unfold LMap.removeEdge at e
    obtain ⟨ed, he, e⟩ := Outcome.bind_eq_ok.mp e
    split_ifs at e with hl
    · refine ⟨b, ?_, hPn, removeBridge_boxes hq.placed hPn hq.boxes e, him⟩
      unfold run
      have : boxesAfter m.g b d r = .ok b := by
        unfold boxesAfter
        cases r with
        | none => rfl
        | some sl => simp only [he, bind, Outcome.bind_ok, if_pos hl]
      simp only [e0, bind, Outcome.bind_ok, this]
    · obtain ⟨b', h1, h2⟩ := mergeFaces_boxes hq.placed hPn hq.boxes (hO trivial) e
      refine ⟨b', ?_, hPn, h2, him⟩
      unfold run
      simp only [e0, bind, Outcome.bind_ok, h1]

theorem run_map {m n : LMap K} {b b' : Boxes K} {h : Hooks K} {op : LOp K} (e : run h m b op = .ok (n, b')) : op.run h m = .ok n := by
  cases op with
  | mergeFaces d =>
    obtain ⟨r, h1, e⟩ := Outcome.bind_eq_ok.mp e
    obtain ⟨b', h2, e⟩ := Outcome.bind_eq_ok.mp e
    cases e
    show (m.mergeFaces h d).map _ = _
    rw [h1]; rfl
  | removeEdge d =>
    obtain ⟨r, h1, e⟩ := Outcome.bind_eq_ok.mp e
    obtain ⟨b', h2, e⟩ := Outcome.bind_eq_ok.mp e
    cases e
    show (m.removeEdge h d).map _ = _
    rw [h1]; rfl
  | _ =>
    obtain ⟨r, h1, e⟩ := map_ok e
    cases e; exact h1

theorem rename_boxes {s t : GMap K} (hs : Placed s) (ht : Placed t) {new : List Nat} {size : Nat} (h0 : new[0]? = some 0) (R : RenamedBy new size s t)
    {b : Boxes K} (hb : BoxesOK s b) : BoxesOK t (renameBoxes s new b) := by
  intro f x hx
  obtain ⟨l, h1, h2⟩ := Option.bind_eq_some_iff.mp hx
  have h3 := List.find?_some h1
  simp only [Bool.and_eq_true, beq_iff_eq] at h3
  refine covers_next hs ht (moves_rename hs.good.map hs.init h0 ht.good.map R) fun k k1 k2 => ?_
  obtain ⟨f', hf'⟩ := R.defd k k1
  have : k = l := by
    refine R.inj k l f k1 h3.1 ?_ h3.2
    rw [List.getD_eq_getElem?_getD, hf'] at k2
    rw [hf', ← k2]; rfl
  rw [this]
  exact hb l x h2

theorem QDrawn.inv {m : LMap K} {b : Boxes K} (h : QDrawn m b) : QInv m b := by
  induction h with
  | start hr hi hS => exact ⟨⟨hr.reach.good, hr.geom, hi, hS⟩, fun f x hx => (by cases hx), Or.inl rfl⟩
  | on _ h0 hN e ih =>
    have hP := ih.placed
    obtain ⟨h1, im, h2, h3⟩ := setHasLabelImage_pict hP h0 hN e
    obtain ⟨-, -, hpc, -⟩ := setHasLabelImage_inv hP.good hP.geom hP.init h0 e
    exact ⟨h1, boxes_keep hP h1 (pix_moves hP.good.map hpc) (fun _ _ => rfl) ih.boxes, Or.inr ⟨im, h2, h3⟩⟩
  | call h op _ hl hf hO e ih =>
    obtain ⟨b', h1, h2⟩ := run_eq ih hl hf hO (run_map e)
    rw [h1] at e; cases e
    exact h2
  | box _ hO hlive e ih => exact ⟨ih.placed, (faceBox_boxes ih.placed ih.boxes hlive hO e).2, ih.image⟩
  | @rename m n b lab new size _ h0 e ih =>
    have hP := ih.placed
    rcases ih.image with hm | ⟨im, hI, hpic⟩
    · rcases changeFaceLabels_spec hP.good.map new size with ⟨l, e', -⟩ | ⟨t, l, e', -, hR, hlab⟩
      · unfold LMap.changeFaceLabels at e
        rw [e'] at e
        simp only [bind, Outcome.bind_ok, Bool.false_eq_true, if_false, Outcome.ok.injEq, Prod.mk.injEq, false_and] at e
      obtain ⟨hg, -, -, -⟩ := rename_good hP.good h0 e'
      have hG : GoodGeom t := hR.geom hP.good.map hP.init hg.map hP.geom
      have himg : m.img = none := by rw [hm]; rfl
      have hscan : m.scan = fun _ => none := by rw [hm]; rfl
      have hn : n = { m with g := t } := by
        unfold LMap.changeFaceLabels at e
        rw [e'] at e
        simp only [bind, Outcome.bind_ok, if_true, himg, Outcome.ok.injEq, Prod.mk.injEq, true_and] at e
        rw [← e.1, himg]
      subst hn
      have hinit : t.initialized := by
        have hz := (hP.good.map.contours hP.init).face_zero
        rw [← hR.face hz h0] at hz
        exact hg.map.graph.face_lt 0 hz
      have hPt : Placed t := hP.next hg hG hinit (moves_rename hP.good.map hP.init h0 hg.map hR)
      refine ⟨hPt, rename_boxes hP hPt h0 hR ih.boxes, Or.inl ?_⟩
      show (⟨t, m.w, m.h, m.img, m.lut, m.scan⟩ : LMap K) = ⟨t, m.w, m.h, none, m.lut, fun _ => none⟩
      rw [himg, hscan]
    · obtain ⟨im', hn, hw, hh, hR, hlab, hcr, hown⟩ := rename_inv hI h0 e
      have hm := moves_rename hI.good.map hI.init h0 hn.good.map hR
      have hPn := hP.next hn.good hn.geom hn.init hm
      refine ⟨hPn, rename_boxes hP hPn h0 hR ih.boxes, Or.inr ⟨im', hn, fun p f hp hf => ?_⟩⟩
      rw [hw, hh] at hp
      rw [hown p hp] at hf
      obtain ⟨f0, h1, h2⟩ := Option.bind_eq_some_iff.mp hf
      have := hm.loc _ f0 (centre_off hI.good.map.graph.labels.edge_lt (hI.own_free hp h1).1) (hpic p f0 hp h1)
      simp only [List.getD_eq_getElem?_getD, h2, Option.getD_some] at this
      exact this

end calls

end Verif.Query
