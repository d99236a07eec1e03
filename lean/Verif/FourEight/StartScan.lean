import Verif.FourEight.StartFaces

/-!
# `initFaceList` always returns
-/

namespace Verif.FourEight
open Verif Verif.CellImage

theorem sigmaLoop_same {m m' : Map} (hw : m'.w = m.w) (hh : m'.h = m.h) (hp : m'.px = m.px) (k : Fin 8) (n : Nat) (d : Dart) :
    sigmaLoop m' k n d = sigmaLoop m k n d := by
  induction n generalizing d with
  | zero => rfl
  | succ n ih =>
    rw [sigmaLoop, sigmaLoop, nb_same hw hh hp]
    have ht : tryStep m' k = tryStep m k := by funext e; exact (sameKinds_px hw hh hp).tryStep k e
    rw [ht, show sigmaLoop m' k n = sigmaLoop m k n from funext fun e => ih e]

theorem sigma_same {m m' : Map} (hw : m'.w = m.w) (hh : m'.h = m.h) (hp : m'.px = m.px) (k : Fin 8) (d : Dart) : sigma m' k d = sigma m k d := by
  unfold sigma
  rw [nb_same hw hh hp, (sameKinds_px hw hh hp).tryStep, (sameKinds_px hw hh hp).fuel,
    show sigmaLoop m' k m.fuel = sigmaLoop m k m.fuel from funext fun e => sigmaLoop_same hw hh hp k _ e]

/-- the first element of a list with a property -/
theorem exists_first {α : Type} {R : α → α → Prop} {P : α → Prop} : ∀ {l : List α}, l.Pairwise R → (∃ a ∈ l, P a) →
    ∃ a ∈ l, P a ∧ ∀ b ∈ l, P b → b = a ∨ R a b
  | [], _, h => by obtain ⟨a, h, -⟩ := h; cases h
  | a :: l, hp, h => by
    classical
    rw [List.pairwise_cons] at hp
    by_cases ha : P a
    · refine ⟨a, List.mem_cons_self, ha, fun b hb _ => ?_⟩
      rcases List.mem_cons.1 hb with e | hb
      · exact Or.inl e
      · exact Or.inr (hp.1 b hb)
    · obtain ⟨c, hc, hP⟩ := h
      have hc' : c ∈ l := by
        rcases List.mem_cons.1 hc with e | hc
        · exact absurd (e ▸ hP) ha
        · exact hc
      obtain ⟨d, h1, h2, h3⟩ := exists_first hp.2 ⟨c, hc', hP⟩
      refine ⟨d, List.mem_cons_of_mem _ h1, h2, fun b hb hPb => ?_⟩
      rcases List.mem_cons.1 hb with e | hb
      · exact absurd (e ▸ hPb) ha
      · exact h3 b hb hPb

section
variable {m : Map} {o : Oracle}

/-- what is known when the list of faces is built -/
structure Scene (m : Map) (o : Oracle) : Prop where
  clean : Clean m
  noCorner : NoCorner m
  trace : Traceable m
  faces : FacesLabelled m
  nodes : NodesLabelled m
  init : m.init = false
  framed : Framed m
  same : ∀ p q, m.isLine p → m.isLine q → m.label p = m.label q → SameEdge m p q
  noHoles : NoHoles m
  sane : o.Sane m
  outer : ∀ x y, Inner m.w m.h x y → x = -1 ∨ y = -1 → (m.px x y).1 ≠ .region
  origin : Inner m.w m.h (-1) (-1)
  corner : (m.px (-1) (-1)).1 = .vertex

/-- only lists were changed -/
structure Lists (m b : Map) : Prop where
  w : b.w = m.w
  h : b.h = m.h
  px : b.px = m.px
  init : b.init = false
  entries : Entries m b
  live : ∀ p, m.isLine p → LiveEdge b (m.label p)

theorem inner_inside {x y : Int} (h : Inner m.w m.h x y) : m.inside x y := by unfold Inner at h; unfold Map.inside; omega

theorem anchor_at_node {b : Map} (hb : Lists m b) {f : Nat} {x y : Int} {d a a' : Dart} (hi : m.inside x y) (hv : (m.px x y).1 = .vertex)
    (h1 : mkDart m d = .ok a) (h2 : sigma m 7 a = .ok a') (h3 : leftFace m a' = .ok f) : contourAnchor b f x y d = .ok a' := by
  have hget : b.get x y = .ok (m.px x y) := by
    unfold Map.get
    rw [if_pos (((sameKinds_px hb.w hb.h hb.px).inside x y).2 hi), hb.px]
  unfold contourAnchor
  rw [hget, Outcome.bind_ok, if_pos hv, (sameKinds_px hb.w hb.h hb.px).mkDart, h1, Outcome.bind_ok, sigma_same hb.w hb.h hb.px, h2, Outcome.bind_ok,
    leftFace_same hb.w hb.h hb.px, h3, Outcome.bind_ok, if_pos rfl]

theorem anchor_at_line (S : Scene m o) {b : Map} (hb : Lists m b) {f : Nat} {x y : Int} {d : Dart} (hi : m.inside x y)
    (hv : (m.px x y).1 = .line) {k : Fin 8} (hk : k.val % 2 = 0) (hl : m.look x y k = (.region, f)) :
    ∃ a, contourAnchor b f x y d = .ok a := by
  have hget : b.get x y = .ok (m.px x y) := by
    unfold Map.get
    rw [if_pos (((sameKinds_px hb.w hb.h hb.px).inside x y).2 hi), hb.px]
  have hline : m.isLine (x, y) := ⟨hi, hv⟩
  obtain ⟨E, e1, e2⟩ := hb.live (x, y) hline
  obtain ⟨e3, e4, e5⟩ := hb.entries _ E e1 e2
  have e1' : b.edges[(m.px x y).2]? = some E := e1
  have hfr : m.isLine E.start.front := ⟨(e3.link.swap S.clean).inside, e3.edge⟩
  have hside := line_sides S.clean S.trace S.faces e3 (S.same _ _ hfr hline e4) hk hl
  have hlf := leftFace_eq S.clean e3.inside e3.rim.nonregion
  have hrf := rightFace_eq S.clean e3.inside e3.rim.nonregion
  unfold contourAnchor
  rw [hget, Outcome.bind_ok, if_neg (by rw [hv]; decide), if_pos hv, e1']
  dsimp only
  rw [if_neg (by simp [e2]), leftFace_same hb.w hb.h hb.px, hlf, Outcome.bind_ok]
  by_cases h1 : leftL m E.start = f
  · rw [if_neg (by simpa using h1), Outcome.bind_ok, leftFace_same hb.w hb.h hb.px, hlf, Outcome.bind_ok, if_pos h1]
    exact ⟨_, rfl⟩
  · have h2 := hside.resolve_left h1
    rw [if_pos h1, (sameKinds_px hb.w hb.h hb.px).alpha S.clean S.trace S.init hb.init e3, e5, Outcome.bind_ok,
      leftFace_same hb.w hb.h hb.px, (Props.alpha_faces S.clean S.trace S.faces S.init e3 e5).1, hrf, Outcome.bind_ok, if_pos h2]
    exact ⟨_, rfl⟩

/-- the first pixel of a contour, line by line -/
structure FirstContour (m : Map) (o : Oracle) (x y : Int) : Prop where
  inside : m.inside x y
  nonregion : (m.px x y).1 ≠ .region
  first : ∀ x' y', m.inside x' y' → o.contour x' y' = o.contour x y → y < y' ∨ y = y' ∧ x ≤ x'

/-- above the first pixel of a contour there is one face -/
theorem FirstContour.ring (S : Scene m o) {x y : Int} (h : FirstContour m o x y) :
    ∃ f, ∀ j : Fin 8, j = 1 ∨ j = 2 ∨ j = 3 ∨ j = 4 → m.look x y j = (.region, f) := by
  have hr : ∀ j : Fin 8, j = 1 ∨ j = 2 ∨ j = 3 ∨ j = 4 → (m.look x y j).1 = .region := by
    intro j hj
    by_contra hn
    have h1 := S.sane.next x y j h.inside h.nonregion hn
    have h2 := h.first _ _ (S.clean.near h.inside h.nonregion j) h1
    rcases hj with rfl | rfl | rfl | rfl <;> simp [dx, dy] at h2
  have hring := ring_label S.clean S.faces h.inside h.nonregion
  have l2 := hring 1 (hr 1 (by decide)) (hr 2 (by decide))
  have l3 := hring 2 (hr 2 (by decide)) (hr 3 (by decide))
  have l4 := hring 3 (hr 3 (by decide)) (hr 4 (by decide))
  change (m.look x y 2).2 = _ at l2
  change (m.look x y 3).2 = _ at l3
  change (m.look x y 4).2 = _ at l4
  refine ⟨(m.look x y 1).2, fun j hj => Prod.ext (hr j hj) ?_⟩
  dsimp only
  rcases hj with rfl | rfl | rfl | rfl
  · rfl
  · exact l2
  · rw [l3, l2]
  · rw [l4, l3, l2]

/-- the anchor at the first contact with a contour -/
theorem contact_total (S : Scene m o) {b : Map} (hb : Lists m b) {x y : Int} (hi : m.inside x y) (hn : (m.px x y).1 ≠ .region) {f : Nat}
    (hl : ∀ j : Fin 8, j = 1 ∨ j = 2 ∨ j = 3 ∨ j = 4 → m.look x y j = (.region, f)) {k : Fin 8} (hk : k = 2 ∨ k = 3) :
    ∃ a, contourAnchor b f x y ⟨x, y, k⟩ = .ok a := by
  rcases S.clean.types x y hi with hv | hv | hv
  · by_cases hd : ∃ i, IsDart m ((walk m 1)^[i] ⟨x, y, 2⟩)
    · have hlk : m.look x y k = (.region, f) := hl k (by rcases hk with rfl | rfl <;> decide)
      have hrim : Rim m ⟨x, y, k⟩ := by
        refine ⟨hi, hv, by dsimp only; rw [hlk]; simp, fun ho j hj => ?_⟩
        rcases hk with rfl | rfl
        · exact absurd ho (by show ¬(2 : Fin 8).val % 2 = 1; decide)
        · rcases hj with rfl | rfl
          · show (m.look x y 4).1 ≠ _; rw [hl 4 (by decide)]; simp
          · show (m.look x y 2).1 ≠ _; rw [hl 2 (by decide)]; simp
      have hd' : ∃ i, IsDart m ((walk m 1)^[i] ⟨x, y, k⟩) := by
        rcases hk with rfl | rfl
        · exact hd
        · obtain ⟨i, hd⟩ := hd
          cases i with
          | zero =>
            have := hd.edge
            change (m.look x y 2).1 = _ at this
            rw [hl 2 (by decide)] at this
            exact absurd this (by simp)
          | succ i =>
            refine ⟨i, ?_⟩
            rw [Function.iterate_succ_apply, walk_t (by decide) (by show ¬(m.look x y 3).1 = _; rw [hl 3 (by decide)]; simp)
              (by show ¬(m.look x y 4).1 = _; rw [hl 4 (by decide)]; simp)] at hd
            exact hd
      obtain ⟨a, a', h1, h2, h3⟩ := anchor_dart S.clean S.noCorner S.trace S.faces hrim hlk hd'
      exact ⟨a', anchor_at_node hb hi hv h1 h2 h3⟩
    · obtain ⟨h1, h2, h3⟩ := anchor_single S.clean S.noCorner hk hi hv hl fun i hh => hd ⟨i, hh⟩
      exact ⟨_, anchor_at_node hb hi hv h1 h2 h3⟩
  · exact anchor_at_line S hb hi hv (k := 2) (by decide) (hl 2 (by decide))
  · exact absurd hv hn

theorem firstOf_exists (hc : Clean m) {x y : Int} (hi : m.inside x y) (hv : (m.px x y).1 = .vertex) :
    ∃ x' y', FirstOf m x' y' ∧ (m.px x y).2 = (m.px x' y').2 := by
  have hmem : ∀ x y, m.inside x y → (m.px x y).1 = .vertex → (x, y) ∈ innerPixels m.w m.h := fun x y hi hv =>
    inner_mem (hc.frame x y hi (by rw [hv]; decide))
  obtain ⟨q, h1, h2, h3⟩ := exists_first (P := fun q : Int × Int => m.px q.1 q.2 = m.px x y) (innerPixels_sorted m.w m.h) ⟨(x, y), hmem x y hi hv, rfl⟩
  refine ⟨q.1, q.2, ⟨inner_inside (mem_inner h1), by rw [h2]; exact hv, fun x' y' hi' hv' hl => ?_⟩, by rw [h2]⟩
  rcases h3 (x', y') (hmem x' y' hi' hv') (Prod.ext (hv'.trans hv.symm) (by rw [hl, h2])) with e | e
  · rw [← e]; right; exact ⟨rfl, le_refl _⟩
  · unfold Raster at e; dsimp only at e; omega

theorem exists_firstOf (S : Scene m o) {x y : Int} (hi : m.inside x y) (hv : (m.px x y).1 = .vertex) :
    ∃ x' y', FirstOf m x' y' ∧ (m.px x y).2 = (m.px x' y').2 := firstOf_exists S.clean hi hv

/-- the anchor of the contour that contains the pixel before the first pixel of a face -/
theorem first_total (S : Scene m o) {b : Map} (hb : Lists m b) {pre post : List (Int × Int)} {p : Int × Int}
    (hl : innerPixels m.w m.h = pre ++ p :: post) {f : Nat} (hp : m.px p.1 p.2 = (.region, f)) (h0 : f ≠ 0)
    (hnew : ∀ q ∈ pre, m.px q.1 q.2 ≠ (.region, f)) : ∃ a, contourAnchor b f (p.1 - 1) p.2 ⟨p.1 - 1, p.2, 0⟩ = .ok a := by
  have hpi : Inner m.w m.h p.1 p.2 := mem_inner (by rw [hl]; simp)
  have hpin := inner_inside hpi
  have hqi : m.inside (p.1 - 1) p.2 := by unfold Inner at hpi; unfold Map.inside; omega
  -- no pixel before `p` belongs to the face
  have hearly : ∀ x y, m.inside x y → Raster (x, y) p → m.px x y ≠ (.region, f) := by
    intro x y hi hr he
    by_cases hI : Inner m.w m.h x y
    · have hm := inner_mem hI
      have hs := innerPixels_sorted m.w m.h
      rw [hl] at hm hs
      rcases List.mem_append.1 hm with hm | hm
      · exact hnew _ hm he
      · have hs2 := (List.pairwise_append.1 hs).2.1
        rw [List.pairwise_cons] at hs2
        rcases List.mem_cons.1 hm with e | hm
        · rw [← e] at hr; unfold Raster at hr; omega
        · have := hs2.1 _ hm
          unfold Raster at this hr
          omega
    · have := S.framed x y hi (by unfold Inner at hI; unfold Map.inside at hi; omega)
      rw [he] at this
      exact h0 (congrArg Prod.snd this)
  have hlook : m.look (p.1 - 1) p.2 0 = (.region, f) := by
    unfold Map.look
    simp only [dx, dy, sub_add_cancel, add_zero]
    exact hp
  have hn : (m.px (p.1 - 1) p.2).1 ≠ .region := by
    intro hr
    have := S.faces (p.1 - 1) p.2 0 (by decide) hqi (by simp only [dx, dy, sub_add_cancel, add_zero]; exact hpin) hr (by rw [hlook])
    rw [hlook] at this
    exact hearly _ _ hqi (Or.inr ⟨rfl, by dsimp only; omega⟩) (Prod.ext hr this.symm)
  rcases S.clean.types _ _ hqi with hv | hv | hv
  · have hrim : Rim m ⟨p.1 - 1, p.2, 0⟩ := ⟨hqi, hv, by dsimp only; rw [hlook]; simp, fun ho => absurd ho (by show ¬(0 : Fin 8).val % 2 = 1; decide)⟩
    have hd : ∃ i, IsDart m ((walk m 1)^[i] ⟨p.1 - 1, p.2, 0⟩) := by
      by_contra hno
      have hno : ∀ i, ¬IsDart m ((walk m 1)^[i] ⟨p.1 - 1, p.2, 0⟩) := fun i hh => hno ⟨i, hh⟩
      obtain ⟨x, y, hF, hlab⟩ := exists_firstOf S hqi hv
      obtain ⟨n, hc⟩ := S.noHoles x y ⟨p.1 - 1, p.2, 0⟩ hF ⟨hqi, hv, by show (0 : Fin 8).val % 2 = 0; decide, hrim.out⟩ hlab
      obtain ⟨j, hj⟩ := cracks_walk (m := m) n (d := ⟨x, y, 4⟩) (by show (4 : Fin 8).val % 2 = 0; decide)
      rw [hc] at hj
      have hxn : (m.px x y).1 ≠ .region := by rw [hF.node]; decide
      have hfirst := hF.first _ _ hqi hv hlab
      have h4 : (m.look x y 4).1 ≠ .vertex := by
        intro hv4
        have := hF.first _ _ (S.clean.near hF.inside hxn 4) hv4 (S.nodes x y 4 hF.inside hF.node hv4)
        simp [dx, dy] at this
      have hrt : Rim m ⟨x, y, 4⟩ := ⟨hF.inside, hF.node, h4, fun ho => absurd ho (by show ¬(4 : Fin 8).val % 2 = 1; decide)⟩
      obtain ⟨i, hi⟩ := walk_back S.clean hrt hj.symm
      have := free_iter S.clean S.faces hrim hlook hno i
      rw [hi] at this
      refine hearly _ _ (S.clean.near hF.inside hxn 4) ?_ this
      unfold Raster
      simp only [dx, dy]
      omega
    obtain ⟨a, a', h1, h2, h3⟩ := anchor_dart S.clean S.noCorner S.trace S.faces hrim hlook hd
    exact ⟨a', anchor_at_node hb hqi hv h1 h2 h3⟩
  · exact anchor_at_line S hb hqi hv (k := 0) (by decide) hlook
  · exact absurd hv hn

/-! ## the scan -/

/-- every contour has a first pixel -/
theorem exists_firstContour (S : Scene m o) {x y : Int} (hi : m.inside x y) (hn : o.contour x y ≠ 0) :
    ∃ x' y', FirstContour m o x' y' ∧ o.contour x' y' = o.contour x y := by
  have hmem : ∀ x y, m.inside x y → o.contour x y ≠ 0 → (x, y) ∈ innerPixels m.w m.h := fun x y hi hv =>
    inner_mem (S.clean.frame x y hi fun hr => hv ((S.sane.zero x y hi).2 hr))
  obtain ⟨q, h1, h2, h3⟩ := exists_first (P := fun q : Int × Int => o.contour q.1 q.2 = o.contour x y) (innerPixels_sorted m.w m.h) ⟨(x, y), hmem x y hi hn, rfl⟩
  have hq := inner_inside (mem_inner h1)
  refine ⟨q.1, q.2, ⟨hq, fun hr => ?_, fun x' y' hi' hl => ?_⟩, h2⟩
  · rw [(S.sane.zero _ _ hq).2 hr] at h2; exact hn h2.symm
  · rw [h2] at hl
    rcases h3 (x', y') (hmem x' y' hi' (by rw [hl]; exact hn)) hl with e | e
    · rw [← e]; right; exact ⟨rfl, le_refl _⟩
    · unfold Raster at e; dsimp only at e; omega

/-- the outer contour contains all pixels in the first line and column -/
theorem outer_contour (S : Scene m o) : (∀ n : Nat, Inner m.w m.h ((n : Int) - 1) (-1) → o.contour ((n : Int) - 1) (-1) = o.contour (-1) (-1)) ∧
    ∀ n : Nat, Inner m.w m.h (-1) ((n : Int) - 1) → o.contour (-1) ((n : Int) - 1) = o.contour (-1) (-1) := by
  constructor
  · intro n
    induction n with
    | zero => intro _; simp
    | succ n ih =>
      intro hI
      have hI' : Inner m.w m.h ((n : Int) - 1) (-1) := by unfold Inner at hI ⊢; push_cast at hI; omega
      have e : (((n + 1 : Nat) : Int)) - 1 = (n : Int) - 1 + dx 0 := by simp only [dx]; push_cast; ring
      have e2 : (-1 : Int) = -1 + dy 0 := by simp [dy]
      have h1 := S.outer _ _ hI (Or.inr rfl)
      have := S.sane.next ((n : Int) - 1) (-1) 0 (inner_inside hI') (S.outer _ _ hI' (Or.inr rfl)) (by unfold Map.look; rw [← e, ← e2]; exact h1)
      rw [← e, ← e2] at this
      rw [this, ih hI']
  · intro n
    induction n with
    | zero => intro _; simp
    | succ n ih =>
      intro hI
      have hI' : Inner m.w m.h (-1) ((n : Int) - 1) := by unfold Inner at hI ⊢; push_cast at hI; omega
      have e : (((n + 1 : Nat) : Int)) - 1 = (n : Int) - 1 + dy 6 := by simp only [dy]; push_cast; ring
      have e2 : (-1 : Int) = -1 + dx 6 := by simp [dx]
      have h1 := S.outer _ _ hI (Or.inl rfl)
      have := S.sane.next (-1) ((n : Int) - 1) 6 (inner_inside hI') (S.outer _ _ hI' (Or.inl rfl)) (by unfold Map.look; rw [← e, ← e2]; exact h1)
      rw [← e, ← e2] at this
      rw [this, ih hI']

theorem FirstContour.deep (S : Scene m o) {x y : Int} (h : FirstContour m o x y) (hne : o.contour x y ≠ o.contour (-1) (-1)) :
    0 ≤ x ∧ 0 ≤ y ∧ Inner m.w m.h x y := by
  have hI : Inner m.w m.h x y := S.clean.frame x y h.inside h.nonregion
  refine ⟨?_, ?_, hI⟩
  · by_contra hx
    obtain rfl : x = -1 := by unfold Inner at hI; omega
    obtain ⟨n, hn⟩ : ∃ n : Nat, y = (n : Int) - 1 := ⟨(y + 1).toNat, by unfold Inner at hI; omega⟩
    subst hn
    exact hne ((outer_contour S).2 n hI)
  · by_contra hy
    obtain rfl : y = -1 := by unfold Inner at hI; omega
    obtain ⟨n, hn⟩ : ∃ n : Nat, x = (n : Int) - 1 := ⟨(x + 1).toNat, by unfold Inner at hI; omega⟩
    subst hn
    exact hne ((outer_contour S).1 n hI)

/-- what holds for the processed contours -/
structure Processed (m : Map) (o : Oracle) (pre : List (Int × Int)) (l : List Bool) : Prop where
  len : l.length = o.components + 1
  outer : l[o.contour (-1) (-1)]? = some true
  done : ∀ x y, FirstContour m o x y → (x, y - 1) ∈ pre → l[o.contour x y]? = some true

theorem set_true {l : List Bool} {i j : Nat} (h : l[j]? = some true) : (l.set i true)[j]? = some true := by
  rw [List.getElem?_set]
  by_cases hij : i = j
  · subst hij
    rw [if_pos rfl, if_pos]
    by_contra hh
    rw [List.getElem?_eq_none (by omega)] at h
    cases h
  · rw [if_neg hij]; exact h

theorem Lists.modifyFace {b : Map} (h : Lists m b) (F : List Face) (c : Nat) : Lists m { b with faces := F, faceCount := c } :=
  ⟨h.w, h.h, h.px, h.init, h.entries, h.live⟩

/-- one neighbour -/
theorem innerContour_total (S : Scene m o) {pre post : List (Int × Int)} {p : Int × Int} (hl : innerPixels m.w m.h = pre ++ p :: post)
    {st : FaceState} (hb : Lists m st.1) (hP : Processed m o pre st.2) {f : Nat} (hp : m.px p.1 p.2 = (.region, f)) {pre' post' : List (Fin 8)} {k : Fin 8}
    (hk : [0, 1, 2, 3, 4, 5, 6, 7] = pre' ++ k :: post')
    (hdone : ∀ j ∈ pre', o.contour (p.1 + dx j) (p.2 + dy j) ≠ 0 → st.2[o.contour (p.1 + dx j) (p.2 + dy j)]? = some true) :
    ∃ st' : FaceState, innerContour o f p st k = .ok st' ∧ Lists m st'.1 ∧ Processed m o pre st'.2 ∧ st'.1.faces.length = st.1.faces.length ∧
      (∀ c : Nat, st.2[c]? = some true → st'.2[c]? = some true) ∧
      (o.contour (p.1 + dx k) (p.2 + dy k) ≠ 0 → st'.2[o.contour (p.1 + dx k) (p.2 + dy k)]? = some true) := by
  have hpi : Inner m.w m.h p.1 p.2 := mem_inner (by rw [hl]; simp)
  have hin : m.inside (p.1 + dx k) (p.2 + dy k) := by
    have h1 := dx_range k
    have h2 := dy_range k
    unfold Inner at hpi; unfold Map.inside; omega
  unfold innerContour
  dsimp only
  by_cases hc : o.contour (p.1 + dx k) (p.2 + dy k) = 0
  · rw [if_pos hc]
    exact ⟨st, rfl, hb, hP, rfl, fun _ h => h, fun h => absurd hc h⟩
  rw [if_neg hc]
  have hlt : o.contour (p.1 + dx k) (p.2 + dy k) < st.2.length := by have := S.sane.range _ _ hin; rw [hP.len]; omega
  rw [List.getElem?_eq_getElem hlt]
  by_cases ht : st.2[o.contour (p.1 + dx k) (p.2 + dy k)] = true
  · rw [ht]
    refine ⟨st, rfl, hb, hP, rfl, fun _ h => h, fun _ => ?_⟩
    rw [List.getElem?_eq_getElem hlt, ht]
  have hun : st.2[o.contour (p.1 + dx k) (p.2 + dy k)]? ≠ some true := by
    rw [List.getElem?_eq_getElem hlt]; simpa using ht
  rw [Bool.not_eq_true] at ht
  rw [ht]
  dsimp only
  -- the first contact
  obtain ⟨x, y, hF, he⟩ := exists_firstContour S hin hc
  have hne : o.contour x y ≠ o.contour (-1) (-1) := fun e => hun (by rw [← he, e]; exact hP.outer)
  obtain ⟨d1, d2, hI⟩ := hF.deep S hne
  have hmem : (x, y - 1) ∈ innerPixels m.w m.h := inner_mem (by unfold Inner at hI ⊢; omega)
  have hle := hF.first _ _ hin he.symm
  have hs := innerPixels_sorted m.w m.h
  have hnp : p = (x, y - 1) ∨ Raster p (x, y - 1) := by
    rw [hl] at hmem hs
    rcases List.mem_append.1 hmem with hm | hm
    · exact absurd (hP.done x y hF hm) (by rw [he]; exact hun)
    · have hs2 := (List.pairwise_append.1 hs).2.1
      rw [List.pairwise_cons] at hs2
      rcases List.mem_cons.1 hm with e | hm
      · exact Or.inl e.symm
      · exact Or.inr (hs2.1 _ hm)
  have hpy : p.2 = y - 1 ∧ p.1 ≤ x ∧ dy k = 1 ∧ x ≤ p.1 + dx k := by
    have h2 := dy_range k
    rcases hnp with e | e
    · rw [e] at hle ⊢; dsimp only at hle ⊢; omega
    · unfold Raster at e; dsimp only at e; omega
  obtain ⟨p2, p1, k1, k2⟩ := hpy
  have hq : p.1 + dx k = x ∧ (k = 6 ∨ k = 7) := by
    have hk567 : k = 5 ∨ k = 6 ∨ k = 7 := by revert k1; clear * -; revert k; decide
    rcases hk567 with rfl | rfl | rfl
    · simp only [dx] at k2; omega
    · simp only [dx] at k2 ⊢; exact ⟨by omega, Or.inl trivial⟩
    · refine ⟨?_, Or.inr rfl⟩
      by_contra hx
      simp only [dx] at k2 hx
      have h6 : (6 : Fin 8) ∈ pre' := by
        have : [0, 1, 2, 3, 4, 5, 6, 7] = pre' ++ 7 :: post' → (6 : Fin 8) ∈ pre' := by
          intro hk
          have hm : (6 : Fin 8) ∈ pre' ++ 7 :: post' := by rw [← hk]; decide
          rcases List.mem_append.1 hm with h | h
          · exact h
          · exfalso
            have hsort : ([0, 1, 2, 3, 4, 5, 6, 7] : List (Fin 8)).Pairwise (· < ·) := by decide
            rw [hk] at hsort
            have hs2 := (List.pairwise_append.1 hsort).2.1
            rw [List.pairwise_cons] at hs2
            rcases List.mem_cons.1 h with e | h
            · exact absurd e (by decide)
            · exact absurd (hs2.1 _ h) (by decide)
        exact this hk
      have e6 : p.1 + dx 6 = x ∧ p.2 + dy 6 = y := by simp only [dx, dy]; omega
      have := hdone 6 h6
      rw [e6.1, e6.2, he] at this
      exact hun (this hc)
  obtain ⟨q1, q2⟩ := hq
  have q3 : p.2 + dy k = y := by omega
  obtain ⟨f', hf'⟩ := hF.ring S
  have hff : f' = f := by
    have hj : ∃ j : Fin 8, (j = 1 ∨ j = 2 ∨ j = 3 ∨ j = 4) ∧ m.look x y j = m.px p.1 p.2 := by
      refine ⟨k + 4, ?_, ?_⟩
      · rcases q2 with rfl | rfl <;> decide
      · rw [← q1, ← q3]; exact look_back (dir_opp k)
    obtain ⟨j, hj1, hj2⟩ := hj
    rw [hf' j hj1, hp] at hj2
    exact congrArg Prod.snd hj2
  rw [hff] at hf'
  have hsw : Dart.swap ⟨p.1, p.2, k⟩ = ⟨x, y, k + 4⟩ := by
    unfold Dart.swap; dsimp only; rw [q1, q3]
  obtain ⟨a, ha⟩ := contact_total S hb hF.inside hF.nonregion hf' (k := k + 4) (by rcases q2 with rfl | rfl <;> decide)
  rw [hsw, q1, q3, ha, Outcome.bind_ok]
  refine ⟨_, rfl, hb.modifyFace _ _, ⟨by rw [List.length_set]; exact hP.len, set_true hP.outer, fun x' y' h1 h2 => set_true (hP.done x' y' h1 h2)⟩, ?_,
    fun c h => set_true h, fun _ => ?_⟩
  · dsimp only; rw [List.length_modify]
  · rw [q1, q3] at hlt
    rw [List.getElem?_set, if_pos rfl, if_pos hlt]

theorem region_live {done : List (Int × Int)} {b : Map} (h : FacesInv m done b) {q : Int × Int} (hq : q ∈ done) {f : Nat} (hf : m.px q.1 q.2 = (.region, f)) :
    ∃ F, b.faces[f]? = some F ∧ F.live = true := by
  obtain ⟨a, h1, h2⟩ := h.seen.live q hq f hf
  rw [List.getElem?_map] at h1
  cases hF : b.faces[f]? with
  | none => rw [hF] at h1; cases h1
  | some F =>
    rw [hF] at h1
    cases h1
    exact ⟨F, rfl, h2⟩

/-- one pixel -/
theorem initFace_total (S : Scene m o) {N : Nat} (hlab : ∀ x y, m.inside x y → (m.px x y).1 = .region → (m.px x y).2 ≤ N)
    {m0 : Map} (h0w : m0.w = m.w) (h0h : m0.h = m.h) (h0p : m0.px = m.px) {pre post : List (Int × Int)} {p : Int × Int}
    (hl : innerPixels m.w m.h = pre ++ p :: post) {st : FaceState} (hI : FacesInv m0 pre st.1) (hb : Lists m st.1) (hP : Processed m o pre st.2)
    (hlen : st.1.faces.length = N + 1) :
    ∃ st', initFace o st p = .ok st' ∧ FacesInv m0 (pre ++ [p]) st'.1 ∧ Lists m st'.1 ∧ Processed m o (pre ++ [p]) st'.2 ∧
      st'.1.faces.length = N + 1 := by
  have hpi : Inner m.w m.h p.1 p.2 := mem_inner (by rw [hl]; simp)
  have hpin := inner_inside hpi
  have hmem : p ∈ innerPixels m0.w m0.h := by rw [h0w, h0h, hl]; simp
  -- it is enough to find the next state
  suffices hs : ∃ st', initFace o st p = .ok st' ∧ Processed m o (pre ++ [p]) st'.2 ∧ st'.1.faces.length = N + 1 ∧ st'.1.init = false by
    obtain ⟨st', g1, g2, g3, g4⟩ := hs
    have hI' := initFace_inv hmem hI g1
    exact ⟨st', g1, hI', ⟨hI'.w.trans h0w, hI'.h.trans h0h, hI'.px.trans h0p, g4, initFace_entries g1 hb.entries,
      fun q hq => initFace_live g1 (hb.live q hq)⟩, g2, g3⟩
  -- contours that begin below `p`
  have hother : (m.px p.1 p.2).1 ≠ .region → Processed m o (pre ++ [p]) st.2 := by
    intro hr
    refine ⟨hP.len, hP.outer, fun x y hF hm => ?_⟩
    rcases List.mem_append.1 hm with hm | hm
    · exact hP.done x y hF hm
    · exfalso
      obtain rfl : (x, y - 1) = p := by simpa using hm
      obtain ⟨f, hf⟩ := hF.ring S
      have := hf 2 (by decide)
      unfold Map.look at this
      simp only [dx, dy, add_zero] at this
      rw [← sub_eq_add_neg] at this
      exact hr (by rw [this])
  unfold initFace
  dsimp only
  rw [hb.px]
  by_cases hr : (m.px p.1 p.2).1 ≠ .region
  · rw [if_pos hr]
    by_cases hline : (m.px p.1 p.2).1 = .line
    · rw [if_pos hline]
      obtain ⟨E, e1, -⟩ := hb.live p ⟨hpin, hline⟩
      have e1' : st.1.edges[(m.px p.1 p.2).2]? = some E := e1
      rw [e1']
      exact ⟨_, rfl, hother hr, hlen, hb.init⟩
    · rw [if_neg hline]
      exact ⟨_, rfl, hother hr, hlen, hb.init⟩
  rw [if_neg hr]
  simp only [ne_eq, not_not] at hr
  have hpx : m.px p.1 p.2 = (.region, (m.px p.1 p.2).2) := Prod.ext hr rfl
  generalize hfg : (m.px p.1 p.2).2 = f at hpx
  have hlt : f < st.1.faces.length := by have := hlab _ _ hpin hr; omega
  rw [List.getElem?_eq_getElem hlt]
  dsimp only
  have hget : st.1.faces[f]? = some st.1.faces[f] := List.getElem?_eq_getElem hlt
  generalize st.1.faces[f] = F at hget
  by_cases hlive : F.live = true
  · rw [if_neg (by simp [hlive])]
    obtain ⟨st1, g1, g2, g3, g4, g5, g6⟩ := foldO_total (l := [0, 1, 2, 3, 4, 5, 6, 7]) (f := innerContour o f p)
      (P := fun pre' s => Lists m s.1 ∧ Processed m o pre s.2 ∧ s.1.faces.length = N + 1 ∧ (∀ c : Nat, st.2[c]? = some true → s.2[c]? = some true) ∧
        ∀ j ∈ pre', o.contour (p.1 + dx j) (p.2 + dy j) ≠ 0 → s.2[o.contour (p.1 + dx j) (p.2 + dy j)]? = some true)
      (fun pre' k post' s hk hs => by
        obtain ⟨s1, s2, s3, s4, s5⟩ := hs
        obtain ⟨s', t1, t2, t3, t4, t5, t6⟩ := innerContour_total S hl s1 s2 hpx hk s5
        refine ⟨s', t1, t2, t3, t4.trans s3, fun c h => t5 c (s4 c h), fun j hj hne => ?_⟩
        rcases List.mem_append.1 hj with hj | hj
        · exact t5 _ (s5 j hj hne)
        · obtain rfl : j = k := by simpa using hj
          exact t6 hne)
      [0, 1, 2, 3, 4, 5, 6, 7] [] st rfl ⟨hb, hP, hlen, fun _ h => h, fun j hj => absurd hj (by simp)⟩
    rw [g1, Outcome.bind_ok]
    refine ⟨_, rfl, ⟨g3.len, g3.outer, fun x y hF hm => ?_⟩, ?_, g2.init⟩
    · rcases List.mem_append.1 hm with hm | hm
      · exact g3.done x y hF hm
      · obtain rfl : (x, y - 1) = p := by simpa using hm
        have := g6 6 (by decide)
        simp only [dx, dy, add_zero, sub_add_cancel] at this
        exact this fun hz => hF.nonregion ((S.sane.zero x y hF.inside).1 hz)
    · dsimp only; rw [List.length_modify]; exact g4
  · rw [if_pos (by simpa using hlive)]
    have h0 : f ≠ 0 := by
      rintro rfl
      obtain ⟨F0, h1, h2, -⟩ := hI.outer
      rw [hget] at h1
      cases h1
      exact hlive h2
    have hnew : ∀ q ∈ pre, m.px q.1 q.2 ≠ (.region, f) := by
      intro q hq e
      obtain ⟨a, h1, h2⟩ := hI.seen.live q hq f (by rw [h0p]; exact e)
      rw [List.getElem?_map, hget] at h1
      cases h1
      exact hlive h2
    obtain ⟨a, ha⟩ := first_total S hb hl hpx h0 hnew
    rw [ha, Outcome.bind_ok, Outcome.bind_ok]
    refine ⟨_, rfl, ⟨hP.len, hP.outer, fun x y hF hm => ?_⟩, ?_, hb.init⟩
    · rcases List.mem_append.1 hm with hm | hm
      · exact hP.done x y hF hm
      · obtain rfl : (x, y - 1) = p := by simpa using hm
        by_cases hne : o.contour x y = o.contour (-1) (-1)
        · dsimp only; rw [hne]; exact hP.outer
        · exfalso
          obtain ⟨d1, d2, hIn⟩ := hF.deep S hne
          obtain ⟨f', hf'⟩ := hF.ring S
          have h2 := hf' 2 (by decide)
          have h3 := hf' 3 (by decide)
          unfold Map.look at h2 h3
          simp only [dx, dy, add_zero] at h2 h3
          rw [← sub_eq_add_neg] at h2
          rw [← sub_eq_add_neg, ← sub_eq_add_neg] at h3
          dsimp only at hpx
          rw [h2] at hpx
          have hff : f' = f := congrArg Prod.snd hpx
          rw [hff] at h3
          refine hnew (x - 1, y - 1) ?_ h3
          have hm2 : (x - 1, y - 1) ∈ innerPixels m.w m.h := inner_mem (by unfold Inner at hIn ⊢; omega)
          have hs := innerPixels_sorted m.w m.h
          rw [hl] at hm2 hs
          rcases List.mem_append.1 hm2 with h | h
          · exact h
          · exfalso
            have hs2 := (List.pairwise_append.1 hs).2.1
            rw [List.pairwise_cons] at hs2
            rcases List.mem_cons.1 h with e | h
            · have := congrArg Prod.fst e; dsimp only at this; omega
            · have := hs2.1 _ h
              unfold Raster at this
              dsimp only at this
              omega
    · dsimp only; rw [List.length_modify, List.length_modify]; exact hlen

/-- `initFaceList` returns -/
theorem initFaceList_total (S : Scene m o) {N : Nat} (hlab : ∀ x y, m.inside x y → (m.px x y).1 = .region → (m.px x y).2 ≤ N) {m2 : Map}
    (hb : Lists m m2) (hfresh : ∀ (i : Nat) (E : Edge), m2.edges[i]? = some E → E.box = emptyRect ∧ E.size = 0) (hcount : m2.faceCount = 0) :
    ∃ m3, initFaceList o m2 N = .ok m3 := by
  have hin := inner_inside S.origin
  have hn : (m.px (-1) (-1)).1 ≠ .region := by rw [S.corner]; decide
  have hF : FirstOf m (-1) (-1) := ⟨hin, S.corner, fun x' y' hi hv _ => by
    have := S.clean.frame x' y' hi (by rw [hv]; decide)
    omega⟩
  obtain ⟨a, ha⟩ := mkDart_first S.clean S.noCorner S.nodes hF
  obtain ⟨ai, av, ad⟩ := mkDart_west S.clean ha
  have hsig : ∃ a', sigma m 7 a = .ok a' := by
    by_cases hline : (m.look a.x a.y a.dir).1 = .line
    · obtain ⟨d', h1, -⟩ := Props.sigma_inverse S.clean S.noCorner (ad hline) (k := 7) (Or.inr rfl)
      exact ⟨d', h1⟩
    · refine ⟨a, ?_⟩
      unfold sigma
      rw [S.clean.nb ai (by rw [av]; decide), Outcome.bind_ok, add_zero, if_pos hline]
  obtain ⟨a', ha'⟩ := hsig
  unfold initFaceList
  rw [(sameKinds_px hb.w hb.h hb.px).mkDart, ha, Outcome.bind_ok, sigma_same hb.w hb.h hb.px, ha', Outcome.bind_ok]
  dsimp only
  have hI := S.origin
  unfold Inner at hI
  have hc0 : o.contour (-1) (-1) ≠ 0 := fun h => hn ((S.sane.zero _ _ hin).1 h)
  have hcl := S.sane.range _ _ hin
  obtain ⟨st, h1, -⟩ := foldO_total (l := innerPixels m.w m.h) (f := initFace o)
    (P := fun pre st => FacesInv m2 pre st.1 ∧ Lists m st.1 ∧ Processed m o pre st.2 ∧ st.1.faces.length = N + 1)
    (fun pre p post st hl hs => by
      obtain ⟨s1, s2, s3, s4⟩ := hs
      obtain ⟨st', t⟩ := initFace_total S hlab hb.w hb.h hb.px hl s1 s2 s3 s4
      exact ⟨st', t⟩) (innerPixels m.w m.h) []
    ({ m2 with
        faces := ⟨true, (emptyRect.add (-2, -2)).add ((m2.w : Int) - 3, (m2.h : Int) - 3), 2 ^ 32 - 1, [a']⟩ :: List.replicate N ⟨false, emptyRect, 0, []⟩
        faceCount := addU m2.faceCount 1 },
      (List.replicate (o.components + 1) false).set (o.contour (-1) (-1)) true) rfl
    ⟨facesInv_start (by rw [hb.w]; omega) (by rw [hb.h]; omega) hcount hfresh a' N, hb.modifyFace _ _, ⟨by simp, by rw [List.getElem?_set, if_pos rfl, if_pos (by simp; omega)], fun x y _ hm => absurd hm (by simp)⟩, by simp⟩
  rw [hb.w, hb.h] at *
  rw [h1, Outcome.bind_ok]
  exact ⟨_, rfl⟩

end

end Verif.FourEight
