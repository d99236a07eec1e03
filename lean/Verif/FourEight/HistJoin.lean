import Verif.FourEight.HistNode

/-!
# Merging edges
-/

namespace Verif.FourEight
open Verif Verif.CellImage

section
variable {m m' : Map}

/-- between two darts that follow each other there is one face -/
theorem Whole.sigma_faces (hm : Whole m) {d d' : Dart} (h : IsDart m d) (hs : sigma m 1 d = .ok d') : rightL m d' = leftL m d := by
  obtain ⟨n, hd, hfirst⟩ := first_dart hm.clean one_turn h
  rw [sigma_walk hm.clean hm.noCorner one_turn n h hd hfirst] at hs
  cases hs
  exact sides_sigma hm.clean hm.noCorner hm.faces n h (hm.left d h) hd hfirst

/-- a node with two darts -/
theorem Whole.two_darts (hm : Whole m) {a b : Dart} (ha : IsDart m a) (h1 : sigma m 1 a = .ok b) (h2 : sigma m 1 b = .ok a) {d : Dart}
    (hd : IsDart m d) (hl : (m.px d.x d.y).2 = (m.px a.x a.y).2) : d = a ∨ d = b := by
  obtain ⟨x, y, hf, e⟩ := firstOf_exists hm.clean ha.inside ha.node
  obtain ⟨hr, -⟩ := mkDart_walk hm.clean hm.noCorner hm.nodes hf
  have hw := (oneRim_walk hm.clean hm.noCorner hm.nodes).1 (oneRim_of_noHoles hm.clean hm.noCorner hm.nodes hm.noHoles)
  obtain ⟨i, hi⟩ := hw x y a hf ha e
  obtain ⟨j, hj⟩ := hw x y d hf hd (hl.trans e)
  obtain ⟨k, hk⟩ := walk_back hm.clean hr hi
  have hjk : (walk m 1)^[j + k] a = d := by rw [Function.iterate_add_apply, hk, hj]
  obtain ⟨n, hn⟩ := sigmas_walk hm.clean hm.noCorner (j + k) ha (by rw [hjk]; exact hd)
  rw [hjk] at hn
  have s1 : sigmas m 1 a = .ok b := by rw [sigmas_head, h1]; rfl
  have s2 : sigmas m (1 + 1) a = .ok a := by rw [sigmas, s1, Outcome.bind_ok, h2]
  refine sigmas_turn (P := fun d => d = a ∨ d = b) s2 ?_ n d hn
  intro i hi
  rcases Nat.eq_zero_or_pos i with rfl | h0
  · exact ⟨a, rfl, Or.inl rfl⟩
  · obtain rfl : i = 1 := by omega
    exact ⟨b, s1, Or.inr rfl⟩

/-- a face beside a node lies right of one of its darts -/
theorem Whole.beside_node (hm : Whole m) {c a : Dart} (hc : Crack m c) (ha : IsDart m a) (hl : (m.px a.x a.y).2 = (m.px c.x c.y).2) {f : Nat}
    (hf : m.look c.x c.y c.dir = (.region, f)) : ∃ d, IsDart m d ∧ (m.px d.x d.y).2 = (m.px c.x c.y).2 ∧ rightL m d = f := by
  classical
  obtain ⟨i, hi⟩ := hm.on_walk hc (Or.inr ha) hl
  have hd : ∃ i, IsDart m ((walk m 1)^[i] c) := ⟨i, by rw [hi]; exact ha⟩
  have hne : Nat.find hd ≠ 0 := by
    intro e
    have hh := Nat.find_spec hd
    rw [e] at hh
    have he := hh.edge
    change (m.look c.x c.y c.dir).1 = _ at he
    rw [hf] at he
    exact absurd he (by simp)
  obtain ⟨n, hn⟩ : ∃ n, Nat.find hd = n + 1 := ⟨Nat.find hd - 1, by omega⟩
  have hs := Nat.find_spec hd
  rw [hn] at hs
  refine ⟨_, hs, by rw [hm.walk_label hc.rim], ?_⟩
  refine sector hm.clean hm.faces f n hc.rim hf hs fun i _ hi hh => ?_
  exact Nat.find_min hd (by omega) hh

/-- how the image changes -/
theorem Whole.join_change (hm : Whole m) {n s g : Nat} (hw : m'.w = m.w) (hh : m'.h = m.h)
    (hpx : ∀ x y, m.inside x y → m'.px x y = if m.px x y = (.vertex, n) ∨ m.px x y = (.line, g) then (.line, s) else m.px x y) :
    Change m m' (fun l => l ≠ n) (fun _ => True) id (fun l => if l = g then s else l) := by
  refine ⟨hw, hh, ?_, ?_, ?_, ?_, ?_, ?_⟩
  · intro x y l hi
    rw [hpx x y hi]
    constructor
    · intro h
      split at h
      · exact absurd h (by simp)
      · rename_i hc
        exact ⟨h, fun e => hc (Or.inl (by rw [h, e]))⟩
    · rintro ⟨h, h2⟩
      rw [h, if_neg (by simp [h2])]
  · intro x y l hi h _
    rw [hpx x y hi, h]
    by_cases hg : l = g
    · rw [if_pos (by right; rw [hg]), if_pos hg]
    · rw [if_neg (by simp [hg]), if_neg hg]
  · intro x y l hi h hq
    exact absurd trivial hq
  · intro x y hi h
    rw [hpx x y hi] at h
    split at h
    · rename_i hc
      rcases hc with hc | hc
      · exact Or.inr ⟨n, hc, fun q => q rfl⟩
      · exact Or.inl ⟨g, hc, trivial⟩
    · exact Or.inl ⟨(m.px x y).2, Prod.ext h rfl, trivial⟩
  · intro x y l hi h
    rw [hpx x y hi, h, if_neg (by simp)]; rfl
  · intro x y hi
    rw [hpx x y hi]
    split
    · exact Or.inr (Or.inl rfl)
    · exact hm.clean.types x y hi

/-- a node with two darts becomes a part of an edge -/
theorem Whole.join (hm : Whole m) {n s g : Nat} {a b s1 s2 : Dart} (ha : IsDart m a) (hb : IsDart m b) (h1 : sigma m 1 a = .ok b)
    (h2 : sigma m 1 b = .ok a) (hn : m.px a.x a.y = (.vertex, n)) (hla : m.look a.x a.y a.dir = (.line, s))
    (hlb : m.look b.x b.y b.dir = (.line, g)) (hsg : s ≠ g) (hs1 : FourEight.alpha m a = .ok s1) (hs2 : FourEight.alpha m b = .ok s2)
    (hw : m'.w = m.w) (hh : m'.h = m.h)
    (hpx : ∀ x y, m.inside x y → m'.px x y = if m.px x y = (.vertex, n) ∨ m.px x y = (.line, g) then (.line, s) else m.px x y)
    (hnodes : m'.nodes = m.nodes.modify n fun N => { N with live := false }) (hedges : Joined m.edges m'.edges s g s1 s2)
    (hinit : m'.init = m.init) (hcons : Consistent m') (houter : Outer m') : Whole m' := by
  have hch := hm.join_change hw hh hpx
  have hnb : m.px b.x b.y = (.vertex, n) := by
    obtain ⟨e, q1, -, -, q4⟩ := Props.sigma_inverse hm.clean hm.noCorner ha (k := 1) (Or.inl rfl)
    rw [h1] at q1
    obtain rfl := Outcome.ok.inj q1
    rw [chain_label hm.clean hm.nodes ha.inside ha.node _ q4, hn]
  have htwo : ∀ {d : Dart}, IsDart m d → (m.px d.x d.y).2 = n → d = a ∨ d = b := fun hd hl =>
    hm.two_darts ha h1 h2 hd (by rw [hl, hn])
  -- lines of the new image
  have hlineEq : ∀ x y l, m.inside x y → m'.px x y = (.line, l) → m.px x y = (.vertex, n) ∧ l = s ∨
      ∃ l', m.px x y = (.line, l') ∧ l = if l' = g then s else l' := by
    intro x y l hi h
    rw [hpx x y hi] at h
    by_cases hc : m.px x y = (.vertex, n)
    · rw [if_pos (Or.inl hc)] at h
      exact Or.inl ⟨hc, (Prod.mk.inj h).2.symm⟩
    · right
      by_cases hg : m.px x y = (.line, g)
      · rw [if_pos (Or.inr hg)] at h
        exact ⟨g, hg, by rw [if_pos rfl]; exact (Prod.mk.inj h).2.symm⟩
      · rw [if_neg (fun q => q.elim hc hg)] at h
        exact ⟨l, h, by rw [if_neg (fun e => hg (by rw [h, e]))]⟩
  have hregEq : ∀ x y f, m.inside x y → m'.px x y = (.region, f) → m.px x y = (.region, f) := by
    intro x y f hi h
    rw [hpx x y hi] at h
    split at h
    · exact absurd h (by simp)
    · exact h
  have back : ∀ k : Fin 8, k.val % 2 = 0 → ∃ j : Fin 8, j.val % 2 = 0 ∧ dx k + dx j = 0 ∧ dy k + dy j = 0 := by decide
  -- an edge beside the node
  have hnext : ∀ x y (k : Fin 8) l, m.inside x y → m.px x y = (.vertex, n) → k.val % 2 = 0 → m.look x y k = (.line, l) → l = s ∨ l = g := by
    intro x y k l hi hx hk hl
    have hd : IsDart m ⟨x, y, k⟩ := ⟨hi, by rw [hx], by rw [hl], fun ho => absurd ho (by dsimp only; omega)⟩
    rcases htwo hd (by dsimp only; rw [hx]) with e | e
    · left
      rw [← e] at hla
      exact (Prod.mk.inj (hl.symm.trans hla)).2
    · right
      rw [← e] at hlb
      exact (Prod.mk.inj (hl.symm.trans hlb)).2
  have hsg' : ∀ l, l = s ∨ l = g → (if l = g then s else l) = s := by
    intro l h
    by_cases hl : l = g
    · rw [if_pos hl]
    · rw [if_neg hl]; exact h.resolve_right hl
  -- the two edges
  have edgeOf : ∀ {c c' : Dart} {l : Nat}, IsDart m c → m.look c.x c.y c.dir = (.line, l) → FourEight.alpha m c = .ok c' →
      ∃ F, m.edges[l]? = some F ∧ F.live = true ∧ (F.start = c ∧ F.stop = c' ∨ F.start = c' ∧ F.stop = c) ∧ IsDart m c' ∧ c' ≠ c ∧
        m.look c'.x c'.y c'.dir = (.line, l) ∧ leftL m c' = rightL m c ∧ rightL m c' = leftL m c := by
    intro c c' l hc hl hal
    obtain ⟨l', F, q1, q2, q3, q4⟩ := hm.edge hc
    obtain rfl : l' = l := (Prod.mk.inj (q1.symm.trans hl)).2
    rw [hm.alpha hc q1 q2 q3] at hal
    obtain ⟨c1, c2, c3, c4, c5⟩ := hm.ends _ F q2 q3
    obtain ⟨f1, f2⟩ := hm.fit _ F q2 q3
    by_cases hcs : c = F.start
    · rw [if_pos hcs] at hal
      obtain rfl := Outcome.ok.inj hal
      subst hcs
      exact ⟨F, q2, q3, Or.inl ⟨rfl, rfl⟩, c2, c3.symm, c5, f2.symm, f1.symm⟩
    · rw [if_neg hcs] at hal
      obtain rfl := Outcome.ok.inj hal
      obtain rfl := q4.resolve_left hcs
      exact ⟨F, q2, q3, Or.inr ⟨rfl, rfl⟩, c1, c3, c4, f1, f2⟩
  obtain ⟨S, a1, a2, a3, a4, a5, a6, a7, a8⟩ := edgeOf ha hla hs1
  obtain ⟨G, b1, b2, b3, b4, b5, b6, b7, b8⟩ := edgeOf hb hlb hs2
  have hab := hm.sigma_faces ha h1
  have hba := hm.sigma_faces hb h2
  -- darts of the new map
  have hs1n : (m.px s1.x s1.y).2 ≠ n := by
    intro e
    rcases htwo a4 e with q | q
    · exact a5 q
    · rw [q, hlb] at a6
      exact hsg (Prod.mk.inj a6).2.symm
  have hs2n : (m.px s2.x s2.y).2 ≠ n := by
    intro e
    rcases htwo b4 e with q | q
    · rw [q, hla] at b6
      exact hsg (Prod.mk.inj b6).2
    · exact b5 q
  have hdart : ∀ {d : Dart}, IsDart m' d ↔ IsDart m d ∧ (m.px d.x d.y).2 ≠ n := by
    intro d
    rw [hch.isDart hm d]
    exact ⟨fun q => ⟨q.1, q.2.1⟩, fun q => ⟨q.1, q.2, trivial⟩⟩
  have hother : ∀ {d : Dart} {l : Nat}, IsDart m d → m.look d.x d.y d.dir = (.line, l) → l ≠ s → l ≠ g → (m.px d.x d.y).2 ≠ n := by
    intro d l hd hl t1 t2 e
    rcases htwo hd e with rfl | rfl
    · exact t1 (Prod.mk.inj (hl.symm.trans hla)).2
    · exact t2 (Prod.mk.inj (hl.symm.trans hlb)).2
  have hlk : ∀ {d : Dart} {l : Nat}, IsDart m d → m.look d.x d.y d.dir = (.line, l) →
      m'.look d.x d.y d.dir = (.line, if l = g then s else l) := by
    intro d l hd hl
    exact hch.line _ _ l (hm.clean.near hd.inside hd.rim.nonregion d.dir) hl trivial
  have hd1 := hdart.2 ⟨a4, hs1n⟩
  have hd2 := hdart.2 ⟨b4, hs2n⟩
  have hsides : ∀ {d : Dart}, IsDart m' d → leftL m' d = leftL m d ∧ rightL m' d = rightL m d := fun hd =>
    ⟨hch.leftL hm hd, hch.rightL hm hd⟩
  refine ⟨hcons, houter, by rw [hinit]; exact hm.init, hch.clean hm.clean, hch.noCorner hm.clean hm.nodes hm.noCorner,
    hch.nodes hm.clean hm.nodes, ?_, hch.noHoles hm.clean hm.nodes hm.noHoles, hch.left' hm, hch.right' hm, ?_, ?_, ?_, ?_, ?_, ?_⟩
  · intro x y k hk hi hi' q1 q2
    have hi := (hch.inside _ _).1 hi
    have hi' := (hch.inside _ _).1 hi'
    have e1 := hregEq x y _ hi (Prod.ext q1 rfl)
    have e2 := hregEq _ _ (m'.look x y k).2 hi' (Prod.ext q2 rfl)
    have : (m.look x y k).2 = (m.px x y).2 := hm.faces x y k hk hi hi' (by rw [e1]) (show (m.px _ _).1 = _ by rw [e2])
    change (m.px _ _).2 = _ at this
    rw [e1, e2] at this
    exact this
  · intro x y k hk hi q1 q2
    have hi := (hch.inside _ _).1 hi
    have hnr : (m.px x y).1 ≠ .region := hch.nonregion hi (by rw [q1]; decide)
    have hi' := hm.clean.near hi hnr k
    obtain ⟨j, j1, j2⟩ := back k hk
    rcases hlineEq x y _ hi (Prod.ext q1 rfl) with ⟨e1, e2⟩ | ⟨l1, e1, e2⟩ <;>
      rcases hlineEq _ _ (m'.look x y k).2 hi' (Prod.ext q2 rfl) with ⟨r1, r2⟩ | ⟨l2, r1, r2⟩
    · exact r2.trans e2.symm
    · exact (r2.trans (hsg' l2 (hnext x y k l2 hi e1 hk r1))).trans e2.symm
    · refine r2.trans (e2.trans (hsg' l1 (hnext _ _ j l1 hi' r1 j1 ?_))).symm
      rw [look_back j2]; exact e1
    · have : (m.look x y k).2 = (m.px x y).2 := hm.lines x y k hk hi (by rw [e1]) (show (m.px _ _).1 = _ by rw [r1])
      change (m.px _ _).2 = _ at this
      rw [e1, r1] at this
      refine r2.trans (Eq.trans ?_ e2.symm)
      dsimp only at this
      rw [this]
  · intro l F t1 t2
    rcases hedges l F t1 t2 with ⟨rfl, q2, q3⟩ | ⟨q1, q2, q3⟩
    · rw [q2, q3]
      refine ⟨hd1, hd2, ?_, ?_, ?_⟩
      · intro e
        rw [e, b6] at a6
        exact hsg (Prod.mk.inj a6).2.symm
      · rw [hlk a4 a6, if_neg hsg]
      · rw [hlk b4 b6, if_pos rfl]
    · obtain ⟨c1, c2, c3, c4, c5⟩ := hm.ends l F q3 t2
      refine ⟨hdart.2 ⟨c1, hother c1 c4 q1 q2⟩, hdart.2 ⟨c2, hother c2 c5 q1 q2⟩, c3, ?_, ?_⟩
      · rw [hlk c1 c4, if_neg q2]
      · rw [hlk c2 c5, if_neg q2]
  · intro l F t1 t2 d hd hlook
    obtain ⟨hd0, hdn⟩ := hdart.1 hd
    have hl0 := hm.label hd0
    have hll := hlk hd0 hl0
    rw [hlook] at hll
    have hll := (Prod.mk.inj hll).2
    generalize (m.look d.x d.y d.dir).2 = l0 at hl0 hll
    have hown : ∀ {c c' : Dart} {k : Nat} {K : Edge}, m.edges[k]? = some K → K.live = true → (K.start = c ∧ K.stop = c' ∨ K.start = c' ∧ K.stop = c) →
        (m.px c.x c.y).2 = n → l0 = k → d = c' := by
      intro c c' k K g1 g2 g3 g4 g5
      subst g5
      have hdc : d ≠ c := fun e => hdn (by rw [e]; exact g4)
      rcases hm.owner _ K g1 g2 d hd0 hl0 with r | r <;> rcases g3 with ⟨r1, r2⟩ | ⟨r1, r2⟩
      · exact absurd (r.trans r1) hdc
      · exact r.trans r1
      · exact r.trans r2
      · exact absurd (r.trans r2) hdc
    rcases hedges l F t1 t2 with ⟨rfl, q2, q3⟩ | ⟨q1, q2, q3⟩
    · rw [q2, q3]
      by_cases hg : l0 = g
      · right; exact hown b1 b2 b3 (by rw [hnb]) hg
      · rw [if_neg hg] at hll
        left; exact hown a1 a2 a3 (by rw [hn]) hll.symm
    · have : l0 = l := by
        by_cases hg : l0 = g
        · rw [if_pos hg] at hll; exact absurd hll q1
        · rw [if_neg hg] at hll; exact hll.symm
      rw [this] at hl0
      exact hm.owner l F q3 t2 d hd0 hl0
  · intro l F t1 t2
    rcases hedges l F t1 t2 with ⟨rfl, q2, q3⟩ | ⟨q1, q2, q3⟩
    · rw [q2, q3, (hsides hd1).1, (hsides hd1).2, (hsides hd2).1, (hsides hd2).2, a7, a8, b7, b8]
      exact ⟨hba, hab.symm⟩
    · obtain ⟨c1, c2, c3, c4, c5⟩ := hm.ends l F q3 t2
      have e1 := hdart.2 ⟨c1, hother c1 c4 q1 q2⟩
      have e2 := hdart.2 ⟨c2, hother c2 c5 q1 q2⟩
      rw [(hsides e1).1, (hsides e1).2, (hsides e2).1, (hsides e2).2]
      exact hm.fit l F q3 t2
  · intro l F t1 t2 x y k f hi hx hk hf
    have hi := (hch.inside _ _).1 hi
    have hnr : (m.px x y).1 ≠ .region := hch.nonregion hi (by rw [hx]; exact fun q => by cases q)
    have hi' := hm.clean.near hi hnr k
    have hf0 := hregEq _ _ f hi' hf
    rcases hedges l F t1 t2 with ⟨rfl, q2, q3⟩ | ⟨q1, q2, q3⟩
    · rw [q2, (hsides hd1).1, (hsides hd1).2, a7, a8]
      have hendS : ∀ {c c' : Dart} {K : Edge}, (K.start = c ∧ K.stop = c' ∨ K.start = c' ∧ K.stop = c) → leftL m c' = rightL m c →
          rightL m c' = leftL m c → leftL m K.start = f ∨ rightL m K.start = f → rightL m c = f ∨ leftL m c = f := by
        intro c c' K g1 g2 g3 g4
        rcases g1 with ⟨r1, -⟩ | ⟨r1, -⟩
        · rw [r1] at g4; exact g4.symm
        · rw [r1, g2, g3] at g4; exact g4
      rcases hlineEq x y l hi hx with ⟨e1, -⟩ | ⟨l', e1, e2⟩
      · obtain ⟨d, r1, r2, r3⟩ := hm.beside_node (c := ⟨x, y, k⟩) (a := a)
          ⟨hi, by rw [e1], hk, by rw [show m.look x y k = _ from hf0]; exact fun q => by cases q⟩ ha (by dsimp only; rw [e1, hn]) hf0
        dsimp only at r2
        rcases htwo r1 (by rw [r2, e1]) with rfl | rfl
        · left; exact r3
        · right; rw [← hab]; exact r3
      · by_cases hg : l' = g
        · subst hg
          have := hendS b3 b7 b8 (hm.beside _ G b1 b2 x y k f hi e1 hk hf0)
          rw [hab, ← hba] at this
          exact this.symm
        · rw [if_neg hg] at e2
          subst e2
          exact hendS a3 a7 a8 (hm.beside _ S a1 a2 x y k f hi e1 hk hf0)
    · obtain ⟨c1, c2, c3, c4, c5⟩ := hm.ends l F q3 t2
      have e1 := hdart.2 ⟨c1, hother c1 c4 q1 q2⟩
      rw [(hsides e1).1, (hsides e1).2]
      rcases hlineEq x y l hi hx with ⟨-, e2⟩ | ⟨l', e2, e3⟩
      · exact absurd e2 q1
      · have : l' = l := by
          by_cases hg : l' = g
          · rw [if_pos hg] at e3; exact absurd e3 q1
          · rw [if_neg hg] at e3; exact e3.symm
        rw [this] at e2
        exact hm.beside l F q3 t2 x y k f hi e2 hk hf0
  · intro l A hA hAl
    rw [hnodes] at hA
    by_cases hl : l = n
    · subst hl
      rw [List.getElem?_modify_eq] at hA
      obtain ⟨B, -, rfl⟩ := Option.map_eq_some_iff.1 hA
      cases hAl
    · rw [modify_ne (fun e => hl e.symm)] at hA
      rw [hm.degree l A hA hAl, hch.dartsAt hm hl]
      congr 2
      ext d
      exact ⟨fun q => ⟨q, trivial⟩, fun q => q.1⟩

end

end Verif.FourEight
