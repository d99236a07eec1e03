import Verif.FourEight.LabelScan

/-!
# `labelSelfLoops`: closed edges without a node
-/

namespace Verif.FourEight
open Verif Verif.CellImage

section
variable {m : Map}

/-- a closed edge whose first pixel (line by line) has this neighbourhood is found to the east or to the south west -/
theorem table_loop : ∀ n : Fin 8 → Bool, cellConf .line n = .line →
    (∀ k : Fin 8, k = 1 ∨ k = 2 ∨ k = 3 ∨ k = 4 → good n k = false) → good n 0 = true ∨ (n 0 = false ∧ good n 5 = true) := by
  apply ring8_all
  decide +kernel

/-- The image while closed edges are labelled.  `N` and `n` are the largest labels of nodes and edges. -/
structure Ready (m : Map) (N n : Nat) : Prop where
  clean : Clean m
  trace : Traceable m
  corner : NoCorner m
  nodes : NodesLabelled m
  marked : Marked m n
  fresh : m.init = false
  /-- edges without label do not touch nodes -/
  loose : ∀ d : Dart, Link m d → (m.px d.x d.y).1 = .line → (m.px d.x d.y).2 = 0 → (m.look d.x d.y d.dir).1 = .line
  node : ∀ x y, m.inside x y → (m.px x y).1 = .vertex → 1 ≤ (m.px x y).2 ∧ (m.px x y).2 ≤ N
  face : ∀ x y, Inner m.w m.h x y → (m.px x y).1 = .region → (m.px x y).2 ≠ 0

/-- from the pixel between to the diagonal one -/
theorem dir_via1 {k : Fin 8} (h : k.val % 2 = 1) : dx (k + 1) + dx (k + 7) = dx k ∧ dy (k + 1) + dy (k + 7) = dy k := by
  revert h; revert k; decide

theorem dir_even {k : Fin 8} (h : k.val % 2 = 1) : ¬(k + 1).val % 2 = 1 ∧ ¬(k + 7).val % 2 = 1 := by revert h; revert k; decide

theorem dir_move (k : Fin 8) : dx k ≠ 0 ∨ dy k ≠ 0 := by revert k; decide

theorem link_even {x y : Int} {k : Fin 8} (hi : m.inside x y) (hn : (m.px x y).1 ≠ .region) (he : ¬k.val % 2 = 1)
    (hk : (m.look x y k).1 ≠ .region) : Link m ⟨x, y, k⟩ := ⟨hi, hn, hk, fun ho => absurd ho he⟩

/-- Around a pixel of an edge without label there are only pixels of faces and of the same edge. -/
theorem Ready.around {N n : Nat} (hr : Ready m N n) {p : Int × Int} (hp : m.isLine p) (h0 : m.label p = 0) (k : Fin 8)
    (hk : (m.look p.1 p.2 k).1 ≠ .region) :
    (m.look p.1 p.2 k).1 = .line ∧ SameEdge m p (p.1 + dx k, p.2 + dy k) := by
  have hn : (m.px p.1 p.2).1 ≠ .region := by rw [hp.2]; decide
  have hlink : ∀ j, Link m ⟨p.1, p.2, j⟩ → (m.look p.1 p.2 j).1 = .line ∧ EdgeNext m p (p.1 + dx j, p.2 + dy j) := by
    intro j hj
    have hl := hr.loose _ hj hp.2 h0
    exact ⟨hl, hp.2, hl, j, rfl, hj.between⟩
  by_cases hL : Link m ⟨p.1, p.2, k⟩
  · exact ⟨(hlink k hL).1, Relation.ReflTransGen.single (hlink k hL).2⟩
  have ho : k.val % 2 = 1 := by
    by_contra hh
    exact hL (link_even hp.1 hn hh hk)
  -- a pixel between
  have hvia : ∀ a b : Fin 8, ¬a.val % 2 = 1 → ¬b.val % 2 = 1 → (dx a + dx b = dx k ∧ dy a + dy b = dy k) →
      (m.look p.1 p.2 a).1 ≠ .region → (m.look p.1 p.2 k).1 = .line ∧ SameEdge m p (p.1 + dx k, p.2 + dy k) := by
    intro a b ha hb hab har
    obtain ⟨h1, h2⟩ := hlink a (link_even hp.1 hn ha har)
    have hsi : m.inside (p.1 + dx a) (p.2 + dy a) := hr.clean.near hp.1 hn a
    have hs0 : (m.px (p.1 + dx a) (p.2 + dy a)).2 = 0 := by
      have := hr.marked.closed p _ hp (Relation.ReflTransGen.single h2)
      rw [h0] at this
      exact this.symm
    have hl2 : Link m ⟨p.1 + dx a, p.2 + dy a, b⟩ := link_even hsi (by
      show (m.look p.1 p.2 a).1 ≠ _
      rw [h1]; decide) hb (by rw [look_shift hab]; exact hk)
    have h3 := hr.loose _ hl2 h1 hs0
    dsimp only at h3
    rw [look_shift hab] at h3
    refine ⟨h3, Relation.ReflTransGen.tail (Relation.ReflTransGen.single h2) ⟨h1, h3, b, ?_, fun hh => absurd hh hb⟩⟩
    refine Prod.ext ?_ ?_ <;> dsimp only <;> omega
  obtain ⟨e1, e2⟩ := dir_even ho
  have hnot : (m.look p.1 p.2 (k + 1)).1 ≠ .region ∨ (m.look p.1 p.2 (k + 7)).1 ≠ .region := by
    by_contra hh
    push Not at hh
    exact hL ⟨hp.1, hn, hk, fun _ => hh⟩
  rcases hnot with h1 | h1
  · exact hvia (k + 1) (k + 7) e1 e2 (dir_via1 ho) h1
  · exact hvia (k + 7) (k + 1) e2 e1 (by have := dir_via1 ho; omega) h1

/-! ## one closed edge -/

/-- the image with a new node -/
def Map.withNode (m : Map) (p : Int × Int) (l : Nat) : Map := { m with px := paint m.px [p] (.vertex, l) }

theorem withNode_at (p : Int × Int) (l : Nat) : (m.withNode p l).px p.1 p.2 = (.vertex, l) := by
  show paint m.px [p] (.vertex, l) p.1 p.2 = _
  unfold paint
  exact if_pos (by simp)

theorem withNode_other {p : Int × Int} {l : Nat} {x y : Int} (h : (x, y) ≠ p) : (m.withNode p l).px x y = m.px x y := by
  show paint m.px [p] (.vertex, l) x y = _
  unfold paint
  exact if_neg (by simpa using h)

theorem withNode_region {p : Int × Int} {l : Nat} (hp : (m.px p.1 p.2).1 = .line) (x y : Int) :
    ((m.withNode p l).px x y).1 = .region ↔ (m.px x y).1 = .region := by
  by_cases h : (x, y) = p
  · subst h
    rw [withNode_at]
    dsimp only at hp
    rw [hp]
    constructor <;> intro hh <;> cases hh
  · rw [withNode_other h]

theorem withNode_line {p : Int × Int} {l : Nat} {x y : Int} (h : ((m.withNode p l).px x y).1 = .line) :
    (x, y) ≠ p ∧ (m.px x y).1 = .line := by
  by_cases he : (x, y) = p
  · subst he
    rw [withNode_at] at h
    cases h
  · rw [withNode_other he] at h
    exact ⟨he, h⟩

theorem withNode_vertex {p : Int × Int} {l : Nat} {x y : Int} (h : ((m.withNode p l).px x y).1 = .vertex) :
    (x, y) = p ∨ (m.px x y).1 = .vertex := by
  by_cases he : (x, y) = p
  · exact Or.inl he
  · rw [withNode_other he] at h
    exact Or.inr h

theorem withNode_inside {p : Int × Int} {l : Nat} {x y : Int} : (m.withNode p l).inside x y ↔ m.inside x y := Iff.rfl

theorem withNode_look {p : Int × Int} {l : Nat} (hp : (m.px p.1 p.2).1 = .line) (x y : Int) (j : Fin 8) :
    ((m.withNode p l).look x y j).1 = .region ↔ (m.look x y j).1 = .region := withNode_region hp _ _

theorem withNode_ring {p : Int × Int} {l : Nat} (hp : (m.px p.1 p.2).1 = .line) (x y : Int) :
    ringOf (m.withNode p l) x y = ringOf m x y := by
  funext j
  unfold ringOf
  exact decide_eq_decide.2 (not_congr (withNode_look hp x y j))

theorem withNode_link {p : Int × Int} {l : Nat} (hp : (m.px p.1 p.2).1 = .line) {d : Dart} : Link (m.withNode p l) d ↔ Link m d := by
  constructor
  · intro h
    exact ⟨h.inside, fun hh => h.here ((withNode_region hp _ _).2 hh), fun hh => h.there ((withNode_look hp _ _ _).2 hh),
      fun ho => ⟨(withNode_look hp _ _ _).1 (h.between ho).1, (withNode_look hp _ _ _).1 (h.between ho).2⟩⟩
  · intro h
    exact ⟨h.inside, fun hh => h.here ((withNode_region hp _ _).1 hh), fun hh => h.there ((withNode_look hp _ _ _).1 hh),
      fun ho => ⟨(withNode_look hp _ _ _).2 (h.between ho).1, (withNode_look hp _ _ _).2 (h.between ho).2⟩⟩

theorem withNode_clean (hc : Clean m) {p : Int × Int} {l : Nat} (hp : (m.px p.1 p.2).1 = .line) : Clean (m.withNode p l) := by
  refine ⟨fun x y hi => ?_, fun x y hi hn => hc.frame x y hi fun hh => hn ((withNode_region hp _ _).2 hh)⟩
  by_cases he : (x, y) = p
  · subst he; rw [withNode_at]; exact Or.inl rfl
  · rw [withNode_other he]; exact hc.types x y hi

theorem withNode_trace (ht : Traceable m) {p : Int × Int} {l : Nat} (hp : (m.px p.1 p.2).1 = .line) : Traceable (m.withNode p l) := by
  intro x y hi hl
  have := ht x y hi (withNode_line hl).2
  show cellConf .line (ringOf (m.withNode p l) x y) = .line
  rw [withNode_ring hp]
  exact this

theorem withNode_next {p q r : Int × Int} {l : Nat} (hp : (m.px p.1 p.2).1 = .line) :
    EdgeNext (m.withNode p l) q r ↔ EdgeNext m q r ∧ q ≠ p ∧ r ≠ p := by
  constructor
  · rintro ⟨h1, h2, k, h3, h4⟩
    refine ⟨⟨(withNode_line h1).2, (withNode_line h2).2, k, h3, fun ho => ?_⟩, (withNode_line h1).1, (withNode_line h2).1⟩
    exact ⟨(withNode_look hp _ _ _).1 (h4 ho).1, (withNode_look hp _ _ _).1 (h4 ho).2⟩
  · rintro ⟨⟨h1, h2, k, h3, h4⟩, hq, hr⟩
    refine ⟨by rw [withNode_other hq]; exact h1, by rw [withNode_other hr]; exact h2, k, h3, fun ho => ?_⟩
    exact ⟨(withNode_look hp _ _ _).2 (h4 ho).1, (withNode_look hp _ _ _).2 (h4 ho).2⟩

theorem withNode_same {p q r : Int × Int} {l : Nat} (hp : (m.px p.1 p.2).1 = .line) (h : SameEdge (m.withNode p l) q r) : SameEdge m q r := by
  induction h with
  | refl => exact .refl
  | tail _ hh ih => exact ih.tail ((withNode_next hp).1 hh).1

theorem withNode_marked {N n : Nat} (hr : Ready m N n) {p : Int × Int} {l : Nat} (hp : m.isLine p) (h0 : m.label p = 0) :
    Marked (m.withNode p l) n := by
  have hlab : ∀ q, q ≠ p → (m.withNode p l).label q = m.label q := fun q hq => by
    unfold Map.label; rw [withNode_other hq]
  have hln : ∀ q, (m.withNode p l).isLine q → q ≠ p ∧ m.isLine q := fun q hq => ⟨(withNode_line hq.2).1, hq.1, (withNode_line hq.2).2⟩
  have key : ∀ q r, m.isLine q → m.label q ≠ 0 → SameEdge m q r → SameEdge (m.withNode p l) q r := by
    intro q r q2 h1 hs
    induction hs with
    | refl => exact .refl
    | @tail a b hqa hab ih =>
      have ha := hr.marked.closed q a q2 hqa
      have hb := hr.marked.closed q b q2 (hqa.tail hab)
      refine ih.tail ((withNode_next hp.2).2 ⟨hab, ?_, ?_⟩)
      · rintro rfl; omega
      · rintro rfl; omega
  refine ⟨?_, ?_, ?_, ?_, ?_⟩
  · intro q hq
    obtain ⟨h1, h2⟩ := hln q hq
    rw [hlab q h1]; exact hr.marked.le q h2
  · intro l' h1 h2
    obtain ⟨q, g1, g2⟩ := hr.marked.used l' h1 h2
    have hne : q ≠ p := by
      rintro rfl
      omega
    exact ⟨q, ⟨g1.1, by rw [withNode_other hne]; exact g1.2⟩, by rw [hlab q hne]; exact g2⟩
  · intro q r hq hqr
    obtain ⟨h1, h2⟩ := hln q hq
    have hr' := hln r (SameEdge.isLine (withNode_clean hr.clean hp.2) hq hqr)
    rw [hlab q h1, hlab r hr'.1]
    exact hr.marked.closed q r h2 (withNode_same hp.2 hqr)
  · intro q r hq hr' h1 h2
    obtain ⟨q1, q2⟩ := hln q hq
    obtain ⟨r1, r2⟩ := hln r hr'
    rw [hlab q q1] at h1
    rw [hlab q q1, hlab r r1] at h2
    exact key q r q2 h1 (hr.marked.apart q r q2 r2 h1 h2)
  · intro q hq h1
    obtain ⟨q1, q2⟩ := hln q hq
    rw [hlab q q1] at h1
    obtain ⟨d, g1, g2⟩ := hr.marked.anchored q q2 h1
    have hf : m.isLine d.front := ⟨(g1.link.swap hr.clean).inside, g1.edge⟩
    have hl := hr.marked.closed _ _ hf g2
    have hfp : d.front ≠ p := by
      intro e
      rw [e] at hl
      omega
    refine ⟨d, ⟨g1.inside, ?_, ?_, ((withNode_link (l := l) hp.2).2 g1.link).between⟩, key _ _ hf (by omega) g2⟩
    · rw [withNode_other]
      · exact g1.node
      · intro e
        have := g1.node
        rw [← e] at hp
        have h2 := hp.2
        dsimp only at h2
        rw [this] at h2
        exact CellType.noConfusion h2
    · have e := withNode_other (m := m) (l := l) hfp
      show ((m.withNode p l).px _ _).1 = _
      exact (congrArg Prod.fst e).trans g1.edge

/-- from the new node, one way leads around the closed edge -/
theorem loop_covered {N n : Nat} (hr : Ready m N n) {p : Int × Int} {l : Nat} (hp : m.isLine p) (h0 : m.label p = 0) {b : Fin 8}
    (hb : Link m ⟨p.1, p.2, b⟩) :
    IsDart (m.withNode p l) ⟨p.1, p.2, b⟩ ∧
    ∀ q, SameEdge m p q → q ≠ p → SameEdge (m.withNode p l) (p.1 + dx b, p.2 + dy b) q := by
  have hc' := withNode_clean (l := l) hr.clean hp.2
  have ht' := withNode_trace (l := l) hr.trace hp.2
  have hbl := hr.loose _ hb hp.2 h0
  have hne : ∀ k : Fin 8, (p.1 + dx k, p.2 + dy k) ≠ p := by
    intro k e
    have e1 := congrArg Prod.fst e
    have e2 := congrArg Prod.snd e
    dsimp only at e1 e2
    rcases dir_move k with h | h <;> omega
  have hd : IsDart (m.withNode p l) ⟨p.1, p.2, b⟩ := by
    have hlk := (withNode_link (l := l) hp.2).2 hb
    refine ⟨hlk.inside, by rw [withNode_at], ?_, hlk.between⟩
    show ((m.withNode p l).px _ _).1 = _
    rw [withNode_other (hne b)]
    exact hbl
  refine ⟨hd, ?_⟩
  obtain ⟨n', j1, j2, -, hl⟩ := jump_both hc' ht' hd
  obtain ⟨d', a1, -, -, a4, -⟩ := Props.alpha_involution hc' ht' hr.fresh hd
  rw [Props.alpha_before hc' hr.fresh hd, j1] at a1
  obtain rfl := Outcome.ok.inj a1
  set d : Dart := ⟨p.1, p.2, b⟩ with hdd
  set M := m.withNode p l with hM
  have hv : (M.look ((nextD M)^[n' + 1] d).x ((nextD M)^[n' + 1] d).y ((nextD M)^[n' + 1] d).dir).1 = .vertex := j2.node
  have htr := trace_edge hc' ht' hd.link hd.node n' hv hl
  have hlast : SameEdge M d.front ((nextD M)^[n'] d).front := (htr _).2 ⟨n', le_refl _, rfl⟩
  -- the other end
  have hfr : ((nextD M)^[n' + 1] d).swap.front = ((nextD M)^[n'] d).front := by
    have e1 := congrArg Dart.x (swap_swap ((nextD M)^[n' + 1] d))
    have e2 := congrArg Dart.y (swap_swap ((nextD M)^[n' + 1] d))
    refine Prod.ext (e1.trans ?_) (e2.trans ?_)
    · rw [Function.iterate_succ_apply']; rfl
    · rw [Function.iterate_succ_apply']; rfl
  have hpb : EdgeNext m p d.front := ⟨hp.2, hbl, b, rfl, hb.between⟩
  have hm1 : SameEdge m p ((nextD M)^[n'] d).front :=
    (Relation.ReflTransGen.single hpb).trans (withNode_same hp.2 hlast)
  have hend : ((nextD M)^[n' + 1] d).swap.x = p.1 ∧ ((nextD M)^[n' + 1] d).swap.y = p.2 := by
    have hlk : Link m ((nextD M)^[n' + 1] d) := by
      have := (withNode_link (l := l) hp.2).1 (j2.link.swap hc')
      rwa [swap_swap] at this
    have hpos : (((nextD M)^[n' + 1] d).x, ((nextD M)^[n' + 1] d).y) = ((nextD M)^[n'] d).front := by
      rw [Function.iterate_succ_apply']; rfl
    have hline : m.isLine ((nextD M)^[n'] d).front := SameEdge.isLine hr.clean hp hm1
    have h0' : m.label ((nextD M)^[n'] d).front = 0 := by rw [← hr.marked.closed p _ hp hm1, h0]
    rw [← hpos] at hline h0'
    have hlo := hr.loose _ hlk hline.2 h0'
    have hvv := j2.node
    rcases withNode_vertex hvv with e | e
    · exact ⟨congrArg Prod.fst e, congrArg Prod.snd e⟩
    · exact absurd (hlo.symm.trans e) (by decide)
  set d' := ((nextD M)^[n' + 1] d).swap with hd'
  have hdir : d'.dir ≠ b := by
    intro e
    refine a4 ?_
    rw [hdd]
    rcases hq : d' with ⟨x, y, c⟩
    rw [hq] at hend e
    dsimp only at hend e
    rw [hend.1, hend.2, e]
  have hcm : Link m ⟨p.1, p.2, d'.dir⟩ := by
    have := (withNode_link (l := l) hp.2).1 j2.link
    rw [show (⟨p.1, p.2, d'.dir⟩ : Dart) = d' from by rw [← hend.1, ← hend.2]]
    exact this
  have hfront : (p.1 + dx d'.dir, p.2 + dy d'.dir) = ((nextD M)^[n'] d).front := by
    rw [← hfr, ← hend.1, ← hend.2]; rfl
  intro q hq hqp
  have key : q = p ∨ SameEdge M d.front q := by
    clear hqp
    induction hq with
    | refl => exact Or.inl rfl
    | @tail a r hpa har ih =>
      by_cases hrp : r = p
      · exact Or.inl hrp
      refine Or.inr ?_
      rcases ih with rfl | ih
      · obtain ⟨k, hk, hlk⟩ := har.link hp.1
        have hcl : cellConf .line (ringOf m a.1 a.2) = .line := hr.trace _ _ hp.1 hp.2
        have hnr : (m.px a.1 a.2).1 ≠ .region := by rw [hp.2]; decide
        obtain ⟨e, t1, t2, t3⟩ := table_exit _ hcl b ((link_iff hp.1 hnr).1 hb)
        have hce : d'.dir = e := by
          rcases table_two _ hcl b d'.dir e ((link_iff hp.1 hnr).1 hb) ((link_iff hp.1 hnr).1 hcm) t1 with hh | hh
          · exact absurd hh hdir
          · exact hh
        rcases table_two _ hcl b k e ((link_iff hp.1 hnr).1 hb) ((link_iff hp.1 hnr).1 hlk) t1 with hh | hh
        · rw [hk, hh]; exact .refl
        · rw [hk, hh, ← hce, hfront]; exact hlast
      · refine ih.tail ((withNode_next hp.2).2 ⟨har, ?_, hrp⟩)
        have := SameEdge.isLine hc' (p := d.front) ⟨(hd.link.swap hc').inside, hd.edge⟩ ih
        exact (withNode_line this.2).1
  exact key.resolve_left hqp

theorem foldO_append {α β : Type} (f : β → α → Outcome β) (l l' : List α) (b : β) : foldO f (l ++ l') b = (foldO f l b).bind (foldO f l') := by
  induction l generalizing b with
  | nil => rfl
  | cons a l ih =>
    rw [List.cons_append, foldO, foldO]
    cases f b a with
    | ok b' => exact ih b'
    | _ => rfl

theorem foldO_skip {α β : Type} {f : β → α → Outcome β} {l : List α} {b : β} (h : ∀ a ∈ l, f b a = .ok b) : foldO f l b = .ok b := by
  induction l with
  | nil => rfl
  | cons a l ih =>
    rw [foldO, h a (by simp), Outcome.bind_ok]
    exact ih fun x hx => h x (by simp [hx])

theorem loopDart_skip (hc : Clean m) {p : Int × Int} (hi : m.inside p.1 p.2) (hn : (m.px p.1 p.2).1 ≠ .region) {n : Nat} {k : Fin 8}
    (h : (m.look p.1 p.2 k).1 = .line → (m.look p.1 p.2 k).2 ≠ 0) : loopDart p (m, n) k = .ok (m, n) := by
  unfold loopDart
  dsimp only
  rw [hc.nb (d := ⟨p.1, p.2, k⟩) hi hn, Outcome.bind_ok, add_zero]
  dsimp only
  by_cases hl : (m.look p.1 p.2 k).1 = .line
  · rw [if_neg (by simpa using hl), if_pos (h hl)]
  · rw [if_pos hl]

theorem loopDart_hit (hc : Clean m) {p : Int × Int} (hi : m.inside p.1 p.2) (hn : (m.px p.1 p.2).1 ≠ .region) {n : Nat} {k : Fin 8}
    (h : (m.look p.1 p.2 k).1 = .line) (h0 : (m.look p.1 p.2 k).2 = 0) {m' : Map}
    (hm : labelEdge (n + 1) m.fuel m ⟨p.1, p.2, k⟩ = .ok m') : loopDart p (m, n) k = .ok (m', n + 1) := by
  unfold loopDart
  dsimp only
  rw [hc.nb (d := ⟨p.1, p.2, k⟩) hi hn, Outcome.bind_ok, add_zero]
  dsimp only
  rw [if_neg (by simpa using h), if_neg (by simpa using h0), hm, Outcome.bind_ok]

theorem dir_raster {x y : Int} {k : Fin 8} (h : k = 1 ∨ k = 2 ∨ k = 3 ∨ k = 4) : Raster (x + dx k, y + dy k) (x, y) := by
  unfold Raster
  rcases h with rfl | rfl | rfl | rfl <;> simp [dx, dy]

/-- One closed edge: it gets a node at its first pixel, and one label. -/
theorem loop_step {N n : Nat} (hr : Ready m N n) {p : Int × Int} (hp : m.isLine p) (h0 : m.label p = 0)
    (hearly : ∀ q : Int × Int, Inner m.w m.h q.1 q.2 → Raster q p → m.label q ≠ 0) :
    ∃ m', labelSelfLoop (m, N, n) p = .ok (m', N + 1, n + 1) ∧ Ready m' (N + 1) (n + 1) ∧ m' = { m with px := m'.px } ∧
      m'.px p.1 p.2 = (.vertex, N + 1) ∧ (∀ q : Int × Int, q ≠ p → (m'.px q.1 q.2).1 = (m.px q.1 q.2).1) ∧
      (∀ q : Int × Int, m.label q ≠ 0 ∨ (m.px q.1 q.2).1 ≠ .line → m'.px q.1 q.2 = m.px q.1 q.2) := by
  have hnr : (m.px p.1 p.2).1 ≠ .region := by rw [hp.2]; decide
  set M := m.withNode p (N + 1) with hM
  have hcM := withNode_clean (l := N + 1) hr.clean hp.2
  have htM := withNode_trace (l := N + 1) hr.trace hp.2
  have hMp : (M.px p.1 p.2).1 ≠ .region := by rw [hM, withNode_at]; exact (by decide : CellType.vertex ≠ .region)
  have hne : ∀ k : Fin 8, (p.1 + dx k, p.2 + dy k) ≠ p := by
    intro k e
    have e1 := congrArg Prod.fst e
    have e2 := congrArg Prod.snd e
    dsimp only at e1 e2
    rcases dir_move k with h | h <;> omega
  have hMlook : ∀ k, M.look p.1 p.2 k = m.look p.1 p.2 k := fun k => withNode_other (hne k)
  have hpast : ∀ k : Fin 8, k = 1 ∨ k = 2 ∨ k = 3 ∨ k = 4 → (m.look p.1 p.2 k).1 = .line → (m.look p.1 p.2 k).2 ≠ 0 := by
    intro k hk hl
    refine hearly (p.1 + dx k, p.2 + dy k) ?_ (dir_raster hk)
    exact hr.clean.frame _ _ (hr.clean.near hp.1 hnr k) (by
      show (m.look p.1 p.2 k).1 ≠ _
      rw [hl]; decide)
  have hlink0 : ∀ k, Link m ⟨p.1, p.2, k⟩ → (m.look p.1 p.2 k).1 = .line ∧ (m.look p.1 p.2 k).2 = 0 := by
    intro k hk
    have hl := hr.loose _ hk hp.2 h0
    refine ⟨hl, ?_⟩
    have := hr.marked.closed p (p.1 + dx k, p.2 + dy k) hp (Relation.ReflTransGen.single ⟨hp.2, hl, k, rfl, hk.between⟩)
    rw [h0] at this
    exact this.symm
  -- labelling from a direction
  have hgo : ∀ b : Fin 8, Link m ⟨p.1, p.2, b⟩ → ∃ m', loopDart p (M, n) b = .ok (m', n + 1) ∧ Ready m' (N + 1) (n + 1) ∧
      m' = { m with px := m'.px } ∧
      m'.px p.1 p.2 = (.vertex, N + 1) ∧ (∀ q : Int × Int, q ≠ p → (m'.px q.1 q.2).1 = (m.px q.1 q.2).1) ∧
      (∀ q : Int × Int, m.label q ≠ 0 ∨ (m.px q.1 q.2).1 ≠ .line → m'.px q.1 q.2 = m.px q.1 q.2) ∧
      ∀ k, loopDart p (m', n + 1) k = .ok (m', n + 1) := by
    intro b hb
    obtain ⟨hd, hcov⟩ := loop_covered (l := N + 1) hr hp h0 hb
    obtain ⟨b1, b2⟩ := hlink0 b hb
    have hfr : M.label (Dart.front ⟨p.1, p.2, b⟩) = 0 := by
      show (M.look p.1 p.2 b).2 = 0
      rw [hMlook]; exact b2
    obtain ⟨m', e1, e2, e3, e4, e5, e6, e7, e8⟩ := (withNode_marked (l := N + 1) hr hp h0).step hcM htM hd hfr
    have hloop : ∀ q, SameEdge m p q → q ≠ p → m'.label q = n + 1 := fun q hq hqp => e7 q (hcov q hq hqp)
    have hpx : m'.px p.1 p.2 = (.vertex, N + 1) := by
      rw [e5 p (by rw [withNode_at]; exact (by decide : CellType.vertex ≠ .line)), withNode_at]
    have hty : ∀ q : Int × Int, q ≠ p → (m'.px q.1 q.2).1 = (m.px q.1 q.2).1 := by
      intro q hq
      rw [e3.px, withNode_other hq]
    have hkeep : ∀ q : Int × Int, m.label q ≠ 0 → m'.px q.1 q.2 = m.px q.1 q.2 := by
      intro q hq
      have hqp : q ≠ p := by rintro rfl; exact hq h0
      have hq' : M.label q ≠ 0 := by
        unfold Map.label
        rw [hM, withNode_other hqp]
        exact hq
      rw [e6 q hq', withNode_other hqp]
    have hkeep2 : ∀ q : Int × Int, m.label q ≠ 0 ∨ (m.px q.1 q.2).1 ≠ .line → m'.px q.1 q.2 = m.px q.1 q.2 := by
      rintro q (hq | hq)
      · exact hkeep q hq
      · have hqp : q ≠ p := by rintro rfl; exact hq hp.2
        rw [e5 q (by rw [withNode_other hqp]; exact hq), withNode_other hqp]
    have hold : ∀ q : Int × Int, m'.label q = 0 → q ≠ p ∧ m.label q = 0 ∧ ¬SameEdge m p q := by
      intro q hq
      have hqp : q ≠ p := by
        rintro rfl
        unfold Map.label at hq
        rw [hpx] at hq
        cases hq
      refine ⟨hqp, ?_, fun hh => ?_⟩
      · by_contra hne0
        have := hkeep q hne0
        unfold Map.label at hq hne0
        rw [this] at hq
        exact hne0 hq
      · rw [hloop q hh hqp] at hq
        omega
    have hnear : ∀ k, (m'.look p.1 p.2 k).1 = .line → (m'.look p.1 p.2 k).2 ≠ 0 := by
      intro k hk hz
      have hk' : (m.look p.1 p.2 k).1 = .line := by
        have := hty (p.1 + dx k, p.2 + dy k) (hne k)
        exact this.symm.trans hk
      have := (hr.around hp h0 k (by rw [hk']; decide)).2
      exact (hold (p.1 + dx k, p.2 + dy k) hz).2.2 this
    have hcm' := e3.clean hcM
    refine ⟨m', loopDart_hit hcM hp.1 hMp (by rw [hMlook]; exact b1) (by rw [hMlook]; exact b2) e1, ?_, ?_, hpx, hty, hkeep2, ?_⟩
    · have hvert : ∀ x y, (m'.px x y).1 = .vertex → (x, y) = p ∨ (m.px x y).1 = .vertex := by
        intro x y hv
        by_cases he : (x, y) = p
        · exact Or.inl he
        · exact Or.inr ((hty _ he).symm.trans hv)
      have hline : ∀ x y, (m'.px x y).1 = .line → (x, y) ≠ p ∧ (m.px x y).1 = .line := by
        intro x y hl
        rw [e3.px] at hl
        exact withNode_line hl
      -- nothing of an old node is near the new one
      have hfar : ∀ k, (m.look p.1 p.2 k).1 ≠ .vertex := by
        intro k hv
        have := (hr.around hp h0 k (by rw [hv]; decide)).1
        exact absurd (this.symm.trans hv) (by decide)
      refine ⟨hcm', e3.traceable htM, ?_, ?_, e4, ?_, ?_, ?_, ?_⟩
      · intro x y hi hl k hk ⟨ha, hb'⟩
        have hi' : m.inside x y := (e3.inside _ _).1 hi
        obtain ⟨hxp, hl'⟩ := hline x y hl
        have hq : m.isLine (x, y) := ⟨hi', hl'⟩
        have hnq : (m.px x y).1 ≠ .region := by rw [hl']; decide
        have both : ∀ a c : Fin 8, ¬a.val % 2 = 1 → ¬c.val % 2 = 1 → (x + dx a, y + dy a) = p → (m'.look x y c).1 = .vertex →
            (x + dx c, y + dy c) = p := by
          intro a c hae hce hap hcv
          rcases hvert _ _ hcv with e | e
          · exact e
          exfalso
          have hsame : SameEdge m (x, y) p := by
            refine Relation.ReflTransGen.single ⟨hl', hp.2, a, hap.symm, fun hh => absurd hh hae⟩
          have hz : (m.px x y).2 = 0 := by
            have := hr.marked.closed (x, y) p hq hsame
            rw [h0] at this
            exact this
          have := hr.loose ⟨x, y, c⟩ (link_even hi' hnq hce (by
            show (m.px _ _).1 ≠ _
            rw [e]; decide)) hl' hz
          exact absurd (this.symm.trans e) (by decide)
        have hk1 : ¬k.val % 2 = 1 := by omega
        have hk2 : ¬(k + 2).val % 2 = 1 := by
          revert hk; clear * -; revert k; decide
        have hdiff : ∀ k : Fin 8, k.val % 2 = 0 → dx k ≠ dx (k + 2) ∨ dy k ≠ dy (k + 2) := by decide
        have contra : (x + dx k, y + dy k) = p → (x + dx (k + 2), y + dy (k + 2)) = p → False := by
          intro g1 g2
          have := g1.trans g2.symm
          have f1 := congrArg Prod.fst this
          have f2 := congrArg Prod.snd this
          dsimp only at f1 f2
          rcases hdiff k hk with hh | hh <;> omega
        rcases hvert _ _ ha with g1 | g1
        · exact contra g1 (both k (k + 2) hk1 hk2 g1 hb')
        · rcases hvert _ _ hb' with g2 | g2
          · exact contra (both (k + 2) k hk2 hk1 g2 ha) g2
          · exact hr.corner x y hi' hl' k hk ⟨g1, g2⟩
      · intro x y k hi hv hv'
        have hi' : m.inside x y := (e3.inside _ _).1 hi
        rcases hvert _ _ hv with g1 | g1
        · exfalso
          have hx : x = p.1 := congrArg Prod.fst g1
          have hy : y = p.2 := congrArg Prod.snd g1
          rcases hvert _ _ hv' with g2 | g2
          · refine hne k ?_
            rw [← hx, ← hy]; exact g2
          · refine hfar k ?_
            rw [← hx, ← hy]; exact g2
        · rcases hvert _ _ hv' with g2 | g2
          · exfalso
            refine hfar (k + 4) ?_
            have hx : x + dx k = p.1 := congrArg Prod.fst g2
            have hy : y + dy k = p.2 := congrArg Prod.snd g2
            rw [← hx, ← hy, look_back (dir_opp k)]
            exact g1
          · have l1 : m'.px x y = m.px x y := hkeep (x, y) (by
              have := (hr.node x y hi' g1).1
              show (m.px x y).2 ≠ 0
              omega)
            have hin2 := hr.clean.near hi' (by rw [g1]; decide) k
            have l2 : m'.look x y k = m.look x y k := hkeep (x + dx k, y + dy k) (by
              have := (hr.node _ _ hin2 g2).1
              show (m.px (x + dx k) (y + dy k)).2 ≠ 0
              omega)
            rw [l1, l2]
            exact hr.nodes x y k hi' g1 g2
      · rw [e2]; exact hr.fresh
      · intro d hdl hl hz
        obtain ⟨hqp, hl'⟩ := hline _ _ hl
        obtain ⟨-, hz', hns⟩ := hold (d.x, d.y) hz
        have hdm : Link m d := (withNode_link (l := N + 1) hp.2).1 (e3.symm.link hdl)
        have hlo := hr.loose d hdm hl' hz'
        have : (d.x + dx d.dir, d.y + dy d.dir) ≠ p := by
          intro e
          refine hns (SameEdge.symm hr.clean hdm.inside (Relation.ReflTransGen.single ⟨hl', hp.2, d.dir, e.symm, hdm.between⟩))
        exact (hty _ this).trans hlo
      · intro x y hi hv
        have hi' : m.inside x y := (e3.inside _ _).1 hi
        rcases hvert _ _ hv with g1 | g1
        · have hx : x = p.1 := congrArg Prod.fst g1
          have hy : y = p.2 := congrArg Prod.snd g1
          rw [hx, hy, hpx]
          constructor
          · show 1 ≤ N + 1; omega
          · show N + 1 ≤ N + 1; omega
        · have := hr.node x y hi' g1
          rw [show m'.px x y = m.px x y from hkeep (x, y) (by show (m.px x y).2 ≠ 0; omega)]
          omega
      · intro x y hi hreg hz
        have hi' : Inner m.w m.h x y := by
          rw [e2] at hi
          exact hi
        obtain ⟨hqp, hz', -⟩ := hold (x, y) hz
        exact hr.face x y hi' ((hty _ hqp).symm.trans hreg) hz'
    · rw [e2]; rfl
    · intro k
      exact loopDart_skip hcm' ((e3.inside _ _).2 hp.1) (by rw [hpx]; exact (by decide : CellType.vertex ≠ .region)) (hnear k)
  have hsplit : ∀ (ks ks' : List (Fin 8)) (b : Fin 8), ([0, 1, 2, 3, 4, 5, 6, 7] : List (Fin 8)) = ks ++ b :: ks' →
      (∀ k ∈ ks, loopDart p (M, n) k = .ok (M, n)) → Link m ⟨p.1, p.2, b⟩ →
      ∃ m', labelSelfLoop (m, N, n) p = .ok (m', N + 1, n + 1) ∧ Ready m' (N + 1) (n + 1) ∧ m' = { m with px := m'.px } ∧
        m'.px p.1 p.2 = (.vertex, N + 1) ∧ (∀ q : Int × Int, q ≠ p → (m'.px q.1 q.2).1 = (m.px q.1 q.2).1) ∧
        (∀ q : Int × Int, m.label q ≠ 0 ∨ (m.px q.1 q.2).1 ≠ .line → m'.px q.1 q.2 = m.px q.1 q.2) := by
    intro ks ks' b hks hskip hb
    obtain ⟨m', g1, g2, g3, g4, g5, g6, g7⟩ := hgo b hb
    refine ⟨m', ?_, g2, g3, g4, g5, g6⟩
    unfold labelSelfLoop
    dsimp only
    rw [if_neg (by rw [not_not]; exact h0), hks, foldO_append]
    show (Outcome.bind ((foldO (loopDart p) ks (M, n)).bind _) _) = _
    rw [foldO_skip hskip, Outcome.bind_ok, foldO, g1, Outcome.bind_ok, foldO_skip (fun k _ => g7 k), Outcome.bind_ok]
  have hcl : cellConf .line (ringOf m p.1 p.2) = .line := hr.trace _ _ hp.1 hp.2
  have hgood : ∀ k : Fin 8, k = 1 ∨ k = 2 ∨ k = 3 ∨ k = 4 → good (ringOf m p.1 p.2) k = false := by
    intro k hk
    rw [← Bool.not_eq_true, ← link_iff hp.1 hnr]
    intro hL
    exact hpast k hk (hlink0 k hL).1 (hlink0 k hL).2
  rcases table_loop _ hcl hgood with h1 | ⟨h1, h2⟩
  · exact hsplit [] [1, 2, 3, 4, 5, 6, 7] 0 rfl (by simp) ((link_iff hp.1 hnr).2 h1)
  · refine hsplit [0, 1, 2, 3, 4] [6, 7] 5 rfl ?_ ((link_iff hp.1 hnr).2 h2)
    intro k hk
    refine loopDart_skip hcM hp.1 hMp fun hl => ?_
    rw [hMlook] at hl ⊢
    have hcase : k = 0 ∨ (k = 1 ∨ k = 2 ∨ k = 3 ∨ k = 4) := by simpa using hk
    rcases hcase with rfl | hk
    · rw [ringOf_false] at h1
      exact absurd (h1.symm.trans hl) (by decide)
    · exact hpast k hk hl

end

end Verif.FourEight
