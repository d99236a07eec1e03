import Verif.FourEight.StartRim
import Verif.FourEight.StartScan
import Verif.FourEight.HistSpec
import Verif.FourEight.Props

/-!
# What every history keeps
-/

namespace Verif.FourEight
open Verif Verif.CellImage

/-- what every history keeps -/
structure Whole (m : Map) : Prop where
  cons : Consistent m
  outer : Outer m
  init : m.init = true
  clean : Clean m
  noCorner : NoCorner m
  nodes : NodesLabelled m
  faces : FacesLabelled m
  noHoles : NoHoles m
  left : ∀ d, IsDart m d → ¬d.dir.val % 2 = 1 → (m.look d.x d.y (d.dir + 1)).1 ≠ .region → (m.look d.x d.y (d.dir + 2)).1 = .region
  right : ∀ d, IsDart m d → ¬d.dir.val % 2 = 1 → (m.look d.x d.y (d.dir + 7)).1 ≠ .region → (m.look d.x d.y (d.dir + 6)).1 = .region
  lines : ∀ x y (k : Fin 8), k.val % 2 = 0 → m.inside x y → (m.px x y).1 = .line → (m.look x y k).1 = .line → (m.look x y k).2 = (m.px x y).2
  ends : ∀ (l : Nat) (E : Edge), m.edges[l]? = some E → E.live = true → IsDart m E.start ∧ IsDart m E.stop ∧ E.start ≠ E.stop ∧
    m.look E.start.x E.start.y E.start.dir = (.line, l) ∧ m.look E.stop.x E.stop.y E.stop.dir = (.line, l)
  owner : ∀ (l : Nat) (E : Edge), m.edges[l]? = some E → E.live = true → ∀ d, IsDart m d → m.look d.x d.y d.dir = (.line, l) →
    d = E.start ∨ d = E.stop
  fit : ∀ (l : Nat) (E : Edge), m.edges[l]? = some E → E.live = true → leftL m E.start = rightL m E.stop ∧ rightL m E.start = leftL m E.stop
  beside : ∀ (l : Nat) (E : Edge), m.edges[l]? = some E → E.live = true → ∀ x y (k : Fin 8) f, m.inside x y → m.px x y = (.line, l) →
    k.val % 2 = 0 → m.look x y k = (.region, f) → leftL m E.start = f ∨ rightL m E.start = f
  degree : ∀ (l : Nat) (A : Node), m.nodes[l]? = some A → A.live = true → A.degree = (dartsAt m l).ncard % 2 ^ 16

/-- Nodes whose label does not satisfy `P` and edges whose label does not satisfy `Q` vanish; labels of faces and edges are mapped. -/
structure Change (m m' : Map) (P Q : Nat → Prop) (φ ψ : Nat → Nat) : Prop where
  w : m'.w = m.w
  h : m'.h = m.h
  vertex : ∀ x y l, m.inside x y → (m'.px x y = (.vertex, l) ↔ m.px x y = (.vertex, l) ∧ P l)
  line : ∀ x y l, m.inside x y → m.px x y = (.line, l) → Q l → m'.px x y = (.line, ψ l)
  gone : ∀ x y l, m.inside x y → m.px x y = (.line, l) → ¬Q l → (m'.px x y).1 = .region
  new : ∀ x y, m.inside x y → (m'.px x y).1 = .line → (∃ l, m.px x y = (.line, l) ∧ Q l) ∨ ∃ l, m.px x y = (.vertex, l) ∧ ¬P l
  region : ∀ x y l, m.inside x y → m.px x y = (.region, l) → m'.px x y = (.region, φ l)
  types : ∀ x y, m.inside x y → (m'.px x y).1 = .vertex ∨ (m'.px x y).1 = .line ∨ (m'.px x y).1 = .region

section
variable {m m' : Map} {P Q : Nat → Prop} {φ ψ : Nat → Nat}

namespace Change

theorem inside (h : Change m m' P Q φ ψ) (x y : Int) : m'.inside x y ↔ m.inside x y := by unfold Map.inside; rw [h.w, h.h]

theorem isVertex (h : Change m m' P Q φ ψ) {x y : Int} (hi : m.inside x y) :
    (m'.px x y).1 = .vertex ↔ (m.px x y).1 = .vertex ∧ P (m.px x y).2 := by
  constructor
  · intro e
    obtain ⟨a, b⟩ := (h.vertex x y (m'.px x y).2 hi).1 (Prod.ext e rfl)
    rw [a]
    exact ⟨rfl, b⟩
  · rintro ⟨a, b⟩
    rw [(h.vertex x y (m.px x y).2 hi).2 ⟨Prod.ext a rfl, b⟩]

theorem keepVertex (h : Change m m' P Q φ ψ) {x y : Int} (hi : m.inside x y) (e : (m'.px x y).1 = .vertex) : m'.px x y = m.px x y := by
  obtain ⟨a, -⟩ := (h.vertex x y (m'.px x y).2 hi).1 (Prod.ext e rfl)
  rw [a]; exact Prod.ext e rfl

theorem nonregion (h : Change m m' P Q φ ψ) {x y : Int} (hi : m.inside x y) (e : (m'.px x y).1 ≠ .region) : (m.px x y).1 ≠ .region := by
  intro r
  rw [h.region x y (m.px x y).2 hi (Prod.ext r rfl)] at e
  exact e rfl

theorem clean (h : Change m m' P Q φ ψ) (hc : Clean m) : Clean m' := by
  refine ⟨fun x y hi => h.types x y ((h.inside x y).1 hi), fun x y hi e => ?_⟩
  rw [h.w, h.h]
  exact hc.frame x y ((h.inside x y).1 hi) (h.nonregion ((h.inside x y).1 hi) e)

theorem nodes (h : Change m m' P Q φ ψ) (hc : Clean m) (hnl : NodesLabelled m) : NodesLabelled m' := by
  intro x y k hi hv hv'
  have hi := (h.inside x y).1 hi
  have hv0 := (h.isVertex hi).1 hv
  have hn := hc.near hi (by rw [hv0.1]; decide) k
  have hv1 := (h.isVertex hn).1 hv'
  show (m'.px _ _).2 = _
  rw [h.keepVertex hi hv, h.keepVertex hn hv']
  exact hnl x y k hi hv0.1 hv1.1

/-- neighbours in the same node vanish together -/
theorem together (h : Change m m' P Q φ ψ) (hc : Clean m) (hnl : NodesLabelled m) {x y : Int} (hi : m.inside x y) (hv : (m'.px x y).1 = .vertex)
    (k : Fin 8) : (m'.look x y k).1 = .vertex ↔ (m.look x y k).1 = .vertex := by
  have hv0 := (h.isVertex hi).1 hv
  have hn := hc.near hi (by rw [hv0.1]; decide) k
  refine ((h.isVertex hn).trans ?_)
  refine ⟨fun e => e.1, fun e => ⟨e, ?_⟩⟩
  have := hnl x y k hi hv0.1 e
  exact (congrArg P this).mpr hv0.2

/-- the edge at a dart is an old one -/
theorem oldLine (h : Change m m' P Q φ ψ) (hc : Clean m) (hnl : NodesLabelled m) {x y : Int} (hi : m.inside x y) (hv : (m'.px x y).1 = .vertex)
    {k : Fin 8} (hl : (m'.look x y k).1 = .line) : ∃ l, m.look x y k = (.line, l) ∧ Q l ∧ m'.look x y k = (.line, ψ l) := by
  have hv0 := (h.isVertex hi).1 hv
  have hn := hc.near hi (by rw [hv0.1]; decide) k
  rcases h.new _ _ hn hl with ⟨l, a, b⟩ | ⟨l, a, b⟩
  · exact ⟨l, a, b, h.line _ _ _ hn a b⟩
  · exfalso
    have := hnl x y k hi hv0.1 (show (m.px _ _).1 = _ by rw [a])
    rw [← this] at hv0
    refine b ?_
    have e : (m.look x y k).2 = l := by show (m.px _ _).2 = l; rw [a]
    rw [← e]; exact hv0.2

theorem noCorner (h : Change m m' P Q φ ψ) (hc : Clean m) (hnl : NodesLabelled m) (hno : NoCorner m) : NoCorner m' := by
  rintro x y hi hl k hk ⟨v1, v2⟩
  have hi := (h.inside x y).1 hi
  have hn : (m.px x y).1 ≠ .region := h.nonregion hi (by rw [hl]; decide)
  have w1 := (h.isVertex (hc.near hi hn k)).1 v1
  have w2 := (h.isVertex (hc.near hi hn (k + 2))).1 v2
  rcases h.new x y hi hl with ⟨l, a, -⟩ | ⟨l, a, b⟩
  · exact hno x y hi (by rw [a]) k hk ⟨w1.1, w2.1⟩
  · have : (m.look x y k).2 = (m.px x y).2 := hnl x y k hi (by rw [a]) w1.1
    have w := w1.2
    change P (m.look x y k).2 at w
    rw [this, a] at w
    exact b w

theorem noHoles (h : Change m m' P Q φ ψ) (hc : Clean m) (hnl : NodesLabelled m) (hn : NoHoles m) : NoHoles m' := by
  intro x y d hf hd hl
  have hfi := (h.inside _ _).1 hf.inside
  have hdi := (h.inside _ _).1 hd.inside
  have hfv := (h.isVertex hfi).1 hf.node
  have hdv := (h.isVertex hdi).1 hd.node
  have hfp := h.keepVertex hfi hf.node
  have hdp := h.keepVertex hdi hd.node
  have hf0 : FirstOf m x y := by
    refine ⟨hfi, hfv.1, fun x' y' h1 h2 h3 => hf.first x' y' ((h.inside _ _).2 h1) ?_ ?_⟩
    · exact (h.isVertex h1).2 ⟨h2, by rw [h3]; exact hfv.2⟩
    · rw [h.keepVertex h1 ((h.isVertex h1).2 ⟨h2, by rw [h3]; exact hfv.2⟩), hfp]; exact h3
  have hd0 : Crack m d := ⟨hdi, hdv.1, hd.even, fun e => hd.out ((h.together hc hnl hdi hd.node _).2 e)⟩
  obtain ⟨n, e⟩ := hn x y d hf0 hd0 (by rw [← hdp, hl, hfp])
  refine ⟨n, ?_⟩
  rw [← e]
  clear e
  have key : ∀ n, (nextCrack m')^[n] ⟨x, y, 4⟩ = (nextCrack m)^[n] ⟨x, y, 4⟩ ∧
      m.inside ((nextCrack m)^[n] ⟨x, y, 4⟩).x ((nextCrack m)^[n] ⟨x, y, 4⟩).y ∧
      (m'.px ((nextCrack m)^[n] ⟨x, y, 4⟩).x ((nextCrack m)^[n] ⟨x, y, 4⟩).y).1 = .vertex := by
    intro n
    induction n with
    | zero => exact ⟨rfl, hfi, hf.node⟩
    | succ n ih =>
      obtain ⟨i1, i2, i3⟩ := ih
      rw [Function.iterate_succ_apply', Function.iterate_succ_apply', i1]
      generalize (nextCrack m)^[n] ⟨x, y, 4⟩ = s at *
      have t := h.together hc hnl i2 i3
      have hns : (m.px s.x s.y).1 ≠ .region := h.nonregion i2 (by rw [i3]; decide)
      have e : nextCrack m' s = nextCrack m s := by
        unfold nextCrack
        simp only [t]
      refine ⟨e, ?_⟩
      unfold nextCrack
      by_cases h1 : (m.look s.x s.y (s.dir + 1)).1 = .vertex
      · rw [if_pos h1]; exact ⟨hc.near i2 hns _, (t _).2 h1⟩
      rw [if_neg h1]
      by_cases h2 : (m.look s.x s.y (s.dir + 2)).1 = .vertex
      · rw [if_pos h2]; exact ⟨hc.near i2 hns _, (t _).2 h2⟩
      · rw [if_neg h2]; exact ⟨i2, i3⟩
  exact (key n).1

end Change

/-! ## darts -/

theorem even_adj {δ : Fin 8} (h : δ.val % 2 = 1) {j : Fin 8} (hj : j = 1 ∨ j = 7) :
    ∃ g : Fin 8, g.val % 2 = 0 ∧ dx δ + dx g = dx (δ + j) ∧ dy δ + dy g = dy (δ + j) := by
  revert h hj; revert δ j; decide

theorem near_adj (δ : Fin 8) {j : Fin 8} (hj : j = 1 ∨ j = 7) :
    ∃ g : Fin 8, g.val % 2 = 0 ∧ dx δ + dx g = dx (δ + j) ∧ dy δ + dy g = dy (δ + j) := by
  revert hj; revert δ j; decide

/-- two neighbours of a pixel that belong to edges and lie side by side belong to the same edge -/
theorem Whole.adjacent (hm : Whole m) {x y : Int} (hi : m.inside x y) (hn : (m.px x y).1 ≠ .region) {δ j : Fin 8} (hj : j = 1 ∨ j = 7)
    (h1 : (m.look x y δ).1 = .line) (h2 : (m.look x y (δ + j)).1 = .line) : (m.look x y (δ + j)).2 = (m.look x y δ).2 := by
  obtain ⟨g, g1, g2, g3⟩ := near_adj δ hj
  have := hm.lines (x + dx δ) (y + dy δ) g g1 (hm.clean.near hi hn δ) h1 (by rw [look_shift ⟨g2, g3⟩]; exact h2)
  rw [look_shift ⟨g2, g3⟩] at this
  exact this

theorem Change.isDart (h : Change m m' P Q φ ψ) (hm : Whole m) (d : Dart) :
    IsDart m' d ↔ IsDart m d ∧ P (m.px d.x d.y).2 ∧ Q (m.look d.x d.y d.dir).2 := by
  constructor
  · intro hd
    have hi := (h.inside _ _).1 hd.inside
    have hv := (h.isVertex hi).1 hd.node
    obtain ⟨l, a, b, c⟩ := h.oldLine hm.clean hm.nodes hi hd.node hd.edge
    have hn : (m.px d.x d.y).1 ≠ .region := by rw [hv.1]; decide
    have key : ∀ j : Fin 8, j = 1 ∨ j = 7 → (m'.look d.x d.y (d.dir + j)).1 = .region → (m.look d.x d.y (d.dir + j)).1 = .region := by
      intro j hj hr
      rcases hm.clean.look_types hi hn (d.dir + j) with e | e | e
      · have := (h.together hm.clean hm.nodes hi hd.node (d.dir + j)).2 e
        rw [hr] at this; cases this
      · exfalso
        have hs := hm.adjacent hi hn hj (by rw [a]) e
        have : m.look d.x d.y (d.dir + j) = (.line, l) := Prod.ext e (by rw [hs, a])
        have := h.line _ _ l (hm.clean.near hi hn (d.dir + j)) this b
        change m'.look d.x d.y (d.dir + j) = _ at this
        rw [this] at hr; cases hr
      · exact e
    exact ⟨⟨hi, hv.1, by rw [a], fun ho => ⟨key 1 (Or.inl rfl) (hd.between ho).1, key 7 (Or.inr rfl) (hd.between ho).2⟩⟩, hv.2, by rw [a]; exact b⟩
  · rintro ⟨hd, hp, hq⟩
    have hn := hd.rim.nonregion
    have hreg : ∀ j, (m.look d.x d.y j).1 = .region → (m'.look d.x d.y j).1 = .region := by
      intro j hj
      show (m'.px _ _).1 = _
      rw [h.region _ _ (m.look d.x d.y j).2 (hm.clean.near hd.inside hn j) (Prod.ext hj rfl)]
    refine ⟨(h.inside _ _).2 hd.inside, (h.isVertex hd.inside).2 ⟨hd.node, hp⟩, ?_, fun ho => ⟨hreg _ (hd.between ho).1, hreg _ (hd.between ho).2⟩⟩
    show (m'.px _ _).1 = _
    rw [h.line _ _ (m.look d.x d.y d.dir).2 (hm.clean.near hd.inside hn d.dir) (Prod.ext hd.edge rfl) hq]

/-- what stays of the neighbourhood of a dart -/
theorem Change.besideDart (h : Change m m' P Q φ ψ) (hm : Whole m) {d : Dart} (hd : IsDart m' d) {j : Fin 8} (hj : j = 1 ∨ j = 7) :
    (m'.look d.x d.y (d.dir + j)).1 = .region ↔ (m.look d.x d.y (d.dir + j)).1 = .region := by
  obtain ⟨h1, h2, h3⟩ := (h.isDart hm d).1 hd
  have hn := h1.rim.nonregion
  constructor
  · intro hr
    rcases hm.clean.look_types h1.inside hn (d.dir + j) with e | e | e
    · have := (h.together hm.clean hm.nodes h1.inside hd.node (d.dir + j)).2 e
      rw [hr] at this; cases this
    · exfalso
      have hs := hm.adjacent h1.inside hn hj h1.edge e
      have : m.look d.x d.y (d.dir + j) = (.line, (m.look d.x d.y d.dir).2) := Prod.ext e hs
      have := h.line _ _ _ (hm.clean.near h1.inside hn (d.dir + j)) this h3
      change m'.look d.x d.y (d.dir + j) = _ at this
      rw [this] at hr; cases hr
    · exact e
  · intro e
    show (m'.px _ _).1 = _
    rw [h.region _ _ (m.look d.x d.y (d.dir + j)).2 (hm.clean.near h1.inside hn _) (Prod.ext e rfl)]

theorem Change.regionAt (h : Change m m' P Q φ ψ) (hm : Whole m) {d : Dart} (hd : IsDart m d) {j : Fin 8} (hj : (m.look d.x d.y j).1 = .region) :
    m'.look d.x d.y j = (.region, φ (m.look d.x d.y j).2) :=
  h.region _ _ _ (hm.clean.near hd.inside hd.rim.nonregion j) (Prod.ext hj rfl)

theorem Change.leftL (h : Change m m' P Q φ ψ) (hm : Whole m) {d : Dart} (hd : IsDart m' d) : leftL m' d = φ (leftL m d) := by
  obtain ⟨h1, -, -⟩ := (h.isDart hm d).1 hd
  unfold FourEight.leftL
  by_cases e : (m.look d.x d.y (d.dir + 1)).1 = .region
  · rw [if_pos e, if_pos ((h.besideDart hm hd (Or.inl rfl)).2 e), h.regionAt hm h1 e]
  · rw [if_neg e, if_neg (fun e' => e ((h.besideDart hm hd (Or.inl rfl)).1 e'))]
    rw [h.regionAt hm h1 (hm.left d h1 (fun ho => e (h1.between ho).1) e)]

theorem Change.rightL (h : Change m m' P Q φ ψ) (hm : Whole m) {d : Dart} (hd : IsDart m' d) : rightL m' d = φ (rightL m d) := by
  obtain ⟨h1, -, -⟩ := (h.isDart hm d).1 hd
  unfold FourEight.rightL
  by_cases e : (m.look d.x d.y (d.dir + 7)).1 = .region
  · rw [if_pos e, if_pos ((h.besideDart hm hd (Or.inr rfl)).2 e), h.regionAt hm h1 e]
  · rw [if_neg e, if_neg (fun e' => e ((h.besideDart hm hd (Or.inr rfl)).1 e'))]
    rw [h.regionAt hm h1 (hm.right d h1 (fun ho => e (h1.between ho).2) e)]

theorem Change.left' (h : Change m m' P Q φ ψ) (hm : Whole m) (d : Dart) (hd : IsDart m' d) (he : ¬d.dir.val % 2 = 1)
    (e : (m'.look d.x d.y (d.dir + 1)).1 ≠ .region) : (m'.look d.x d.y (d.dir + 2)).1 = .region := by
  obtain ⟨h1, -, -⟩ := (h.isDart hm d).1 hd
  rw [h.regionAt hm h1 (hm.left d h1 he (fun e' => e ((h.besideDart hm hd (Or.inl rfl)).2 e')))]

theorem Change.right' (h : Change m m' P Q φ ψ) (hm : Whole m) (d : Dart) (hd : IsDart m' d) (he : ¬d.dir.val % 2 = 1)
    (e : (m'.look d.x d.y (d.dir + 7)).1 ≠ .region) : (m'.look d.x d.y (d.dir + 6)).1 = .region := by
  obtain ⟨h1, -, -⟩ := (h.isDart hm d).1 hd
  rw [h.regionAt hm h1 (hm.right d h1 he (fun e' => e ((h.besideDart hm hd (Or.inr rfl)).2 e')))]

theorem Change.edgeAt (h : Change m m' P Q φ ψ) (hm : Whole m) {d : Dart} (hd : IsDart m' d) :
    ∃ l, m.look d.x d.y d.dir = (.line, l) ∧ Q l ∧ m'.look d.x d.y d.dir = (.line, ψ l) :=
  h.oldLine hm.clean hm.nodes ((h.inside _ _).1 hd.inside) hd.node hd.edge

theorem dartsAt_finite (m : Map) (l : Nat) : (dartsAt m l).Finite := by
  have hf : Finite { d : Dart | Rim m d } := rim_finite m
  exact (Set.toFinite { d : Dart | Rim m d }).subset fun d hd => hd.1.rim

theorem Change.dartsAt (h : Change m m' P Q φ ψ) (hm : Whole m) {l : Nat} (hl : P l) :
    dartsAt m' l = { d | d ∈ dartsAt m l ∧ Q (m.look d.x d.y d.dir).2 } := by
  ext d
  constructor
  · rintro ⟨h1, h2⟩
    obtain ⟨a, b, c⟩ := (h.isDart hm d).1 h1
    exact ⟨⟨a, ((h.vertex _ _ _ a.inside).1 h2).1⟩, c⟩
  · rintro ⟨⟨h1, h2⟩, h3⟩
    have hp : P (m.px d.x d.y).2 := by rw [h2]; exact hl
    exact ⟨(h.isDart hm d).2 ⟨h1, hp, h3⟩, (h.vertex _ _ _ h1.inside).2 ⟨h2, hl⟩⟩

end

end Verif.FourEight
