import Verif.FourEight.ConfigTable

/-!
# Classification of contour pixels: properties (C76)
-/

namespace Verif.FourEight.Props
open Verif Verif.CellImage Verif.FourEight


theorem cellConf_corner (corner : CellType) (n : Fin 8 → Bool) :
    cellConf corner n = if corner = .vertex then cellConf .vertex n else cellConf .line n := by
  unfold cellConf
  generalize cellConfigurations.getD (confOf n) .error = t
  cases corner <;> cases t <;> rfl

variable {n : Fin 8 → Bool}

theorem conn_bg {a k : Fin 8} : Conn (bg n) sideBySide a k ↔ ringConn (bg n) a k = true := conn4_iff _ _ _

theorem oneSide_of (h : ∃ a, OpenSide n a ∧ ∀ k, OpenSide n k → ringConn (bg n) a k = true) : OneSide n := by
  obtain ⟨a, h1, h2⟩ := h
  exact ⟨a, h1, fun k hk => conn_bg.2 (h2 k hk)⟩

theorem oneBranch_of (h : ∃ a, n a = true ∧ ∀ k, n k = true → ringConn (fill n) a k = true) : OneBranch n := by
  obtain ⟨a, h1, h2⟩ := h
  exact ⟨a, h1, fun k hk => (conn8_iff _ _ _ h1 hk).2 (h2 k hk)⟩

/-! ## Which images are refused -/

/-- **C76.** A pixel for which the image is refused ("must be thinned further") is a contour pixel that could be removed without changing
the topology around it, and it is no end of a line. -/
theorem refused_is_simple {corner : CellType} {raw : Raw} {x y : Int} (h : classify corner raw x y = .error) :
    raw x y = true ∧ Simple (around raw x y) ∧ 3 ≤ branches (around raw x y) := by
  unfold classify at h
  by_cases hr : raw x y = true
  · rw [if_pos hr, cellConf_corner] at h
    have := table_error (around raw x y) (by
      by_cases hc : corner = .vertex
      · rw [if_pos hc] at h; exact .inr h
      · rw [if_neg hc] at h; exact .inl h)
    exact ⟨hr, ⟨oneSide_of this.1, oneBranch_of this.2.1⟩, this.2.2⟩
  · rw [if_neg hr] at h; cases h

/-- the end of a thick line is refused -/
example : classify .vertex (fun x y => decide ((x, y) ∈ [(0, 0), (1, 0), (1, -1), (0, -1), ((-1 : Int), (-1 : Int))])) 0 0 = .error := by
  decide +kernel

/-! ## Lines -/

/-- **C76.** With nodes at corners (`CellTypeVertex`), a pixel becomes part of an edge only where exactly two branches of the contour meet
and exactly two background components touch: there is one face (or two sides of the same face) on each side of an edge. -/
theorem line_two_sides {raw : Raw} {x y : Int} (h : classify .vertex raw x y = .line) :
    raw x y = true ∧ TwoSides (around raw x y) ∧ TwoBranches (around raw x y) := by
  unfold classify at h
  by_cases hr : raw x y = true
  · rw [if_pos hr] at h
    obtain ⟨⟨a, b, h1, h2, h3, h4⟩, c, d, h5, h6, h7, h8⟩ := table_line _ h
    refine ⟨hr, ⟨a, b, h1, h2, ?_, fun k hk => ?_⟩, ⟨c, d, h5, h6, ?_, fun k hk => ?_⟩⟩
    · rw [conn_bg, h3]; simp
    · rw [conn_bg, conn_bg]; exact h4 k hk
    · rw [conn8_iff _ _ _ h5 h6, h7]; simp
    · rw [conn8_iff _ _ _ h5 hk, conn8_iff _ _ _ h6 hk]; exact h8 k hk
  · rw [if_neg hr] at h; cases h

/-- **C76.** With edges at corners (`CellTypeLine`), the only further edge pixels are simple ones: the line would also be connected
without them. -/
theorem line_corner {raw : Raw} {x y : Int} (h : classify .line raw x y = .line) :
    raw x y = true ∧ ((TwoSides (around raw x y) ∧ TwoBranches (around raw x y)) ∨ Simple (around raw x y)) := by
  by_cases hv : classify .vertex raw x y = .line
  · have := line_two_sides hv
    exact ⟨this.1, .inl this.2⟩
  · unfold classify at h hv
    by_cases hr : raw x y = true
    · rw [if_pos hr] at h hv
      have := table_corner _ h hv
      exact ⟨hr, .inr ⟨oneSide_of this.1, oneBranch_of this.2⟩⟩
    · rw [if_neg hr] at h; cases h

/-! ## Nodes -/

/-- **C76.** Junctions are nodes: a contour pixel where three branches or three background components meet, a pixel without open side,
an end of a line and an isolated pixel are never part of an edge and never refused, whatever `cornerType` is. -/
theorem junction_is_node {corner : CellType} {raw : Raw} {x y : Int} (hr : raw x y = true)
    (h : ThreeSides (around raw x y) ∨ ThreeBranches (around raw x y) ∨ (∀ k, ¬ OpenSide (around raw x y) k) ∨ branches (around raw x y) ≤ 1) :
    classify corner raw x y = .vertex := by
  have := table_vertex (around raw x y) (by
    rcases h with ⟨a, b, c, h1, h2, h3, h4, h5, h6⟩ | ⟨a, b, c, h1, h2, h3, h4, h5, h6⟩ | h
    · rw [conn_bg, Bool.not_eq_true] at h4 h5 h6
      exact .inl ⟨a, b, c, h1, h2, h3, h4, h5, h6⟩
    · rw [conn8_iff _ _ _ h1 h2, Bool.not_eq_true] at h4
      rw [conn8_iff _ _ _ h1 h3, Bool.not_eq_true] at h5
      rw [conn8_iff _ _ _ h2 h3, Bool.not_eq_true] at h6
      exact .inr (.inl ⟨a, b, c, h1, h2, h3, h4, h5, h6⟩)
    · exact .inr (.inr h))
  unfold classify
  rw [if_pos hr, cellConf_corner]
  by_cases hc : corner = .vertex
  · rw [if_pos hc]; exact this.2
  · rw [if_neg hc]; exact this.1

/-- a crossing of two lines: the middle is a node, its neighbours on the lines are not -/
example : classify .line (fun x y => decide (x = y ∨ x = -y)) 0 0 = .vertex ∧ classify .line (fun x y => decide (x = y ∨ x = -y)) 3 3 = .line ∧
    classify .vertex (fun x y => decide (x = 0 ∧ y ≤ 4)) 0 4 = .vertex := by decide +kernel

/-! ## The choice between nodes and edges -/

/-- **C76.** The types are node, edge or refusal for contour pixels and region for all others; choosing `CellTypeLine` only turns nodes and
refusals into edges. -/
theorem corner_choice (raw : Raw) (x y : Int) :
    (raw x y = false → ∀ corner, classify corner raw x y = .region) ∧
    (raw x y = true → ∀ corner, classify corner raw x y = .vertex ∨ classify corner raw x y = .line ∨ classify corner raw x y = .error) ∧
    (classify .line raw x y = .vertex → classify .vertex raw x y = .vertex) ∧
    (classify .vertex raw x y = .line → classify .line raw x y = .line) ∧
    (classify .line raw x y = .error → classify .vertex raw x y = .error) := by
  have t := table_kinds (around raw x y)
  unfold classify
  by_cases hr : raw x y = true
  · simp only [hr, if_true]
    refine ⟨by simp, fun _ corner => ?_, t.2.2.1, t.2.2.2.1, t.2.2.2.2⟩
    rw [cellConf_corner]
    by_cases hc : corner = .vertex
    · rw [if_pos hc]; exact t.1
    · rw [if_neg hc]; exact t.2.1
  · simp [hr]

/-! ## Orientation -/

/-- **C76.** Turning the image by a quarter turn turns the classification with it. -/
theorem classify_rotate (corner : CellType) (raw : Raw) (x y : Int) :
    classify corner (fun x y => raw y (-x)) x y = classify corner raw y (-x) := by
  have e : around (fun x y => raw y (-x)) x y = fun k => around raw y (-x) (k + 2) := by
    funext k
    have hk : ∀ k : Fin 8, (step8 (k + 2)).1 = (step8 k).2 ∧ (step8 (k + 2)).2 = -(step8 k).1 := by decide
    simp only [around, (hk k).1, (hk k).2, neg_add]
  have t := table_rotate (around raw y (-x))
  unfold classify
  rw [e, cellConf_corner corner (fun k => _), cellConf_corner corner (around raw y (-x)), t.1, t.2.1]

/-- **C76.** Mirroring the image mirrors the classification. -/
theorem classify_mirror (corner : CellType) (raw : Raw) (x y : Int) :
    classify corner (fun x y => raw x (-y)) x y = classify corner raw x (-y) := by
  have e : around (fun x y => raw x (-y)) x y = fun k => around raw x (-y) (-k) := by
    funext k
    have hk : ∀ k : Fin 8, (step8 (-k)).1 = (step8 k).1 ∧ (step8 (-k)).2 = -(step8 k).2 := by decide
    simp only [around, (hk k).1, (hk k).2, neg_add]
  have t := table_rotate (around raw x (-y))
  unfold classify
  rw [e, cellConf_corner corner (fun k => _), cellConf_corner corner (around raw x (-y)), t.2.2.1, t.2.2.2]

/-! ## The whole image -/

theorem mem_imagePixels {w h : Nat} {p : Int × Int} :
    p ∈ imagePixels w h ↔ (-2 ≤ p.1 ∧ p.1 < w - 2) ∧ (-2 ≤ p.2 ∧ p.2 < h - 2) := by
  obtain ⟨x, y⟩ := p
  simp only [imagePixels, List.mem_flatMap, List.mem_map, List.mem_range, Prod.mk.injEq]
  constructor
  · rintro ⟨j, hj, i, hi, h1, h2⟩; omega
  · intro h; exact ⟨(y + 2).toNat, by omega, (x + 2).toNat, by omega, by omega, by omega⟩

theorem initPixels_ok {corner : CellType} {w h : Nat} {raw : Raw} : ∀ {l : List (Int × Int)},
    (∀ p ∈ l, raw p.1 p.2 = true → ¬ (p.1 = -2 ∨ p.2 = -2 ∨ p.1 = w - 3 ∨ p.2 = h - 3)) →
    (initPixels corner w h raw l = .ok () ∧ ∀ p ∈ l, classify corner raw p.1 p.2 ≠ .error) ∨
    (initPixels corner w h raw l = .precond ∧ ∃ p ∈ l, classify corner raw p.1 p.2 = .error)
  | [], _ => .inl ⟨rfl, by simp⟩
  | p :: ps, hf => by
    have ih := initPixels_ok (corner := corner) (l := ps) (fun q hq => hf q (List.mem_cons_of_mem _ hq))
    rw [initPixels]
    by_cases hr : raw p.1 p.2 = false
    · rw [if_pos hr]
      have hc : classify corner raw p.1 p.2 ≠ .error := by unfold classify; simp [hr]
      rcases ih with ⟨h1, h2⟩ | ⟨h1, q, hq, h2⟩
      · refine .inl ⟨h1, fun q hq => ?_⟩
        rcases List.mem_cons.1 hq with rfl | hq
        · exact hc
        · exact h2 q hq
      · exact .inr ⟨h1, q, List.mem_cons_of_mem _ hq, h2⟩
    · rw [if_neg hr, if_neg (hf p List.mem_cons_self (by simpa using hr))]
      by_cases hc : classify corner raw p.1 p.2 = .error
      · rw [if_pos hc]; exact .inr ⟨rfl, p, List.mem_cons_self, hc⟩
      · rw [if_neg hc]
        rcases ih with ⟨h1, h2⟩ | ⟨h1, q, hq, h2⟩
        · refine .inl ⟨h1, fun q hq => ?_⟩
          rcases List.mem_cons.1 hq with rfl | hq
          · exact hc
          · exact h2 q hq
        · exact .inr ⟨h1, q, List.mem_cons_of_mem _ hq, h2⟩

/-- **C76.** For every source image of any size, setting up the cell image reads no pixel outside of the image and ends in one of two
ways.  Either no pixel must be thinned further, and then the regions are exactly the background pixels (the frame included).  Or some
pixel must be, and then the image is refused. -/
theorem initCellImage_total (corner : CellType) (w h : Nat) (src : Int → Int → Bool) :
    let raw := contourImage w h src
    (∃ cells, initCellImage corner (w + 4) (h + 4) raw = .ok cells ∧
      (∀ x y : Int, -2 ≤ x → x < w + 2 → -2 ≤ y → y < h + 2 →
        (cells x y = .region ↔ raw x y = false) ∧ (cells x y = .vertex ∨ cells x y = .line ∨ cells x y = .region)) ∧
      ∀ x y : Int, -2 ≤ x → x < w + 2 → -2 ≤ y → y < h + 2 → classify corner raw x y ≠ .error) ∨
    (initCellImage corner (w + 4) (h + 4) raw = .precond ∧
      ∃ x y : Int, -1 ≤ x ∧ x ≤ w ∧ -1 ≤ y ∧ y ≤ h ∧ classify corner raw x y = .error) := by
  intro raw
  have hframe : ∀ p ∈ imagePixels (w + 4) (h + 4), raw p.1 p.2 = true →
      ¬ (p.1 = -2 ∨ p.2 = -2 ∨ p.1 = ((w + 4 : Nat) : Int) - 3 ∨ p.2 = ((h + 4 : Nat) : Int) - 3) := by
    intro p _ hr hb
    simp only [raw, contourImage] at hr
    rw [if_neg (by push_cast at hb; omega)] at hr
    simp only [decide_eq_true_eq] at hr
    push_cast at hb; omega
  rcases initPixels_ok (corner := corner) hframe with ⟨h1, h2⟩ | ⟨h1, p, hp, h2⟩
  · refine .inl ⟨_, by unfold initCellImage; rw [h1]; rfl, ?_, ?_⟩
    · intro x y hx1 hx2 hy1 hy2
      have hne := h2 (x, y) (mem_imagePixels.2 (by push_cast; omega))
      dsimp only at hne ⊢
      have t := corner_choice raw x y
      by_cases hxy : x = -1 ∧ y = -1
      · rw [if_pos hxy]
        refine ⟨?_, .inl rfl⟩
        have : raw x y = true := by
          simp only [raw, contourImage]
          rw [if_neg (by omega)]; simp only [decide_eq_true_eq]; omega
        simp [this]
      · rw [if_neg hxy]
        cases hr : raw x y with
        | false => rw [t.1 hr corner]; simp
        | true =>
          rcases t.2.1 hr corner with h | h | h
          · rw [h]; simp
          · rw [h]; simp
          · exact absurd h hne
    · intro x y hx1 hx2 hy1 hy2
      exact h2 (x, y) (mem_imagePixels.2 (by push_cast; omega))
  · refine .inr ⟨by unfold initCellImage; rw [h1]; rfl, p.1, p.2, ?_⟩
    have hr := (refused_is_simple h2).1
    have := hframe p hp hr
    have hm := mem_imagePixels.1 hp
    push_cast at this hm
    refine ⟨by omega, by omega, by omega, by omega, h2⟩

/-- the type of a pixel, if the image is accepted -/
def typeAt (o : Outcome (Int → Int → CellType)) (x y : Int) : Option CellType :=
  match o with
  | .ok c => some (c x y)
  | _ => none

/-- both outcomes occur: a 4 x 4 image with a vertical line through it is accepted, one with a thick end of a line is refused -/
example : typeAt (initCellImage .vertex 8 8 (contourImage 4 4 fun x _ => decide (x = 2))) 2 1 = some .line ∧
    typeAt (initCellImage .vertex 8 8 (contourImage 4 4 fun x _ => decide (x = 2))) 2 (-1) = some .vertex ∧
    typeAt (initCellImage .vertex 10 10 (contourImage 6 6 fun x y =>
      decide ((x, y) ∈ [(2, 2), (3, 2), (3, 1), (2, 1), ((1 : Int), (1 : Int))]))) 0 0 = none := by
  decide +kernel

end Verif.FourEight.Props
