import Verif.FourEight.ChangesModel
import Verif.FourEight.EdgeStatExamples

/-!
# The rectangle of the last changes contains everything that changed (C100)
-/

namespace Verif.FourEight.Props
open Verif Verif.CellImage Verif.FourEight Verif.Outcome

/-- the pixel (x, y) lies in the rectangle -/
def Covers (r : Rect) (x y : Int) : Prop := (r.x0 ≤ x ∧ x < r.x1) ∧ (r.y0 ≤ y ∧ y < r.y1)

/-- the type of the cell an operation leaves -/
def leftType : Op → CellType
  | .mergeEdges _ => .line
  | _ => .region

/-- The maps and rectangles that any number of operations leads to, from the map `m` and the rectangle `r`. -/
inductive ChangesReach (m : Map) (r : Rect) : Map → Rect → Prop
  | refl : ChangesReach m r m r
  | step {m1 m2 r1 r2} (op : Op) : ChangesReach m r m1 r1 → DartCall m1 op → runChanges m1 r1 op = .ok (m2, r2) → ChangesReach m r m2 r2

theorem Covers.union_left {r s : Rect} {x y : Int} (h : Covers r x y) : Covers (r.union s) x y := by
  unfold Covers Rect.union Rect.isEmpty at *
  split
  · exact h
  · split
    · rename_i h'
      simp only [Bool.or_eq_true, decide_eq_true_eq] at h'
      omega
    · dsimp only; omega

theorem Covers.union_right {r s : Rect} {x y : Int} (h : Covers s x y) : Covers (r.union s) x y := by
  unfold Covers Rect.union Rect.isEmpty at *
  split
  · rename_i h'
    simp only [Bool.or_eq_true, decide_eq_true_eq] at h'
    omega
  · split
    · exact h
    · dsimp only; omega

/-- what changes becomes a part of the cell that is left -/
theorem changed_left {m m' : Map} (hm : Whole m) {op : Op} (hcall : DartCall m op) {l : Nat} (hrun : run m op = .ok (m', l)) :
    (m'.cell (leftType op, l)).Nonempty ∧ ∀ x y, m.inside x y → m'.px x y ≠ m.px x y → m'.px x y = (leftType op, l) := by
  obtain ⟨hw, hh⟩ := hm.reachSize (Relation.ReflTransGen.single ⟨op, l, hcall, hrun⟩)
  have hin : ∀ x y, m.inside x y → m'.inside x y := by
    intro x y h
    unfold Map.inside at *
    rw [hw, hh]; exact h
  have removal : ∀ {e g : Nat} {E : Edge}, EdgeRemoved m m' e l g E →
      (m'.cell (.region, l)).Nonempty ∧ ∀ x y, m.inside x y → m'.px x y ≠ m.px x y → m'.px x y = (.region, l) := by
    intro e g E q
    obtain ⟨c1, -, -, c4, -⟩ := hm.ends e E q.edge q.live
    obtain ⟨p, hp⟩ := hm.line_nonempty c1 (hm.edgeLabel_eq c1)
    rw [c4] at hp
    obtain ⟨p1, p2⟩ := mem_cell.1 hp
    refine ⟨⟨p, mem_cell.2 ⟨hin _ _ p1, by rw [q.px _ _ p1, if_pos (Or.inl p2)]⟩⟩, fun x y hi hne => ?_⟩
    rw [q.px x y hi] at hne ⊢
    split
    · rfl
    · rename_i h
      rw [if_neg h] at hne
      exact absurd rfl hne
  cases op with
  | removeIsolatedNode d =>
    have hrun' : removeIsolatedNode m d = .ok (m', l) := hrun
    obtain ⟨_, n, N, hn, hf, res⟩ := removeIsolatedNode_result hm.cons hrun'
    have hc : AtIsolated m d := hcall
    have hv : m.px d.x d.y = (.vertex, n) := by
      unfold nodeLabel Map.get at hn
      rw [if_pos hc.inside] at hn
      exact Prod.ext hc.node (Outcome.ok.inj hn)
    refine ⟨⟨(d.x, d.y), mem_cell.2 ⟨hin _ _ hc.inside, by rw [res.image.px _ _ hc.inside, if_pos hv]; rfl⟩⟩, fun x y hi hne => ?_⟩
    rw [res.image.px x y hi] at hne ⊢
    split
    · rfl
    · rename_i h
      rw [if_neg h] at hne
      exact absurd rfl hne
  | mergeFaces d =>
    obtain ⟨e, g, E, q, -⟩ := hm.mergeFaces_removed hcall hrun
    exact removal q
  | removeBridge d =>
    obtain ⟨e, g, E, q, -⟩ := hm.removeBridge_removed hcall hrun
    exact removal q
  | mergeEdges d =>
    have hrun' : mergeEdges m d = .ok (m', l) := hrun
    obtain ⟨d1, g, n, N, -, -, -, -, -, -, -, q⟩ := hm.mergeEdges_two hcall hrun'
    obtain ⟨p, hp⟩ := q.survivor
    obtain ⟨p1, p2⟩ := mem_cell.1 hp
    refine ⟨⟨p, mem_cell.2 ⟨hin _ _ p1, ?_⟩⟩, fun x y hi hne => ?_⟩
    · rw [q.px _ _ p1, p2]
      split <;> rfl
    · rw [q.px x y hi] at hne ⊢
      split
      · rfl
      · rename_i h
        rw [if_neg h] at hne
        exact absurd rfl hne

/-- the bounds are those of the cell that is left -/
theorem leftBounds_eq {m : Map} (hm : Whole m) {op : Op} {l : Nat} (h : (m.cell (leftType op, l)).Nonempty) :
    ∃ b, leftBounds m l op = .ok b ∧ IsBox (m.cell (leftType op, l)) b := by
  obtain ⟨p, hp⟩ := h
  obtain ⟨p1, p2⟩ := mem_cell.1 hp
  have face : m.px p.1 p.2 = (.region, l) → ∃ F, m.face l = .ok F ∧ IsBox (m.cell (.region, l)) F.box := by
    intro p2
    obtain ⟨a, o1, o2⟩ := hm.cons.faces.owner _ _ _ p1 p2
    have hb := hm.cons.faces.box _ _ o1 o2
    rw [List.getElem?_map] at o1
    obtain ⟨F, f1, f2⟩ := Option.map_eq_some_iff.1 o1
    subst f2
    have o2 : F.live = true := o2
    exact ⟨F, by unfold Map.face; rw [f1]; simp [o2], hb⟩
  cases op with
  | mergeEdges d =>
    obtain ⟨a, o1, o2⟩ := hm.cons.edges.owner _ _ _ p1 p2
    have hb := hm.cons.edges.box _ _ o1 o2
    rw [List.getElem?_map] at o1
    obtain ⟨F, f1, f2⟩ := Option.map_eq_some_iff.1 o1
    subst f2
    have o2 : F.live = true := o2
    have hF : m.edge l = .ok F := by unfold Map.edge; rw [f1]; simp [o2]
    exact ⟨F.box, by unfold leftBounds; dsimp only; rw [hF, bind_ok], hb⟩
  | _ =>
    obtain ⟨F, hF, hb⟩ := face p2
    exact ⟨_, by unfold leftBounds; dsimp only; rw [hF, bind_ok], hb⟩

/-- one operation -/
theorem changes_step {m m' : Map} (hm : Whole m) {op : Op} (hcall : DartCall m op) {l : Nat} (hrun : run m op = .ok (m', l)) (r : Rect) :
    ∃ b, runChanges m r op = .ok (m', r.union b) ∧ IsBox (m'.cell (leftType op, l)) b ∧ (m'.cell (leftType op, l)).Nonempty ∧
      ∀ x y, m.inside x y → m'.px x y ≠ m.px x y → Covers b x y := by
  obtain ⟨h1, h2⟩ := changed_left hm hcall hrun
  have hm' : Whole m' := hm.step ⟨op, l, hcall, hrun⟩
  obtain ⟨hw, hh⟩ := hm.reachSize (Relation.ReflTransGen.single ⟨op, l, hcall, hrun⟩)
  obtain ⟨b, b1, b2⟩ := leftBounds_eq hm' h1
  refine ⟨b, ?_, b2, h1, fun x y hi hne => ?_⟩
  · unfold runChanges
    rw [hrun, bind_ok, b1, bind_ok]
  · exact b2.1 (x, y) (mem_cell.2 ⟨by unfold Map.inside at *; rw [hw, hh]; exact hi, h2 x y hi hne⟩)

theorem changesReach_inv {m m' : Map} {r r' : Rect} (hm : Whole m) (h : ChangesReach m r m' r') : DartReach m m' ∧ Whole m' ∧
    ∀ x y, (m.inside x y → m'.px x y ≠ m.px x y → Covers r' x y) ∧ (Covers r x y → Covers r' x y) := by
  induction h with
  | refl => exact ⟨.refl, hm, fun x y => ⟨fun _ h => absurd rfl h, id⟩⟩
  | @step m1 m2 r1 r2 op _ hcall hrun ih =>
    obtain ⟨a1, a2, a3⟩ := ih
    have hrun0 := hrun
    unfold runChanges at hrun
    obtain ⟨⟨m2', l⟩, hl, hrun⟩ := bind_eq_ok.1 hrun
    obtain ⟨b, -, hrun⟩ := bind_eq_ok.1 hrun
    obtain ⟨rfl, -⟩ := Prod.ext_iff.1 (Outcome.ok.inj hrun)
    dsimp only at *
    obtain ⟨b, b1, -, -, b4⟩ := changes_step a2 hcall hl r1
    rw [hrun0] at b1
    obtain ⟨-, rfl⟩ := Prod.ext_iff.1 (Outcome.ok.inj b1)
    obtain ⟨hw, hh⟩ := hm.reachSize a1
    refine ⟨a1.tail ⟨op, l, hcall, hl⟩, a2.step ⟨op, l, hcall, hl⟩, fun x y => ⟨fun hi hne => ?_, fun h => ((a3 x y).2 h).union_left⟩⟩
    by_cases h1 : m1.px x y = m.px x y
    · rw [← h1] at hne
      exact (b4 x y (by unfold Map.inside at *; rw [hw, hh]; exact hi) hne).union_right
    · exact ((a3 x y).1 hi h1).union_left

/-- **C100, partial.** From any map operations lead to and any rectangle of last changes: an operation that returns also returns with its
notification; after any number of operations, every pixel that belongs to another cell than before lies in the rectangle, and so does all that
was in it; one operation after `clearLastChanges` makes it the smallest rectangle around the cell that is left.
Missing: the rethinning of edges (`doEdgeRethinning`, on by default), which moves further pixels after edges are merged. -/
theorem lastChanges_covers_partial {w h : Nat} {src : Int → Int → Bool} {cells : Int → Int → CellType}
    (hi : initCellImage .vertex (w + 4) (h + 4) (contourImage w h src) = .ok cells) {o : Components}
    (hv : o.Sane (w + 4) (h + 4) cells) (hn : NoHoles (typedMap (w + 4) (h + 4) cells o)) {mL : Map} {N n : Nat}
    (hr : labelCells (w + 4) (h + 4) cells o = .ok (mL, N, n)) {q : Oracle}
    (hholes : ∀ l, (mL.cell (.vertex, l)).Nonempty → q.crackArea l = (mL.cell (.vertex, l)).card % 2 ^ 32)
    {m0 : Map} (h0 : initMap .vertex w h src o q = .ok m0) {m : Map} (hm : DartReach m0 m) (r : Rect) :
    (∀ op m' l, DartCall m op → run m op = .ok (m', l) → ∃ r', runChanges m r op = .ok (m', r')) ∧
    (∀ m' r', ChangesReach m r m' r' → DartReach m m' ∧
      ∀ x y, (m.inside x y → m'.px x y ≠ m.px x y → Covers r' x y) ∧ (Covers r x y → Covers r' x y)) ∧
    ∀ op m' l r', DartCall m op → run m op = .ok (m', l) → runChanges m (clearChanges r) op = .ok (m', r') →
      (m'.cell (leftType op, l)).Nonempty ∧ IsBox (m'.cell (leftType op, l)) r' := by
  have hW := (initMap_whole hi hv hn hr hholes h0).reach hm
  refine ⟨fun op m' l hc hl => ?_, fun m' r' hreach => ?_, fun op m' l r' hc hl hrun => ?_⟩
  · obtain ⟨b, b1, -⟩ := changes_step hW hc hl r
    exact ⟨_, b1⟩
  · obtain ⟨a1, -, a3⟩ := changesReach_inv hW hreach
    exact ⟨a1, a3⟩
  · obtain ⟨b, b1, b2, b3, -⟩ := changes_step hW hc hl (clearChanges r)
    rw [hrun] at b1
    obtain ⟨-, rfl⟩ := Prod.ext_iff.1 (Outcome.ok.inj b1)
    refine ⟨b3, ?_⟩
    have : (clearChanges r).union b = b := by
      obtain ⟨p, hp⟩ := b3
      have := b2.1 p hp
      unfold Rect.union Rect.isEmpty clearChanges
      rw [if_neg (by simp only [Bool.or_eq_true, decide_eq_true_eq]; omega), if_pos (by simp)]
    rw [this]
    exact b2

/-! ## the bar: its removal changes its pixels and those of a face -/

def theRect (o : Outcome (Map × Rect)) : Map × Rect := match o with | .ok p => p | _ => (frame0, ⟨0, 0, 0, 0⟩)
theorem theRect_spec {o : Outcome (Map × Rect)} {q : Map × Rect} (hq : q = theRect o) (h : isOk o = true) : o = .ok (q.1, q.2) := by
  cases o with
  | ok p => rw [hq]; rfl
  | _ => cases h

def bar3 : Map × Rect := theRect (runChanges bar0 (clearChanges ⟨0, 0, 3, 3⟩) (.mergeFaces ⟨1, -1, 6⟩))
theorem bar3_eq : bar3 = theRect (runChanges bar0 (clearChanges ⟨0, 0, 3, 3⟩) (.mergeFaces ⟨1, -1, 6⟩)) := by rw [bar3]

theorem bar3_checks : (dartCheck7 bar0 1 (-1) 6 && isOk (runChanges bar0 (clearChanges ⟨0, 0, 3, 3⟩) (.mergeFaces ⟨1, -1, 6⟩)) &&
    decide (bar3.2 = ⟨0, 0, 3, 3⟩ ∧ bar3.1.px 1 1 ≠ bar0.px 1 1 ∧ bar0.w = 7 ∧ bar0.h = 7)) = true := by
  decide +kernel

/-- The bar meets the hypotheses: the pixel (1, 1) changes, and the rectangle has all nine pixels of the face that is left. -/
theorem bar_changes : ∃ m', ChangesReach bar0 (clearChanges ⟨0, 0, 3, 3⟩) m' ⟨0, 0, 3, 3⟩ ∧ bar0.inside 1 1 ∧ m'.px 1 1 ≠ bar0.px 1 1 ∧
    ¬Covers (clearChanges ⟨0, 0, 3, 3⟩) 1 1 := by
  have h := bar3_checks
  simp only [Bool.and_eq_true] at h
  obtain ⟨⟨a1, a2⟩, a3⟩ := h
  have b := of_decide_eq_true a3
  have hr : ChangesReach bar0 (clearChanges ⟨0, 0, 3, 3⟩) bar3.1 bar3.2 := .step (.mergeFaces ⟨1, -1, 6⟩) .refl (dartCheck7_spec a1) (theRect_spec bar3_eq a2)
  clear a1 a2 a3
  generalize bar3 = q at *
  generalize bar0 = m0 at *
  refine ⟨q.1, by rw [← b.1]; rw [← b.1] at hr; exact hr, by unfold Map.inside; rw [b.2.2.1, b.2.2.2]; norm_num, b.2.1, ?_⟩
  unfold Covers clearChanges
  norm_num

end Verif.FourEight.Props
