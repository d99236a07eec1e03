import Verif.FourEight.HistStart

/-!
# The pixel based map after any history of operations (C93)
-/

namespace Verif.FourEight.Props
open Verif Verif.CellImage Verif.FourEight

section
variable {m : Map}

/-- what the state after a history is good for -/
theorem whole_exact (hm : Whole m) :
    Consistent m ∧ Outer m ∧
    (∀ d, IsDart m d → EndsFit m d ∧ ∃ d', alpha m d = .ok d' ∧ IsDart m d' ∧ d' ≠ d ∧ alpha m d' = .ok d ∧ edgeLabel m d' = edgeLabel m d ∧
      leftFace m d' = rightFace m d ∧ rightFace m d' = leftFace m d) ∧
    (∀ d e, IsDart m d → IsDart m e → edgeLabel m e = edgeLabel m d → e = d ∨ alpha m d = .ok e) ∧
    (∀ d, IsDart m d → ∃ d', sigma m 1 d = .ok d' ∧ IsDart m d' ∧ sigma m 7 d' = .ok d ∧ nodeLabel m d' = nodeLabel m d ∧
      rightFace m d' = leftFace m d) ∧
    (∀ d e, IsDart m d → IsDart m e → nodeLabel m e = nodeLabel m d → ∃ i, sigmas m i d = .ok e) ∧
    (∀ (l : Nat) (A : Node), m.nodes[l]? = some A → A.live = true →
      A.degree = { d | IsDart m d ∧ m.px d.x d.y = (.vertex, l) }.ncard % 2 ^ 16) := by
  have hel : ∀ {d : Dart}, IsDart m d → edgeLabel m d = .ok (m.look d.x d.y d.dir).2 := by
    intro d hd
    unfold edgeLabel
    rw [hm.nb hd, add_zero]; rfl
  refine ⟨hm.cons, hm.outer, ?_, ?_, ?_, ?_, hm.degree⟩
  · intro d hd
    refine ⟨hm.endsFit hd, ?_⟩
    obtain ⟨l, E, h1, h2, h3, h4⟩ := hm.edge hd
    obtain ⟨e1, e2, e3, e4, e5⟩ := hm.ends l E h2 h3
    obtain ⟨f1, f2⟩ := hm.fit l E h2 h3
    rcases h4 with rfl | rfl
    · refine ⟨E.stop, ?_, e2, e3.symm, ?_, ?_, ?_, ?_⟩
      · rw [hm.alpha e1 e4 h2 h3, if_pos rfl]
      · rw [hm.alpha e2 e5 h2 h3, if_neg e3.symm]
      · rw [hel e2, hel e1, e4, e5]
      · rw [hm.leftFace e2, hm.rightFace e1, f2]
      · rw [hm.rightFace e2, hm.leftFace e1, f1]
    · refine ⟨E.start, ?_, e1, e3, ?_, ?_, ?_, ?_⟩
      · rw [hm.alpha e2 e5 h2 h3, if_neg e3.symm]
      · rw [hm.alpha e1 e4 h2 h3, if_pos rfl]
      · rw [hel e2, hel e1, e4, e5]
      · rw [hm.leftFace e1, hm.rightFace e2, f1]
      · rw [hm.rightFace e1, hm.leftFace e2, f2]
  · intro d e hd he hl
    obtain ⟨l, E, h1, h2, h3, h4⟩ := hm.edge hd
    obtain ⟨e1, e2, e3, e4, e5⟩ := hm.ends l E h2 h3
    rw [hel hd, hel he, h1] at hl
    have h5 := hm.owner l E h2 h3 e he (Prod.ext he.edge (Outcome.ok.inj hl))
    rw [hm.alpha hd h1 h2 h3]
    rcases h4 with rfl | rfl <;> rcases h5 with rfl | rfl
    · left; rfl
    · right; rw [if_pos rfl]
    · right; rw [if_neg e3.symm]
    · left; rfl
  · intro d hd
    obtain ⟨d', h1, h2, h3, h4⟩ := sigma_inverse hm.clean hm.noCorner hd (k := 1) (Or.inl rfl)
    refine ⟨d', h1, h2, h3, ?_, ?_⟩
    · rw [hm.nodeLabel h2, hm.nodeLabel hd, chain_label hm.clean hm.nodes hd.inside hd.node _ h4]
    · rw [hm.rightFace h2, hm.leftFace hd, hm.sigma_faces hd h1]
  · intro d e hd he hl
    rw [hm.nodeLabel he, hm.nodeLabel hd] at hl
    obtain ⟨x, y, hf, h1⟩ := firstOf_exists hm.clean hd.inside hd.node
    obtain ⟨hr, -⟩ := mkDart_walk hm.clean hm.noCorner hm.nodes hf
    have hw := (oneRim_walk hm.clean hm.noCorner hm.nodes).1 (oneRim_of_noHoles hm.clean hm.noCorner hm.nodes hm.noHoles)
    obtain ⟨i, hi⟩ := hw x y d hf hd h1
    obtain ⟨j, hj⟩ := hw x y e hf he ((Outcome.ok.inj hl).trans h1)
    obtain ⟨k, hk⟩ := walk_back hm.clean hr hi
    have hjk : (walk m 1)^[j + k] d = e := by rw [Function.iterate_add_apply, hk, hj]
    obtain ⟨n, hn⟩ := sigmas_walk hm.clean hm.noCorner (j + k) hd (by rw [hjk]; exact he)
    rw [hjk] at hn
    exact ⟨n, hn⟩

end

/-- **C93.** Everything a user of the map relies on still holds after any history of `removeIsolatedNode`, `mergeFaces`, `removeBridge` and
`mergeEdges`, called with darts of the map they are applied to and returning normally, in a map from the constructor for a source image of
any size that is accepted with nodes at corners, if no node has a hole and VIGRA's functions keep their promises.  Stored bounds, sizes and
counts are those of the image.  `nextAlpha` has no fixed points and is its own inverse, stays on the edge and exchanges the sides; no third
dart has the label of the edge.  `nextSigma` stays at the node, has `prevSigma` as its inverse, reaches all darts of the node, and between
a dart and the next one there is one face.  The degree of a node is the number of its darts (as `unsigned short`). -/
theorem history_exact_partial {w h : Nat} {src : Int → Int → Bool} {cells : Int → Int → CellType}
    (hi : initCellImage .vertex (w + 4) (h + 4) (contourImage w h src) = .ok cells) {v : Components} (hv : v.Sane (w + 4) (h + 4) cells)
    (hn : NoHoles (typedMap (w + 4) (h + 4) cells v)) {mL : Map} {N n : Nat} (hr : labelCells (w + 4) (h + 4) cells v = .ok (mL, N, n))
    {o : Oracle} (hholes : ∀ l, (mL.cell (.vertex, l)).Nonempty → o.crackArea l = (mL.cell (.vertex, l)).card % 2 ^ 32)
    {m0 : Map} (h0 : initMap .vertex w h src v o = .ok m0) {m : Map} (hm : DartReach m0 m) :
    Consistent m ∧ Outer m ∧
    (∀ d, IsDart m d → EndsFit m d ∧ ∃ d', alpha m d = .ok d' ∧ IsDart m d' ∧ d' ≠ d ∧ alpha m d' = .ok d ∧ edgeLabel m d' = edgeLabel m d ∧
      leftFace m d' = rightFace m d ∧ rightFace m d' = leftFace m d) ∧
    (∀ d e, IsDart m d → IsDart m e → edgeLabel m e = edgeLabel m d → e = d ∨ alpha m d = .ok e) ∧
    (∀ d, IsDart m d → ∃ d', sigma m 1 d = .ok d' ∧ IsDart m d' ∧ sigma m 7 d' = .ok d ∧ nodeLabel m d' = nodeLabel m d ∧
      rightFace m d' = leftFace m d) ∧
    (∀ d e, IsDart m d → IsDart m e → nodeLabel m e = nodeLabel m d → ∃ i, sigmas m i d = .ok e) ∧
    (∀ (l : Nat) (A : Node), m.nodes[l]? = some A → A.live = true →
      A.degree = { d | IsDart m d ∧ m.px d.x d.y = (.vertex, l) }.ncard % 2 ^ 16) :=
  whole_exact ((initMap_whole hi hv hn hr hholes h0).reach hm)

/-! ## Example -/

/-- an empty source image of one pixel: only the frame, with a node at each corner -/
def frameSrc (_ _ : Int) : Bool := false

def frameComponents : Components := ⟨fun x y => if x < 0 then (if y < 0 then 1 else 3) else if y < 0 then 2 else 4, 4, fun _ _ => 1, 1⟩

/-- what VIGRA returns: nodes of one pixel, one component of contours -/
def frameOracle : Oracle := ⟨fun _ => 1, fun _ => [], fun x y => if cellsOf .vertex 1 1 frameSrc x y = .region then 0 else 1, 1⟩

def frame0 : Map := theMap ((initMap .vertex 1 1 frameSrc frameComponents frameOracle).map fun m => (m, 0))
/-- the edges at node 1 become one -/
def frame1 : Map := theMap (run frame0 (.mergeEdges ⟨-1, -1, 6⟩))
/-- which is removed: there is only the infinite face now -/
def frame2 : Map := theMap (run frame1 (.mergeFaces ⟨-1, 1, 2⟩))
/-- the edge between nodes 2 and 4 is removed -/
def frame3 : Map := theMap (run frame2 (.removeBridge ⟨1, -1, 6⟩))
/-- removal of node 2, called with the same dart -/
def frame4 : Map := theMap (run frame3 (.removeIsolatedNode ⟨1, -1, 6⟩))

/-- the checks of the single pixels: a dart at (x, y) -/
def dartCheck (m : Map) (x y : Int) (k : Fin 8) : Bool :=
  decide ((m.w = 5 ∧ m.h = 5) ∧ (-2 ≤ x ∧ x < 3 ∧ -2 ≤ y ∧ y < 3) ∧ (m.px x y).1 = .vertex ∧ (m.look x y k).1 = .line ∧
    (k.val % 2 = 1 → (m.look x y (k + 1)).1 = .region ∧ (m.look x y (k + 7)).1 = .region))

theorem dartCheck_spec {m : Map} {x y : Int} {k : Fin 8} (h : dartCheck m x y k = true) : IsDart m ⟨x, y, k⟩ := by
  obtain ⟨⟨h1, h2⟩, h3, h4, h5, h6⟩ := of_decide_eq_true h
  exact ⟨by unfold Map.inside; rw [h1, h2]; exact h3, h4, h5, h6⟩

def isolatedCheck (m : Map) (x y : Int) (k : Fin 8) : Bool :=
  decide ((m.w = 5 ∧ m.h = 5) ∧ (-2 ≤ x ∧ x < 3 ∧ -2 ≤ y ∧ y < 3) ∧ (m.px x y).1 = .vertex ∧ (m.look x y k).1 = .region ∧
    (m.look x y (k + 1)).1 = .region) &&
  everywhere 5 5 (fun x' y' => decide ((m.px x' y').1 = .vertex → (m.px x' y').2 = (m.px x y).2 → ∀ k : Fin 8, (m.look x' y' k).1 ≠ .line))

theorem isolatedCheck_spec {m : Map} {x y : Int} {k : Fin 8} (h : isolatedCheck m x y k = true) : AtIsolated m ⟨x, y, k⟩ := by
  obtain ⟨ha, hb⟩ := Bool.and_eq_true_iff.1 h
  obtain ⟨⟨h1, h2⟩, h3, h4, h5, h6⟩ := of_decide_eq_true ha
  refine ⟨by unfold Map.inside; rw [h1, h2]; exact h3, h4, h5, Or.inl h6, fun d hd hl => ?_⟩
  have hin := hd.inside
  unfold Map.inside at hin
  rw [h1, h2] at hin
  exact of_decide_eq_true (everywhere_spec hb d.x d.y hin) hd.node hl d.dir hd.edge

theorem frame_checks : (dartCheck frame0 (-1) (-1) 6 && decide (theLabel (run frame0 (.mergeEdges ⟨-1, -1, 6⟩)) = some 1) &&
    (dartCheck frame1 (-1) 1 2 && decide (theLabel (run frame1 (.mergeFaces ⟨-1, 1, 2⟩)) = some 0)) &&
    (dartCheck frame2 1 (-1) 6 && decide (theLabel (run frame2 (.removeBridge ⟨1, -1, 6⟩)) = some 0)) &&
    (isolatedCheck frame3 1 (-1) 6 && decide (theLabel (run frame3 (.removeIsolatedNode ⟨1, -1, 6⟩)) = some 0)) &&
    (dartCheck frame4 1 1 4 && decide (theEdges (.ok frame4) = some ([(false, 0, noDart, noDart), (false, 3, ⟨-1, 1, 2⟩, ⟨1, -1, 4⟩),
      (false, 1, ⟨-1, -1, 0⟩, ⟨1, -1, 4⟩), (false, 1, ⟨1, -1, 6⟩, ⟨1, 1, 2⟩), (true, 1, ⟨-1, 1, 0⟩, ⟨1, 1, 4⟩)], 2, 1, 1)))) = true := by
  decide +kernel

theorem dartStep_of {m : Map} (op : Op) {l : Nat} (ha : DartCall m op) (h : decide (theLabel (run m op) = some l) = true) :
    DartStep m (theMap (run m op)) :=
  ⟨op, l, ha, theMap_spec (of_decide_eq_true h)⟩

/-- a history with all four operations -/
theorem frame_history : DartReach frame0 frame4 ∧ IsDart frame4 ⟨1, 1, 4⟩ ∧ theEdges (.ok frame4) = some ([(false, 0, noDart, noDart),
    (false, 3, ⟨-1, 1, 2⟩, ⟨1, -1, 4⟩), (false, 1, ⟨-1, -1, 0⟩, ⟨1, -1, 4⟩), (false, 1, ⟨1, -1, 6⟩, ⟨1, 1, 2⟩),
    (true, 1, ⟨-1, 1, 0⟩, ⟨1, 1, 4⟩)], 2, 1, 1) := by
  have h := frame_checks
  simp only [Bool.and_eq_true] at h
  obtain ⟨⟨⟨⟨⟨a1, a2⟩, b1, b2⟩, c1, c2⟩, d1, d2⟩, e1, e2⟩ := h
  have h1 : DartStep frame0 frame1 := dartStep_of _ (show DartCall frame0 (.mergeEdges _) from dartCheck_spec a1) a2
  have h2 : DartStep frame1 frame2 := dartStep_of _ (show DartCall frame1 (.mergeFaces _) from dartCheck_spec b1) b2
  have h3 : DartStep frame2 frame3 := dartStep_of _ (show DartCall frame2 (.removeBridge _) from dartCheck_spec c1) c2
  have h4 : DartStep frame3 frame4 := dartStep_of _ (show DartCall frame3 (.removeIsolatedNode _) from isolatedCheck_spec d1) d2
  exact ⟨(((Relation.ReflTransGen.single h1).tail h2).tail h3).tail h4, dartCheck_spec e1, of_decide_eq_true e2⟩

def frameLabelled : Map := labelled (labelCells (1 + 4) (1 + 4) (cellsOf .vertex 1 1 frameSrc) frameComponents)

/-- positions of its nodes -/
def frameNodes (l : Nat) : List (Int × Int) := ([[], [(-1, -1)], [(1, -1)], [(-1, 1)], [(1, 1)]][l]?).getD []

theorem frame_meets : initCellImage .vertex (1 + 4) (1 + 4) (contourImage 1 1 frameSrc) = .ok (cellsOf .vertex 1 1 frameSrc) ∧
    frameComponents.Sane (1 + 4) (1 + 4) (cellsOf .vertex 1 1 frameSrc) ∧
    NoHoles (typedMap (1 + 4) (1 + 4) (cellsOf .vertex 1 1 frameSrc) frameComponents) ∧
    ∃ N n, labelCells (1 + 4) (1 + 4) (cellsOf .vertex 1 1 frameSrc) frameComponents = .ok (frameLabelled, N, n) ∧
    (∀ l, (frameLabelled.cell (.vertex, l)).Nonempty → frameOracle.crackArea l = (frameLabelled.cell (.vertex, l)).card % 2 ^ 32) ∧
    initMap .vertex 1 1 frameSrc frameComponents frameOracle = .ok frame0 := by
  have hi : initCellImage .vertex (1 + 4) (1 + 4) (contourImage 1 1 frameSrc) = .ok (cellsOf .vertex 1 1 frameSrc) := cellsOf_eq (by decide +kernel)
  have hv : frameComponents.Sane (1 + 4) (1 + 4) (cellsOf .vertex 1 1 frameSrc) :=
    sane_of_check hi (by decide +kernel) (by decide +kernel) (by decide +kernel) (by decide +kernel)
  have hn : NoHoles (typedMap (1 + 4) (1 + 4) (cellsOf .vertex 1 1 frameSrc) frameComponents) :=
    noHoles_of_single (w := 5) (h := 5) (f := frameNodes) rfl rfl (by decide +kernel)
  obtain ⟨N, n, hr⟩ : ∃ N n, labelCells (1 + 4) (1 + 4) (cellsOf .vertex 1 1 frameSrc) frameComponents = .ok (frameLabelled, N, n) :=
    labelled_spec (by decide +kernel)
  have hholes : ∀ l, (frameLabelled.cell (.vertex, l)).Nonempty → frameOracle.crackArea l = (frameLabelled.cell (.vertex, l)).card % 2 ^ 32 := by
    intro l hne
    rw [card_one (f := frameNodes) (w := 5) (h := 5) (by decide +kernel) (by decide +kernel) (by decide +kernel) hne]
    exact (by norm_num : 1 = 1 % 2 ^ 32)
  have h0 : initMap .vertex 1 1 frameSrc frameComponents frameOracle = .ok frame0 := by
    have h : theLabel ((initMap .vertex 1 1 frameSrc frameComponents frameOracle).map fun m => (m, 0)) = some 0 := by decide +kernel
    obtain ⟨a, ha, h2⟩ := map_ok (theMap_spec h)
    rw [ha]
    unfold frame0
    rw [ha]; rfl
  exact ⟨hi, hv, hn, N, n, hr, hholes, h0⟩

/-- The frame around one pixel meets the hypotheses.  After the history there are two nodes, the edge between them and the infinite face, and
the theorem speaks about the two darts of the edge. -/
theorem frame_exact : Consistent frame4 ∧ ∃ d', alpha frame4 ⟨1, 1, 4⟩ = .ok d' ∧ IsDart frame4 d' ∧ d' ≠ ⟨1, 1, 4⟩ := by
  obtain ⟨hi, hv, hn, N, n, hr, hholes, h0⟩ := frame_meets
  obtain ⟨hreach, hd, -⟩ := frame_history
  obtain ⟨q1, -, q2, -⟩ := history_exact_partial hi hv hn hr hholes h0 hreach
  obtain ⟨-, d', t1, t2, t3, -⟩ := q2 _ hd
  exact ⟨q1, d', t1, t2, t3⟩

/-! ## Nodes that are isolated from the start -/

/-- three pixels around a corner -/
def cornerSrc (x y : Int) : Bool := decide ((x, y) ∈ [((2 : Int), (1 : Int)), (1, 2), (2, 2)])

def cornerComponents : Components :=
  ⟨fun x y => if 0 ≤ x ∧ x < 4 ∧ 0 ≤ y ∧ y < 4 then 3 else if x < 0 then (if y < 0 then 1 else 4) else if y < 0 then 2 else 5, 5, fun _ _ => 1, 1⟩

def cornerOracle : Oracle :=
  ⟨fun l => if l = 3 then 3 else 1, fun _ => [],
    fun x y => if cellsOf .vertex 4 4 cornerSrc x y = .region then 0 else if 0 ≤ x ∧ x < 4 ∧ 0 ≤ y ∧ y < 4 then 2 else 1, 2⟩

def corner0 : Map := theMap ((initMap .vertex 4 4 cornerSrc cornerComponents cornerOracle).map fun m => (m, 0))

theorem corner_checks : (decide (theLabel ((initMap .vertex 4 4 cornerSrc cornerComponents cornerOracle).map fun m => (m, 0)) = some 0) &&
    (decide ((corner0.nodes[3]?).map (fun N => (N.live, N.size, N.anchor, N.degree)) = some (true, 3, ⟨2, 1, 4⟩, 0)) &&
    decide (nodeLabel corner0 ⟨2, 1, 4⟩ = .ok 3) && decide (leftFace corner0 ⟨2, 1, 4⟩ = .ok 3) &&
    (match removeIsolatedNode corner0 ⟨2, 1, 4⟩ with | .ub => true | _ => false))) = true := by
  decide +kernel

/-- **C93, exception.** A call of `removeIsolatedNode` with the anchor stored for an isolated node need not remove it: for three pixels around
a corner the anchor found by the constructor looks to the west of the upper pixel, and both pixels to its left belong to the node.  The label of
the node is taken for the label of a face, here one that does not exist.  (`AtIsolated` asks for a face on the left.) -/
theorem isolated_anchor_violated : initMap .vertex 4 4 cornerSrc cornerComponents cornerOracle = .ok corner0 ∧
    (corner0.nodes[3]?).map (fun N => (N.live, N.size, N.anchor, N.degree)) = some (true, 3, ⟨2, 1, 4⟩, 0) ∧
    nodeLabel corner0 ⟨2, 1, 4⟩ = .ok 3 ∧ leftFace corner0 ⟨2, 1, 4⟩ = .ok 3 ∧ removeIsolatedNode corner0 ⟨2, 1, 4⟩ = .ub := by
  have h := corner_checks
  simp only [Bool.and_eq_true, decide_eq_true_eq] at h
  obtain ⟨h0, ⟨⟨h1, h2⟩, h3⟩, h4⟩ := h
  refine ⟨?_, h1, h2, h3, ?_⟩
  · obtain ⟨a, ha, h2⟩ := map_ok (theMap_spec h0)
    rw [ha]
    unfold corner0
    rw [ha]; rfl
  · cases hr : removeIsolatedNode corner0 ⟨2, 1, 4⟩ <;> rw [hr] at h4 <;> simp at h4 ⊢

end Verif.FourEight.Props
