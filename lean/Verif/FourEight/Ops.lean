import Verif.FourEight.Lemmas

/-!
# The pixel based map: what the four operations do (lemmas)
-/

namespace Verif.FourEight
open Verif Verif.CellImage Verif.Outcome

variable {m m' : Map}

theorem nodes_get {l : Nat} {n : Node} (h : m.nodes[l]? = some n) : (m.nodes.map Node.info)[l]? = some n.info := by
  rw [List.getElem?_map, h]; rfl
theorem edges_get {l : Nat} {n : Edge} (h : m.edges[l]? = some n) : (m.edges.map Edge.info)[l]? = some n.info := by
  rw [List.getElem?_map, h]; rfl
theorem faces_get {l : Nat} {n : Face} (h : m.faces[l]? = some n) : (m.faces.map Face.info)[l]? = some n.info := by
  rw [List.getElem?_map, h]; rfl

theorem Consistent.nodeBox (hm : Consistent m) {l : Nat} {n : Node} (h : m.nodes[l]? = some n) (hl : n.live = true) :
    IsBox (m.cell (.vertex, l)) n.box := hm.nodes.box l n.info (nodes_get h) hl
theorem Consistent.edgeBox (hm : Consistent m) {l : Nat} {n : Edge} (h : m.edges[l]? = some n) (hl : n.live = true) :
    IsBox (m.cell (.line, l)) n.box := hm.edges.box l n.info (edges_get h) hl
theorem Consistent.faceBox (hm : Consistent m) {l : Nat} {n : Face} (h : m.faces[l]? = some n) (hl : n.live = true) :
    IsBox (m.cell (.region, l)) n.box := hm.faces.box l n.info (faces_get h) hl
theorem Consistent.nodeSize (hm : Consistent m) {l : Nat} {n : Node} (h : m.nodes[l]? = some n) (hl : n.live = true) :
    n.size = (m.cell (.vertex, l)).card % 2 ^ 32 := hm.nodes.size l n.info (nodes_get h) hl (by simp)
theorem Consistent.edgeSize (hm : Consistent m) {l : Nat} {n : Edge} (h : m.edges[l]? = some n) (hl : n.live = true) :
    n.size = (m.cell (.line, l)).card % 2 ^ 32 := hm.edges.size l n.info (edges_get h) hl (by simp)
theorem Consistent.faceSize (hm : Consistent m) {l : Nat} {n : Face} (h : m.faces[l]? = some n) (hl : n.live = true) (h0 : l ≠ 0) :
    n.size = (m.cell (.region, l)).card % 2 ^ 32 := hm.faces.size l n.info (faces_get h) hl (by simp [h0])

/-- Relabelling does not care about the cell lists. -/
theorem relabel_frame {r : Rect} {c v : Pixel} {m0 : Map} (hw : m0.w = m.w) (hh : m0.h = m.h) (hp : m0.px = m.px) (hb : IsBox (m.cell c) r) :
    ∃ px, relabel m0 r c v = .ok { m0 with px := px } ∧ Relabeled m { m0 with px := px } c v := by
  have hi : ∀ x y, m0.inside x y ↔ m.inside x y := by intro x y; simp only [Map.inside, hw, hh]
  have hc : m0.cell c = m.cell c := by ext p; rw [mem_cell, mem_cell, hi, hp]
  obtain ⟨px, h1, h2⟩ := relabel_spec (m := m0) (v := v) (hc ▸ hb)
  refine ⟨px, h1, by simpa using hw, by simpa using hh, ?_⟩
  intro x y hxy
  rw [h2.px x y ((hi x y).2 hxy), hp]

/-- result of `removeIsolatedNode` -/
structure IsolatedResult (m m' : Map) (n f : Nat) (N : Node) : Prop where
  node : m.nodes[n]? = some N ∧ N.live = true
  face : ∃ F, m.faces[f]? = some F ∧ F.live = true
  image : Relabeled m m' (.vertex, n) (.region, f)
  nodes : m'.nodes = m.nodes.modify n fun N => { N with live := false }
  edges : m'.edges = m.edges
  faces : m'.faces.map Face.info = (m.faces.map Face.info).modify f fun F => { F with size := addU F.size N.size }
  nodeCount : m'.nodeCount = decU m.nodeCount
  edgeCount : m'.edgeCount = m.edgeCount
  faceCount : m'.faceCount = m.faceCount
  init : m'.init = m.init

theorem removeIsolatedNode_result {d : Dart} {f : Nat} (hm : Consistent m) (h : removeIsolatedNode m d = .ok (m', f)) :
    isSingular m d = .ok true ∧ ∃ n N, nodeLabel m d = .ok n ∧ leftFace m d = .ok f ∧ IsolatedResult m m' n f N := by
  unfold removeIsolatedNode at h
  obtain ⟨s, hs, h⟩ := bind_eq_ok.1 h
  cases s with
  | false => simp at h
  | true =>
  simp only [Bool.not_true, Bool.false_eq_true, if_false] at h
  obtain ⟨n, hn, h⟩ := bind_eq_ok.1 h
  obtain ⟨N, hN, h⟩ := bind_eq_ok.1 h
  obtain ⟨f', hf, h⟩ := bind_eq_ok.1 h
  obtain ⟨F, hF, h⟩ := bind_eq_ok.1 h
  obtain ⟨i, hi, h⟩ := bind_eq_ok.1 h
  by_cases hlen : F.contours.length ≤ i
  · rw [if_pos hlen] at h; cases h
  rw [if_neg hlen] at h
  obtain ⟨hN1, hN2⟩ := node_ok hN
  obtain ⟨px, h1, h2⟩ := relabel_frame (m := m) (c := (.vertex, n)) (v := (.region, f')) (r := N.box)
    (m0 := { m with faces := m.faces.modify f' fun F => { F with contours := F.contours.eraseIdx i } }) rfl rfl rfl (hm.nodeBox hN1 hN2)
  rw [h1, bind_ok] at h
  cases h
  refine ⟨hs, n, N, hn, hf, ⟨hN1, hN2⟩, ⟨F, face_ok hF⟩, ⟨h2.w, h2.h, h2.px⟩, rfl, rfl, ?_, rfl, rfl, rfl, rfl⟩
  dsimp only
  rw [map_modify (g := fun F : Info => { F with size := addU F.size N.size }) _ _ _ _ (by intro a; rfl)]
  rw [map_modify_same _ _ _ _ (by intro a; rfl)]

/-- the degree of node `n` is lowered -/
def Lowered (a b : List Node) (n : Nat) : Prop := ∀ (i : Nat) (B : Node), b[i]? = some B → ∃ A, a[i]? = some A ∧ A.live = B.live ∧
  B.degree = if i = n then (A.degree + 65535) % 65536 else A.degree

theorem decDegree_lowered {n : Nat} {m m' : Map} (h : decDegree m n = .ok m') : Lowered m.nodes m'.nodes n := by
  unfold decDegree at h
  cases hx : m.nodes[n]? with
  | none => rw [hx] at h; simp at h
  | some N =>
    rw [hx] at h; dsimp only at h
    have key : ∀ f : Node → Node, (∀ a, (f a).live = a.live) → (f N).degree = (N.degree + 65535) % 65536 → Lowered m.nodes (m.nodes.modify n f) n := by
      intro f hf hd i B hB
      by_cases hi : i = n
      · subst hi
        rw [List.getElem?_modify_eq, hx] at hB
        cases hB
        exact ⟨N, hx, (hf N).symm, by rw [if_pos rfl]; exact hd⟩
      · rw [modify_ne (fun e => hi e.symm)] at hB
        exact ⟨B, hB, rfl, by rw [if_neg hi]⟩
    by_cases hd : (N.degree + 65535) % 65536 = 0
    · rw [if_pos hd] at h; cases h
      exact key _ (fun _ => rfl) rfl
    · rw [if_neg hd] at h
      obtain ⟨s, _, h⟩ := bind_eq_ok.1 h
      obtain ⟨a, _, h⟩ := bind_eq_ok.1 h
      cases h
      exact key _ (fun _ => rfl) rfl

/-- the degrees at both ends of an edge are lowered -/
def EndsLowered (m m' : Map) (E : Edge) : Prop := ∃ n1 n2 l, nodeLabel m E.start = .ok n1 ∧ nodeLabel m E.stop = .ok n2 ∧
  Lowered m.nodes l n1 ∧ Lowered l m'.nodes n2

/-- the calls that lower them: both see the final image -/
def EndsCalled (m m' : Map) (E : Edge) : Prop := ∃ n1 n2 q1 q2 q3, nodeLabel m E.start = .ok n1 ∧ nodeLabel m E.stop = .ok n2 ∧
  (q1.w = m'.w ∧ q1.h = m'.h ∧ q1.px = m'.px) ∧ q1.nodes = m.nodes ∧ decDegree q1 n1 = .ok q2 ∧ decDegree q2 n2 = .ok q3 ∧ q3.nodes = m'.nodes

/-- result of `mergeFaces` -/
structure MergeResult (m m' : Map) (e s g : Nat) (E : Edge) (G : Face) : Prop where
  edge : m.edges[e]? = some E ∧ E.live = true
  survivor : ∃ S, m.faces[s]? = some S ∧ S.live = true
  merged : m.faces[g]? = some G ∧ G.live = true
  ne : s ≠ g
  w : m'.w = m.w
  h : m'.h = m.h
  image : ∃ px, Relabeled m { m with px := px } (.line, e) (.region, s) ∧ Relabeled { m with px := px } m' (.region, g) (.region, s)
  nodes : m'.nodes.map Node.info = m.nodes.map Node.info
  nodesLive : m'.nodes.countP (·.live) = m.nodes.countP (·.live)
  edges : m'.edges = m.edges.modify e fun E => { E with live := false }
  faces : m'.faces.map Face.info =
    (((m.faces.map Face.info).modify s (·.absorb E.box E.size)).modify s (·.absorb G.box G.size)).modify g Info.kill
  facesLive : m'.faces.countP (·.live) + 1 = m.faces.countP (·.live)
  nodeCount : m'.nodeCount = m.nodeCount
  edgeCount : m'.edgeCount = decU m.edgeCount
  faceCount : m'.faceCount = decU m.faceCount
  init : m'.init = m.init
  degrees : EndsLowered m m' E
  calls : EndsCalled m m' E

theorem mergeFaces_result {d : Dart} {s : Nat} (hm : Consistent m) (h : mergeFaces m d = .ok (m', s)) :
    ∃ l L r R rd e E g G, leftFace m d = .ok l ∧ m.face l = .ok L ∧ rightFace m d = .ok r ∧ m.face r = .ok R ∧
      (if L.box.area < R.box.area then alpha m d else .ok d) = .ok rd ∧ edgeLabel m rd = .ok e ∧ leftFace m rd = .ok s ∧
      rightFace m rd = .ok g ∧ MergeResult m m' e s g E G := by
  unfold mergeFaces at h
  obtain ⟨l, hl, h⟩ := bind_eq_ok.1 h
  obtain ⟨L, hL, h⟩ := bind_eq_ok.1 h
  obtain ⟨r, hr, h⟩ := bind_eq_ok.1 h
  obtain ⟨R, hR, h⟩ := bind_eq_ok.1 h
  obtain ⟨rd, hrd, h⟩ := bind_eq_ok.1 h
  obtain ⟨e, he, h⟩ := bind_eq_ok.1 h
  obtain ⟨E, hE, h⟩ := bind_eq_ok.1 h
  obtain ⟨s', hs, h⟩ := bind_eq_ok.1 h
  obtain ⟨S, hS, h⟩ := bind_eq_ok.1 h
  obtain ⟨g, hg, h⟩ := bind_eq_ok.1 h
  obtain ⟨G, hG, h⟩ := bind_eq_ok.1 h
  obtain ⟨n1, hn1, h⟩ := bind_eq_ok.1 h
  obtain ⟨N1, hN1, h⟩ := bind_eq_ok.1 h
  obtain ⟨n2, hn2, h⟩ := bind_eq_ok.1 h
  obtain ⟨N2, hN2, h⟩ := bind_eq_ok.1 h
  by_cases hsg : s' = g
  · rw [if_pos hsg] at h; cases h
  rw [if_neg hsg] at h
  obtain ⟨c1, hc1, h⟩ := bind_eq_ok.1 h
  obtain ⟨c2, hc2, h⟩ := bind_eq_ok.1 h
  obtain ⟨k, hk, h⟩ := bind_eq_ok.1 h
  obtain ⟨k', hk', h⟩ := bind_eq_ok.1 h
  obtain ⟨a, ha, h⟩ := bind_eq_ok.1 h
  obtain ⟨la, hla, h⟩ := bind_eq_ok.1 h
  by_cases hbad : la = e ∧ n1 ≠ n2
  · rw [if_pos hbad] at h; cases h
  rw [if_neg hbad] at h
  obtain ⟨hE1, hE2⟩ := edge_ok hE
  obtain ⟨hS1, hS2⟩ := face_ok hS
  obtain ⟨hG1, hG2⟩ := face_ok hG
  obtain ⟨px, h1, h2⟩ := relabel_frame (m := m) (c := (.line, e)) (v := (.region, s')) (r := E.box)
    (m0 := { m with faces := m.faces.modify s' fun S => { S with contours := S.contours.set c1 a ++ G.contours.eraseIdx c2 } })
    rfl rfl rfl (hm.edgeBox hE1 hE2)
  rw [h1, bind_ok] at h
  have h2' : Relabeled m { m with px := px } (.line, e) (.region, s') := ⟨rfl, rfl, h2.px⟩
  have hGb : IsBox (({ m with px := px } : Map).cell (.region, g)) G.box := by
    rw [h2'.cell_other (by simp) (by simpa using fun e : g = s' => hsg e.symm)]
    exact hm.faceBox hG1 hG2
  obtain ⟨px2, h3, h4⟩ := relabel_frame (m := { m with px := px }) (c := (.region, g)) (v := (.region, s')) (r := G.box)
    (m0 := { m with
      faces := m.faces.modify s' fun S => { S with contours := S.contours.set c1 a ++ G.contours.eraseIdx c2 }
      px := px })
    rfl rfl rfl hGb
  rw [h3, bind_ok] at h
  obtain ⟨m3, hm3, h⟩ := bind_eq_ok.1 h
  obtain ⟨m4, hm4, h⟩ := bind_eq_ok.1 h
  have L1 := decDegree_lowered hm3
  change Lowered m.nodes m3.nodes n1 at L1
  have L2 := decDegree_lowered hm4
  have d1 := decDegree_spec hm3
  have d2 := decDegree_spec hm4
  cases h
  refine ⟨l, L, r, R, rd, e, E, g, G, hl, hL, hr, hR, hrd, he, hs, hg, ⟨hE1, hE2⟩, ⟨S, hS1, hS2⟩, ⟨hG1, hG2⟩, hsg, ?_, ?_, ⟨px, h2', ?_⟩,
    ?_, ?_, ?_, ?_, ?_, ?_, ?_, ?_, ?_, ⟨n1, n2, m3.nodes, hn1, hn2, L1, L2⟩,
    n1, n2, _, m3, m4, hn1, hn2, ⟨d1.w.symm.trans d2.w.symm, d1.h.symm.trans d2.h.symm, d1.px.symm.trans d2.px.symm⟩, rfl, hm3, hm4, rfl⟩
  · show m4.w = _; rw [d2.w, d1.w]
  · show m4.h = _; rw [d2.h, d1.h]
  · refine ⟨?_, ?_, ?_⟩
    · show m4.w = _; rw [d2.w, d1.w]
    · show m4.h = _; rw [d2.h, d1.h]
    · intro x y hxy; show m4.px x y = _; rw [d2.px, d1.px]; exact h4.px x y hxy
  · show m4.nodes.map _ = _; rw [d2.nodes, d1.nodes]
  · show m4.nodes.countP _ = _; rw [d2.live, d1.live]
  · show m4.edges.modify _ _ = _; rw [d2.edges, d1.edges]
  · show List.map Face.info ((m4.faces.modify _ _).modify _ _) = _
    rw [d2.faces, d1.faces]
    dsimp only
    rw [map_modify (g := Info.kill) _ _ _ _ (by intro a; rfl),
      map_modify (g := fun a : Info => (a.absorb E.box E.size).absorb G.box G.size) _ _ _ _ (by intro a; rfl),
      map_modify_same _ _ _ _ (by intro a; rfl), modify_modify]
  · show List.countP _ ((m4.faces.modify _ _).modify _ _) + 1 = _
    rw [d2.faces, d1.faces]
    dsimp only
    have hg' : ((m.faces.modify s fun S => { S with contours := S.contours.set c1 a ++ G.contours.eraseIdx c2 }).modify s fun S =>
        { S with
          box := (S.box.union E.box).union G.box
          size := addU (addU S.size E.size) G.size })[g]? = some G := by
      rw [modify_ne hsg, modify_ne hsg, hG1]
    rw [← countP_modify_kill (·.live) (fun G : Face => { G with live := false }) _ _ _ hg' hG2 rfl]
    rw [countP_modify_same _ _ (by intro a; rfl), countP_modify_same _ _ (by intro a; rfl)]
  · show m4.nodeCount = _; rw [d2.nodeCount, d1.nodeCount]
  · show decU m4.edgeCount = _; rw [d2.edgeCount, d1.edgeCount]
  · show decU m4.faceCount = _; rw [d2.faceCount, d1.faceCount]
  · show m4.init = _; rw [d2.init, d1.init]

/-- result of `removeBridge` -/
structure BridgeResult (m m' : Map) (e f : Nat) (E : Edge) : Prop where
  edge : m.edges[e]? = some E ∧ E.live = true
  face : ∃ F, m.faces[f]? = some F ∧ F.live = true
  image : Relabeled m m' (.line, e) (.region, f)
  nodes : m'.nodes.map Node.info = m.nodes.map Node.info
  nodesLive : m'.nodes.countP (·.live) = m.nodes.countP (·.live)
  edges : m'.edges = m.edges.modify e fun E => { E with live := false }
  faces : m'.faces.map Face.info = (m.faces.map Face.info).modify f (·.absorb E.box E.size)
  facesLive : m'.faces.countP (·.live) = m.faces.countP (·.live)
  nodeCount : m'.nodeCount = m.nodeCount
  edgeCount : m'.edgeCount = decU m.edgeCount
  faceCount : m'.faceCount = m.faceCount
  init : m'.init = m.init
  degrees : EndsLowered m m' E
  calls : EndsCalled m m' E

theorem removeBridge_result {d : Dart} {f : Nat} (hm : Consistent m) (h : removeBridge m d = .ok (m', f)) :
    isSingular m d = .ok false ∧ ∃ e E, edgeLabel m d = .ok e ∧ leftFace m d = .ok f ∧ rightFace m d = .ok f ∧ BridgeResult m m' e f E := by
  unfold removeBridge at h
  obtain ⟨b, hb, h⟩ := bind_eq_ok.1 h
  cases b with
  | true => simp at h
  | false =>
  simp only [Bool.false_eq_true, if_false] at h
  obtain ⟨e, he, h⟩ := bind_eq_ok.1 h
  obtain ⟨E, hE, h⟩ := bind_eq_ok.1 h
  obtain ⟨f', hf, h⟩ := bind_eq_ok.1 h
  obtain ⟨F, hF, h⟩ := bind_eq_ok.1 h
  obtain ⟨n1, hn1, h⟩ := bind_eq_ok.1 h
  obtain ⟨N1, hN1, h⟩ := bind_eq_ok.1 h
  obtain ⟨n2, hn2, h⟩ := bind_eq_ok.1 h
  obtain ⟨N2, hN2, h⟩ := bind_eq_ok.1 h
  obtain ⟨r, hr, h⟩ := bind_eq_ok.1 h
  by_cases hfr : f' ≠ r
  · rw [if_pos hfr] at h; cases h
  rw [if_neg hfr] at h
  obtain ⟨a1, ha1, h⟩ := bind_eq_ok.1 h
  obtain ⟨a2, ha2, h⟩ := bind_eq_ok.1 h
  obtain ⟨i, hi, h⟩ := bind_eq_ok.1 h
  by_cases hlen : F.contours.length ≤ i
  · rw [if_pos hlen] at h; cases h
  rw [if_neg hlen] at h
  obtain ⟨hE1, hE2⟩ := edge_ok hE
  obtain ⟨px, h1, h2⟩ := relabel_frame (m := m) (c := (.line, e)) (v := (.region, f')) (r := E.box)
    (m0 := { m with faces := m.faces.modify f' fun F => { F with contours := F.contours.set i a1 ++ [a2] } })
    rfl rfl rfl (hm.edgeBox hE1 hE2)
  rw [h1, bind_ok] at h
  obtain ⟨m3, hm3, h⟩ := bind_eq_ok.1 h
  obtain ⟨m4, hm4, h⟩ := bind_eq_ok.1 h
  have L1 := decDegree_lowered hm3
  change Lowered m.nodes m3.nodes n1 at L1
  have L2 := decDegree_lowered hm4
  have d1 := decDegree_spec hm3
  have d2 := decDegree_spec hm4
  cases h
  refine ⟨hb, e, E, he, hf, ?_, ⟨hE1, hE2⟩, ⟨F, face_ok hF⟩, ⟨?_, ?_, ?_⟩, ?_, ?_, ?_, ?_, ?_, ?_, ?_, ?_, ?_,
    ⟨n1, n2, m3.nodes, hn1, hn2, L1, L2⟩,
    n1, n2, _, m3, m4, hn1, hn2, ⟨d1.w.symm.trans d2.w.symm, d1.h.symm.trans d2.h.symm, d1.px.symm.trans d2.px.symm⟩, rfl, hm3, hm4, rfl⟩
  · rw [hr]; simp only [ne_eq, not_not] at hfr; rw [hfr]
  · show m4.w = _; rw [d2.w, d1.w]
  · show m4.h = _; rw [d2.h, d1.h]
  · intro x y hxy; show m4.px x y = _; rw [d2.px, d1.px]; exact h2.px x y hxy
  · show m4.nodes.map _ = _; rw [d2.nodes, d1.nodes]
  · show m4.nodes.countP _ = _; rw [d2.live, d1.live]
  · show m4.edges.modify _ _ = _; rw [d2.edges, d1.edges]
  · show List.map Face.info (m4.faces.modify _ _) = _
    rw [d2.faces, d1.faces]
    dsimp only
    rw [map_modify (g := fun a : Info => a.absorb E.box E.size) _ _ _ _ (by intro a; rfl), map_modify_same _ _ _ _ (by intro a; rfl)]
  · show List.countP _ (m4.faces.modify _ _) = _
    rw [d2.faces, d1.faces]
    dsimp only
    rw [countP_modify_same _ _ (by intro a; rfl), countP_modify_same _ _ (by intro a; rfl)]
  · show m4.nodeCount = _; rw [d2.nodeCount, d1.nodeCount]
  · show decU m4.edgeCount = _; rw [d2.edgeCount, d1.edgeCount]
  · show m4.faceCount = _; rw [d2.faceCount, d1.faceCount]
  · show m4.init = _; rw [d2.init, d1.init]

/-- result of `mergeEdges` -/
structure JoinResult (m m' : Map) (n s g : Nat) (N : Node) (G : Edge) : Prop where
  node : m.nodes[n]? = some N ∧ N.live = true
  survivor : ∃ S, m.edges[s]? = some S ∧ S.live = true
  merged : m.edges[g]? = some G ∧ G.live = true
  ne : s ≠ g
  w : m'.w = m.w
  h : m'.h = m.h
  image : ∃ px, Relabeled m { m with px := px } (.vertex, n) (.line, s) ∧ Relabeled { m with px := px } m' (.line, g) (.line, s)
  nodes : m'.nodes = m.nodes.modify n fun N => { N with live := false }
  edges : m'.edges.map Edge.info =
    (((m.edges.map Edge.info).modify s (·.absorb N.box N.size)).modify s (·.absorb G.box G.size)).modify g Info.kill
  edgesLive : m'.edges.countP (·.live) + 1 = m.edges.countP (·.live)
  faces : m'.faces.map Face.info = m.faces.map Face.info
  facesLive : m'.faces.countP (·.live) = m.faces.countP (·.live)
  nodeCount : m'.nodeCount = decU m.nodeCount
  edgeCount : m'.edgeCount = decU m.edgeCount
  faceCount : m'.faceCount = m.faceCount
  init : m'.init = m.init

/-- changes of the contours of faces only -/
structure ContoursOnly (m m' : Map) : Prop where
  w : m'.w = m.w
  h : m'.h = m.h
  px : m'.px = m.px
  nodes : m'.nodes = m.nodes
  edges : m'.edges = m.edges
  faces : m'.faces.map Face.info = m.faces.map Face.info
  live : m'.faces.countP (·.live) = m.faces.countP (·.live)
  nodeCount : m'.nodeCount = m.nodeCount
  edgeCount : m'.edgeCount = m.edgeCount
  faceCount : m'.faceCount = m.faceCount
  init : m'.init = m.init

/-- edge `s` gets new ends, edge `g` stops to exist -/
def Joined (a b : List Edge) (s g : Nat) (s1 s2 : Dart) : Prop := ∀ (i : Nat) (B : Edge), b[i]? = some B → B.live = true →
  (i = s ∧ B.start = s1 ∧ B.stop = s2) ∨ (i ≠ s ∧ i ≠ g ∧ a[i]? = some B)

theorem contoursOnly_alpha {m0 : Map} (h : ContoursOnly m m0) (d : Dart) : alpha m0 d = alpha m d := by
  have hin : ∀ x y, m0.inside x y ↔ m.inside x y := by intro x y; unfold Map.inside; rw [h.w, h.h]
  have hget : ∀ x y, m0.get x y = m.get x y := by
    intro x y
    unfold Map.get
    rw [h.px]
    exact if_congr (hin x y) rfl rfl
  have hnb : ∀ d k, m0.nb d k = m.nb d k := fun d k => hget _ _
  have hf : m0.fuel = m.fuel := by unfold Map.fuel; rw [h.w, h.h]
  have hjump : ∀ n d, edgelJump m0 n d = edgelJump m n d := by
    have hturn : ∀ n d, edgelTurn m0 n d = edgelTurn m n d := by
      intro n
      induction n with
      | zero => intro d; rfl
      | succ n ih => intro d; simp only [edgelTurn, hnb, ih]
    intro n
    induction n with
    | zero => intro d; rfl
    | succ n ih => intro d; simp only [edgelJump, edgelNext, hturn, hnb, ih]
  unfold alpha dartEq isSingular nodeLabel Map.edge
  simp only [hnb, hget, h.edges, h.init, hf, hjump]

theorem mergeEdges_full {d : Dart} {s : Nat} (hm : Consistent m) (h : mergeEdges m d = .ok (m', s)) :
    ∃ d1 dart2 dart1 g n N G, sigma m 1 d = .ok d1 ∧ (dart2 = d1 ∨ sigma m 1 d1 = .ok dart2) ∧ edgeLabel m dart2 = .ok g ∧
      nodeLabel m dart2 = .ok n ∧ sigma m 1 dart2 = .ok dart1 ∧ edgeLabel m dart1 = .ok s ∧
      (dartEq m dart1 d = .ok true ∧ dart2 = d1 ∨ dartEq m dart2 d = .ok true ∧ sigma m 1 d1 = .ok dart2) ∧ JoinResult m m' n s g N G ∧
      ∃ s1 s2, alpha m dart1 = .ok s1 ∧ alpha m dart2 = .ok s2 ∧ Joined m.edges m'.edges s g s1 s2 := by
  unfold mergeEdges at h
  obtain ⟨d1, hd1, h⟩ := bind_eq_ok.1 h
  obtain ⟨e0, he0, h⟩ := bind_eq_ok.1 h
  obtain ⟨E0, hE0, h⟩ := bind_eq_ok.1 h
  obtain ⟨e1, he1, h⟩ := bind_eq_ok.1 h
  obtain ⟨E1, hE1, h⟩ := bind_eq_ok.1 h
  dsimp only at h
  obtain ⟨dart2, hdart2, h⟩ := bind_eq_ok.1 h
  obtain ⟨g, hg, h⟩ := bind_eq_ok.1 h
  obtain ⟨G, hG, h⟩ := bind_eq_ok.1 h
  obtain ⟨n, hn, h⟩ := bind_eq_ok.1 h
  obtain ⟨N, hN, h⟩ := bind_eq_ok.1 h
  obtain ⟨dart1, hdart1, h⟩ := bind_eq_ok.1 h
  obtain ⟨s', hs, h⟩ := bind_eq_ok.1 h
  obtain ⟨S, hS, h⟩ := bind_eq_ok.1 h
  obtain ⟨same, hsame, h⟩ := bind_eq_ok.1 h
  cases same with
  | false => simp at h
  | true =>
  simp only [Bool.not_true, Bool.false_eq_true, if_false] at h
  by_cases hsg : s' = g
  · rw [if_pos hsg] at h; cases h
  rw [if_neg hsg] at h
  obtain ⟨l, hl, h⟩ := bind_eq_ok.1 h
  obtain ⟨L, hL, h⟩ := bind_eq_ok.1 h
  obtain ⟨nn, hnn, h⟩ := bind_eq_ok.1 h
  obtain ⟨lc, hlc, h⟩ := bind_eq_ok.1 h
  obtain ⟨r, hr, h⟩ := bind_eq_ok.1 h
  obtain ⟨m0, hm0, h⟩ := bind_eq_ok.1 h
  have c0 : ContoursOnly m m0 := by
    by_cases hlr : l ≠ r
    · rw [if_pos hlr] at hm0
      obtain ⟨R, hR, hm0⟩ := bind_eq_ok.1 hm0
      obtain ⟨rc, hrc, hm0⟩ := bind_eq_ok.1 hm0
      cases hm0
      refine ⟨rfl, rfl, rfl, rfl, rfl, ?_, ?_, rfl, rfl, rfl, rfl⟩
      · dsimp only
        rw [map_modify_same _ _ _ _ (by intro a; rfl), map_modify_same _ _ _ _ (by intro a; rfl)]
      · dsimp only
        rw [countP_modify_same _ _ (by intro a; rfl), countP_modify_same _ _ (by intro a; rfl)]
    · rw [if_neg hlr] at hm0
      cases hm0
      refine ⟨rfl, rfl, rfl, rfl, rfl, ?_, ?_, rfl, rfl, rfl, rfl⟩
      · dsimp only
        rw [map_modify_same _ _ _ _ (by intro a; rfl)]
      · dsimp only
        rw [countP_modify_same _ _ (by intro a; rfl)]
  obtain ⟨s1, hs1, h⟩ := bind_eq_ok.1 h
  obtain ⟨s2, hs2, h⟩ := bind_eq_ok.1 h
  obtain ⟨hN1, hN2⟩ := node_ok hN
  obtain ⟨hS1, hS2⟩ := edge_ok hS
  obtain ⟨hG1, hG2⟩ := edge_ok hG
  obtain ⟨px, h1, h2⟩ := relabel_frame (m := m) (c := (.vertex, n)) (v := (.line, s')) (r := N.box)
    (m0 := { m0 with edges := m0.edges.modify s' fun S => { S with start := s1, stop := s2 } })
    c0.w c0.h c0.px (hm.nodeBox hN1 hN2)
  rw [h1, bind_ok] at h
  have h2' : Relabeled m { m with px := px } (.vertex, n) (.line, s') := ⟨rfl, rfl, h2.px⟩
  have hGb : IsBox (({ m with px := px } : Map).cell (.line, g)) G.box := by
    rw [h2'.cell_other (by simp) (by simpa using fun e : g = s' => hsg e.symm)]
    exact hm.edgeBox hG1 hG2
  obtain ⟨px2, h3, h4⟩ := relabel_frame (m := { m with px := px }) (c := (.line, g)) (v := (.line, s')) (r := G.box)
    (m0 := { m0 with
      edges := m0.edges.modify s' fun S => { S with start := s1, stop := s2 }
      px := px })
    c0.w c0.h rfl hGb
  rw [h3, bind_ok] at h
  cases h
  refine ⟨d1, dart2, dart1, g, n, N, G, hd1, ?_, hg, hn, hdart1, hs, ?_, ⟨⟨hN1, hN2⟩, ⟨S, hS1, hS2⟩, ⟨hG1, hG2⟩, hsg, ?_, ?_, ⟨px, h2', ?_⟩,
    ?_, ?_, ?_, ?_, ?_, ?_, ?_, ?_, ?_⟩, s1, s2, ?_, ?_, ?_⟩
  · by_cases hfirst : E0.box.area < E1.box.area
    · simp only [hfirst, decide_true, if_true] at hdart2; exact .inr hdart2
    · simp only [hfirst, decide_false, Bool.false_eq_true, if_false] at hdart2; cases hdart2; exact .inl rfl
  · by_cases hfirst : E0.box.area < E1.box.area
    · simp only [hfirst, decide_true, if_true] at hdart2 hsame; exact .inr ⟨hsame, hdart2⟩
    · simp only [hfirst, decide_false, Bool.false_eq_true, if_false] at hdart2 hsame; cases hdart2; exact .inl ⟨hsame, rfl⟩
  · show m0.w = _; rw [c0.w]
  · show m0.h = _; rw [c0.h]
  · exact ⟨by show m0.w = _; rw [c0.w], by show m0.h = _; rw [c0.h], fun x y hxy => h4.px x y hxy⟩
  · show m0.nodes.modify _ _ = _; rw [c0.nodes]
  · show List.map Edge.info (((m0.edges.modify _ _).modify _ _).modify _ _) = _
    rw [c0.edges]
    rw [map_modify (g := Info.kill) _ _ _ _ (by intro a; rfl),
      map_modify (g := fun a : Info => (a.absorb N.box N.size).absorb G.box G.size) _ _ _ _ (by intro a; rfl),
      map_modify_same _ _ _ _ (by intro a; rfl), modify_modify]
  · show List.countP _ (((m0.edges.modify _ _).modify _ _).modify _ _) + 1 = _
    rw [c0.edges]
    have hg' : ((m.edges.modify s fun S => { S with start := s1, stop := s2 }).modify s fun S =>
        { S with
          box := (S.box.union N.box).union G.box
          size := addU (addU S.size N.size) G.size })[g]? = some G := by
      rw [modify_ne hsg, modify_ne hsg, hG1]
    rw [← countP_modify_kill (·.live) (fun G : Edge => { G with live := false }) _ _ _ hg' hG2 rfl]
    rw [countP_modify_same _ _ (by intro a; rfl), countP_modify_same _ _ (by intro a; rfl)]
  · exact c0.faces
  · exact c0.live
  · show decU m0.nodeCount = _; rw [c0.nodeCount]
  · show decU m0.edgeCount = _; rw [c0.edgeCount]
  · exact c0.faceCount
  · exact c0.init
  · rw [← hs1, contoursOnly_alpha c0]
  · rw [← hs2, contoursOnly_alpha c0]
  · intro i B hB hlive
    have hB : (((m0.edges.modify s fun S => { S with start := s1, stop := s2 }).modify s _).modify g _)[i]? = some B := hB
    rw [c0.edges] at hB
    by_cases hig : g = i
    · rw [← hig, List.getElem?_modify_eq] at hB
      obtain ⟨_, -, rfl⟩ := Option.map_eq_some_iff.1 hB
      cases hlive
    rw [modify_ne hig] at hB
    by_cases his : s = i
    · subst his
      rw [List.getElem?_modify_eq, List.getElem?_modify_eq, hS1] at hB
      cases hB
      exact Or.inl ⟨rfl, rfl, rfl⟩
    · rw [modify_ne his, modify_ne his] at hB
      exact Or.inr ⟨fun e => his e.symm, fun e => hig e.symm, hB⟩

theorem mergeEdges_result {d : Dart} {s : Nat} (hm : Consistent m) (h : mergeEdges m d = .ok (m', s)) :
    ∃ d1 dart2 dart1 g n N G, sigma m 1 d = .ok d1 ∧ (dart2 = d1 ∨ sigma m 1 d1 = .ok dart2) ∧ edgeLabel m dart2 = .ok g ∧
      nodeLabel m dart2 = .ok n ∧ sigma m 1 dart2 = .ok dart1 ∧ edgeLabel m dart1 = .ok s ∧
      (dartEq m dart1 d = .ok true ∧ dart2 = d1 ∨ dartEq m dart2 d = .ok true ∧ sigma m 1 d1 = .ok dart2) ∧ JoinResult m m' n s g N G := by
  obtain ⟨d1, dart2, dart1, g, n, N, G, a1, a2, a3, a4, a5, a6, a7, a8, -⟩ := mergeEdges_full hm h
  exact ⟨d1, dart2, dart1, g, n, N, G, a1, a2, a3, a4, a5, a6, a7, a8⟩

/-! ## consistency -/

theorem kill_nodes (n : Nat) : (m.nodes.modify n fun N => { N with live := false }).map Node.info = (m.nodes.map Node.info).modify n Info.kill :=
  map_modify _ _ _ _ _ (by intro a; rfl)

theorem kill_edges (n : Nat) : (m.edges.modify n fun N => { N with live := false }).map Edge.info = (m.edges.map Edge.info).modify n Info.kill :=
  map_modify _ _ _ _ _ (by intro a; rfl)

theorem MergeResult.consistent {e s g : Nat} {E : Edge} {G : Face} (hm : Consistent m) (h : MergeResult m m' e s g E G) (hg0 : g ≠ 0) :
    Consistent m' := by
  obtain ⟨px, i1, i2⟩ := h.image
  obtain ⟨hE1, hE2⟩ := h.edge
  obtain ⟨hG1, hG2⟩ := h.merged
  obtain ⟨S, hS1, hS2⟩ := h.survivor
  have hgs : g ≠ s := fun e => h.ne e.symm
  have hother : ({ m with px := px } : Map).cell (.region, g) = m.cell (.region, g) := i1.cell_other (by simp) (by simp [hgs])
  have f1 := hm.faces.absorb i1 (by simp) (hm.edgeBox hE1 hE2) (hm.edgeSize hE1 hE2) ⟨S.info, faces_get hS1, hS2⟩
  refine ⟨?_, ?_, ?_, ?_, ?_, ?_⟩
  · rw [h.nodes]; exact (hm.nodes.other i1 (by simp) (by simp)).other i2 (by simp) (by simp)
  · rw [h.edges, kill_edges]
    exact (hm.edges.kill i1 (by simp)).other i2 (by simp) (by simp)
  · rw [h.faces]
    exact f1.merge i2 hgs (hother ▸ hm.faceBox hG1 hG2) (fun _ => by rw [hother]; exact hm.faceSize hG1 hG2 hg0)
      ⟨_, modify_eq (faces_get hS1), hS2⟩
  · rw [h.nodeCount, h.nodesLive]; exact hm.nodeCount
  · rw [h.edgeCount]
    apply decU_spec
    rw [hm.edgeCount, h.edges, countP_modify_kill (·.live) (fun E : Edge => { E with live := false }) _ _ _ hE1 hE2 rfl]
  · rw [h.faceCount]
    apply decU_spec
    rw [hm.faceCount, h.facesLive]

theorem BridgeResult.consistent {e f : Nat} {E : Edge} (hm : Consistent m) (h : BridgeResult m m' e f E) : Consistent m' := by
  obtain ⟨hE1, hE2⟩ := h.edge
  obtain ⟨F, hF1, hF2⟩ := h.face
  refine ⟨?_, ?_, ?_, ?_, ?_, ?_⟩
  · rw [h.nodes]; exact hm.nodes.other h.image (by simp) (by simp)
  · rw [h.edges, kill_edges]; exact hm.edges.kill h.image (by simp)
  · rw [h.faces]; exact hm.faces.absorb h.image (by simp) (hm.edgeBox hE1 hE2) (hm.edgeSize hE1 hE2) ⟨F.info, faces_get hF1, hF2⟩
  · rw [h.nodeCount, h.nodesLive]; exact hm.nodeCount
  · rw [h.edgeCount]
    apply decU_spec
    rw [hm.edgeCount, h.edges, countP_modify_kill (·.live) (fun E : Edge => { E with live := false }) _ _ _ hE1 hE2 rfl]
  · rw [h.faceCount, h.facesLive]; exact hm.faceCount

theorem JoinResult.consistent {n s g : Nat} {N : Node} {G : Edge} (hm : Consistent m) (h : JoinResult m m' n s g N G) : Consistent m' := by
  obtain ⟨px, i1, i2⟩ := h.image
  obtain ⟨hN1, hN2⟩ := h.node
  obtain ⟨hG1, hG2⟩ := h.merged
  obtain ⟨S, hS1, hS2⟩ := h.survivor
  have hgs : g ≠ s := fun e => h.ne e.symm
  have hother : ({ m with px := px } : Map).cell (.line, g) = m.cell (.line, g) := i1.cell_other (by simp) (by simp [hgs])
  have f1 := hm.edges.absorb i1 (by simp) (hm.nodeBox hN1 hN2) (hm.nodeSize hN1 hN2) ⟨S.info, edges_get hS1, hS2⟩
  refine ⟨?_, ?_, ?_, ?_, ?_, ?_⟩
  · rw [h.nodes, kill_nodes]
    exact (hm.nodes.kill i1 (by simp)).other i2 (by simp) (by simp)
  · rw [h.edges]
    exact f1.merge i2 hgs (hother ▸ hm.edgeBox hG1 hG2) (fun _ => by rw [hother]; exact hm.edgeSize hG1 hG2)
      ⟨_, modify_eq (edges_get hS1), hS2⟩
  · rw [h.faces]; exact (hm.faces.other i1 (by simp) (by simp)).other i2 (by simp) (by simp)
  · rw [h.nodeCount]
    apply decU_spec
    rw [hm.nodeCount, h.nodes, countP_modify_kill (·.live) (fun N : Node => { N with live := false }) _ _ _ hN1 hN2 rfl]
  · rw [h.edgeCount]
    apply decU_spec
    rw [hm.edgeCount, h.edgesLive]
  · rw [h.faceCount, h.facesLive]; exact hm.faceCount

theorem countP_info_face (l : List Face) : l.countP (·.live) = (l.map Face.info).countP (·.live) := by
  rw [List.countP_map]; rfl

/-- An isolated node lies inside of the bounds of its face. -/
theorem isolated_box {n f : Nat} {N : Node} {F : Face} (hm : Consistent m) (hN : m.nodes[n]? = some N) (hN2 : N.live = true)
    (hF : m.faces[f]? = some F) (hF2 : F.live = true) (hi : Isolated m n f) : F.box.union N.box = F.box := by
  have bN := hm.nodeBox hN hN2
  have bF := hm.faceBox hF hF2
  unfold Rect.union
  by_cases he : N.box.isEmpty = true
  · rw [if_pos he]
  rw [if_neg he]
  have hne : (m.cell (.vertex, n)).Nonempty := by
    rw [Finset.nonempty_iff_ne_empty]; intro h0; exact he (bN.2.1 h0)
  obtain ⟨⟨a, ha, ha'⟩, ⟨b, hb, hb'⟩, ⟨c, hc, hc'⟩, ⟨d, hd, hd'⟩⟩ := bN.2.2 hne
  have side : ∀ p : Int × Int, p ∈ m.cell (.vertex, n) → ∀ k : Fin 8, k.val % 2 = 0 →
      (p.1 + dx k, p.2 + dy k) ∉ m.cell (.vertex, n) → (p.1 + dx k, p.2 + dy k) ∈ m.cell (.region, f) := by
    intro p hp k hk hnot
    obtain ⟨h1, h2⟩ := mem_cell.1 hp
    obtain ⟨h3, h4⟩ := hi p.1 p.2 h1 h2 k hk
    rcases h4 with h4 | h4
    · exact absurd (mem_cell.2 ⟨h3, h4⟩) hnot
    · exact mem_cell.2 ⟨h3, h4⟩
  have f1 := bF.1 _ (side a ha 4 (by decide) (fun h => by have := bN.1 _ h; simp only [dx, dy] at this; omega))
  have f2 := bF.1 _ (side b hb 0 (by decide) (fun h => by have := bN.1 _ h; simp only [dx, dy] at this; omega))
  have f3 := bF.1 _ (side c hc 2 (by decide) (fun h => by have := bN.1 _ h; simp only [dx, dy] at this; omega))
  have f4 := bF.1 _ (side d hd 6 (by decide) (fun h => by have := bN.1 _ h; simp only [dx, dy] at this; omega))
  simp only [dx, dy] at f1 f2 f3 f4
  rw [if_neg]
  · generalize F.box = r at f1 f2 f3 f4
    obtain ⟨x0, y0, x1, y1⟩ := r
    dsimp only at *
    simp only [Rect.mk.injEq]
    omega
  · simp only [Rect.isEmpty, Bool.or_eq_true, decide_eq_true_eq]; omega

theorem IsolatedResult.consistent {n f : Nat} {N : Node} (hm : Consistent m) (h : IsolatedResult m m' n f N) (hi : Isolated m n f) :
    Consistent m' := by
  obtain ⟨hN1, hN2⟩ := h.node
  obtain ⟨F, hF1, hF2⟩ := h.face
  have hinfo : m'.faces.map Face.info = (m.faces.map Face.info).modify f (·.absorb N.box N.size) := by
    rw [h.faces]
    apply List.ext_getElem?
    intro j
    by_cases hj : f = j
    · subst hj
      rw [modify_eq (faces_get hF1), modify_eq (faces_get hF1)]
      have := isolated_box hm hN1 hN2 hF1 hF2 hi
      simp only [Info.absorb, Face.info, this]
    · rw [modify_ne hj, modify_ne hj]
  refine ⟨?_, ?_, ?_, ?_, ?_, ?_⟩
  · rw [h.nodes, kill_nodes]; exact hm.nodes.kill h.image (by simp)
  · rw [h.edges]; exact hm.edges.other h.image (by simp) (by simp)
  · rw [hinfo]; exact hm.faces.absorb h.image (by simp) (hm.nodeBox hN1 hN2) (hm.nodeSize hN1 hN2) ⟨F.info, faces_get hF1, hF2⟩
  · rw [h.nodeCount]
    apply decU_spec
    rw [hm.nodeCount, h.nodes, countP_modify_kill (·.live) (fun N : Node => { N with live := false }) _ _ _ hN1 hN2 rfl]
  · rw [h.edgeCount, h.edges]; exact hm.edgeCount
  · rw [h.faceCount, hm.faceCount, countP_info_face, countP_info_face, hinfo, countP_modify_same _ _ (by intro a; rfl)]

/-! ## the infinite face -/

theorem Outer.relabel {c v : Pixel} (h : Outer m) (hr : Relabeled m m' c v) (hc : c ≠ (.region, 0))
    (hf : ∃ a, (m'.faces.map Face.info)[0]? = some a ∧ a.live = true) : Outer m' := by
  refine ⟨?_, ?_⟩
  · intro x y hi hb
    rw [hr.w, hr.h] at hb
    rw [hr.inside] at hi
    have := h.ring x y hi hb
    rw [hr.px x y hi, if_neg (by rw [this]; exact fun e => hc e.symm), this]
  · obtain ⟨a, ha, hl⟩ := hf
    rw [List.getElem?_map] at ha
    cases hx : m'.faces[0]? with
    | none => rw [hx] at ha; simp at ha
    | some f => rw [hx] at ha; simp at ha; subst ha; exact ⟨f, rfl, hl⟩

theorem Outer.info (h : Outer m) : ∃ a, (m.faces.map Face.info)[0]? = some a ∧ a.live = true := by
  obtain ⟨f, hf, hl⟩ := h.exists_
  exact ⟨f.info, faces_get hf, hl⟩

/-- Of two different faces, the infinite one has the larger bounds. -/
theorem outer_larger (hm : Consistent m) (ho : Outer m) {s : Nat} {S F : Face} (hs : s ≠ 0) (hS : m.faces[s]? = some S) (hS2 : S.live = true)
    (hne : (m.cell (.region, s)).Nonempty) (hF : m.faces[0]? = some F) (hF2 : F.live = true) : S.box.area < F.box.area := by
  have bS := hm.faceBox hS hS2
  have bF := hm.faceBox hF hF2
  obtain ⟨⟨a, ha, ha'⟩, ⟨b, hb, hb'⟩, ⟨c, hc, hc'⟩, ⟨d, hd, hd'⟩⟩ := bS.2.2 hne
  have inner : ∀ p ∈ m.cell (.region, s), -1 ≤ p.1 ∧ p.1 ≤ m.w - 4 ∧ -1 ≤ p.2 ∧ p.2 ≤ m.h - 4 := by
    intro p hp
    obtain ⟨h1, h2⟩ := mem_cell.1 hp
    have hr := ho.ring p.1 p.2 h1
    by_contra hcon
    have := hr (by simp only [Map.inside] at h1; omega)
    rw [h2] at this
    exact hs (Prod.mk.inj this).2
  have ia := inner a ha; have ib := inner b hb; have ic := inner c hc; have id' := inner d hd
  have ring : ∀ x y, m.inside x y → (x = -2 ∨ y = -2 ∨ x = m.w - 3 ∨ y = m.h - 3) → (x, y) ∈ m.cell (.region, 0) :=
    fun x y h1 h2 => mem_cell.2 ⟨h1, ho.ring x y h1 h2⟩
  have r1 := bF.1 _ (ring (-2) (-2) (by simp only [Map.inside]; omega) (.inl rfl))
  have r2 := bF.1 _ (ring (m.w - 3) (m.h - 3) (by simp only [Map.inside]; omega) (.inr (.inr (.inl rfl))))
  dsimp only at r1 r2
  have hSx : 0 < S.box.x1 - S.box.x0 := by have := bS.1 a ha; omega
  have hSy : 0 < S.box.y1 - S.box.y0 := by have := bS.1 a ha; omega
  have e1 : S.box.x1 - S.box.x0 + 1 ≤ F.box.x1 - F.box.x0 := by omega
  have e2 : S.box.y1 - S.box.y0 + 1 ≤ F.box.y1 - F.box.y0 := by omega
  unfold Rect.area
  nlinarith

end Verif.FourEight
