import Verif.CellImage.Model
import Verif.Iter.Model

/-!
# The pixel based map (`cellimage::GeoMap`, src/cellimage/foureightsegmentation.{hxx,cxx})

The older map class stores its cells in an image: every pixel belongs to a node (`CellTypeVertex`), an edge (`CellTypeLine`) or a face
(`CellTypeRegion`) and carries the label of this cell.  Darts are positions in this image.

`cells(0, 0)` is pixel (2, 2) of the image, so coordinates run from -2 to `w - 3` and `h - 3`.  Reading a pixel outside of the image is
undefined behaviour.  Debug checks (`validateDart`, `checkConsistency`, only without `NDEBUG`) and output to `cerr` are not modelled.
-/

namespace Verif.FourEight
open Verif Verif.CellImage

/-- cellimage.hxx: a pixel is a cell type and a label -/
abbrev Pixel := CellType × Nat

/-- `CellImageEightCirculator` with a fixed image (foureightsegmentation.hxx:362-369): the centre and the direction of the neighbour
(0 = East, counterclockwise) -/
structure Dart where
  x : Int
  y : Int
  dir : Fin 8
  deriving DecidableEq, Repr

/-- VIGRA `EightNeighborhood::NeighborCode::diff`, x coordinate -/
def dx : Fin 8 → Int
  | 0 => 1 | 1 => 1 | 2 => 0 | 3 => -1 | 4 => -1 | 5 => -1 | 6 => 0 | 7 => 1

/-- VIGRA `EightNeighborhood::NeighborCode::diff`, y coordinate (downwards) -/
def dy : Fin 8 → Int
  | 0 => 0 | 1 => -1 | 2 => -1 | 3 => -1 | 4 => 0 | 5 => 1 | 6 => 1 | 7 => 1

/-- VIGRA `++circ`, `--circ`, `turnRight` (k = 1, 7, 6) -/
def Dart.turn (d : Dart) (k : Fin 8) : Dart := { d with dir := d.dir + k }

/-- VIGRA `swapCenterNeighbor`: the neighbour becomes the centre, looking back -/
def Dart.swap (d : Dart) : Dart := ⟨d.x + dx d.dir, d.y + dy d.dir, d.dir + 4⟩

/-- VIGRA `moveCenterToNeighbor`: keeps the direction -/
def Dart.move (d : Dart) : Dart := ⟨d.x + dx d.dir, d.y + dy d.dir, d.dir⟩

/-- VIGRA `Rect2D` (lower right exclusive) -/
structure Rect where
  x0 : Int
  y0 : Int
  x1 : Int
  y1 : Int
  deriving DecidableEq, Repr

/-- VIGRA `Rect2D::isEmpty` -/
def Rect.isEmpty (r : Rect) : Bool := r.x1 ≤ r.x0 || r.y1 ≤ r.y0

/-- VIGRA `Rect2D::area` -/
def Rect.area (r : Rect) : Int := (r.x1 - r.x0) * (r.y1 - r.y0)

/-- VIGRA `Rect2D::operator|=(Rect2D const &)` -/
def Rect.union (r s : Rect) : Rect :=
  if s.isEmpty then r
  else if r.isEmpty then s
  else ⟨min r.x0 s.x0, min r.y0 s.y0, max r.x1 s.x1, max r.y1 s.y1⟩

/-- VIGRA `Rect2D::operator|=(Point2D const &)` -/
def Rect.add (r : Rect) (p : Int × Int) : Rect :=
  if r.isEmpty then ⟨p.1, p.2, p.1 + 1, p.2 + 1⟩
  else ⟨min r.x0 p.1, min r.y0 p.2, max r.x1 (p.1 + 1), max r.y1 (p.2 + 1)⟩

/-- foureightsegmentation.hxx:668-687 `CellInfo`, `NodeInfo`; `live` is `initialized()`: the label of a live cell is its index -/
structure Node where
  live : Bool
  box : Rect
  size : Nat
  anchor : Dart
  degree : Nat
  deriving DecidableEq, Repr

/-- foureightsegmentation.hxx:689-698 `EdgeInfo` -/
structure Edge where
  live : Bool
  box : Rect
  size : Nat
  start : Dart
  stop : Dart
  deriving DecidableEq, Repr

/-- foureightsegmentation.hxx:700-703 `FaceInfo` -/
structure Face where
  live : Bool
  box : Rect
  size : Nat
  contours : List Dart
  deriving DecidableEq, Repr

/-- foureightsegmentation.hxx:853-937: image of size `w` x `h`, cell lists, counts.  `init` is `initialized_`. -/
structure Map where
  w : Nat
  h : Nat
  px : Int → Int → Pixel
  nodes : List Node
  edges : List Edge
  faces : List Face
  nodeCount : Nat
  edgeCount : Nat
  faceCount : Nat
  init : Bool

/-- coordinates of pixels -/
def Map.inside (m : Map) (x y : Int) : Prop := -2 ≤ x ∧ x < m.w - 2 ∧ -2 ≤ y ∧ y < m.h - 2

instance (m : Map) (x y : Int) : Decidable (m.inside x y) := by unfold Map.inside; infer_instance

/-- `cells(x, y)` -/
def Map.get (m : Map) (x y : Int) : Outcome Pixel := if m.inside x y then .ok (m.px x y) else .ub

/-- `neighborCirc_[k]` -/
def Map.nb (m : Map) (d : Dart) (k : Fin 8) : Outcome Pixel := m.get (d.x + dx (d.dir + k)) (d.y + dy (d.dir + k))

/-- number of different circulator states: a loop over circulator states that makes more steps than this never ends -/
def Map.fuel (m : Map) : Nat := 8 * m.w * m.h + 1

/-- foureightsegmentation.hxx:648-656 `badDiagonalConfig` -/
def badDiagonal (m : Map) (d : Dart) : Outcome Bool :=
  if d.dir.val % 2 = 1 then
    (m.nb d 0).bind fun p =>
      if p.1 = .line then
        (m.nb d 1).bind fun a =>
          if a.1 ≠ .region then .ok true
          else (m.nb d 7).bind fun b => .ok (decide (b.1 ≠ .region))
      else .ok false
  else .ok false

/-- foureightsegmentation.hxx:632-646 `tryNextSigma` (k = 1), `tryPrevSigma` (k = 7) -/
def tryStep (m : Map) (k : Fin 8) (d : Dart) : Outcome Dart :=
  (badDiagonal m (d.turn k)).bind fun b => .ok (if b then (d.turn k).turn k else d.turn k)

/-- the loop of foureightsegmentation.hxx:466-474 and 485-493 -/
def sigmaLoop (m : Map) (k : Fin 8) : Nat → Dart → Outcome Dart
  | 0, _ => .hang
  | n + 1, d => (m.nb d 0).bind fun p =>
      if p.1 = .line then .ok d
      else (tryStep m k (if p.1 = .vertex then d.swap.turn k else d)).bind (sigmaLoop m k n)

/-- foureightsegmentation.hxx:459-495 `nextSigma` (k = 1), `prevSigma` (k = 7) -/
def sigma (m : Map) (k : Fin 8) (d : Dart) : Outcome Dart :=
  (m.nb d 0).bind fun p =>
    if p.1 ≠ .line then .ok d else (tryStep m k d).bind (sigmaLoop m k m.fuel)

/-- the loop of foureightsegmentation.hxx:404-417 `carefulNextSigma` -/
def carefulLoop (m : Map) (nend : Dart) : Nat → Dart → Outcome Dart
  | 0, _ => .hang
  | n + 1, d => (m.nb d 0).bind fun p =>
      if p.1 = .line then .ok d
      else (tryStep m 1 (if p.1 = .vertex then d.swap.turn 1 else d)).bind fun d' =>
        if d' = nend then .ok d' else carefulLoop m nend n d'

/-- foureightsegmentation.hxx:401-419 `carefulNextSigma` -/
def careful (m : Map) (d : Dart) : Outcome Dart := carefulLoop m d m.fuel d

/-- the loop of foureightsegmentation.hxx:382-390 in the constructor -/
def diagonalLoop (m : Map) : Nat → Dart → Outcome Dart
  | 0, _ => .hang
  | n + 1, d => (badDiagonal m d).bind fun b => if b then diagonalLoop m n ((d.turn 1).swap.turn 1) else .ok d

/-- foureightsegmentation.hxx:371-394 constructor `DartTraverser(segmentation, circ)` -/
def mkDart (m : Map) (d : Dart) : Outcome Dart :=
  (m.get d.x d.y).bind fun c => if c.1 ≠ .vertex then .precond else
  (m.nb d 0).bind fun p => if p.1 = .vertex then .precond else
  (diagonalLoop m m.fuel d).bind fun d' =>
  (m.nb d' 0).bind fun q => if q.1 ≠ .line then careful m d' else .ok d'

/-- foureightsegmentation.hxx:207-212 the inner loop of `EdgelIterator::operator++` -/
def edgelTurn (m : Map) : Nat → Dart → Outcome Dart
  | 0, _ => .hang
  | n + 1, d => (m.nb d 0).bind fun p => if p.1 ≠ .region then .ok d else edgelTurn m n (d.turn 1)

/-- foureightsegmentation.hxx:202-221 `EdgelIterator::operator++` -/
def edgelNext (m : Map) (d : Dart) : Outcome Dart :=
  (edgelTurn m 8 (d.move.turn 6)).bind fun e =>
    if e.dir.val % 2 = 1 then (m.nb e 1).bind fun p => .ok (if p.1 ≠ .region then e.turn 1 else e) else .ok e

/-- foureightsegmentation.hxx:223-230 `jumpToOpposite` -/
def edgelJump (m : Map) : Nat → Dart → Outcome Dart
  | 0, _ => .hang
  | n + 1, d => (edgelNext m d).bind fun e => (m.nb e 0).bind fun p => if p.1 = .vertex then .ok e.swap else edgelJump m n e

/-- foureightsegmentation.hxx:497-500 `isSingular` -/
def isSingular (m : Map) (d : Dart) : Outcome Bool := (m.nb d 0).bind fun p => .ok (decide (p.1 ≠ .line))

/-- foureightsegmentation.hxx:502-505 `startNodeLabel` -/
def nodeLabel (m : Map) (d : Dart) : Outcome Nat := (m.get d.x d.y).map (·.2)

/-- foureightsegmentation.hxx:514-517 `edgeLabel` -/
def edgeLabel (m : Map) (d : Dart) : Outcome Nat := (m.nb d 0).map (·.2)

/-- foureightsegmentation.hxx:519-525 `leftFaceLabel` -/
def leftFace (m : Map) (d : Dart) : Outcome Nat :=
  (m.nb d 1).bind fun p => if p.1 = .region then .ok p.2 else (m.nb d 2).map (·.2)

/-- foureightsegmentation.hxx:527-533 `rightFaceLabel` -/
def rightFace (m : Map) (d : Dart) : Outcome Nat :=
  (m.nb d 7).bind fun p => if p.1 = .region then .ok p.2 else (m.nb d 6).map (·.2)

/-- foureightsegmentation.hxx:560-572 `operator==` -/
def dartEq (m : Map) (a b : Dart) : Outcome Bool :=
  (isSingular m a).bind fun s =>
    if s then (nodeLabel m a).bind fun l => (nodeLabel m b).bind fun l' => .ok (decide (l = l')) else .ok (decide (a = b))

/-- entry of `nodeList_` (foureightsegmentation.hxx:535-538).  Simplified: using an entry that is not initialized counts as undefined
behaviour (the code goes on with the label 2^32 - 1). -/
def Map.node (m : Map) (l : Nat) : Outcome Node :=
  match m.nodes[l]? with
  | some n => if n.live then .ok n else .ub
  | none => .ub

/-- entry of `edgeList_` (foureightsegmentation.hxx:545-548), see `Map.node` -/
def Map.edge (m : Map) (l : Nat) : Outcome Edge :=
  match m.edges[l]? with
  | some e => if e.live then .ok e else .ub
  | none => .ub

/-- entry of `faceList_` (foureightsegmentation.hxx:550-558), see `Map.node` -/
def Map.face (m : Map) (l : Nat) : Outcome Face :=
  match m.faces[l]? with
  | some f => if f.live then .ok f else .ub
  | none => .ub

/-- foureightsegmentation.hxx:424-442 `nextAlpha` -/
def alpha (m : Map) (d : Dart) : Outcome Dart :=
  (m.nb d 0).bind fun p =>
    if p.1 ≠ .line then .ok d
    else if m.init then
      (m.edge p.2).bind fun e => (dartEq m d e.start).bind fun b => .ok (if b then e.stop else e.start)
    else edgelJump m m.fuel d

/-- foureightsegmentation.hxx:449-452 `nextPhi` -/
def phi (m : Map) (d : Dart) : Outcome Dart := (alpha m d).bind (sigma m 7)

/-- foureightsegmentation.cxx:160-164: `while(dart2.nextPhi() != *contour) if(dart2.edgeLabel() == label) return true` -/
def phiSearch (m : Map) (label : Nat) (c : Dart) : Nat → Dart → Outcome Bool
  | 0, _ => .hang
  | n + 1, d => (phi m d).bind fun d' => (dartEq m d' c).bind fun b =>
      if b then .ok false
      else (edgeLabel m d').bind fun l => if l = label then .ok true else phiSearch m label c n d'

/-- the first index from `i` on whose entry passes a test -/
def findIdxO (f : Dart → Outcome Bool) : Nat → List Dart → Outcome (Option Nat)
  | _, [] => .ok none
  | i, c :: cs => (f c).bind fun b => if b then .ok (some i) else findIdxO f (i + 1) cs

/-- foureightsegmentation.cxx:126-184 `findComponentAnchor`.  Simplified: the contours printed before `vigra_fail` are not followed. -/
def findComponentAnchor (m : Map) (contours : List Dart) (d : Dart) : Outcome Nat :=
  if contours.length = 1 then .ok 0
  else (isSingular m d).bind fun s =>
    if s then
      (nodeLabel m d).bind fun l =>
      (findIdxO (fun c => (nodeLabel m c).bind fun l' => .ok (decide (l' = l))) 0 contours).bind fun r =>
        match r with
        | some i => .ok i
        | none => .precond
    else
      (edgeLabel m d).bind fun l =>
      (findIdxO (fun c => (isSingular m c).bind fun s => if s then .ok false else (edgeLabel m c).bind fun l' => .ok (decide (l' = l))) 0
        contours).bind fun r =>
        match r with
        | some i => .ok i
        | none =>
          (findIdxO (fun c => phiSearch m l c m.fuel c) 0 contours).bind fun r =>
            match r with
            | some i => .ok i
            | none => .precond

/-- foureightsegmentation.cxx:186-198 `removeNodeFromContours` -/
def moveContours (m : Map) (node : Nat) : List Dart → Outcome (List Dart)
  | [] => .ok []
  | c :: cs => (nodeLabel m c).bind fun l =>
      (if l = node then phi m c else .ok c).bind fun c' => (moveContours m node cs).bind fun cs' => .ok (c' :: cs')

/-- writing one value at some pixels -/
def paint (px : Int → Int → Pixel) (pts : List (Int × Int)) (v : Pixel) : Int → Int → Pixel :=
  fun x y => if (x, y) ∈ pts then v else px x y

/-- a bounding box lies in the image -/
def Map.boxInside (m : Map) (r : Rect) : Prop := r.isEmpty = true ∨ (-2 ≤ r.x0 ∧ r.x1 ≤ m.w - 2 ∧ -2 ≤ r.y0 ∧ r.y1 ≤ m.h - 2)

instance (m : Map) (r : Rect) : Decidable (m.boxInside r) := by unfold Map.boxInside; infer_instance

/-- The loops `for(CellScanIterator it = ...ScanIterator(label, cells, false); it.inRange(); ++it) *it = v`
(e.g. foureightsegmentation.cxx:214-216, with foureightsegmentation.hxx:940-955).  The positions are the ones of a scan of the image
before the loop: the loop changes only pixels the iterator has already passed. -/
def relabel (m : Map) (r : Rect) (c v : Pixel) : Outcome Map :=
  if m.boxInside r then
    (Iter.scanAll (fun x y => decide (m.px (r.x0 + x) (r.y0 + y) = c)) (r.x1 - r.x0) (r.y1 - r.y0)).bind fun l =>
      .ok { m with px := paint m.px (l.map fun p => (r.x0 + p.2.1, r.y0 + p.2.2)) v }
  else .ub

/-- addition of `unsigned int` -/
def addU (a b : Nat) : Nat := (a + b) % 2 ^ 32

/-- `--x` of an `unsigned int` -/
def decU (a : Nat) : Nat := (a + (2 ^ 32 - 1)) % 2 ^ 32

/-- foureightsegmentation.cxx:200-233 `removeIsolatedNode`: the new map and the label of the returned face -/
def removeIsolatedNode (m : Map) (d : Dart) : Outcome (Map × Nat) :=
  (isSingular m d).bind fun s => if !s then .precond else
  (nodeLabel m d).bind fun n => (m.node n).bind fun N =>
  (leftFace m d).bind fun f => (m.face f).bind fun F =>
  (findComponentAnchor m F.contours d).bind fun i =>
  if F.contours.length ≤ i then .ub else
  (relabel { m with faces := m.faces.modify f fun F => { F with contours := F.contours.eraseIdx i } } N.box (.vertex, n) (.region, f)).bind
    fun m1 =>
  .ok ({ m1 with
      faces := m1.faces.modify f fun F => { F with size := addU F.size N.size }
      nodes := m1.nodes.modify n fun N => { N with live := false }
      nodeCount := decU m1.nodeCount }, f)

/-- foureightsegmentation.cxx:289-292: `if(--node.degree && node.anchor.isSingular()) node.anchor.carefulNextSigma()` -/
def decDegree (m : Map) (n : Nat) : Outcome Map :=
  match m.nodes[n]? with
  | none => .ub
  | some N =>
    let deg := (N.degree + 65535) % 65536
    if deg = 0 then .ok { m with nodes := m.nodes.modify n fun N => { N with degree := deg } }
    else (isSingular m N.anchor).bind fun s =>
      (if s then careful m N.anchor else .ok N.anchor).bind fun a =>
        .ok { m with nodes := m.nodes.modify n fun N => { N with degree := deg, anchor := a } }

/-- foureightsegmentation.cxx:259-269: the anchor of the merged contour; `k` and `k'` are the anchors of the two contours -/
def mergedAnchor (m : Map) (e : Nat) (k k' : Dart) : Outcome Dart :=
  (edgeLabel m k).bind fun l => if l ≠ e then .ok k else
  (phi m k).bind fun k1 => (edgeLabel m k1).bind fun l1 => if l1 ≠ e then .ok k1 else
  (edgeLabel m k').bind fun l2 => if l2 = e then phi m k' else .ok k'

/-- entry of a vector -/
def rdDart (l : List Dart) (i : Nat) : Outcome Dart :=
  match l[i]? with
  | some d => .ok d
  | none => .ub

/-- foureightsegmentation.cxx:235-318 `mergeFaces`: the new map and the label of the returned face -/
def mergeFaces (m : Map) (d : Dart) : Outcome (Map × Nat) :=
  (leftFace m d).bind fun l => (m.face l).bind fun L =>
  (rightFace m d).bind fun r => (m.face r).bind fun R =>
  (if L.box.area < R.box.area then alpha m d else .ok d).bind fun rd =>
  (edgeLabel m rd).bind fun e => (m.edge e).bind fun E =>
  (leftFace m rd).bind fun s => (m.face s).bind fun S =>
  (rightFace m rd).bind fun g => (m.face g).bind fun G =>
  (nodeLabel m E.start).bind fun n1 => (m.node n1).bind fun _ =>
  (nodeLabel m E.stop).bind fun n2 => (m.node n2).bind fun _ =>
  if s = g then .precond else
  (findComponentAnchor m S.contours rd).bind fun c1 =>
  (findComponentAnchor m G.contours rd).bind fun c2 =>
  (rdDart S.contours c1).bind fun k => (rdDart G.contours c2).bind fun k' =>
  (mergedAnchor m e k k').bind fun a =>
  (edgeLabel m a).bind fun la => if la = e ∧ n1 ≠ n2 then .precond else
  (relabel { m with faces := m.faces.modify s fun S => { S with contours := S.contours.set c1 a ++ G.contours.eraseIdx c2 } }
    E.box (.line, e) (.region, s)).bind fun m1 =>
  (relabel m1 G.box (.region, g) (.region, s)).bind fun m2 =>
  (decDegree m2 n1).bind fun m3 => (decDegree m3 n2).bind fun m4 =>
  .ok ({ m4 with
      faces := (m4.faces.modify s fun S =>
          { S with
            box := (S.box.union E.box).union G.box
            size := addU (addU S.size E.size) G.size }).modify g fun G => { G with live := false }
      edges := m4.edges.modify e fun E => { E with live := false }
      edgeCount := decU m4.edgeCount
      faceCount := decU m4.faceCount }, s)

/-- foureightsegmentation.cxx:320-384 `removeBridge` -/
def removeBridge (m : Map) (d : Dart) : Outcome (Map × Nat) :=
  (isSingular m d).bind fun s => if s then .precond else
  (edgeLabel m d).bind fun e => (m.edge e).bind fun E =>
  (leftFace m d).bind fun f => (m.face f).bind fun F =>
  (nodeLabel m E.start).bind fun n1 => (m.node n1).bind fun _ =>
  (nodeLabel m E.stop).bind fun n2 => (m.node n2).bind fun _ =>
  (rightFace m d).bind fun r => if f ≠ r then .precond else
  (sigma m 7 E.start).bind fun a1 => (sigma m 7 E.stop).bind fun a2 =>
  (findComponentAnchor m F.contours d).bind fun i =>
  if F.contours.length ≤ i then .ub else
  (relabel { m with faces := m.faces.modify f fun F => { F with contours := F.contours.set i a1 ++ [a2] } }
    E.box (.line, e) (.region, f)).bind fun m1 =>
  (decDegree m1 n1).bind fun m2 => (decDegree m2 n2).bind fun m3 =>
  .ok ({ m3 with
      faces := m3.faces.modify f fun F => { F with box := F.box.union E.box, size := addU F.size E.size }
      edges := m3.edges.modify e fun E => { E with live := false }
      edgeCount := decU m3.edgeCount }, f)

/-- foureightsegmentation.cxx:386-452 `mergeEdges`: the new map and the label of the returned edge -/
def mergeEdges (m : Map) (d : Dart) : Outcome (Map × Nat) :=
  (sigma m 1 d).bind fun d1 =>
  (edgeLabel m d).bind fun e0 => (m.edge e0).bind fun E0 =>
  (edgeLabel m d1).bind fun e1 => (m.edge e1).bind fun E1 =>
  let first := decide (E0.box.area < E1.box.area)
  (if first then sigma m 1 d1 else .ok d1).bind fun dart2 =>
  (edgeLabel m dart2).bind fun g => (m.edge g).bind fun G =>
  (nodeLabel m dart2).bind fun n => (m.node n).bind fun N =>
  (sigma m 1 dart2).bind fun dart1 =>
  (edgeLabel m dart1).bind fun s => (m.edge s).bind fun _ =>
  (dartEq m (if first then dart2 else dart1) d).bind fun same => if !same then .precond else
  if s = g then .precond else
  (leftFace m dart1).bind fun l => (m.face l).bind fun L =>
  (nodeLabel m dart1).bind fun nn =>
  (moveContours m nn L.contours).bind fun lc =>
  (rightFace m dart1).bind fun r =>
  (if l ≠ r then
    (m.face r).bind fun R => (moveContours m nn R.contours).bind fun rc =>
      .ok { m with faces := (m.faces.modify l fun L => { L with contours := lc }).modify r fun R => { R with contours := rc } }
    else .ok { m with faces := m.faces.modify l fun L => { L with contours := lc } }).bind fun m0 =>
  (alpha m0 dart1).bind fun s1 => (alpha m0 dart2).bind fun s2 =>
  (relabel { m0 with edges := m0.edges.modify s fun S => { S with start := s1, stop := s2 } } N.box (.vertex, n) (.line, s)).bind fun m1 =>
  (relabel m1 G.box (.line, g) (.line, s)).bind fun m2 =>
  .ok ({ m2 with
      edges := (m2.edges.modify s fun S =>
          { S with
            box := (S.box.union N.box).union G.box
            size := addU (addU S.size N.size) G.size }).modify g fun G => { G with live := false }
      nodes := m2.nodes.modify n fun N => { N with live := false }
      nodeCount := decU m2.nodeCount
      edgeCount := decU m2.edgeCount }, s)

end Verif.FourEight
