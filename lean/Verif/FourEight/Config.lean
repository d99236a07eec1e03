import Verif.CellImage.Model
import Verif.Outcome

/-!
# Classification of contour pixels (src/cellimage/cellconfigurations.hxx, `GeoMap::initCellImage`)

A contour pixel becomes part of a node or of an edge, or the image is refused, depending on its eight neighbours only.
-/

namespace Verif.FourEight
open Verif Verif.CellImage

/-- an image of contour pixels; pixel (-2, -2) is the upper left one -/
abbrev Raw := Int → Int → Bool

/-- VIGRA `EightNeighborhood::NeighborCode::diff` (0 = East, counterclockwise, y downwards) -/
def step8 : Fin 8 → Int × Int
  | 0 => (1, 0) | 1 => (1, -1) | 2 => (0, -1) | 3 => (-1, -1) | 4 => (-1, 0) | 5 => (-1, 1) | 6 => (0, 1) | 7 => (1, 1)

/-- the neighbours of a pixel -/
def around (raw : Raw) (x y : Int) (k : Fin 8) : Bool := raw (x + (step8 k).1) (y + (step8 k).2)

/-- cellconfigurations.hxx:38-1315, all 256 entries in order -/
def cellConfigurations : List CellType :=
  [.vertex, .vertex, .vertex, .vertex, .vertex, .vertexOrLine, .vertex, .vertex,
   .vertex, .line, .line, .line, .vertex, .vertexOrLine, .vertex, .error,
   .vertex, .line, .line, .line, .vertexOrLine, .vertex, .vertexOrLine, .vertex,
   .vertex, .line, .line, .line, .vertex, .vertex, .error, .vertex,
   .vertex, .line, .line, .line, .line, .vertex, .line, .vertex,
   .line, .vertex, .vertex, .vertex, .line, .vertex, .line, .vertex,
   .vertex, .line, .line, .line, .vertexOrLine, .vertex, .errorOrLine, .error,
   .vertex, .line, .line, .line, .error, .vertex, .error, .error,
   .vertex, .vertexOrLine, .line, .vertexOrLine, .line, .vertex, .line, .vertex,
   .line, .vertex, .vertex, .vertex, .line, .vertex, .line, .vertex,
   .vertexOrLine, .vertex, .vertex, .vertex, .vertex, .vertex, .vertex, .vertex,
   .vertexOrLine, .vertex, .vertex, .vertex, .vertex, .vertex, .vertex, .vertex,
   .vertex, .vertexOrLine, .line, .errorOrLine, .line, .vertex, .line, .error,
   .line, .vertex, .vertex, .vertex, .line, .vertex, .line, .error,
   .vertex, .vertex, .vertex, .error, .vertex, .vertex, .error, .vertex,
   .error, .vertex, .vertex, .error, .vertex, .vertex, .error, .vertex,
   .vertex, .vertex, .line, .vertex, .line, .vertexOrLine, .line, .error,
   .line, .line, .vertex, .line, .line, .errorOrLine, .line, .error,
   .line, .line, .vertex, .line, .vertex, .vertex, .vertex, .vertex,
   .line, .line, .vertex, .line, .vertex, .error, .vertex, .error,
   .line, .line, .vertex, .line, .vertex, .vertex, .vertex, .vertex,
   .vertex, .vertex, .vertex, .vertex, .vertex, .vertex, .vertex, .vertex,
   .line, .line, .vertex, .line, .vertex, .vertex, .vertex, .error,
   .line, .line, .vertex, .line, .vertex, .error, .vertex, .error,
   .vertex, .vertex, .line, .error, .line, .vertex, .line, .vertex,
   .line, .vertex, .vertex, .vertex, .line, .error, .line, .error,
   .vertexOrLine, .vertex, .vertex, .vertex, .vertex, .vertex, .vertex, .vertex,
   .errorOrLine, .error, .vertex, .error, .error, .vertex, .error, .vertex,
   .vertex, .error, .line, .error, .line, .vertex, .line, .error,
   .line, .vertex, .vertex, .vertex, .line, .error, .line, .error,
   .error, .vertex, .vertex, .error, .vertex, .vertex, .error, .vertex,
   .error, .error, .vertex, .error, .error, .vertex, .error, .vertex]

/-- foureightsegmentation.cxx:667-670 `preferVertex`, `preferEdge` -/
def chooseCell (corner t : CellType) : CellType :=
  match corner, t with
  | .vertex, .vertexOrLine => .vertex
  | .vertex, .errorOrLine => .error
  | _, .vertexOrLine => .line
  | _, .errorOrLine => .line
  | _, t => t

/-- foureightsegmentation.cxx:694-704: the neighbours from South East on, clockwise, the first one is the highest bit -/
def confOf (n : Fin 8 → Bool) : Nat :=
  ([7, 6, 5, 4, 3, 2, 1, 0] : List (Fin 8)).foldl (fun c k => c * 2 + (n k).toNat) 0

/-- foureightsegmentation.cxx:674-676, 706: the type of a contour pixel -/
def cellConf (corner : CellType) (n : Fin 8 → Bool) : CellType := chooseCell corner (cellConfigurations.getD (confOf n) .error)

/-- foureightsegmentation.cxx:688-721: the type of one pixel -/
def classify (corner : CellType) (raw : Raw) (x y : Int) : CellType :=
  if raw x y then cellConf corner (around raw x y) else .region

/-- foureightsegmentation.hxx:319-344 `initGeoMapContourImage`: the contour image of a `w` x `h` source, with a frame of background
pixels around a frame of contour pixels -/
def contourImage (w h : Nat) (src : Int → Int → Bool) : Raw := fun x y =>
  if 0 ≤ x ∧ x < w ∧ 0 ≤ y ∧ y < h then src x y
  else decide (-1 ≤ x ∧ x ≤ w ∧ -1 ≤ y ∧ y ≤ h)

/-- foureightsegmentation.cxx:672-730 `initCellImage` for an image of `w` x `h` pixels: reading a neighbour outside of the image is
undefined, an erroneous configuration is refused, the pixel (-1, -1) becomes a node in any case -/
def initPixels (corner : CellType) (w h : Nat) (raw : Raw) : List (Int × Int) → Outcome Unit
  | [] => .ok ()
  | p :: ps =>
    if raw p.1 p.2 = false then initPixels corner w h raw ps
    else if p.1 = -2 ∨ p.2 = -2 ∨ p.1 = w - 3 ∨ p.2 = h - 3 then .ub
    else if classify corner raw p.1 p.2 = .error then .precond
    else initPixels corner w h raw ps

def imagePixels (w h : Nat) : List (Int × Int) :=
  (List.range h).flatMap fun j : Nat => (List.range w).map fun i : Nat => ((i : Int) - 2, (j : Int) - 2)

def initCellImage (corner : CellType) (w h : Nat) (raw : Raw) : Outcome (Int → Int → CellType) :=
  (initPixels corner w h raw (imagePixels w h)).bind fun _ =>
    .ok fun x y => if x = -1 ∧ y = -1 then .vertex else classify corner raw x y

end Verif.FourEight
