/-!
# Packed cell pixels and serialised darts (src/cellimage)

`unsigned int` is modelled as a natural number below `2^32`; shifting left drops
the bits that leave the word.
-/

namespace Verif.CellImage

/-- Size of `unsigned int` words (`CellLabel`, `Serialized`). -/
def word : Nat := 2 ^ 32

/-- `x << n` on `unsigned int`: bits shifted out of the word are lost. -/
def shl (x n : Nat) : Nat := (x <<< n) % word

/-- src/cellimage/cellimage.hxx:40-45 `enum CellType`, as its numeric values.
`CellTypeVertexOrLine` and `CellTypeErrorOrLine` are used by rules only but are
values of the same enum, so nothing but the caller keeps them out of a pixel. -/
inductive CellType where
  | region | line | vertex | error | vertexOrLine | errorOrLine
  deriving DecidableEq, Repr

/-- Enumerator values (src/cellimage/cellimage.hxx:40-45). -/
def CellType.code : CellType → Nat
  | .region => 0
  | .line => 1
  | .vertex => 2
  | .error => 3
  | .vertexOrLine => 4
  | .errorOrLine => 5

/-- The cast `(CellType)n` (src/cellimage/cellimage.hxx:67) for the values a pixel
can produce; larger values are not produced by `& 3`. -/
def CellType.ofCode : Nat → CellType
  | 0 => .region
  | 1 => .line
  | 2 => .vertex
  | 3 => .error
  | 4 => .vertexOrLine
  | _ => .errorOrLine

/-- src/cellimage/cellimage.hxx:52-56 `CellPixel`: one packed word. -/
structure CellPixel where
  /-- `typeLabel_` -/
  bits : Nat
  deriving DecidableEq, Repr

namespace CellPixel

/-- src/cellimage/cellimage.hxx:62-64 constructor `CellPixel(type, label)`. -/
def mk' (type : CellType) (label : Nat) : CellPixel := ⟨shl label 2 ||| type.code⟩

/-- src/cellimage/cellimage.hxx:66-67 `type()`. -/
def type (p : CellPixel) : CellType := CellType.ofCode (p.bits &&& 3)

/-- src/cellimage/cellimage.hxx:73-74 `label()`. -/
def label (p : CellPixel) : Nat := p.bits >>> 2

/-- src/cellimage/cellimage.hxx:68-69 `setType(type)`. -/
def setType (p : CellPixel) (t : CellType) : CellPixel := ⟨shl p.label 2 ||| t.code⟩

/-- src/cellimage/cellimage.hxx:70-71 `setType(type, label)`. -/
def setType2 (_p : CellPixel) (t : CellType) (l : Nat) : CellPixel := ⟨shl l 2 ||| t.code⟩

/-- src/cellimage/cellimage.hxx:75-76 `setLabel(label)`. -/
def setLabel (p : CellPixel) (l : Nat) : CellPixel := ⟨shl l 2 ||| p.type.code⟩

/-- src/cellimage/cellimage.hxx:77-78 `setLabel(label, type)`. -/
def setLabel2 (_p : CellPixel) (l : Nat) (t : CellType) : CellPixel := ⟨shl l 2 ||| t.code⟩

/-- src/cellimage/cellimage.hxx:80-81 `operator==`. -/
def eq (p q : CellPixel) : Bool := p.bits == q.bits

end CellPixel

/-- src/cellimage/cellimage.hxx:97-100 `CellPixelSerializer::operator()(CellPixel)`:
the word is converted to `int` (two's complement, as on every supported compiler). -/
def serializePixel (p : CellPixel) : Int :=
  if p.bits < 2 ^ 31 then (p.bits : Int) else (p.bits : Int) - 2 ^ 32

/-- src/cellimage/cellimage.hxx:102-107 `CellPixelSerializer::operator()(int)`: the
`int` is converted back to `unsigned int` (reduction modulo `2^32`). -/
def deserializePixel (i : Int) : CellPixel := ⟨(i % 2 ^ 32).toNat⟩

/-- Position (relative to `cellImage.upperLeft()`) and direction of a
`DartTraverser` (src/cellimage/foureightsegmentation.hxx:603-612). -/
structure DartPos where
  x : Nat
  y : Nat
  /-- one of the eight neighbour directions -/
  dir : Nat
  deriving DecidableEq, Repr

/-- src/cellimage/foureightsegmentation.hxx:614-620 `DartTraverser::serialize`.
The shifts happen in `int`; coordinates are non-negative. -/
def serializeDart (d : DartPos) : Nat := shl d.dir 28 ||| shl d.x 14 ||| d.y

/-- src/cellimage/foureightsegmentation.hxx:622-630 constructor from `Serialized`. -/
def deserializeDart (s : Nat) : DartPos where
  x := (s >>> 14) &&& 0x3fff
  y := s &&& 0x3fff
  dir := s >>> 28

end Verif.CellImage
