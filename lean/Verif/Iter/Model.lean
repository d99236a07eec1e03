import Verif.Outcome

/-!
# Iterators: `SafeFilterIterator` (cells), `ImageFilterIterator`, `LabelScanIterator`

Iterators are positions.  The predicate/pixel values are functions; reading outside the range is `ub`.
Loops carry a fuel argument; running out of fuel is `hang`, so theorems with outcome `ok` include termination.
-/

namespace Verif.Iter
open Verif

/-! ## filteriterator.hxx:33-189 -/

/-- filteriterator.hxx:127-131 `checkPredicate`: `while((iter_ != end_) && !predicate_(*iter_)) ++iter_;`
(`*iter_` beyond `end_` is `ub`) -/
def check (live : Nat → Bool) (fin : Nat) : Nat → Nat → Outcome Nat
  | 0, _ => .hang
  | fuel + 1, pos =>
    if pos = fin then .ok pos
    else if fin < pos then .ub
    else if live pos then .ok pos
    else check live fin fuel (pos + 1)

/-- filteriterator.hxx:70-75 `operator++` (incrementing the end iterator is `ub`) -/
def incr (live : Nat → Bool) (fin : Nat) (pos : Nat) : Outcome Nat :=
  if pos = fin then .ub else check live fin (fin + 1) (pos + 1)

/-- The usual loop `for(it = xBegin(); it.inRange(); ++it) body(*it);` (filteriterator.hxx:141-189; `inRange` and `*` call
`checkPredicate` first).  The loop body may change the state; `live` tells which cells exist in a state.  Result: the visited
cells and the final state. -/
def loop {S : Type} (live : S → Nat → Bool) (body : S → Nat → Outcome S) (fin : Nat) : Nat → Nat → S → Outcome (List Nat × S)
  | 0, _, _ => .hang
  | fuel + 1, pos, s => do
    let p ← check (live s) fin (fin + 1) pos      -- inRange()
    if p = fin then .ok ([], s)
    else
      let q ← check (live s) fin (fin + 1) p      -- operator*
      if q = fin then .ub
      else
        let s' ← body s q
        let r ← incr (live s') fin q              -- operator++
        let rest ← loop live body fin fuel r s'
        .ok (q :: rest.1, rest.2)

/-- `xBegin()` .. `xEnd()` (cppmap.hxx:218-261): construct (filteriterator.hxx:63-68) and loop -/
def forEach {S : Type} (live : S → Nat → Bool) (body : S → Nat → Outcome S) (fin : Nat) (s : S) : Outcome (List Nat × S) := do
  let p ← check (live s) fin (fin + 1) 0
  loop live body fin (fin + 1) p s

/-- `finiteFacesBegin()` = `++facesBegin()` (cppmap.hxx:258-259) -/
def forEachFinite {S : Type} (live : S → Nat → Bool) (body : S → Nat → Outcome S) (fin : Nat) (s : S) : Outcome (List Nat × S) := do
  let p ← check (live s) fin (fin + 1) 0
  let q ← incr (live s) fin p
  loop live body fin (fin + 1) q s

/-! ## Scanning a rectangle: positions relative to the upper left corner -/

/-- foureightsegmentation.hxx:97-98, filteriterator.hxx:318-319: `while(x != width && !pix) ++x` -/
def scanRow (pix : Nat → Nat → Bool) (w y : Nat) : Nat → Nat → Outcome Nat
  | 0, _ => .hang
  | fuel + 1, x => if x = w then .ok x else if w < x then .ub else if pix x y then .ok x else scanRow pix w y fuel (x + 1)

/-- iterator state: position in the label image (`none`: equal to `cellLR_`) and the position of the image iterator -/
structure Scan where
  cell : Option (Nat × Nat)
  img : Int × Int
  deriving DecidableEq, Repr

/-- foureightsegmentation.hxx:94-116 `LabelScanIterator::operator++` -/
def scanNext (pix : Nat → Nat → Bool) (w h : Nat) : Nat → Nat → Nat → Int × Int → Outcome Scan
  | 0, _, _, _ => .hang
  | fuel + 1, x, y, img => do
    let x' ← scanRow pix w y (w + 1) (x + 1)
    let img' := (img.1 + (x' - x : Int), img.2)
    if x' = w then
      let img'' := (img'.1 - w, img'.2 + 1)
      if y + 1 = h then .ok ⟨none, img''⟩
      else if pix 0 (y + 1) then .ok ⟨some (0, y + 1), img''⟩
      else scanNext pix w h fuel 0 (y + 1) img''
    else .ok ⟨some (x', y), img'⟩

/-- foureightsegmentation.hxx:76-92 constructor; `w`, `h` may be negative -/
def scanInit (pix : Nat → Nat → Bool) (w h : Int) : Outcome Scan :=
  if ¬ (0 < w ∧ 0 < h) then .ok ⟨none, (0, 0)⟩
  else if pix 0 0 then .ok ⟨some (0, 0), (0, 0)⟩
  else scanNext pix w.toNat h.toNat h.toNat 0 0 (0, 0)

/-- `operator++` from outside -/
def Scan.next (pix : Nat → Nat → Bool) (w h : Int) (s : Scan) : Outcome Scan :=
  match s.cell with
  | none => .ub
  | some (x, y) => scanNext pix w.toNat h.toNat h.toNat x y s.img

/-- `for(; it.inRange(); ++it)`: the positions of the label image and image iterator visited -/
def scanLoop (pix : Nat → Nat → Bool) (w h : Int) : Nat → Scan → Outcome (List ((Nat × Nat) × (Int × Int)))
  | 0, _ => .hang
  | fuel + 1, s =>
    match s.cell with
    | none => .ok []
    | some c => do
      let s' ← s.next pix w h
      let rest ← scanLoop pix w h fuel s'
      .ok ((c, s.img) :: rest)

/-- all positions visited by a `LabelScanIterator` -/
def scanAll (pix : Nat → Nat → Bool) (w h : Int) : Outcome (List ((Nat × Nat) × (Int × Int))) := do
  let s ← scanInit pix w h
  scanLoop pix w h (w.toNat * h.toNat + 1) s

/-- filteriterator.hxx:315-333 `ImageFilterIterator::operator++`; `x` starts at -1 after a line break, so it is the
position *after* the first increment here -/
def filterNext (pix : Nat → Nat → Bool) (w h : Nat) : Nat → Nat → Nat → Outcome (Option (Nat × Nat))
  | 0, _, _ => .hang
  | fuel + 1, x, y => do
    let x' ← scanRow pix w y (w + 1) x
    if x' = w then
      if y + 1 = h then .ok none
      else filterNext pix w h fuel 0 (y + 1)
    else .ok (some (x', y))

/-- filteriterator.hxx:287-310 constructors (only an empty range with `upperLeft == lowerRight` is recognised; otherwise the
first pixel is read) -/
def filterInit (pix : Nat → Nat → Bool) (w h : Nat) : Outcome (Option (Nat × Nat)) :=
  if w = 0 ∧ h = 0 then .ok none
  else if w = 0 ∨ h = 0 then .ub
  else if pix 0 0 then .ok (some (0, 0))
  else filterNext pix w h h 1 0

/-- the loop over an `ImageFilterIterator` -/
def filterLoop (pix : Nat → Nat → Bool) (w h : Nat) : Nat → Option (Nat × Nat) → Outcome (List (Nat × Nat))
  | 0, _ => .hang
  | _ + 1, none => .ok []
  | fuel + 1, some (x, y) => do
    let s' ← filterNext pix w h h (x + 1) y
    let rest ← filterLoop pix w h fuel s'
    .ok ((x, y) :: rest)

/-- all positions visited by an `ImageFilterIterator` -/
def filterAll (pix : Nat → Nat → Bool) (w h : Nat) : Outcome (List (Nat × Nat)) := do
  let s ← filterInit pix w h
  filterLoop pix w h (w * h + 1) s

end Verif.Iter
