import Verif.LabelImage.Spec
import Mathlib.Data.Multiset.Basic

/-!
# Statistics of faces

Models `FaceColorStatistics` (src/geomap/facestatistics.hxx:46-592) attached to a map with label image.

Simplifications: a functor (`vigra::FindAverageAndVariance`, outside the repository) is the multiset of the
samples it was called with (count, average and variance are functions of it).  The values of the
supersampling grid (facestatistics.hxx:563-568: spline values at the grid points that `Face::contains`) are
arbitrary lists.  The region that `rescanFace` visits (facestatistics.hxx:470-471, the bounding box of the
face) is an arbitrary set of pixels per face.  The image has the size of the label image.  Failed assertions and
postconditions of debug builds are `precond`.  `superSampled_` entries (`unsigned char`, at most 17) are
naturals.  A slot connected before or after this one may veto; slots that modify the map are not modelled.
-/

namespace Verif.FaceStats
open Verif Verif.GeoMap Verif.LabelImage

/-- The members of `FaceColorStatistics` (facestatistics.hxx:488-501).  `fn f = none`: `functors_[f]` is NULL;
`ss = none`: `superSampled_` is NULL. -/
structure Stats (V : Type) where
  minCount : Nat
  size : Nat
  fn : Nat → Option (Multiset V)
  ss : Option (Nat → Nat)
  count : Nat
  merged : Multiset V
  mergedSS : Nat
  label1 : Nat
  label2 : Nat

/-- `--superSampledCount_` (facestatistics.hxx:232, 239, 266): `unsigned int` wraps around. -/
def dec (n : Nat) : Nat := if n = 0 then 2 ^ 32 - 1 else n - 1

/-- What the statistics read besides the map: the image (facestatistics.hxx:490) and the region visited by
`rescanFace` for a face. -/
structure Env (K V : Type) where
  orig : Int × Int → V
  box : LMap K → Nat → Int × Int → Bool

variable {K V : Type} [Field K] [LinearOrder K] [FloorRing K]

/-- `Face::pixelArea()` (cppmap.hxx:1238-1241). -/
def pixelArea (g : GMap K) (f : Nat) : Nat := ((g.face f).map (·.pixelArea)).getD 0

/-- The samples that `rescanFace` (facestatistics.hxx:468-486) adds. -/
def rescan (env : Env K V) (m : LMap K) (f : Nat) : Multiset V :=
  (((LMap.allPixels m.w m.h).filter fun p => env.box m f p && decide (m.report p = .ok (f : Int))).map env.orig : List V)

/-! ## Hooks -/

/-- `functors_[f]` after the assertion that there is one (facestatistics.hxx:164-167, 219-221, 258-260). -/
def Stats.functor (st : Stats V) (f : Nat) : Outcome (Multiset V) :=
  if f < st.size then
    match st.fn f with
    | some a => .ok a
    | none => .precond
  else .precond

/-- `preMergeFaces` (facestatistics.hxx:162-215) for a dart with faces `l` and `r`. -/
def preMerge (env : Env K V) (m : LMap K) (st : Stats V) (l r : Nat) : Outcome (Stats V) := do
  let a ← st.functor l
  let b ← st.functor r
  let st := { st with label1 := l, label2 := r }
  match st.ss with
  | none => .ok { st with merged := a + b }
  | some t =>
    if t l ≠ t r then
      if t l < t r then
        .ok { st with merged := (if pixelArea m.g r ≠ 0 then a + rescan env m r else a), mergedSS := t l }
      else
        .ok { st with merged := (if pixelArea m.g l ≠ 0 then b + rescan env m l else b), mergedSS := t r }
    else if t l ≠ 0 then
      if st.minCount ≤ pixelArea m.g l + pixelArea m.g r then
        .ok { st with merged := rescan env m l + rescan env m r, mergedSS := 0 }
      else .ok { st with merged := a + b, mergedSS := t l }
    else .ok { st with merged := a + b, mergedSS := 0 }

/-- The checks at the end of `postMergeFaces` and `associatePixels` (facestatistics.hxx:249-253, 289-293); `area` is
`face.pixelArea()`. -/
def check (st : Stats V) (f area : Nat) : Outcome (Stats V) := do
  let a ← st.functor f
  let plain : Bool := match st.ss with
    | none => true
    | some t => t f == 0
  if plain ∧ area ≠ a.card then .precond else .ok st

/-- The update of the marks in `postMergeFaces` (facestatistics.hxx:228-243): `superSampled_` and
`superSampledCount_`.  If the first release happens, line 235 writes through a null pointer. -/
def postMarks (t : Nat → Nat) (count f ml mergedSS : Nat) : Outcome (Option (Nat → Nat) × Nat) :=
  let release := t f ≠ 0 ∧ mergedSS = 0
  let count := if release then dec count else count
  if release ∧ count = 0 then .ub
  else
    let t := Function.update t f mergedSS
    if t ml ≠ 0 then .ok (if dec count = 0 then none else some t, dec count) else .ok (some t, count)

/-- `postMergeFaces` (facestatistics.hxx:217-254); `area` is `face.pixelArea()`. -/
def postMerge (st : Stats V) (f area : Nat) : Outcome (Stats V) := do
  let _ ← st.functor f
  let ml := if f = st.label1 then st.label2 else st.label1
  let st := { st with fn := Function.update st.fn f (some st.merged) }
  match st.ss with
  | none => check { st with fn := Function.update st.fn ml none } f area
  | some t => do
    let (ss, count) ← postMarks t st.count f ml st.mergedSS
    check { st with ss := ss, count := count, fn := Function.update st.fn ml none } f area

/-- The loop at the end of `associatePixels` (facestatistics.hxx:278-287) on a functor with samples `a`. -/
def addPixels (env : Env K V) (m : LMap K) (st : Stats V) (f : Nat) (a : Multiset V) (px : List (Int × Int)) : Outcome (Stats V) :=
  check { st with fn := Function.update st.fn f (some (a + (px.map env.orig : List V))) } f (pixelArea m.g f)

/-- `associatePixels` (facestatistics.hxx:256-294). -/
def associate (env : Env K V) (m : LMap K) (st : Stats V) (f : Nat) (px : List (Int × Int)) : Outcome (Stats V) := do
  let a ← st.functor f
  match st.ss with
  | none => addPixels env m st f a px
  | some t =>
    if t f ≠ 0 ∧ st.minCount ≤ pixelArea m.g f then
      let st := { st with ss := some (Function.update t f 0), count := dec st.count }
      if pixelArea m.g f ≠ px.length then
        .ok { st with fn := Function.update st.fn f (some (rescan env m f)) }
      else addPixels env m st f 0 px
    else addPixels env m st f a px

/-- `associatePixels` of the map calls the hook if there are pixels (cppmap.cxx:2029-2031, 2157-2159). -/
def associated (env : Env K V) (m : LMap K) (st : Stats V) (f : Nat) (px : List (Int × Int)) : Outcome (Stats V) :=
  if px = [] then .ok st else associate env m st f px

/-! ## Operations of the map with statistics attached -/

/-- The faces left and right of `removedDart` (cppmap.cxx:2041-2051). -/
def removedSides (g : GMap K) (e : Edge K) (d : Int) : Outcome (Option Nat × Option Nat) := do
  let (a, g) ← g.faceArea (e.leftOf d)
  let (b, _) ← g.faceArea (e.rightOf d)
  let r := GMap.chooseDart d (e.leftOf d) (e.rightOf d) a b
  .ok (e.leftOf r, e.rightOf r)

/-- `mergeFaces` (cppmap.cxx:2036-2162); `asked`: no slot connected earlier vetoed. -/
def mergeFaces (env : Env K V) (h : Hooks K) (asked : Bool) (m : LMap K) (st : Stats V) (d : Int) : Outcome (LMap K × Stats V) := do
  let e ← m.g.guaranteedEdge d
  let (r, n, px) ← m.mergeFaces h d
  let sides ← removedSides m.g e d
  match sides with
  | (some left, some right) =>
    match r with
    | none =>
      if asked then do
        let st ← preMerge env m st left right
        .ok (n, st)
      else .ok (n, st)
    | some f => do
      let st ← preMerge env m st left right
      let st ← postMerge st f (pixelArea m.g left + pixelArea m.g right)
      let st ← associated env n st f px
      .ok (n, st)
  | _ => .precond

/-- `removeBridge` (cppmap.cxx:1960-2034): only `associatePixelsHook` is connected. -/
def removeBridge (env : Env K V) (h : Hooks K) (m : LMap K) (st : Stats V) (d : Int) : Outcome (LMap K × Stats V) := do
  let (r, n, px) ← m.removeBridge h d
  match r with
  | none => .ok (n, st)
  | some f => do
    let st ← associated env n st f px
    .ok (n, st)

/-- `removeEdge` (cppmap.cxx:407-426). -/
def removeEdge (env : Env K V) (h : Hooks K) (asked : Bool) (m : LMap K) (st : Stats V) (d : Int) : Outcome (LMap K × Stats V) := do
  let e ← m.g.guaranteedEdge d
  if e.leftF = e.rightF then removeBridge env h m st d else mergeFaces env h asked m st d

/-- An operation of the map; the statistics only hear of merged faces and associated pixels
(facestatistics.hxx:386-400). -/
def run (env : Env K V) (h : Hooks K) (asked : Bool) (m : LMap K) (st : Stats V) : LOp K → Outcome (LMap K × Stats V)
  | .mergeFaces d => mergeFaces env h asked m st d
  | .removeBridge d => removeBridge env h m st d
  | .removeEdge d => removeEdge env h asked m st d
  | op => (op.run h m).map fun n => (n, st)

/-! ## Construction -/

/-- `inspectTwoImages` with `InitFaceFunctors` (facestatistics.hxx:48-67, 519-522) for the pixels given. -/
def inspect (env : Env K V) (m : LMap K) (size : Nat) : List (Int × Int) → (Nat → Option (Multiset V)) → Outcome (Nat → Option (Multiset V))
  | [], fn => .ok fn
  | p :: ps, fn => do
    let v ← m.report p
    if 0 ≤ v then
      if v.toNat < size then
        match fn v.toNat with
        | some a => inspect env m size ps (Function.update fn v.toNat (some (a + {env.orig p})))
        | none => .precond
      else .precond
    else inspect env m size ps fn

/-- The loop of `ensureMinSampleCount` for one face (facestatistics.hxx:551-571): the mark and the samples;
`left` iterations remain before giving up (line 554). -/
def sampleLoop (grid : Nat → List V) (minCount : Nat) : Nat → Nat → Multiset V → Nat × Multiset V
  | 0, s, a => (s + 1, a)
  | left + 1, s, a =>
    let a := a + (grid (s + 1) : Multiset V)
    if a.card < minCount then sampleLoop grid minCount left (s + 1) a else (s + 1, a)

/-- `ensureMinSampleCount` (facestatistics.hxx:533-579) for the finite faces given: functors, marks,
`superSampledCount_`. -/
def ensure (g : GMap K) (grid : Nat → Nat → List V) (minCount : Nat) :
    List Nat → (Nat → Option (Multiset V)) × (Nat → Nat) × Nat → (Nat → Option (Multiset V)) × (Nat → Nat) × Nat
  | [], r => r
  | f :: fs, (fn, t, n) =>
    match g.face f, fn f with
    | some _, some a =>
      if a.card < minCount then
        let r := sampleLoop (grid f) minCount 16 0 a
        ensure g grid minCount fs (Function.update fn f (some r.2), Function.update t f r.1, n + 1)
      else ensure g grid minCount fs (fn, t, n)
    | _, _ => ensure g grid minCount fs (fn, t, n)

/-- The constructor (facestatistics.hxx:504-531); without a label image `srcLabelRange()` is a violated precondition
(cppmap.hxx:347-354). -/
def construct (env : Env K V) (grid : Nat → Nat → List V) (minCount : Nat) (m : LMap K) : Outcome (Stats V) := do
  let fn : Nat → Option (Multiset V) := fun f => (m.g.face f).map fun _ => 0
  let fn ← inspect env m m.g.nFaces (LMap.allPixels m.w m.h) fn
  if minCount = 0 then .ok ⟨minCount, m.g.nFaces, fn, none, 0, 0, 0, 0, 0⟩
  else
    let r := ensure m.g grid minCount (List.range' 1 (m.g.nFaces - 1)) (fn, fun _ => 0, 0)
    .ok ⟨minCount, m.g.nFaces, r.1, if r.2.2 = 0 then none else some r.2.1, r.2.2, 0, 0, 0, 0⟩

/-- `checkConsistency` of statistics attached to a map (facestatistics.hxx:420-463); `pixelCount` dereferences the
functor. -/
def checkConsistency (m : LMap K) (st : Stats V) : Bool :=
  let live := (List.range m.g.nFaces).filter fun f => (m.g.face f).isSome
  let a := match st.ss with
    | none => true
    | some t =>
      (live.all fun f => t f ≠ 0 || ((st.fn f).map Multiset.card == some (pixelArea m.g f))) &&
      (live.filter fun f => t f ≠ 0).length == st.count
  a && (st.ss.isSome == decide (st.count ≠ 0))

end Verif.FaceStats
