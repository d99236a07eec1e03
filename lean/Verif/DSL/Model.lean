import Verif.Outcome
import Mathlib.Algebra.Order.Field.Rat
import Mathlib.Algebra.Order.Group.Unbundled.Int

/-!
# Digital straight lines (src/geomap/vigra/dsl.hxx)

Integers are unbounded (the C++ template is instantiated with `int`; overflow is not
modelled).  `%` and `/` are C++'s truncating operations (`Int.tmod`, `Int.tdiv`).
-/

namespace Verif.DSL

/-- dsl.hxx:47-63, 200 `DigitalStraightLine<Integer, EIGHT_CONNECTED>`; the template
flag is the field `eight`. -/
structure Line where
  eight : Bool
  a : Int
  b : Int
  pos : Int
  deriving DecidableEq, Repr

namespace Line

/-- dsl.hxx:194-197 `operator()(x, y)`. -/
def eval (L : Line) (x y : Int) : Int := L.a * x - L.b * y

/-- dsl.hxx:89-95 `width()`. -/
def width (L : Line) : Int :=
  if L.eight then max |L.a| |L.b| else |L.a| + |L.b|

/-- dsl.hxx:83-87 `contains(x, y)`. -/
def contains (L : Line) (x y : Int) : Bool :=
  decide (0 ≤ L.eval x y - L.pos) && decide (L.eval x y - L.pos < L.width)

/-- dsl.hxx:78-81 `setPos`. -/
def setPos (L : Line) (p : Int) : Line := { L with pos := p }

/-- dsl.hxx:176-179 `mirrorX()`. -/
def mirrorX (L : Line) : Line := { L with a := -L.a }

/-- dsl.hxx:187-190 `mirrorXY()`. -/
def mirrorXY (L : Line) : Line := { L with pos := 1 - L.width - L.pos }

/-- dsl.hxx:181-185 `mirrorY()`. -/
def mirrorY (L : Line) : Line := L.mirrorX.mirrorXY

/-- dsl.hxx:165-174 `convertToFourConnected()`. -/
def convertToFourConnected (L : Line) : Line :=
  if L.eight then ⟨false, L.a, L.b - L.a, L.pos⟩ else ⟨false, L.a, L.b, L.pos⟩

/-- dsl.hxx:97-100 `slope()`; for `b = 0` vigra's `Rational` constructor throws, so
the model is used only with `b ≠ 0`. -/
def slope (L : Line) : ℚ := (L.a : ℚ) / (L.b : ℚ)

/-- dsl.hxx:39-43 `LeaningType`. -/
inductive Leaning where
  | center | lower | upper
  deriving DecidableEq, Repr

/-- dsl.hxx:102-110 `axisIntercept(leaningType)`. -/
def axisIntercept (L : Line) : Leaning → ℚ
  | .center => -((L.pos : ℚ) + ((L.width - 1 : Int) : ℚ) / 2) / (L.b : ℚ)
  | .lower => -((L.pos : ℚ) + ((L.width - 1 : Int) : ℚ)) / (L.b : ℚ)
  | .upper => -(L.pos : ℚ) / (L.b : ℚ)

end Line

/-- dsl.hxx:142-146: the search loop for `k` (`n` iterations remain before `k < b_`
fails). -/
def findK (a b divPos : Int) : Nat → Int → Int
  | 0, k => k
  | n + 1, k => if (a * k - divPos).tmod b = 0 then k else findK a b divPos n (k + 1)

/-- dsl.hxx:141-163: second half of `addPoint`: new slope from the leaning point,
then the postcondition (which throws).  `b = 0` divides by zero. -/
def addOutside (L : Line) (above : Bool) (x y : Int) : Outcome (Bool × Line) :=
  -- dsl.hxx:133-139
  let increaseSlope := if x < 0 then !above else above
  let pos := if x < 0 then 1 - L.b - L.pos else L.pos
  let divPos := if increaseSlope then pos else pos + L.b - 1
  if L.b = 0 then .ub else
  let k := findK L.a L.b divPos L.b.toNat 0
  let l := (L.a * k - divPos).tdiv L.b
  let a' := |y| - l
  let b' := |x| - k
  let pos' := if above then a' * x - b' * y else a' * x - b' * y - b' + 1
  let L' : Line := ⟨L.eight, a', b', pos'⟩
  if L'.contains x y then .ok (true, L') else .precond

/-- dsl.hxx:112-163 `addPoint(x, y)`: return value and new line. -/
def addPoint (L : Line) (x y : Int) : Outcome (Bool × Line) :=
  if ¬ (L.eight = true ∧ L.b ≥ L.a ∧ L.a ≥ 0) then .precond else
  let v := L.eval x y - L.pos
  if 0 ≤ v ∧ v < L.b then .ok (true, L)
  else if v ≠ -1 ∧ v ≠ L.b then .ok (false, L)
  else if ¬ (decide (x < 0) = decide (y < 0)) then .precond
  else addOutside L (decide (v = -1)) x y

/-! ## `tangentDSL` (dsl.hxx:204-327) -/

/-- `*iter` for an iterator at index `i` of the code sequence. -/
def code (codes : List Nat) (i : Nat) : Outcome Nat :=
  match codes[i]? with
  | some c => .ok c
  | none => .ub

/-- dsl.hxx:234-241, 307-314: advance the forward iterator; `none` means that the end
of an open sequence is reached. -/
def fwd (n : Nat) (closed : Bool) (i : Nat) : Option Nat :=
  if i + 1 = n then (if closed then some 0 else none) else some (i + 1)

/-- dsl.hxx:246-253, 316-323: advance the backward iterator. -/
def bwd (n : Nat) (closed : Bool) (i : Nat) : Option Nat :=
  if i = 0 then (if closed then some (n - 1) else none) else some (i - 1)

/-- dsl.hxx:257-265: update of `fc2`; `none` means `return 0`. -/
def pickCode (fc1 fc2 cf cb : Nat) : Option Nat :=
  if cf ≠ fc2 then
    if cb ≠ fc1 ∧ cb ≠ cf then none else some cf
  else some cb

/-- dsl.hxx:231-266: determine the two codes.  `none`: `return 0`.  `asserts`: whether
`vigra_assert` is active (it is compiled out with `NDEBUG`). -/
def findCodes (asserts : Bool) (codes : List Nat) (closed : Bool) (start : Nat) :
    Nat → Nat → Nat → Nat → Nat → Outcome (Option (Nat × Nat))
  | 0, _, _, _, _ => .hang
  | fuel + 1, fc1, fc2, fi, bi =>
    if fc2 ≠ fc1 then .ok (some (fc1, fc2)) else
    match fwd codes.length closed fi with
    | none => .ok none
    | some fi' =>
      if asserts = true ∧ fi' = start then .precond else
      match bwd codes.length closed bi with
      | none => .ok none
      | some bi' =>
        -- dsl.hxx:254 compares with `==` (sic)
        if asserts = true ∧ bi' ≠ start then .precond else
        (code codes fi').bind fun cf =>
        (code codes bi').bind fun cb =>
        match pickCode fc1 fc2 cf cb with
        | none => .ok none
        | some fc2' => findCodes asserts codes closed start fuel fc1 fc2' fi' bi'

/-- Loop state of dsl.hxx:268-324. -/
structure TState where
  tangent : Line
  /-- `origin`, `point1`, `point2` -/
  o : Int × Int
  p1 : Int × Int
  p2 : Int × Int
  fi : Nat
  bi : Nat
  dist : Nat
  dsl : Line
  deriving DecidableEq, Repr

/-- dsl.hxx:291-295 (and 297-301): `addPoint` relative to the current origin. -/
def addRel (t : Line) (o p : Int × Int) : Outcome (Bool × Line) :=
  (addPoint (t.setPos (t.pos - t.eval o.1 o.2)) (p.1 - o.1) (p.2 - o.2)).bind fun r =>
    .ok (r.1, if r.1 then r.2.setPos (r.2.pos + r.2.eval o.1 o.2) else r.2)

/-- dsl.hxx:307-323: both iterators; `none` means `break`. -/
def advance (n : Nat) (closed : Bool) (s : TState) : Option TState :=
  match fwd n closed s.fi with
  | none => none
  | some fi' =>
    match bwd n closed s.bi with
    | none => none
    | some bi' => some { s with
        fi := fi', bi := bi' }

/-- Next point in the first octant (dsl.hxx:282-283). -/
def fwdPoint (p : Int × Int) (c : Nat) : Int × Int := (p.1 + 1, p.2 + (c % 2 : Nat))

/-- Next point in the opposite direction (dsl.hxx:287-288). -/
def bwdPoint (p : Int × Int) (c : Nat) : Int × Int := (p.1 - 1, p.2 - (c % 2 : Nat))

/-- dsl.hxx:280-305: the part of one loop iteration that ends in a `break` (`none`) or
with a stored result. -/
def extendTangent (codes : List Nat) (fc1 fc2 : Nat) (s : TState) : Outcome (Option TState) :=
  (code codes s.fi).bind fun cf =>
  if cf ≠ fc1 ∧ cf ≠ fc2 then .ok none else
  let q1 := fwdPoint s.p1 cf
  (code codes s.bi).bind fun cb =>
  if cb ≠ fc1 ∧ cb ≠ fc2 then .ok none else
  let q2 := bwdPoint s.p2 cb
  (addRel s.tangent s.o q1).bind fun r1 =>
  if r1.1 = false then .ok none else
  (addRel r1.2 q1 q2).bind fun r2 =>
  if r2.1 = false then .ok none else
  .ok (some { s with
    tangent := r2.2, o := q2, p1 := q1, p2 := q2, dist := s.dist + 1, dsl := r2.2 })

/-- dsl.hxx:277-326: the tangent loop; result `(dist, dsl)`. -/
def tangentLoop (codes : List Nat) (closed : Bool) (fc1 fc2 : Nat) :
    Nat → TState → Outcome (Nat × Line)
  | 0, _ => .hang
  | fuel + 1, s =>
    (extendTangent codes fc1 fc2 s).bind fun r =>
    match r with
    | none => .ok (s.dist, s.dsl)
    | some s' =>
      match advance codes.length closed s' with
      | none => .ok (s'.dist, s'.dsl)
      | some s'' => tangentLoop codes closed fc1 fc2 fuel s''

/-- dsl.hxx:268-276: state before the tangent loop. -/
def tangentInit (start bi c : Nat) (dsl : Line) : TState :=
  ⟨⟨true, (c % 2 : Nat), 1, 0⟩, (0, 0), (0, 0), (0, 0), start, bi, 0, dsl⟩

/-- dsl.hxx:204-327 `tangentDSL(codes, pointIndex, closed, dsl)`: returned distance and
the new value of the output argument.  `pointIndex` is taken non-negative (the binding
passes an `int`; a negative index of a closed sequence stays negative under `%`). -/
def tangentDSL (asserts : Bool) (fuel : Nat) (codes : List Nat) (pointIndex : Nat)
    (closed : Bool) (dsl : Line) : Outcome (Nat × Line) :=
  let n := codes.length
  if ¬ (closed = true ∨ (pointIndex > 0 ∧ pointIndex < n)) then .precond else
  if closed = true ∧ n = 0 then .ub else
  let start := if closed then pointIndex % n else pointIndex
  let bi := (if start = 0 then n else start) - 1
  (code codes start).bind fun fc1 =>
  (code codes bi).bind fun fc2 =>
  (findCodes asserts codes closed start fuel fc1 fc2 start bi).bind fun r =>
  match r with
  | none => .ok (0, dsl)
  | some (c1, c2) =>
    tangentLoop codes closed c1 c2 fuel (tangentInit start bi fc1 dsl)

end Verif.DSL
