import Verif.Outcome

/-!
# Model of `LabelLUT` (src/geomap/labellut.hxx)

`std::vector<unsigned>` is a `List Nat`; reading or writing outside the vector is
the outcome `ub`.  The C++ loops have no bound; here they get a fuel argument
and running out of fuel is the outcome `hang`.  (`relabel` and `merged` use the
number of labels + 1 as fuel: a pointer walk through `size` labels that has not
ended after `size + 1` steps has revisited a label and never ends.)
-/

namespace Verif.LabelLUT

open Verif

/-- labellut.hxx:154-155 `labelLUT_`, `prevMerged_`. -/
structure LUT where
  lut : List Nat
  prev : List Nat
  deriving DecidableEq, Repr

/-- labellut.hxx:95-112, constructor + `initIdentity`. -/
def init (n : Nat) : LUT := ⟨List.range n, List.range n⟩

/-- labellut.hxx:114-118 `appendOne`. -/
def appendOne (s : LUT) : LUT :=
  ⟨s.lut ++ [s.lut.length], s.prev ++ [s.prev.length]⟩

/-- labellut.hxx:120-123 `operator[]` (unchecked: out of range is UB). -/
def lookup (s : LUT) (i : Nat) : Outcome Nat :=
  match s.lut[i]? with
  | some l => .ok l
  | none => .ub

/-- labellut.hxx:125-128 `size`. -/
def size (s : LUT) : Nat := s.lut.length

/-- labellut.hxx:133-141, the relabelling loop.  Returns the new table and the
last element of the from-list (`prev` after the `break`). -/
def relabelLoop (prev : List Nat) (dst : Nat) : Nat → List Nat → Nat → Outcome (List Nat × Nat)
  | 0, _, _ => .hang
  | fuel + 1, lut, it =>
    if it < lut.length then
      match prev[it]? with
      | none => .ub
      | some p =>
        if p = it then .ok (lut.set it dst, p)
        else relabelLoop prev dst fuel (lut.set it dst) p
    else .ub

/-- labellut.hxx:130-147 `relabel(from, to)`. -/
def relabel (s : LUT) (src dst : Nat) : Outcome LUT :=
  match relabelLoop s.prev dst (s.lut.length + 1) s.lut src with
  | .ok (lut', last) =>
    match s.prev[dst]? with
    | none => .ub
    | some pt =>
      let prev1 := if pt ≠ dst then s.prev.set last pt else s.prev
      .ok ⟨lut', prev1.set dst src⟩
  | .precond => .precond
  | .ub => .ub
  | .hang => .hang

/-- labellut.hxx:42-91 `MergedIterator`: the labels produced by
`for(it = mergedBegin(start); it.inRange(); ++it) *it`. -/
def mergedLoop (prev : List Nat) : Nat → Nat → Outcome (List Nat)
  | 0, _ => .hang
  | fuel + 1, cur =>
    match prev[cur]? with
    | none => .ub
    | some next =>
      if next = cur then .ok [cur]
      else (mergedLoop prev fuel next).map (cur :: ·)

/-- Iterating `mergedBegin(start)` to the end (labellut.hxx:149-152). -/
def merged (s : LUT) (start : Nat) : Outcome (List Nat) :=
  mergedLoop s.prev (s.lut.length + 1) start

/-- Operations a client can perform. -/
inductive Op where
  | append
  | relabel (src dst : Nat)
  deriving DecidableEq, Repr

/-- One client operation. -/
def step (s : LUT) : Op → Outcome LUT
  | .append => .ok (appendOne s)
  | .relabel f t => relabel s f t

/-- A sequence of client operations. -/
def run (s : LUT) : List Op → Outcome LUT
  | [] => .ok s
  | op :: ops => (step s op).bind (fun s' => run s' ops)

end Verif.LabelLUT
