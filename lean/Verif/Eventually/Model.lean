import Verif.DartPos.Spec
import Mathlib.Analysis.SpecialFunctions.Complex.Arg
import Mathlib.Data.List.SplitBy

/-!
# Sorting edges that leave a node in the same direction

Models `rotateArray`, `normAngle`, `sortEdgesInternal` (src/geomap/cppmap.cxx:480-644), `sortEdgesEventually` (646-692) and the
structures `DartPositionAngle`, `PlannedSplits` (cppmap.hxx:1672-1755).  `double` is modelled by the real numbers, `atan2(y, x)`
by the argument of `x + i y`.  `std::sort` is a parameter (`srt`): any function that returns a sorted permutation (`Sorter`).
The recursion of `sortEdgesInternal` is limited by `fuel`; the outcome `hang` stands for a recursion that is too deep.
-/

namespace Verif.Eventually
open Verif Verif.GeoMap Verif.PointIter Verif.DartPos

/-- `std::atan2(y, x)` -/
noncomputable def atan2 (y x : ℝ) : ℝ := Complex.arg ⟨x, y⟩

/-- cppmap.cxx:493-500 -/
noncomputable def normAngle (d : ℝ) : ℝ :=
  let d := if d < -Real.pi then d + 2 * Real.pi else d
  if d ≥ Real.pi then d - 2 * Real.pi else d

/-- cppmap.hxx:1674-1679 `EdgePosition` -/
structure EdgePos where
  seg : Nat
  arc : ℝ
  pos : Pt ℝ

/-- cppmap.hxx:1699-1705 `DartPositionAngle`; `common` is `commonPos`, `none` while `isSet` is false. -/
structure DPA where
  label : Int
  dp : DP
  absAngle : ℝ
  angle : ℝ
  common : Option EdgePos

/-- cppmap.hxx:1712-1727 `SplitPos`; `sigmaPos` is not initialised by the constructor. -/
structure SplitPos where
  at_ : EdgePos
  label : Int
  sigmaPos : Option Nat
  group : Nat

/-- cppmap.hxx:1744-1753 `PlannedSplits` -/
structure Splits where
  list : List SplitPos
  count : Nat

/-- What `sortEdgesInternal` writes apart from the array: the unsortable groups and the planned splits (`none`: no `splitInfo`). -/
structure St where
  unsortable : List (List Int)
  splits : Option Splits

/-- cppmap.hxx:1729-1741 `splitPos` -/
noncomputable def DPA.splitPos (x : DPA) (group : Nat) : Outcome SplitPos :=
  match x.common with
  | none => .precond
  | some c =>
    .ok (if x.label < 0 then ⟨⟨x.dp.it.pts.length - 2 - c.seg, pathLen x.dp.it.pts - c.arc, c.pos⟩, x.label, none, group⟩
      else ⟨c, x.label, none, group⟩)

/-- cppmap.cxx:514-527: one dart -/
noncomputable def measure (c : Pt ℝ) (ref r2 : ℝ) (x : DPA) : Outcome DPA :=
  (if x.dp.atEnd then .ok x.dp else (x.dp.intersectCircle c r2).map (·.2)).bind fun dp =>
    .ok { x with
      dp := dp, absAngle := atan2 (-dp.pos.2 + c.2) (dp.pos.1 - c.1),
      angle := normAngle (atan2 (-dp.pos.2 + c.2) (dp.pos.1 - c.1) - ref) }

/-- `f` for every element in turn -/
def mapAll {α β : Type} (f : α → Outcome β) : List α → Outcome (List β)
  | [] => .ok []
  | x :: l => (f x).bind fun y => (mapAll f l).bind fun ys => .ok (y :: ys)

/-- cppmap.cxx:483-491 -/
def rotateArray {α : Type} (l : List α) (k : Nat) : List α := l.drop k ++ l.take k

/-- `(dpBegin + i)->angle`; all indices used below are inside of the list -/
noncomputable def ang (l : List DPA) (i : Nat) : ℝ := (l[i]?.map (·.angle)).getD 0

/-- cppmap.cxx:547-558: the loop; the argument is `firstGroupStart - dpBegin` after its decrement, `prev` is its successor -/
noncomputable def rotSearch (minAngle : ℝ) (l : List DPA) : Nat → List DPA
  | 0 => l
  | f + 1 => if ang l (f + 2) - ang l (f + 1) ≥ minAngle then rotateArray l (f + 2) else rotSearch minAngle l f

/-- cppmap.cxx:541-559 -/
noncomputable def rotateGroups (minAngle : ℝ) (l : List DPA) : List DPA :=
  if ang l (l.length - 1) + minAngle - 2 * Real.pi > ang l 0 then rotSearch minAngle l (l.length - 2) else l

/-- cppmap.cxx:565-572: the groups that the loop finds: a group ends where the next dart is at least `minAngle` further -/
noncomputable def groups (minAngle : ℝ) (l : List DPA) : List (List DPA) :=
  l.splitBy fun x y => decide (y.angle < x.angle + minAngle)

/-- cppmap.hxx:1687-1694 `CommonPos::set` -/
noncomputable def DPA.setCommon (x : DPA) : DPA := { x with common := some ⟨x.dp.seg, x.dp.arcLength, x.dp.pos⟩ }

/-- cppmap.cxx:590-593: the mean of the positions -/
noncomputable def meanPos (l : List DPA) : Pt ℝ := (1 / (l.length : ℝ)) • (l.map (·.dp.pos)).sum

/-- cppmap.cxx:596-599: the reference angle of a group -/
noncomputable def refAngle (l : List DPA) : ℝ :=
  match l.head?, l.getLast? with
  | some x, some y => normAngle (x.absAngle + normAngle (y.absAngle - x.absAngle) / 2)
  | _, _ => 0

/-- cppmap.cxx:565-612 without the planning of splits: groups of more than one dart are sorted by `rec` -/
noncomputable def sortGroups (rec : Pt ℝ → ℝ → List DPA → St → Outcome (List DPA × St)) : List (List DPA) → St → Outcome (List DPA × St)
  | [], st => .ok ([], st)
  | g :: gs, st =>
    (if g.length > 1 then rec (meanPos g) (refAngle g) (g.map (·.setCommon)) st else .ok (g, st)).bind fun r =>
      (sortGroups rec gs r.2).bind fun q => .ok (r.1 ++ q.1, q.2)

/-- cppmap.cxx:574-586: plan the splits of all darts (all of them, before the first recursive call) if there is a decision -/
noncomputable def planSplits (decision parallel : Bool) (l : List DPA) (st : St) : Outcome St :=
  match st.splits with
  | none => .ok st
  | some sp =>
    if decision ∧ parallel then
      (mapAll (fun x => x.splitPos sp.count) l).bind fun new => .ok { st with
        splits := some ⟨sp.list ++ new, sp.count + 1⟩ }
    else .ok st

/-- cppmap.cxx:614-643: store the order found in the splits planned by this call.  Simplification: the labels are distinct,
therefore the search for the entry of a dart is written as the position of the label of an entry in the final order. -/
def storeOrder (offset : Nat) (labels : List Int) (st : St) : St :=
  match st.splits with
  | none => st
  | some sp => { st with
      splits := some ⟨sp.list.take offset ++ ((sp.list.drop offset).take labels.length).map (fun e => { e with
          sigmaPos := some (labels.idxOf e.label) }) ++
        (sp.list.drop offset).drop labels.length, sp.count⟩ }

/-- the number of splits planned so far (cppmap.cxx:581) -/
def St.offset (st : St) : Nat := match st.splits with | none => 0 | some sp => sp.list.length

/-- does this call plan splits? (cppmap.cxx:574) -/
def St.plans (st : St) (decision parallel : Bool) : Bool := st.splits.isSome && decision && parallel

/-- cppmap.cxx:502-644 `sortEdgesInternal` -/
noncomputable def sortInternal (srt : List DPA → List DPA) (r2 minAngle : ℝ) : Nat → Pt ℝ → ℝ → Bool → List DPA → St →
    Outcome (List DPA × St)
  | 0, _, _, _, _, _ => .hang
  | fuel + 1, c, ref, parallel, l, st =>
    if l.length < 2 then .ok (l, st)
    else (mapAll (measure c ref r2) l).bind fun l1 =>
      if l.all (·.dp.atEnd) then .ok (l1, { st with
        unsortable := st.unsortable ++ [l1.map (·.label)] })
      else
        let l2 := rotateGroups minAngle (srt l1)
        let gs := groups minAngle l2
        let decision := decide (1 < gs.length)
        (planSplits decision parallel l2 st).bind fun st1 =>
          (sortGroups (fun c ref g st => sortInternal srt r2 minAngle fuel c ref true g st) gs st1).bind fun r =>
            .ok (r.1, if st.plans decision parallel then storeOrder st.offset (r.1.map (·.label)) r.2 else r.2)

/-- cppmap.cxx:664-671: the darts of a node (do-while loop) -/
noncomputable def dartPositions (s : GMap ℝ) (anchor : Int) : Nat → Int → List DPA → Outcome (List DPA)
  | 0, _, _ => .hang
  | fuel + 1, d, acc =>
    (DPI.start s d).bind fun i => (DP.start i).bind fun dp =>
      if s.sigma d = anchor then .ok (acc ++ [⟨d, dp, 0, 0, none⟩])
      else dartPositions s anchor fuel (s.sigma d) (acc ++ [⟨d, dp, 0, 0, none⟩])

/-- cppmap.cxx:659-688: one node -/
noncomputable def sortNode (srt : List DPA → List DPA) (fuel : Nat) (r2 minAngle : ℝ) (s : GMap ℝ) (st : St) (n : Nat) :
    Outcome (GMap ℝ × St) :=
  match s.node n with
  | none => .ok (s, st)
  | some nd =>
    if nd.anchor = 0 then .ok (s, st)
    else (dartPositions s nd.anchor s.fuel nd.anchor []).bind fun l =>
      (sortInternal srt r2 minAngle fuel nd.pos 0 false l st).bind fun r =>
        match r.1.map (·.label) with
        | [] => .ub
        | d :: ds => .ok (GMap.linkCycle d d ds s, r.2)

/-- cppmap.cxx:659-689: all nodes -/
noncomputable def sortNodes (srt : List DPA → List DPA) (fuel : Nat) (r2 minAngle : ℝ) : List Nat → GMap ℝ → St → Outcome (GMap ℝ × St)
  | [], s, st => .ok (s, st)
  | n :: ns, s, st => (sortNode srt fuel r2 minAngle s st n).bind fun r => sortNodes srt fuel r2 minAngle ns r.1 r.2

/-- cppmap.cxx:646-692 `sortEdgesEventually`; `st` holds the unsortable groups given by reference and `splitInfo_` -/
noncomputable def sortEdgesEventually (srt : List DPA → List DPA) (fuel : Nat) (stepDist minDist : ℝ) (splitEdges : Bool)
    (s : GMap ℝ) (st : St) : Outcome (GMap ℝ × St) :=
  if s.initialized then .precond
  else
    let st := if splitEdges then { st with splits := some ⟨[], 0⟩ } else st
    (sortNodes srt fuel (stepDist * stepDist) (atan2 minDist stepDist) (List.range s.nNodes) s st).bind fun r =>
      .ok ({ r.1 with edgesSorted := true }, r.2)

/-- What `std::sort` guarantees (cppmap.cxx:539, with the order of cppmap.hxx:1707-1710). -/
def Sorter (srt : List DPA → List DPA) : Prop :=
  ∀ l, (srt l).Perm l ∧ (srt l).Pairwise (fun x y => x.angle ≤ y.angle)

end Verif.Eventually
