import Verif.FourEight.HistSpec

/-!
# Protection of edges

`CellStatistics` (cellimage/cellstatistics.hxx) remembers which edges were merged: `mergedEdges_` links the edges that became one, and
protection flags of an edge are set for, and looked up at, everything that the edge was merged from.
-/

namespace Verif.FourEight
open Verif Verif.CellImage Verif.Outcome

/-- cellstatistics.hxx:470-472, the loop in `postMergeEdges`.  The number bounds the steps: who makes more steps than there are labels has
been at some label twice and never stops. -/
def lastOf (mg : List Nat) : Nat → Nat → Outcome Nat
  | 0, _ => .hang
  | n + 1, e =>
    match mg[e]? with
    | none => .ub
    | some t => if t = e then .ok e else lastOf mg n t

/-- cellstatistics.hxx:469-474, the part of `postMergeEdges` about `mergedEdges_` -/
def postMergeEdges (mg : List Nat) (label e1 e2 : Nat) : Outcome (List Nat) :=
  (lastOf mg (mg.length + 1) label).bind fun t => .ok (mg.set t (if label = e1 then e2 else e1))

/-- cellstatistics.cxx:183-186 -/
def initMerged (m : Map) : List Nat := List.range (m.edges.length + 1)

/-- One Euler operation with the notifications: cellstatistics.hxx:338-341 (`preMergeEdges`) before and 464-474 (`postMergeEdges`) after two
edges are merged; `mergedEdges_` is not changed by other operations.  Without rethinning. -/
def runMerged (m : Map) (mg : List Nat) : Op → Outcome (Map × List Nat)
  | .mergeEdges d =>
    (sigma m 1 d).bind fun d2 => (edgeLabel m d).bind fun e1 => (edgeLabel m d2).bind fun e2 =>
    (mergeEdges m d).bind fun p => (postMergeEdges mg p.2 e1 e2).bind fun mg => .ok (p.1, mg)
  | op => (run m op).bind fun p => .ok (p.1, mg)

/-- cellstatistics.hxx:100-109 `EdgeProtection::protectEdge`: the flags, and whether something changed.  Flags are natural
numbers instead of `unsigned short`: `&` and `^` of 16 bit numbers are the same. -/
def protectOne (prot : List Nat) (e flag : Nat) (b : Bool) : Outcome (List Nat × Bool) :=
  match prot[e]? with
  | none => .ub
  | some f => if decide (f &&& flag ≠ 0) ≠ b then .ok (prot.set e (f ^^^ flag), true) else .ok (prot, false)

/-- cellstatistics.hxx:204-218 `CellStatistics::protectEdge` (the number: see `lastOf`) -/
def protectEdge (mg : List Nat) : Nat → List Nat → Nat → Nat → Bool → Outcome (List Nat × Bool)
  | 0, _, _, _, _ => .hang
  | n + 1, prot, e, flag, b =>
    (protectOne prot e flag b).bind fun r =>
      match mg[e]? with
      | none => .ub
      | some t => if t ≠ e then (protectEdge mg n r.1 t flag b).bind fun q => .ok (q.1, q.2 || r.2) else .ok r

/-- cellstatistics.hxx:220-228 `CellStatistics::edgeProtected` with 111-114 `EdgeProtection::edgeProtected` (the number: see `lastOf`) -/
def edgeProtected (mg prot : List Nat) : Nat → Nat → Outcome Bool
  | 0, _ => .hang
  | n + 1, e =>
    match prot[e]? with
    | none => .ub
    | some f =>
      if f ≠ 0 then .ok true
      else
        match mg[e]? with
        | none => .ub
        | some t => if t = e then .ok false else edgeProtected mg prot n t

end Verif.FourEight
