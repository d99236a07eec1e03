import Verif.Outcome
import Verif.GeoMap.Model
import Mathlib.Algebra.Order.Field.Basic

/-!
# Looking up nodes by position

Models `vigra::Map2D` (src/geomap/vigra/map2d.hxx:64-184), the way `GeoMap` keeps its `nodeMap_` up to date
(cppmap.hxx:461, 1314-1323, cppmap.cxx:2166-2172, 2192) and `GeoMap::nearestNode` (cppmap.cxx:1311-1320).

Simplifications: `double` is an ordered field `K`.  The multimap is the list of its entries in iteration order,
an iterator is an index into that list and `end()` is `none`.  Of the nodes only the positions are kept; a removed
node is `none`.  The edges that `setPosition` drags along are in `Verif.GeoMap.SetPosition`.
-/

namespace Verif.NodeIndex
open Verif Verif.GeoMap

section
variable {K : Type} [Field K] [LinearOrder K]

/-- `PositionedObject` with a label as payload, map2d.hxx:36-60 -/
structure Entry (K : Type) where
  pos : Pt K
  label : Nat
deriving DecidableEq, Repr

/-- `squaredNorm` of the difference of two positions -/
def dist2 (p q : Pt K) : K := (p.1 - q.1) * (p.1 - q.1) + (p.2 - q.2) * (p.2 - q.2)

/-- map2d.hxx:75-79 `insert`: `std::multimap::insert` puts the entry behind those with an equal key. -/
def insert (e : Entry K) : List (Entry K) → List (Entry K)
  | [] => [e]
  | f :: l => if e.pos.1 < f.pos.1 then e :: f :: l else f :: insert e l

/-- `std::multimap::lower_bound`: the number of entries before the first one whose key is not less than `x`. -/
def lowerBound (x : K) : List (Entry K) → Nat
  | [] => 0
  | f :: l => if f.pos.1 < x then lowerBound x l + 1 else 0

/-- the body of both loops of `search`, map2d.hxx:143-154 and 159-172; a loop visits the given indices and
entries in order, `best` is `(nearestPos, maxSquaredDist)`. -/
def look (v : Pt K) : Option Nat × K → List (Entry K × Nat) → Option Nat × K
  | best, [] => best
  | best, (e, i) :: l =>
    if best.2 < (e.pos.1 - v.1) * (e.pos.1 - v.1) then best
    else look v (if dist2 e.pos v < best.2 then (some i, dist2 e.pos v) else best) l

/-- map2d.hxx:121-132 `nearest` with 135-175 `search` -/
def nearest (m : List (Entry K)) (v : Pt K) (maxDist2 : K) : Option Nat :=
  let mid := lowerBound v.1 m
  (look v (look v (none, maxDist2) (m.zipIdx.drop mid)) (m.zipIdx.take mid).reverse).1

/-- The positions of the nodes (by label, removed ones are `none`) and `nodeMap_`. -/
structure State (K : Type) where
  nodes : List (Option (Pt K))
  index : List (Entry K)
deriving DecidableEq, Repr

/-- cppmap.hxx:452-462: the constructor of a node appends it to the nodes and to the index. -/
def addNode (s : State K) (p : Pt K) : State K :=
  { nodes := s.nodes ++ [some p], index := insert ⟨p, s.nodes.length⟩ s.index }

/-- `nodeMap_.erase(nodeMap_.nearest(position, epsilon))`, cppmap.hxx:1319-1321 and cppmap.cxx:2169-2171; erasing
`end()` is undefined. -/
def eraseAt (eps : K) (m : List (Entry K)) (p : Pt K) : Outcome (List (Entry K)) :=
  match nearest m p eps with
  | none => .ub
  | some i => .ok (m.eraseIdx i)

/-- cppmap.hxx:1314-1323 `Node::uninitialize` -/
def removeNode (eps : K) (s : State K) (l : Nat) : Outcome (State K) :=
  match s.nodes[l]? with
  | some (some p) => (eraseAt eps s.index p).bind fun m => .ok { nodes := s.nodes.set l none, index := m }
  | _ => .precond

/-- cppmap.cxx:2166-2193 `Node::setPosition`, without the edges -/
def setPosition (eps : K) (s : State K) (l : Nat) (q : Pt K) : Outcome (State K) :=
  match s.nodes[l]? with
  | some (some p) => (eraseAt eps s.index p).bind fun m =>
    .ok { nodes := s.nodes.set l (some q), index := insert ⟨q, l⟩ m }
  | _ => .precond

/-- cppmap.cxx:1311-1320 `nearestNode`: the label found, looked up in the nodes (`node(label)`); a null pointer is
`none`, and so is the label of a node that does not exist any more.  The label 0 passed with the position is not
used. -/
def nearestNode (s : State K) (p : Pt K) (maxDist2 : K) : Outcome (Option Nat) :=
  match nearest s.index p maxDist2 with
  | none => .ok none
  | some i =>
    match s.index[i]? with
    | none => .ub
    | some e =>
      match s.nodes[e.label]? with
      | none => .ub
      | some none => .ok none
      | some (some _) => .ok (some e.label)

/-- What happens to the nodes of a map. -/
inductive Op (K : Type) where
  | add (p : Pt K)
  | remove (l : Nat)
  | move (l : Nat) (p : Pt K)

def Op.run (eps : K) (s : State K) : Op K → Outcome (State K)
  | .add p => .ok (addNode s p)
  | .remove l => removeNode eps s l
  | .move l p => setPosition eps s l p

end
end Verif.NodeIndex
