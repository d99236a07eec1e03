import Verif.Utils.Complete

/-! # What `EdgeProtection` is for: specification

While the callbacks of an `EdgeProtection` are connected, what was drawn by protected edges stays drawn by
edges with the same flags. -/

namespace Verif.GeoMap
open Verif

variable {K : Type}

/-- `p` and `q` are consecutive points of the polygon -/
def Adjacent (L : List (Pt K)) (p q : Pt K) : Prop := ∃ i, L[i]? = some p ∧ L[i + 1]? = some q

variable [Field K]

/-- The straight line from `p` to `q` is drawn by edges of the map whose flags have the value `f`
(as far as seen through `v`): it is a segment of such an edge, in one of the two directions, or is composed of
two such lines that meet in a point of it. -/
inductive Drawn (v : Nat → Nat) (t : GMap K) (f : Nat) : Pt K → Pt K → Prop
  | segment {l : Nat} {e : Edge K} {p q : Pt K} : t.edge l = some e → v e.flags = f → Adjacent e.pts p q → Drawn v t f p q
  | reverse {p q : Pt K} : Drawn v t f p q → Drawn v t f q p
  | compose {p m q : Pt K} : Drawn v t f p m → Drawn v t f m q → OnLine p q m → Drawn v t f p q

/-- What the client must respect: flags of protected edges are not changed (as far as seen through `v`), and
`removeEdge` is used on initialized maps only (otherwise it asks nobody, cppmap.cxx:407-426). -/
def Op.keeps (v : Nat → Nat) (s : GMap K) : Op K → Prop
  | .setFlags l fl => ∀ e, s.edge l = some e → e.flag allProtection = true → v fl = v e.flags
  | .removeEdge _ => s.initialized
  | _ => True

variable [LinearOrder K]

/-- `t` is the result of a sequence of calls on `s`, each with the callbacks `h` connected, and each fulfilling
`ok`. -/
inductive Hist (h : Hooks K) (ok : GMap K → Op K → Prop) : GMap K → GMap K → Prop
  | refl (s : GMap K) : Hist h ok s s
  | call {s t u : GMap K} (op : Op K) : Hist h ok s t → op.legal t → op.fits t → ok t op → op.run h t = .ok u →
      (planar : ¬ t.initialized → u.initialized → PlanarOK u) → Hist h ok s u

/-- the protection bits of a flag value -/
def protBits (fl : Nat) : Nat := fl &&& allProtection

end Verif.GeoMap
