import Verif.DartPos.Spec
import Mathlib.Analysis.SpecialFunctions.Pow.Real
import Mathlib.Algebra.Order.Round

/-!
# Resampling of polygons

Models src/geomap/polygon.hxx:938-1304: `simplifyPolygonDigitalLine`, `resamplePolygon`,
`resamplePolygonLinearInterpolation` and `resamplePolygonExponentialFilter`, with `arcLengthList` (474-483), `closed` (307-310)
and `interpolate` (87-90).

Simplifications: `double` is modelled by the real numbers and `int` is unbounded.  Reading or writing outside of an array is
the outcome `ub`; so is a quotient by zero wherever the code divides (the code would go on with NaN or infinity), and
a conversion of such a quotient to `int`.
-/

namespace Verif.Resample
open Verif Verif.GeoMap Verif.DartPos

/-- `l[i]` -/
def rd {α : Type} (l : List α) (i : Nat) : Outcome α :=
  match l[i]? with
  | some x => .ok x
  | none => .ub

/-- `l[i] = x` -/
def wr {α : Type} (l : List α) (i : Nat) (x : α) : Outcome (List α) := if i < l.length then .ok (l.set i x) else .ub

/-- `x / y` -/
noncomputable def quot (x y : ℝ) : Outcome ℝ := if y = 0 then .ub else .ok (x / y)

/-- `for(k = k0; …; ++k) body(k)` with `n` rounds -/
def forUp {σ : Type} (body : Nat → σ → Outcome σ) : Nat → Nat → σ → Outcome σ
  | 0, _, s => .ok s
  | n + 1, k, s => (body k s).bind fun s' => forUp body n (k + 1) s'

/-- `for(k = k0; …; --k) body(k)` with `n` rounds -/
def forDown {σ : Type} (body : Nat → σ → Outcome σ) : Nat → Nat → σ → Outcome σ
  | 0, _, s => .ok s
  | n + 1, k, s => (body k s).bind fun s' => forDown body n (k - 1) s'

/-- polygon.hxx:478-482: the loop of `arcLengthList`, from a point with arc length `a` -/
noncomputable def arcLoop : ℝ → List (Pt ℝ) → List ℝ
  | a, p :: q :: l => (a + mag (q - p)) :: arcLoop (a + mag (q - p)) (q :: l)
  | _, _ => []

/-- polygon.hxx:473-483 `arcLengthList` -/
noncomputable def arcLengthList (poly : List (Pt ℝ)) : List ℝ := 0 :: arcLoop 0 poly

/-! ## Linear interpolation -/

/-- polygon.hxx:1192-1196, 1289-1293: `for(; l < size; ++l) if(arc[l] >= cur) break;`; `n` is the number of indices left -/
noncomputable def search (arc : List ℝ) (cur : ℝ) : Nat → Nat → Outcome Nat
  | 0, l => .ok l
  | n + 1, l => (rd arc l).bind fun a => if a ≥ cur then .ok l else search arc cur n (l + 1)

/-- polygon.hxx:1189-1199, the body of the loop: state `(simple, l)` -/
noncomputable def linBody (poly : List (Pt ℝ)) (arc : List ℝ) (step : ℝ) (k : Nat) (s : List (Pt ℝ) × Nat) : Outcome (List (Pt ℝ) × Nat) :=
  (search arc (k * step) (poly.length - s.2) s.2).bind fun l =>
    (rd arc l).bind fun a => (rd arc (l - 1)).bind fun b =>
      (quot (a - k * step) (a - b)).bind fun o =>
        (rd poly (l - 1)).bind fun p => (rd poly l).bind fun q => .ok (s.1 ++ [o • p + (1 - o) • q], l)

/-- polygon.hxx:1170-1201 `resamplePolygonLinearInterpolation` -/
noncomputable def linearInterpolation (poly simple : List (Pt ℝ)) (dist : ℝ) : Outcome (List (Pt ℝ)) :=
  if poly.length ≤ 2 then .ok poly
  else (rd (arcLengthList poly) (poly.length - 1)).bind fun len =>
    (quot len dist).bind fun q =>
      (rd poly 0).bind fun first => (rd poly (poly.length - 1)).bind fun last =>
        (forUp (linBody poly (arcLengthList poly) (len / ⌈q⌉)) (⌈q⌉ - 1).toNat 1 (simple ++ [first], 1)).bind fun s =>
          .ok (s.1 ++ [last])

/-! ## Least squares fit -/

/-- polygon.hxx:1059-1067: the point with the largest distance; state `(p, dist)` -/
noncomputable def farBody (poly : List (Pt ℝ)) (first : Pt ℝ) (k : Nat) (s : Pt ℝ × ℝ) : Outcome (Pt ℝ × ℝ) :=
  (rd poly k).bind fun q => .ok (if mag (q - first) > s.2 then (q, mag (q - first)) else s)

/-- The state of the integration, polygon.hxx:1077-1080. -/
structure Fit where
  ints : List (Pt ℝ)
  p1 : Pt ℝ
  t1 : ℝ
  l : Nat

/-- `integrals[i] += v` -/
def addAt (a : List (Pt ℝ)) (i : Nat) (v : Pt ℝ) : Outcome (List (Pt ℝ)) := (rd a i).bind fun x => wr a i (x + v)

/-- polygon.hxx:1089, 1110: `sum1` -/
noncomputable def sum1 (p1 p2 : Pt ℝ) (t1 t2 : ℝ) : Pt ℝ := (0.5 * (t2 - t1)) • (p1 + p2)

/-- polygon.hxx:1090, 1111: `sumt` -/
noncomputable def sumt (p1 p2 : Pt ℝ) (t1 t2 : ℝ) : Pt ℝ :=
  ((t2 - t1) / 6) • ((2 * t1 + t2) • p1 + (t1 + 2 * t2) • p2)

/-- polygon.hxx:1091-1092, 1112-1113 -/
noncomputable def accumulate (f : Fit) (p2 : Pt ℝ) (t2 : ℝ) : Outcome (List (Pt ℝ)) :=
  (addAt f.ints (f.l - 1) (sum1 f.p1 p2 f.t1 t2 - sumt f.p1 p2 f.t1 t2)).bind fun a => addAt a f.l (sumt f.p1 p2 f.t1 t2)

/-- polygon.hxx:1093-1096 -/
def openStart (isOpen : Bool) (l : Nat) (first : Pt ℝ) (a : List (Pt ℝ)) : Outcome (List (Pt ℝ)) :=
  if isOpen ∧ l = 1 then (rd a 1).bind fun x => addAt a 0 (first - x) else .ok a

/-- polygon.hxx:1100-1103 -/
def openEnd (isOpen : Bool) (l count : Nat) (a : List (Pt ℝ)) : Outcome (List (Pt ℝ)) :=
  if isOpen ∧ l = count then (rd a (count - 1)).bind fun x => addAt a count x else .ok a

/-- polygon.hxx:1084-1104: the loop over the sample positions on the segment from `e` to `d`, with at most `n` rounds -/
noncomputable def fitWhile (isOpen : Bool) (count : Nat) (first q p : Pt ℝ) (e d : ℝ) : Nat → Fit → Outcome Fit
  | 0, _ => .hang
  | n + 1, f =>
    if d ≥ f.l ∧ f.l ≤ count then
      (quot (f.l - e) (d - e)).bind fun o =>
        (accumulate f ((1 - o) • q + o • p) 1).bind fun a => (openStart isOpen f.l first a).bind fun a =>
          (openEnd isOpen (f.l + 1) count a).bind fun a => fitWhile isOpen count first q p e d n ⟨a, (1 - o) • q + o • p, 0, f.l + 1⟩
    else .ok f

/-- polygon.hxx:1105-1117: the rest of the segment -/
noncomputable def fitRest (count : Nat) (p : Pt ℝ) (d : ℝ) (f : Fit) : Outcome Fit :=
  if d < f.l ∧ f.l ≤ count then (accumulate f p (Int.fract d)).bind fun a => .ok ⟨a, p, Int.fract d, f.l⟩ else .ok f

/-- polygon.hxx:1081-1118: one segment of the polygon -/
noncomputable def fitBody (isOpen : Bool) (count : Nat) (poly : List (Pt ℝ)) (arc : List ℝ) (first : Pt ℝ) (k : Nat) (f : Fit) : Outcome Fit :=
  (rd arc k).bind fun d => (rd arc (k - 1)).bind fun e => (rd poly (k - 1)).bind fun q => (rd poly k).bind fun p =>
    (fitWhile isOpen count first q p e d (count + 2) f).bind fun f => fitRest count p d f

/-- polygon.hxx:1130-1135: forward elimination; state `(g, b, simple)` -/
noncomputable def elimBody (ints : List (Pt ℝ)) (k : Nat) (s : List ℝ × ℝ × List (Pt ℝ)) : Outcome (List ℝ × ℝ × List (Pt ℝ)) :=
  (quot (1 / 6) s.2.1).bind fun gk => (wr s.1 k gk).bind fun g =>
    (rd ints k).bind fun x => (rd s.2.2 (k - 1)).bind fun y =>
      if 2 / 3 - gk / 6 = 0 then .ub
      else .ok (g, 2 / 3 - gk / 6, s.2.2 ++ [(1 / (2 / 3 - gk / 6)) • (x - (1 / 6 : ℝ) • y)])

/-- polygon.hxx:1136-1139: back substitution -/
noncomputable def substBody (g : List ℝ) (k : Nat) (s : List (Pt ℝ)) : Outcome (List (Pt ℝ)) :=
  (rd g (k + 1)).bind fun c => (rd s (k + 1)).bind fun y => addAt s k (-(c • y))

/-- polygon.hxx:1121-1142: the system for open polygons -/
noncomputable def solveOpen (ints simple : List (Pt ℝ)) (count : Nat) (first last : Pt ℝ) : Outcome (List (Pt ℝ)) :=
  (rd ints (count - 1)).bind fun x => (addAt ints count (last - x)).bind fun a =>
    (rd a 0).bind fun x => (addAt a 1 (-((1 / 6 : ℝ) • x))).bind fun a =>
      (rd a count).bind fun x => (addAt a (count - 1) (-((1 / 6 : ℝ) • x))).bind fun a =>
        (rd a 1).bind fun x =>
          (forUp (elimBody a) (count - 2) 2 (List.replicate count 0, 2 / 3, simple ++ [first, (1 / (2 / 3 : ℝ)) • x])).bind fun s =>
            (forDown (substBody s.1) (count - 2) (count - 2) s.2.2).bind fun r => .ok (r ++ [last])

/-- polygon.hxx:1148-1152, the constants -/
noncomputable def bC : ℝ := 0.6220084679281461
/-- polygon.hxx:1148-1152, the constants -/
noncomputable def gC : ℝ := 0.26794919243112275

/-- polygon.hxx:1154-1157 -/
noncomputable def cycBody (ints : List (Pt ℝ)) (count : Nat) (k : Nat) (p : List (Pt ℝ)) : Outcome (List (Pt ℝ)) :=
  (rd ints (k % count)).bind fun x => (rd p (k - 1)).bind fun y => wr p k ((1 / bC) • (x - (1 / 6 : ℝ) • y))

/-- polygon.hxx:1158-1161 -/
noncomputable def cycBack (k : Nat) (p : List (Pt ℝ)) : Outcome (List (Pt ℝ)) :=
  (rd p (k + 1)).bind fun y => addAt p k (-(gC • y))

/-- polygon.hxx:1163-1166: `simple.push_back(p[k])` -/
def pushBody (p : List (Pt ℝ)) (k : Nat) (s : List (Pt ℝ)) : Outcome (List (Pt ℝ)) := (rd p k).bind fun x => .ok (s ++ [x])

/-- polygon.hxx:1143-1167: the system for closed polygons -/
noncomputable def solveClosed (ints simple : List (Pt ℝ)) (count : Nat) : Outcome (List (Pt ℝ)) :=
  (rd ints count).bind fun x => (addAt ints 0 x).bind fun a =>
    let init := min count 5
    (rd a 0).bind fun x => (wr (List.replicate (count + 2 * init) 0) 0 ((1 / bC) • x)).bind fun p =>
      (forUp (cycBody a count) (count + 2 * init - 1) 1 p).bind fun p =>
        (forDown cycBack (count + 2 * init - 1 - init) (count + 2 * init - 2) p).bind fun p =>
          (forUp (pushBody p) init count simple).bind fun s => forUp (pushBody p) (count + 1 - init) init s

/-- polygon.hxx:1040-1168 `resamplePolygon` -/
noncomputable def resamplePolygon (poly simple : List (Pt ℝ)) (dist : ℝ) : Outcome (List (Pt ℝ)) :=
  (rd poly (poly.length - 1)).bind fun last => (rd poly 0).bind fun first =>
    (rd (arcLengthList poly) (poly.length - 1)).bind fun len => (quot len dist).bind fun q =>
      if ⌈q⌉ < 2 then
        if last ≠ first then .ok (simple ++ [first, last])
        else (rd poly 1).bind fun p => (forUp (farBody poly first) (poly.length - 3) 2 (p, mag (p - first))).bind fun r =>
          .ok (simple ++ [first, r.1, last])
      else
        (quot (⌈q⌉.toNat : ℝ) len).bind fun c =>
          (forUp (fitBody (decide (last ≠ first)) ⌈q⌉.toNat poly ((arcLengthList poly).map (· * c)) first) (poly.length - 1) 1
            ⟨List.replicate (⌈q⌉.toNat + 1) 0, first, 0, 1⟩).bind fun f =>
              if last ≠ first then solveOpen f.ints simple ⌈q⌉.toNat first last else solveClosed f.ints simple ⌈q⌉.toNat

/-! ## Exponential filter -/

/-- polygon.hxx:1219-1220 -/
noncomputable def weights (scale : ℝ) : List (Pt ℝ) → List ℝ
  | p :: q :: l => Real.exp (-mag (p - q) / scale) :: weights scale (q :: l)
  | _ => []

/-- A point sum and its weight (`p`, `w`; the entries of `pforward`, `wforward` and so on). -/
abbrev Acc := Pt ℝ × ℝ

/-- `p = poly[k] + weight*p; w = 1.0 + weight*w` (polygon.hxx:1227-1228, 1237-1238, 1255-1256, 1260-1261) -/
noncomputable def Acc.add (p : Pt ℝ) (w : ℝ) (a : Acc) : Acc := (p + w • a.1, 1 + w * a.2)

/-- polygon.hxx:1225-1229: the sum up to the last point, from `a` at the first of the points -/
noncomputable def sweep (scale : ℝ) : Acc → List (Pt ℝ) → Acc
  | a, p :: q :: l => sweep scale (Acc.add q (Real.exp (-mag (p - q) / scale)) a) (q :: l)
  | a, _ => a

/-- polygon.hxx:1233-1239: the sum down to the first point, from `a` at the last one -/
noncomputable def sweepBack (scale : ℝ) (a : Acc) : List (Pt ℝ) → Acc
  | p :: q :: l => Acc.add p (Real.exp (-mag (p - q) / scale)) (sweepBack scale a (q :: l))
  | _ => a

/-- polygon.hxx:1253-1257: all entries of `pforward`, `wforward` -/
noncomputable def forwardPass (scale : ℝ) : Acc → List (Pt ℝ) → List Acc
  | a, p :: q :: l => a :: forwardPass scale (Acc.add q (Real.exp (-mag (p - q) / scale)) a) (q :: l)
  | a, [_] => [a]
  | _, [] => []

/-- polygon.hxx:1258-1262: all entries of `pbackward`, `wbackward` -/
noncomputable def backwardPass (scale : ℝ) (a : Acc) : List (Pt ℝ) → List Acc
  | p :: q :: l => Acc.add p (Real.exp (-mag (p - q) / scale)) (sweepBack scale a (q :: l)) :: backwardPass scale a (q :: l)
  | [_] => [a]
  | [] => []

/-- polygon.hxx:1244-1251: the start values for open polygons; `f`, `b` are the sums of the two sweeps -/
noncomputable def openInit (first last : Pt ℝ) (f b : Acc) : Acc × Acc :=
  (((2 * b.2) • first - b.1, b.2), ((2 * f.2) • last - f.1, f.2))

/-- A weighted mean of an entry of the forward and one of the backward pass -/
noncomputable def blend (u v : ℝ) (a b : Acc) : Outcome (Pt ℝ) :=
  if u * a.2 + v * b.2 = 0 then .ub else .ok ((1 / (u * a.2 + v * b.2)) • (u • a.1 + v • b.1))

/-- polygon.hxx:1274-1284: the arc lengths of the smoothed points; state `(arcLength, p)` -/
noncomputable def smoothBody (fw bw : List Acc) (w : List ℝ) (k : Nat) (s : List ℝ × Pt ℝ) : Outcome (List ℝ × Pt ℝ) :=
  (rd fw k).bind fun a => (rd w k).bind fun x => (rd bw (k + 1)).bind fun b => (blend 1 x a b).bind fun pc =>
    (rd s.1 (s.1.length - 1)).bind fun len => .ok (s.1 ++ [len + mag (pc - s.2)], pc)

/-- polygon.hxx:1294-1303: the body of the loop; state `(simple, l)` -/
noncomputable def expBody (size : Nat) (fw bw : List Acc) (w arc : List ℝ) (step : ℝ) (k : Nat) (s : List (Pt ℝ) × Nat) :
    Outcome (List (Pt ℝ) × Nat) :=
  (search arc (k * step) (size - s.2) s.2).bind fun l =>
    (rd w (l - 1)).bind fun x => (rd arc l).bind fun a => (rd arc (l - 1)).bind fun b =>
      (quot (a - k * step) (a - b)).bind fun o =>
        (rd fw (l - 1)).bind fun f => (rd bw l).bind fun g => (blend (x ^ (1 - o)) (x ^ o) f g).bind fun p => .ok (s.1 ++ [p], l)

/-- polygon.hxx:1205-1306 `resamplePolygonExponentialFilter` -/
noncomputable def exponentialFilter (poly simple : List (Pt ℝ)) (scale dist : ℝ) : Outcome (List (Pt ℝ)) :=
  let size := poly.length
  if size ≤ 2 then .ok poly
  else if scale = 0 then .ub
  else (rd poly (size - 1)).bind fun last => (rd poly 0).bind fun first =>
    let w := weights scale poly
    let f0 := sweep scale (first, 1) poly
    let b0 := sweepBack scale (last, 1) poly
    let i := if last ≠ first then openInit first last f0 b0 else (f0, b0)
    let fw := forwardPass scale i.1 poly
    let bw := backwardPass scale i.2 poly
    (rd fw 0).bind fun f => (rd w 0).bind fun x => (rd bw 1).bind fun b => (blend 1 x f b).bind fun p =>
      (rd w (size - 2)).bind fun x => (rd fw (size - 2)).bind fun f => (rd bw (size - 1)).bind fun b =>
        (if last ≠ first then blend x 1 f b else .ok p).bind fun pend =>
          (forUp (smoothBody fw bw w) (size - 2) 1 ([0], p)).bind fun s =>
            (rd s.1 (s.1.length - 1)).bind fun l1 =>
              let arc := s.1 ++ [l1 + mag (s.2 - pend)]
              (rd arc (size - 1)).bind fun len => (quot len dist).bind fun q =>
                (forUp (expBody size fw bw w arc (len / ⌊q + 0.5⌋)) (⌊q + 0.5⌋ - 1).toNat 1 (simple ++ [p], 1)).bind fun r =>
                  .ok (r.1 ++ [pend])

/-! ## Digital lines -/

/-- `TinyVector<double, 3>`: the line `a x + b y + c = 0` -/
abbrev Line3 := ℝ × ℝ × ℝ

/-- polygon.hxx:943-948 `digitalLineIntersection` -/
noncomputable def lineIntersection (l1 l2 : Line3) : Outcome (Pt ℝ) :=
  let d := l1.1 * l2.2.1 - l1.2.1 * l2.1
  (quot (l1.2.1 * l2.2.2 - l1.2.2 * l2.2.1) d).bind fun x => (quot (l1.2.2 * l2.1 - l1.1 * l2.2.2) d).bind fun y => .ok (x, y)

/-- The variables of the loop, polygon.hxx:969-976. -/
structure Dig where
  lines : List Line3
  l1 : Pt ℝ
  r1 : Pt ℝ
  l2 : Pt ℝ
  r2 : Pt ℝ
  a : ℝ
  b : ℝ
  c : ℝ

/-- polygon.hxx:969-976, 990-997: a new segment -/
def Dig.new (lines : List Line3) (p q : Pt ℝ) : Dig :=
  ⟨lines, p, p, q, q, q.2 - p.2, p.1 - q.1, -(q.2 - p.2) * q.1 - (p.1 - q.1) * q.2⟩

/-- polygon.hxx:986-988, 1024-1025: finish the current segment -/
noncomputable def Dig.finish (s : Dig) : List Line3 := s.lines ++ [(s.a, s.b, (s.c - s.a * s.r2.1 - s.b * s.r2.2) / 2)]

/-- polygon.hxx:979-982 -/
noncomputable def Dig.ab (four : Bool) (s : Dig) : ℝ := if four then |s.a| + |s.b| else max |s.a| |s.b|

/-- polygon.hxx:977-1022: one point -/
noncomputable def digBody (four : Bool) (poly : List (Pt ℝ)) (k : Nat) (s : Dig) : Outcome Dig :=
  (rd poly k).bind fun p => (rd poly (k - 1)).bind fun prev =>
    let d := s.a * p.1 + s.b * p.2 + s.c
    .ok (if d < -1 ∨ d > s.ab four then Dig.new s.finish prev p
      else if d ≤ 0 then
        if d < 0 then { s with
          l2 := p, r1 := s.r2, a := p.2 - s.l1.2, b := s.l1.1 - p.1, c := -(p.2 - s.l1.2) * p.1 - (s.l1.1 - p.1) * p.2 }
        else { s with l2 := p }
      else if d ≥ s.ab four - 1 then
        if d > s.ab four - 1 then { s with
          r2 := p, l1 := s.l2, a := p.2 - s.r1.2, b := s.r1.1 - p.1, c := -(p.2 - s.r1.2) * s.l2.1 - (s.r1.1 - p.1) * s.l2.2 }
        else { s with r2 := p }
      else s)

/-- polygon.hxx:1033-1034 -/
noncomputable def meetBody (lines : List Line3) (k : Nat) (s : List (Pt ℝ)) : Outcome (List (Pt ℝ)) :=
  (rd lines (k - 1)).bind fun x => (rd lines k).bind fun y => (lineIntersection x y).bind fun p => .ok (s ++ [p])

/-- polygon.hxx:952-1040 `simplifyPolygonDigitalLine` -/
noncomputable def digitalLine (poly simple : List (Pt ℝ)) (connectivity : Nat) : Outcome (List (Pt ℝ)) :=
  if poly.length ≤ 2 then .ok poly
  else if connectivity ≠ 4 ∧ connectivity ≠ 8 then .precond
  else (rd poly 0).bind fun first => (rd poly 1).bind fun second => (rd poly (poly.length - 1)).bind fun last =>
    (forUp (digBody (connectivity = 4) poly) (poly.length - 2) 2 (Dig.new [] first second)).bind fun s =>
      let lines := s.finish
      (if last ≠ first then .ok first else (rd lines 0).bind fun x => (rd lines (lines.length - 1)).bind fun y => lineIntersection x y).bind fun b =>
        (forUp (meetBody lines) (lines.length - 1) 1 (simple ++ [b])).bind fun r =>
          (if last ≠ first then .ok last else (rd lines 0).bind fun x => (rd lines (lines.length - 1)).bind fun y => lineIntersection x y).bind fun e =>
            .ok (r ++ [e])

end Verif.Resample
