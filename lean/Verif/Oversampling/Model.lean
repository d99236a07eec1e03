import Verif.Outcome
import Mathlib.Algebra.Field.Basic
import Mathlib.Algebra.Order.Ring.Defs

/-!
# Oversampling convolution (src/geomap/vigra/oversampling.hxx)

Samples and kernel elements come from a field `K` (floating point rounding is not
modelled).  Every read through an iterator checks its index: reading outside the line or
the kernel is `Outcome.ub`.
-/

namespace Verif.Oversampling

variable {K : Type} [Field K]

/-- Read element `i` relative to the begin iterator of a sequence. -/
def readAt (l : List K) (i : Int) : Outcome K :=
  if i < 0 then .ub else
  match l[i.toNat]? with
  | some x => .ok x
  | none => .ub

/-- oversampling.hxx:77-81: reflection of the position at the borders. -/
def reflect (wo m : Int) : Int :=
  if m < 0 then -m else if m ≥ wo then (2 * wo - 2) - m else m

/-- oversampling.hxx:75-83 and 90-93: the summation loop; `n` iterations are left, `m`
is the source position, `k` the position in the kernel.  `mm` maps the position to the
sample read. -/
def sumLoop (src kernel : List K) (mm : Int → Int) : Nat → Int → Int → K → Outcome K
  | 0, _, _, sum => .ok sum
  | n + 1, m, k, sum =>
    (readAt kernel k).bind fun w =>
    (readAt src (mm m)).bind fun x =>
    sumLoop src kernel mm n (m + 1) (k - 1) (sum + w * x)

/-- oversampling.hxx:73-94: one output value from bounds, kernel and start position in
the kernel. -/
def convAt (src kernel : List K) (wo lbound hbound k : Int) : Outcome K :=
  if lbound < 0 ∨ hbound ≥ wo then
    sumLoop src kernel (reflect wo) (hbound - lbound + 1).toNat lbound k 0
  else
    sumLoop src kernel id (hbound - lbound + 1).toNat lbound k 0

/-- oversampling.hxx:54-96: output value number `i`. -/
def outAt (src intKernel halfintKernel : List K) (R Rh i : Int) : Outcome K :=
  if i % 2 = 0 then
    convAt src intKernel src.length (i / 2 - R) (i / 2 + R) (2 * R)
  else
    convAt src halfintKernel src.length (i / 2 - Rh + 1) (i / 2 + Rh) (2 * Rh - 1)

/-- oversampling.hxx:52-97: the outer loop from output `i` on (`n` outputs left). -/
def outLoop (src intKernel halfintKernel : List K) (R Rh : Int) : Nat → Int → Outcome (List K)
  | 0, _ => .ok []
  | n + 1, i =>
    (outAt src intKernel halfintKernel R Rh i).bind fun v =>
    (outLoop src intKernel halfintKernel R Rh n (i + 1)).bind fun vs => .ok (v :: vs)

/-- oversampling.hxx:31-99 `oversamplingConvolutionLine`: the values written. -/
def convolutionLine (src intKernel : List K) (R : Int) (halfintKernel : List K) (Rh : Int) :
    Outcome (List K) :=
  let wo : Int := src.length
  if ¬ (2 * R + 1 ≤ wo ∧ 2 * Rh ≤ wo) then .precond
  else outLoop src intKernel halfintKernel R Rh (2 * (wo - 1) + 1).toNat 0

/-! ## Kernels

`ex` stands for `exp`; only that it is positive is used later. -/

/-- `s2` of oversampling.hxx:107-109. -/
def smoothS2 [LinearOrder K] (scale : K) : K := if 0 < scale then scale * scale * 2 else 1

/-- `exp(-i*i/s2)` (oversampling.hxx:115, 119). -/
def gInt (ex : K → K) (s2 : K) (i : Int) : K := ex (-(i : K) * i / s2)

/-- `exp(-(i+0.5)*(i+0.5)/s2)` (oversampling.hxx:126, 130). -/
def gHalf (ex : K → K) (s2 : K) (i : Int) : K := ex (-((i : K) + 1 / 2) * ((i : K) + 1 / 2) / s2)

/-- Sum of `f` over `from ≤ i < from + n` in the order of the loops. -/
def loopSum (f : Int → K) : Nat → Int → K → K
  | 0, _, s => s
  | n + 1, i, s => loopSum f n (i + 1) (s + f i)

/-- Integer smoothing kernel for a given radius (oversampling.hxx:111-120). -/
def smoothInt (ex : K → K) (s2 : K) (R : Nat) : List K :=
  let sum := loopSum (fun i => 2 * gInt ex s2 i) R 1 (ex 0)
  (List.range (2 * R + 1)).map fun (j : Nat) => gInt ex s2 ((j : Int) - R) / sum

/-- Half-integer smoothing kernel (oversampling.hxx:122-131). -/
def smoothHalf (ex : K → K) (s2 : K) (Rh : Nat) : List K :=
  let sum := loopSum (fun i => 2 * gHalf ex s2 i) Rh 0 0
  (List.range (2 * Rh)).map fun (j : Nat) => gHalf ex s2 ((j : Int) - Rh) / sum

/-- Integer derivative kernel for `scale > 0` (oversampling.hxx:158-168). -/
def derivInt (ex : K → K) (s2 : K) (R : Nat) : List K :=
  let sum := loopSum (fun i => 2 * gInt ex s2 i * i * i) R 1 0
  (List.range (2 * R + 1)).map fun (j : Nat) =>
    -(((j : Int) - R : Int) : K) * gInt ex s2 ((j : Int) - R) / sum

/-- Half-integer derivative kernel for `scale > 0` (oversampling.hxx:170-181); the first
loop runs over `x = i - 0.5`, `i ≥ 1`, that is `x = i' + 0.5`, `i' ≥ 0`. -/
def derivHalf (ex : K → K) (s2 : K) (Rh : Nat) : List K :=
  let sum := loopSum (fun i => 2 * gHalf ex s2 (i - 1) * ((i : K) - 1 / 2) * ((i : K) - 1 / 2)) Rh 1 0
  (List.range (2 * Rh)).map fun (j : Nat) =>
    -((((j : Int) - Rh : Int) : K) + 1 / 2) * gHalf ex s2 ((j : Int) - Rh) / sum

/-- Derivative kernels for `scale = 0` (oversampling.hxx:146-153). -/
def derivInt0 : List K := [1 / 2, 0, -(1 / 2)]

/-- See `derivInt0`. -/
def derivHalf0 : List K := [1, -1]

/-! ## Images -/

/-- Apply a line function to every line, in order. -/
def mapLines (f : List K → Outcome (List K)) : List (List K) → Outcome (List (List K))
  | [] => .ok []
  | l :: ls => (f l).bind fun o => (mapLines f ls).bind fun os => .ok (o :: os)

/-- Row `y` of an image stored by columns. -/
def rowOf (cols : List (List K)) (y : Nat) : List K := cols.map fun c => c.getD y 0

/-- oversampling.hxx:219-261 the two passes of `oversamplingConvolution`, given the
kernels selected by `yorder` and `xorder`.  The source is a list of columns of height
`ho`; the result is the list of output rows. -/
def convolution2 (cols : List (List K)) (ho : Nat)
    (ky kx : List K × Nat × List K × Nat) : Outcome (List (List K)) :=
  (mapLines (fun c => convolutionLine c ky.1 ky.2.1 ky.2.2.1 ky.2.2.2) cols).bind fun tmp =>
  mapLines (fun r => convolutionLine r kx.1 kx.2.1 kx.2.2.1 kx.2.2.2)
    ((List.range (2 * (ho - 1) + 1)).map (rowOf tmp))

end Verif.Oversampling
