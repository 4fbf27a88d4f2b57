import Verif.Model.Quadrature

/-!
# Orientation and alignment distributions

`OrientationDistribution.hpp`, `MishchenkoOrientationDistribution.hpp`, `DavisGreensteinOrientationDistribution.hpp`,
`DisabledAlignmentOrientationDistribution.hpp`, `SizeBasedAlignmentDistribution.hpp`. Exact arithmetic in an ordered
field, elementary functions are parameters. `none` stands for undefined behaviour (an access beyond the vector, a
null pointer), for a fatal error, or for a quadrature that does not end; they are told apart by `Fail` where it
matters. Assertions (`ctm_assert`) are off by default and not modelled.
-/
namespace Verif.Orientation

open Verif.Special Verif.Quadrature
open Verif.Matrix (loop)

/-- why an operation has no result -/
inductive Fail
  | ub
  | error
  | diverge
  deriving DecidableEq, Repr

variable {K : Type} [Field K] [LinearOrder K] (o : Ops K)

/-- members of `OrientationDistribution` (OrientationDistribution.hpp:41, 90): `_normalisation_factor` and
`_coefficients` (size and elements); `align` is what `compute_alignment` returns
(OrientationDistribution.hpp:270, DisabledAlignmentOrientationDistribution.hpp:80) -/
structure Dist (K : Type) where
  norm : K
  size : Nat
  coef : Nat → K
  align : Bool

/-- constructor (OrientationDistribution.hpp:192-193) -/
def base (nmax : Nat) : Dist K := ⟨1, nmax + 1, fun _ => 0, true⟩

/-- copy constructor (OrientationDistribution.hpp:203-210): slicing copy, `compute_alignment` is that of the base
class -/
def copy (d : Dist K) : Dist K := ⟨0, d.size, loop 0 d.size (fun i c => Function.update c i (d.coef i)) (fun _ => 0), true⟩

/-- `get_coefficient` (OrientationDistribution.hpp:251-254), with the vector access checked -/
def getCoefficient (d : Dist K) (n : Nat) : Except Fail K := if n < d.size then .ok (d.coef n) else .error .ub

/-- `get_maximum_order` (OrientationDistribution.hpp:261-263) -/
def maximumOrder (d : Dist K) : Nat := d.size - 1

/-- `_coefficients[i] = v` -/
def write (d : Dist K) (i : Nat) (v : K) : Except Fail (Dist K) :=
  if i < d.size then .ok { d with coef := Function.update d.coef i v } else .error .ub

/-- the default distribution function (OrientationDistribution.hpp:65-68) -/
def uniformP (_beta _cosbeta _sinbeta : K) : K := 1 / 2

/-- `integrand` (OrientationDistribution.hpp:142-163) for a distribution with function `p` and normalisation `norm` -/
def integrand (p : K → K → K → K) (norm : K) (order : Nat) (beta : K) : K :=
  let cosbeta := o.cos beta
  let sinbeta := o.sin beta
  let w := if order > 0 then (wignerD o cosbeta order 0 (fun _ => 0, fun _ => 0)).1 (order - 1) else 1
  let pbeta := norm * p beta cosbeta sinbeta
  sinbeta * pbeta * w

/-- `normalisation_integrand` (OrientationDistribution.hpp:174-183) -/
def normIntegrand (p : K → K → K → K) (beta : K) : K :=
  o.sin beta * p beta (o.cos beta) (o.sin beta)

/-- a quadrature inside `initialise`: the warning is only printed -/
def quad (fuel : Nat) (f : K → K) (start max : Nat) (atol rtol : K) : Except Fail K :=
  match quadrature o fuel f 0 o.pi start max atol rtol with
  | none => .error .diverge
  | some r => .ok r.1

/-- the coefficients of order `1 .. size-1` (OrientationDistribution.hpp:236-243) -/
def initCoefs (fuel : Nat) (p : K → K → K → K) (norm atol rtol : K) : Nat → Dist K → Except Fail (Dist K)
  | 0, d => .ok d
  | left + 1, d => do
    let i := d.size - (left + 1)
    let v ← quad o fuel (integrand o p norm i) (2 * (i + 1)) (100 * (i + 1)) atol rtol
    let d ← write d i v
    initCoefs fuel p norm atol rtol left d

/-- `initialise` (OrientationDistribution.hpp:220-244) -/
def initialise (fuel : Nat) (p : K → K → K → K) (atol rtol : K) (d : Dist K) : Except Fail (Dist K) := do
  let n ← quad o fuel (normIntegrand o p) 100 1000 atol rtol
  let d : Dist K := { d with norm := 1 / n }
  let d ← write d 0 1
  initCoefs o fuel p d.norm atol rtol (d.size - 1) d

/-- `_p2` (MishchenkoOrientationDistribution.hpp:107) -/
def p2 (cos2beta : K) : K := 3 / 2 * cos2beta - 1 / 2

/-- distribution function (MishchenkoOrientationDistribution.hpp:92-96) -/
def mishchenkoP (cos2beta : K) (_beta cosbeta _sinbeta : K) : K :=
  1 / 2 + 5 / 4 * p2 cos2beta * (3 * cosbeta * cosbeta - 1)

/-- constructor (MishchenkoOrientationDistribution.hpp:105-119) -/
def mishchenko (nmax : Nat) (cos2beta : K) : Except Fail (Dist K) := do
  let d : Dist K := base nmax
  let d := { d with coef := loop 0 d.size (fun i c => Function.update c i 0) d.coef }
  let d ← write d 0 1
  write d 2 (p2 cos2beta)

/-- even coefficients of the prolate branch (DavisGreensteinOrientationDistribution.hpp:87-95): state is the vector,
`nominator` and `denominator` -/
def dgEven (i : Nat) (s : (Nat → K) × K × K) : (Nat → K) × K × K :=
  let sign : K := if i % 2 = 0 then 1 else -1
  (Function.update s.1 (2 * i) (sign * s.2.1 / s.2.2), s.2.1 * (2 * (i : K) + 1), s.2.2 * (2 * ((i : K) + 1)))

/-- constructor (DavisGreensteinOrientationDistribution.hpp:76-102); the loop `i = 1; i < size; i += 2` is indexed by
`(i - 1) / 2`, the loop `2 i < size` ends at `(size + 1) / 2` -/
def davisGreenstein (nmax : Nat) (axisRatio : K) : Dist K :=
  let d : Dist K := base nmax
  if axisRatio < 1 then
    let c := loop 0 (d.size / 2) (fun k c => Function.update c (2 * k + 1) 0) d.coef
    let c := Function.update c 0 1
    let r := loop 1 ((d.size + 1) / 2) dgEven (c, 1, 2)
    { d with coef := r.1 }
  else
    { d with coef := loop 0 d.size (fun i c => Function.update c i 1) d.coef }

/-- constructor (DisabledAlignmentOrientationDistribution.hpp:70-71) -/
def disabled : Dist K := ⟨1, 1, fun _ => 0, false⟩

/-- members of `SizeBasedAlignmentDistribution` (SizeBasedAlignmentDistribution.hpp:42-51) -/
structure SizeBased (K : Type) where
  minimumSize : K
  nonAligned : Dist K
  oblate : Dist K
  prolate : Dist K

/-- constructor (SizeBasedAlignmentDistribution.hpp:68-112); default tolerances of `initialise`
(OrientationDistribution.hpp:220-221) -/
def sizeBased (fuel : Nat) (minimumSize : K) (type : Int) (nmax : Nat) (oblate prolate : Option (Dist K)) :
    Except Fail (SizeBased K) := do
  let non ← initialise o fuel uniformP (1 / 10 ^ 10) (1 / 10 ^ 5) (base (2 * nmax))
  if type = 0 then
    .ok ⟨minimumSize, non, davisGreenstein (2 * nmax) 2, davisGreenstein (2 * nmax) (1 / 2)⟩
  else if type = 1 then do
    let ob ← mishchenko (2 * nmax) (3 / 5)
    let pr ← mishchenko (2 * nmax) (1 / 5)
    .ok ⟨minimumSize, non, ob, pr⟩
  else if type = 2 then
    .ok ⟨minimumSize, non, disabled, disabled⟩
  else if type = 3 then
    match oblate, prolate with
    | some ob, some pr => .ok ⟨minimumSize, non, copy ob, copy pr⟩
    | _, _ => .error .ub
  else .error .error

/-- `get_distribution` (SizeBasedAlignmentDistribution.hpp:133-146) -/
def getDistribution (s : SizeBased K) (radius axisRatio : K) : Dist K :=
  if radius > s.minimumSize then
    if axisRatio > 1 then s.oblate else s.prolate
  else s.nonAligned

end Verif.Orientation
