import Verif.Model.Special
import Mathlib.Algebra.BigOperators.Intervals

/-!
# `SpecialFunctions::gauss_legendre_quadrature` (src/SpecialFunctions.hpp:772-810)

Exact arithmetic in an ordered field; `none`: a Newton iteration inside does not finish within `fuel` steps.
The integrand is a pure function (the code passes a function pointer and an argument block).
-/
namespace Verif.Quadrature

open Verif.Special
open Verif.Matrix (loop)

variable {K : Type} [Field K] [LinearOrder K] (o : Ops K)

/-- one rule of the given order applied to the integrand (SpecialFunctions.hpp:787-793); the vectors `x`, `w` are
created with zeros -/
def rule (fuel order : Nat) (f : K → K) (a b : K) : Option K :=
  (gaussLegendreAB o fuel order a b (fun _ => 0, fun _ => 0)).map fun s =>
    loop 0 order (fun i q => q + s.2 i * f (s.1 i)) 0

/-- `relative_difference > desired_relative_difference` with `relative_difference = d / |s|`
(SpecialFunctions.hpp:786, 795-796). Simplification: with a zero denominator the floating point quotient is infinite
(greater than every tolerance) or, for `0/0`, not a number (the comparison is false). -/
def relExceeds (d s tol : K) : Bool :=
  if s = 0 then decide (d ≠ 0) else decide (d / |s| > tol)

/-- the loop (SpecialFunctions.hpp:783-799): `old` is `old_quadrature`, `go` the value of the two comparisons of the
differences with the tolerances; the recursion is on the number of orders left, `maximum_order - order`. Returns the
final order and `old_quadrature`. -/
def iterate (fuel : Nat) (f : K → K) (a b atol rtol : K) : Nat → Nat → K → Bool → Option (Nat × K)
  | 0, order, old, _ => some (order, old)
  | left + 1, order, old, go =>
    if go then
      match rule o fuel order f a b with
      | none => none
      | some new =>
        let d := |new - old|
        iterate fuel f a b atol rtol left (order + 1) new (decide (d > atol) && relExceeds d (new + old) rtol)
    else some (order, old)

/-- `gauss_legendre_quadrature` (SpecialFunctions.hpp:772-810): the returned value and whether the warning is
printed. The differences start at the tolerance plus one, so the first comparison is true. -/
def quadrature (fuel : Nat) (f : K → K) (a b : K) (start max : Nat) (atol rtol : K) : Option (K × Bool) :=
  (iterate o fuel f a b atol rtol (max - start) start 0 true).map fun r => (r.2, decide (r.1 = max))

end Verif.Quadrature
