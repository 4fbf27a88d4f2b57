import Verif.Model.Python

/-!
# `evaluate` of the Python classes for orientation distributions (src/PyOrientationDistribution.hpp)

Real numbers for `float_type` and for `double`.
-/
namespace Verif.Python

open Verif.Table (Arr exec)
open Verif.Special Verif.Orientation
open Verif.Matrix (loop)

noncomputable section

/-- The value for one angle (PyOrientationDistribution.hpp:193-208); `none` is undefined behaviour: `wigner_d[0] = 1.` for an empty vector.
`wigner_dn_0m` gets the address of element 1 of the vectors, with `get_maximum_order() - 1` elements from there on.  (For an order of 1 there are none, and
the reference to the element after the last one is only used for its address.) -/
def evaluateAt (d : Orientation.Dist ℝ) (theta : ℝ) : Option ℝ :=
  let order := maximumOrder d
  if order = 0 then none
  else
    let r := wignerD realOps (realOps.cos theta) (order - 1) 0 (fun _ => 0, fun _ => 0)
    let wigner : Nat → ℝ := fun n => if n = 0 then 1 else r.1 (n - 1)
    some (loop 0 order (fun n value => value + 1 / 2 * (2 * (n : ℝ) + 1) * d.coef n * wigner n) 0)

/-- `evaluate` (PyOrientationDistribution.hpp:185-215) -/
def evaluate (d : Orientation.Dist ℝ) (theta : Input) : Option (Arr ℝ) :=
  let writes := (List.range theta.vals.length).map fun (i : Nat) => ([i], theta.vals[i]?.bind fun th => evaluateAt d th)
  (exec (Arr.new [theta.vals.length]) writes).map Arr.squeeze

end

end Verif.Python
