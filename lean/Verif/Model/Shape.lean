import Verif.Model.Quadrature
import Mathlib.Analysis.SpecialFunctions.Log.Basic
import Mathlib.Analysis.SpecialFunctions.Trigonometric.Inverse

/-!
# Shape distributions (`DraineHensleyShapeDistribution.hpp`, `ShapeDistribution.hpp`)

Exact real arithmetic; assertions are off by default and not modelled.
-/
namespace Verif.Shape

open Verif.Matrix (loop)
open Verif.Special (Ops gaussLegendreAB)

/-- `get_shape_factor` (DraineHensleyShapeDistribution.hpp:70-86) -/
noncomputable def shapeFactor (d : ℝ) : ℝ :=
  if d < 1 then
    let e2 := 1 - d * d
    let e := Real.sqrt e2
    (1 - e2) * (1 / 2 * Real.log ((1 + e) / (1 - e)) / e - 1) / e2
  else if d > 1 then
    let e2 := 1 - 1 / (d * d)
    let e := Real.sqrt e2
    (1 - Real.sqrt (1 - e2) * Real.arcsin e / e) / e2
  else 1 / 3

/-- `get_jacobian` (DraineHensleyShapeDistribution.hpp:129-159) -/
noncomputable def jacobian (d : ℝ) : ℝ :=
  if d < 1 then
    let e2 := 1 - d * d
    if e2 < 1 / 10 ^ 5 then 4 / 15 + 2 * e2 / 21 + 3 * e2 * e2 / 70
    else
      let e := Real.sqrt e2
      1 / 2 * Real.sqrt (1 - e2) * ((3 - e2) * Real.log ((1 + e) / (1 - e)) - 6 * e) / (e2 * e2 * e)
  else if d > 1 then
    let e2 := 1 - 1 / (d * d)
    if e2 < 1 / 10 ^ 5 then 4 / 15 - 2 * e2 / 21 - 11 * e2 * e2 / 210
    else
      let e := Real.sqrt e2
      (1 - e2) * ((3 - 2 * e2) * Real.arcsin e - 3 * e * Real.sqrt (1 - e2)) / (e2 * e2 * e)
  else 4 / 15

/-- `cde2` (DraineHensleyShapeDistribution.hpp:188-191) -/
noncomputable def cde2 (L : ℝ) : ℝ :=
  let Lm1 := L - 1
  12 * L * Lm1 * Lm1

/-- `evaluate_cde2` (DraineHensleyShapeDistribution.hpp:201-204) -/
noncomputable def evaluateCde2 (d : ℝ) : ℝ := cde2 (shapeFactor d) * jacobian d

/-- `operator()` (DraineHensleyShapeDistribution.hpp:213-221) for the given limits -/
noncomputable def density (dmin dmax d : ℝ) : ℝ :=
  if d ≥ dmin ∧ d ≤ dmax then cde2 (shapeFactor d) * jacobian d else 0

/-! ### the limits, with a cut-off (DraineHensleyShapeDistribution.hpp:304-377)

The loops are run on an arbitrary function `p` of the limits and the axis ratio; `none`: not finished after `fuel`
iterations. -/

/-- `while (valmin > 0.) _minimum_axis_ratio *= 0.5` (DraineHensleyShapeDistribution.hpp:318-322) -/
noncomputable def descend (p : ℝ → ℝ → ℝ → ℝ) (cutoff : ℝ) : Nat → ℝ → Option ℝ
  | 0, _ => none
  | fuel + 1, m => if p m 1 m - cutoff > 0 then descend p cutoff fuel (m * (1 / 2)) else some m

/-- bisection for the minimum (DraineHensleyShapeDistribution.hpp:336-347); the lower end is the member that
`operator()` uses -/
noncomputable def bisectMin (p : ℝ → ℝ → ℝ → ℝ) (cutoff : ℝ) : Nat → ℝ → ℝ → Option (ℝ × ℝ)
  | 0, _, _ => none
  | fuel + 1, m, u =>
    if |m - u| > 5 / 1000 * |m + u| then
      let mid := 1 / 2 * (m + u)
      if p m 1 mid - cutoff < 0 then bisectMin p cutoff fuel mid u else bisectMin p cutoff fuel m mid
    else some (m, u)

/-- `while (valmax > 0.) _maximum_axis_ratio += 1.` (DraineHensleyShapeDistribution.hpp:351-355); `dmin` is the
minimum found before -/
noncomputable def ascend (p : ℝ → ℝ → ℝ → ℝ) (cutoff dmin : ℝ) : Nat → ℝ → Option ℝ
  | 0, _ => none
  | fuel + 1, m => if p dmin m m - cutoff > 0 then ascend p cutoff dmin fuel (m + 1) else some m

/-- bisection for the maximum (DraineHensleyShapeDistribution.hpp:365-376) -/
noncomputable def bisectMax (p : ℝ → ℝ → ℝ → ℝ) (cutoff dmin : ℝ) : Nat → ℝ → ℝ → Option (ℝ × ℝ)
  | 0, _, _ => none
  | fuel + 1, l, m =>
    if |m - l| > 5 / 1000 * |m + l| then
      let mid := 1 / 2 * (l + m)
      if p dmin m mid - cutoff > 0 then bisectMax p cutoff dmin fuel mid m else bisectMax p cutoff dmin fuel l mid
    else some (l, m)

/-- the branch of the constructor that uses a cut-off (DraineHensleyShapeDistribution.hpp:304-377): the two limits -/
noncomputable def limits (p : ℝ → ℝ → ℝ → ℝ) (cutoff : ℝ) (fuel : Nat) : Option (ℝ × ℝ) := do
  let m ← descend p cutoff fuel 1
  let r ← bisectMin p cutoff fuel m 1
  let x ← ascend p cutoff r.1 fuel 1
  let s ← bisectMax p cutoff r.1 fuel 1 x
  return (r.1, s.2)

/-! ### the limits, with a fraction (DraineHensleyShapeDistribution.hpp:235-301)

`I a b` is the value of the adaptive quadrature of the density between `a` and `b` (C70). -/

/-- bisection for the minimum (DraineHensleyShapeDistribution.hpp:248-268) -/
noncomputable def fracMin (I : ℝ → ℝ → ℝ) (target : ℝ) : Nat → ℝ → ℝ → Option ℝ
  | 0, _, _ => none
  | fuel + 1, lower, upper =>
    let half := 1 / 2 * (lower + upper)
    let integral := I half 1
    if |integral - target| > 5 / 1000 * |integral + target| then
      if integral > target then fracMin I target fuel half upper else fracMin I target fuel lower half
    else some half

/-- doubling of the upper limit (DraineHensleyShapeDistribution.hpp:279-286) -/
noncomputable def fracBracket (I : ℝ → ℝ → ℝ) (target : ℝ) : Nat → ℝ → Option ℝ
  | 0, _ => none
  | fuel + 1, upper => if I 1 upper < target then fracBracket I target fuel (upper * 2) else some upper

/-- bisection for the maximum (DraineHensleyShapeDistribution.hpp:287-301) -/
noncomputable def fracMax (I : ℝ → ℝ → ℝ) (target : ℝ) : Nat → ℝ → ℝ → Option ℝ
  | 0, _, _ => none
  | fuel + 1, lower, upper =>
    let half := 1 / 2 * (lower + upper)
    let integral := I 1 half
    if |integral - target| > 1 / 10 ^ 5 * |integral + target| then
      if integral > target then fracMax I target fuel lower half else fracMax I target fuel half upper
    else some half

/-- the branch of the constructor that uses a fraction (DraineHensleyShapeDistribution.hpp:235-301) -/
noncomputable def fracLimits (I : ℝ → ℝ → ℝ) (fraction : ℝ) (fuel : Nat) : Option (ℝ × ℝ) := do
  let prolate := I 0 1
  let m ← fracMin I (fraction * prolate) fuel 0 1
  let target := fraction * (1 - prolate)
  let u ← fracBracket I target fuel 2
  let x ← fracMax I target fuel 1 u
  return (m, x)

/-- `evaluate` (ShapeDistribution.hpp:95-107): points and weights -/
noncomputable def evaluate (o : Ops ℝ) (fuel npoints : Nat) (p : ℝ → ℝ) (dmin dmax : ℝ) : Option ((Nat → ℝ) × (Nat → ℝ)) :=
  (gaussLegendreAB o fuel npoints dmin dmax (fun _ => 0, fun _ => 0)).map fun s =>
    (s.1, loop 0 npoints (fun i w => Function.update w i (w i * p (s.1 i))) s.2)

end Verif.Shape
