import Verif.Model.Matrix
import Mathlib.Algebra.Order.Field.Basic

/-!
# Table look-up, bisection, shape averaging

`src/Table.hpp`, `src/Utilities.hpp:locate`, `src/ShapeAveragingTask.hpp`. Numbers are exact: elements of an ordered field.
-/
namespace Verif.Interp

open Verif.Matrix (loop)

/-! ### `LinearInterpolatedTable::get_row` -/

/-- the `while (ilow + 1 != ihigh)` loops (Table.hpp:211-222, 230-241): `goesLow inext` is the condition that moves `ilow`. The
loop is only entered with `ilow < ihigh` (the end points differ), so that the last branch is not taken -/
def bisect (goesLow : Nat → Bool) (ilow ihigh : Nat) : Nat × Nat :=
  if ilow + 1 = ihigh then (ilow, ihigh)
  else if ilow + 1 < ihigh then
    let inext := (ilow + ihigh) / 2
    if goesLow inext then bisect goesLow inext ihigh else bisect goesLow ilow inext
  else (ilow, ihigh)
termination_by ihigh - ilow

/-- outcome of a look-up -/
inductive Lookup (K : Type) where
  | row (r : Nat → K)
  /-- `ctm_error("Table endpoints are the same!")` -/
  | errorEndpoints
  /-- an assertion fails (only if assertions are active) -/
  | assertion
  /-- rows are read that do not exist -/
  | undefined

variable {K : Type} [Field K] [LinearOrder K]

/-- `get_row<col>(xvalue)` (Table.hpp:201-260) of a table with rows `rows 0 .. rows (size-1)`; `asserts`: the code was configured
with assertions -/
def getRow (rows : Nat → Nat → K) (size col : Nat) (asserts : Bool) (xvalue : K) : Lookup K :=
  if size = 0 then .undefined   -- `_rows.size() - 1` wraps around, `_rows[0]` does not exist
  else
    let x := fun i => rows i col
    let interpolate := fun (ilow ihigh : Nat) =>
      let xfac := (xvalue - x ilow) / (x ihigh - x ilow)
      Lookup.row fun i => (1 - xfac) * rows ilow i + xfac * rows ihigh i
    if x 0 < x (size - 1) then
      let (ilow, ihigh) := bisect (fun inext => decide (x inext ≤ xvalue)) 0 (size - 1)
      if asserts ∧ ¬ (xvalue ≥ x ilow ∧ xvalue ≤ x ihigh) then .assertion else interpolate ilow ihigh
    else if x 0 > x (size - 1) then
      let (ilow, ihigh) := bisect (fun inext => decide (x inext ≥ xvalue)) 0 (size - 1)
      if asserts ∧ ¬ (xvalue ≤ x ilow ∧ xvalue ≥ x ihigh) then .assertion else interpolate ilow ihigh
    else .errorEndpoints

/-! ### `Utilities::locate` -/

/-- the loop of `locate` (Utilities.hpp:514-521) -/
def locateLoop (x : K) (xarr : Nat → K) (jl ju : Nat) : Nat :=
  if ju - jl > 1 then
    let jm := (ju + jl) / 2
    if x > xarr jm then locateLoop x xarr jm ju else locateLoop x xarr jl jm
  else jl
termination_by ju - jl

/-- `locate` (Utilities.hpp:510-526); indices are unsigned 64 bit integers, the decrement wraps around at zero -/
def locate (x : K) (xarr : Nat → K) (length : Nat) : Nat :=
  let jl := locateLoop x xarr 0 length
  if jl = (length + (2 ^ 64 - 1)) % 2 ^ 64 then (jl + (2 ^ 64 - 1)) % 2 ^ 64 else jl

/-! ### shape averaging -/

/-- result of the absorption calculation for one shape -/
structure AbsRes (K : Type) where
  Qabs : Nat → K
  Qabspol : Nat → K

/-- result of the extinction calculation for one shape -/
structure ExtRes (K : Type) where
  Qext : Nat → K
  Qextpol : Nat → K
  Qextcpol : Nat → K

/-- `add_input_coefficient` (ShapeAveragingTask.hpp:114-120, 246-252, 382-388): the input pointers are `nullptr` at first -/
def addInput {R : Type} (inputs : Nat → Option R) (ishape : Nat) (r : R) : Nat → Option R := Function.update inputs ishape (some r)

/-- `for` loop whose body may fail (a null pointer is used) -/
def loopO {σ : Type} (n : Nat) (body : Nat → σ → Option σ) : σ → Option σ :=
  fun s => loop 0 n (fun k o => o.bind (body k)) (some s)

/-- `AbsorptionShapeAveragingTask::execute` (ShapeAveragingTask.hpp:127-166); `none`: a null pointer is used -/
def averageAbs (ntheta nshape : Nat) (weight : Nat → K) (inputs : Nat → Option (AbsRes K)) (out : AbsRes K) : Option (AbsRes K) := do
  let out := loop 0 ntheta (fun it o => ⟨Function.update o.Qabs it 0, Function.update o.Qabspol it 0⟩) out
  let (norm, out) ← loopO nshape (fun ishape (s : K × AbsRes K) => do
    let inp ← inputs ishape
    let w := weight ishape
    return (s.1 + w, loop 0 ntheta (fun it o =>
      ⟨Function.update o.Qabs it (o.Qabs it + w * inp.Qabs it), Function.update o.Qabspol it (o.Qabspol it + w * inp.Qabspol it)⟩) s.2)) (0, out)
  let normInv := 1 / norm
  return loop 0 ntheta (fun it o => ⟨Function.update o.Qabs it (o.Qabs it * normInv), Function.update o.Qabspol it (o.Qabspol it * normInv)⟩) out

/-- `ExtinctionShapeAveragingTask::execute` (ShapeAveragingTask.hpp:259-302) -/
def averageExt (ntheta nshape : Nat) (weight : Nat → K) (inputs : Nat → Option (ExtRes K)) (out : ExtRes K) : Option (ExtRes K) := do
  let out := loop 0 ntheta (fun it o => ⟨Function.update o.Qext it 0, Function.update o.Qextpol it 0, Function.update o.Qextcpol it 0⟩) out
  let (norm, out) ← loopO nshape (fun ishape (s : K × ExtRes K) => do
    let inp ← inputs ishape
    let w := weight ishape
    return (s.1 + w, loop 0 ntheta (fun it o =>
      ⟨Function.update o.Qext it (o.Qext it + w * inp.Qext it), Function.update o.Qextpol it (o.Qextpol it + w * inp.Qextpol it),
        Function.update o.Qextcpol it (o.Qextcpol it + w * inp.Qextcpol it)⟩) s.2)) (0, out)
  let normInv := 1 / norm
  return loop 0 ntheta (fun it o => ⟨Function.update o.Qext it (o.Qext it * normInv), Function.update o.Qextpol it (o.Qextpol it * normInv),
    Function.update o.Qextcpol it (o.Qextcpol it * normInv)⟩) out

/-- assignment to element `(i, j)` of matrix number `imat` -/
def setM (o : Nat → Nat → Nat → K) (imat i j : Nat) (v : K) : Nat → Nat → Nat → K :=
  fun a b c => if a = imat ∧ b = i ∧ c = j then v else o a b c

/-- `ScatteringMatrixShapeAveragingTask::execute` (ShapeAveragingTask.hpp:395-439); the matrices have 4 rows and columns, and
`reset` (see `Mat.reset`) sets all their elements to zero -/
def averageScat (nmat nshape : Nat) (weight : Nat → K) (inputs : Nat → Option (Nat → Nat → Nat → K)) (out : Nat → Nat → Nat → K) :
    Option (Nat → Nat → Nat → K) := do
  let out := loop 0 nmat (fun imat o => loop 0 4 (fun i o => loop 0 4 (fun j o => setM o imat i j 0) o) o) out
  let (norm, out) ← loopO nshape (fun ishape (s : K × (Nat → Nat → Nat → K)) => do
    let inp ← inputs ishape
    let w := weight ishape
    return (s.1 + w, loop 0 nmat (fun imat o => loop 0 4 (fun i o => loop 0 4 (fun j o =>
      setM o imat i j (o imat i j + w * inp imat i j)) o) o) s.2)) (0, out)
  let normInv := 1 / norm
  return loop 0 nmat (fun imat o => loop 0 4 (fun i o => loop 0 4 (fun j o => setM o imat i j (o imat i j * normInv)) o) o) out

end Verif.Interp
