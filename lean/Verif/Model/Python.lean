import Verif.Model.Table
import Verif.Model.DirectScatter
import Verif.Model.Calculator
import Verif.Model.Orientation
import Verif.Model.Spheroid

/-!
# The Python class `TMatrix` (src/PyTMatrix.hpp)

Array arguments are represented by what `Model.Numpy` reads from them.  Real numbers for `float_type` and for `double`.
-/
namespace Verif.Python

open Verif.Table (Arr exec)
open Verif.Direct (Obj)
open Verif.TMatrix (TRes)
open Verif.Orientation (Fail)

/-- an array argument: without axes (`scalar`) or with one axis; its elements -/
structure Input where
  scalar : Bool
  vals : List ℝ

/-- an array without axes has one element -/
def Input.Ok (x : Input) : Prop := x.scalar = true → x.vals.length = 1

noncomputable section

/-- `get_extinction_matrix` (PyTMatrix.hpp:529-573); `none` is undefined behaviour -/
def getExtinctionMatrix (T : Obj ℝ ℂ) (theta phi : Input) (alpha beta : ℝ) : Option (Arr ℝ) :=
  let dims := [theta.vals.length, phi.vals.length, 4, 4]
  let writes := (List.range theta.vals.length).flatMap fun it => (List.range phi.vals.length).flatMap fun ip =>
    let K := (theta.vals[it]?).bind fun th => (phi.vals[ip]?).map fun ph => Direct.extinctionMatrix T alpha beta th ph
    (List.range 4).flatMap fun i => (List.range 4).map fun j => ([it, ip, i, j], K.map fun K => K.get i j)
  (exec (Arr.new dims) writes).map Arr.squeeze

/-- `get_scattering_matrix` (PyTMatrix.hpp:659-715) -/
def getScatteringMatrix (T : Obj ℝ ℂ) (thetaIn phiIn thetaOut phiOut : Input) (alpha beta : ℝ) : Option (Arr ℝ) :=
  let dims := [thetaIn.vals.length, phiIn.vals.length, thetaOut.vals.length, phiOut.vals.length, 4, 4]
  let writes := (List.range thetaIn.vals.length).flatMap fun a => (List.range phiIn.vals.length).flatMap fun b =>
    (List.range thetaOut.vals.length).flatMap fun c => (List.range phiOut.vals.length).flatMap fun d =>
    let Z := (thetaIn.vals[a]?).bind fun ti => (phiIn.vals[b]?).bind fun pi => (thetaOut.vals[c]?).bind fun tout =>
      (phiOut.vals[d]?).map fun po => Direct.scatteringMatrix T alpha beta ti pi tout po
    (List.range 4).flatMap fun i => (List.range 4).map fun j => ([a, b, c, d, i, j], Z.map fun Z => Z i j)
  (exec (Arr.new dims) writes).map Arr.squeeze

/-- copy `n` elements of a vector to the data block of an array (PyTMatrix.hpp:342-344, 435-437) -/
def copyTo (a : Arr ℝ) (n : Nat) (C : Nat → ℝ) : Arr ℝ := { a with data := fun i => if i < n then some (C i) else a.data i }

/-- `get_absorption_cross_section` (PyTMatrix.hpp:325-351); `PyArray_Return` changes only arrays without axes.  The vector that is passed
has `thetasize` zeros.  `none`: the quadrature rule is not found (`Direct.rules`). -/
def getAbsorptionCrossSection (T : Obj ℝ ℂ) (fuel : Nat) (theta : Input) (ngauss : Nat) : Option (Arr ℝ) :=
  let n := theta.vals.length
  (Direct.absorptionArray T fuel (fun i => theta.vals[i]?.getD 0) n ngauss fun _ => 0).map fun C => copyTo (Arr.new [n]) n C

/-- `get_absorption_cross_sections` (PyTMatrix.hpp:419-444) -/
def getAbsorptionCrossSections (T : Obj ℝ ℂ) (fuel : Nat) (theta : Input) (ngauss : Nat) : Option (Arr ℝ) :=
  let n := theta.vals.length
  (Direct.absorptionPairs T fuel (fun i => theta.vals[i]?.getD 0) n ngauss fun _ => 0).map fun C => (copyTo (Arr.new [n, 2]) (2 * n) C).squeeze

/-- arguments of `__init__` (PyTMatrix.hpp:105-178) -/
structure Args where
  radius : ℝ
  axisRatio : ℝ
  wavelength : ℝ
  mr : ℂ
  cos2beta : ℝ := 1 / 3
  tolerance : ℝ := 1 / 10 ^ 4
  maximumOrder : Nat := 200
  gaussLegendreFactor : Nat := 2
  maximumNgauss : Nat := 500
  isEqualVolumeRadius : Bool := true

/-- `ratio_of_radii` (PyTMatrix.hpp:116, 180-182) -/
def ratioOfRadii (A : Args) : ℝ := if A.isEqualVolumeRadius then 1 else 1 / 10

/-- `R_V` of `calculate_TMatrix` (TMatrixCalculator.hpp:73-80) -/
def radiusV (A : Args) : ℝ :=
  let ratio := ratioOfRadii A
  (if |ratio - 1| > 1 / 10 ^ 8 then Spheroid.sphereRatio A.axisRatio else ratio) * A.radius

/-- The choice of the orientation distribution (PyTMatrix.hpp:190-204) for a T-matrix of order `nmax`; `.ok none`: no averaging.  The default
value of `cos2beta` and the constant it is compared with are the same double precision number, here `1/3`; the tolerances are the
default arguments of `initialise` (OrientationDistribution.hpp:220-221). -/
def orientation (fuel : Nat) (cos2beta axisRatio : ℝ) (nmax : Nat) : Except Fail (Option (Orientation.Dist ℝ)) :=
  open Classical in
  if cos2beta ≥ 0 then
    if cos2beta = 0 ∨ cos2beta = 1 then .ok (some (Orientation.davisGreenstein (2 * nmax) axisRatio))
    else if cos2beta = 1 / 3 then
      (Orientation.initialise Special.realOps fuel Orientation.uniformP (1 / 10 ^ 10) (1 / 10 ^ 5) (Orientation.base (2 * nmax))).map some
    else (Orientation.mishchenko (2 * nmax) cos2beta).map some
  else .ok none

/-- what creating the object leads to -/
inductive Outcome
  /-- `ctm_error`: the program (with the Python interpreter) ends -/
  | abort
  /-- undefined behaviour -/
  | ub
  /-- a quadrature that does not end -/
  | hang
  | ok (T : TRes ℂ ℝ)

/-- `__init__` after the arguments have been parsed (PyTMatrix.hpp:184-213).  `make RV` is the constructor of `TMatrix` for a radius `RV` (order, number of
quadrature points), `complete` its `compute_additional_elements` (`Model.Direct`). -/
def init (make : ℝ → Nat → Nat → TRes ℂ ℝ) (complete : TRes ℂ ℝ → TRes ℂ ℝ) (fuel : Nat) (A : Args) : Outcome :=
  match Calculator.calculate (make (radiusV A)) complete
      (Calculator.startOrder Spheroid.sphereRatio (ratioOfRadii A) A.axisRatio A.radius A.wavelength) A.maximumOrder A.gaussLegendreFactor
      A.maximumNgauss A.tolerance with
  | .error => .abort
  | .null => .ub
  | .ok T =>
    match orientation fuel A.cos2beta A.axisRatio T.nmax with
    | .error .ub => .ub
    | .error .error => .abort
    | .error .diverge => .hang
    | .ok none => .ok T
    | .ok (some d) =>
      let s := Calculator.applyOrientation Real.sqrt (fun x : ℝ => (x : ℂ)) T ⟨d.size, fun i => d.coef i.toNat, true⟩
      if s.C.ok && s.p.ok then .ok s.out else .ub

end

end Verif.Python
