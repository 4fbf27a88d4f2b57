import Verif.Model.Alignment
import Verif.Model.Quadrature
import Mathlib.Analysis.SpecialFunctions.Pow.Real
import Mathlib.Analysis.SpecialFunctions.Trigonometric.Basic
import Mathlib.Analysis.Complex.Basic

/-!
# The stand-alone T-matrix calculation (src/TMatrixCalculator.hpp)

Exact arithmetic. Sizes are natural numbers without wrap-around at `2^64`. What the constructor of `TMatrix` and its
`compute_additional_elements` compute are parameters here (`make`, `complete`): the functions below work for every such pair.
A `TMatrix` is represented by `TRes`: `operator()` and `set_element` of `TMatrix` (TMatrix.hpp:1028-1090) have the same text as
those of `TMatrixResource`, and their matrices for degree `m` have the same shape (TMatrix.hpp:549-553).
-/
namespace Verif.Calculator

open Verif.Matrix (loop)
open Verif.TMatrix (TRes)
open Verif.Quadrature (relExceeds)
open Verif.Clebsch (Vec)

/-- the first guess for the order (TMatrixCalculator.hpp:73-88): `ratio` is the ratio of radii that was given, `ratioOf` the
function `get_equal_volume_to_equal_surface_area_sphere_ratio`. Simplification: the conversion to `uint_fast32_t` of values of
`2^64` and more (undefined) is the floor. -/
noncomputable def startOrder (ratioOf : ℝ → ℝ) (ratio axisRatio axi wavelength : ℝ) : Nat :=
  let ratio := if |ratio - 1| > 1 / 10 ^ 8 then ratioOf axisRatio else ratio
  let RV := ratio * axi
  let xev := 2 * Real.pi * RV / wavelength
  ⌊max 4 (xev + 405 / 100 * xev ^ ((1 : ℝ) / 3))⌋₊

/-- the variables of the two loops; `go`: the value of `dext > tolerance || dsca > tolerance` -/
structure St where
  T : Option (TRes ℂ ℝ)
  qsca : ℝ
  qext : ℝ
  go : Bool

/-- `qsca`, `qext` (TMatrixCalculator.hpp:115-122, 164-171); `std::norm` is the square of the absolute value -/
noncomputable def factors (nmax : Nat) (T : TRes ℂ ℝ) : ℝ × ℝ :=
  loop 1 (nmax + 1) (fun n q =>
    let dn1 : ℝ := 2 * n + 1
    (q.1 + dn1 * (Complex.normSq (T.get 0 n 0 0 n) + Complex.normSq (T.get 1 n 0 1 n)),
      q.2 + dn1 * ((T.get 0 n 0 0 n).re + (T.get 1 n 0 1 n).re))) (0, 0)

/-- body of the loops from the creation of the new matrix to the update of the old values (TMatrixCalculator.hpp:108-127,
158-176) -/
noncomputable def step (tol : ℝ) (nmax : Nat) (T : TRes ℂ ℝ) (s : St) : St :=
  let q := factors nmax T
  { T := some T
    qsca := q.1
    qext := q.2
    go := relExceeds |s.qext - q.2| q.2 tol || relExceeds |s.qsca - q.1| q.1 tol }

/-- a loop `while (i < limit && (dext > tolerance || dsca > tolerance)) { ...; ++i; }`, for `left = limit - i` -/
def search (body : Nat → St → St) : Nat → Nat → St → Nat × St
  | 0, i, s => (i, s)
  | left + 1, i, s => if s.go then search body left (i + 1) (body i s) else (i, s)

/-- what a call leads to -/
inductive Outcome
  /-- `ctm_error("Unable to converge!")`: the program ends -/
  | error
  /-- a null pointer is followed -/
  | null
  | ok (T : TRes ℂ ℝ)

/-- `calculate_TMatrix` from the first loop on (TMatrixCalculator.hpp:96-208), for a first guess `nmax` for the order -/
noncomputable def calculate (make : Nat → Nat → TRes ℂ ℝ) (complete : TRes ℂ ℝ → TRes ℂ ℝ) (nmax maxOrder ndgs maxGauss : Nat)
    (tol : ℝ) : Outcome :=
  let s : St := { T := none, qsca := 0, qext := 0, go := decide (1 > tol) }
  let (nmax, s) := search (fun nmax s => step tol nmax (make nmax (ndgs * nmax)) s) (maxOrder - nmax) nmax s
  if nmax = maxOrder then .error
  else
    let nmax := nmax - 1
    let ngauss := nmax * ndgs + 1
    let s := { s with go := decide (tol + 1 > tol) }
    let (ngauss, s) := search (fun ngauss s => step tol nmax (make nmax ngauss) s) (maxGauss - ngauss) ngauss s
    if ngauss = maxGauss then .error
    else
      match s.T with
      | none => .null
      | some T => .ok (complete T)

section

variable {R K : Type} [Field K] [Field R] (sqrt : R → R) (ι : R → K)

/-- body of the loop over `N` of `apply_orientation_distribution` (TMatrixCalculator.hpp:257-296): a new vector of
`(N + 1) (2 n1 + 1)` zeros for the Clebsch-Gordan coefficients, after that the statements of `AlignmentAverageTask`. The
first component is the vector of the last order; its `ok` records the accesses to all vectors so far. -/
def addOrder (inp : TRes K R) (m n1 n2 N : Nat) (s : Vec R × Vec R × Alignment.Block K) : Vec R × Vec R × Alignment.Block K :=
  let C : Vec R := ⟨((N + 1) * (2 * n1 + 1) : Nat), fun _ => 0, s.1.ok⟩
  Alignment.addOrder sqrt ι inp m n1 n2 N (C, s.2.1, s.2.2)

/-- body of the loop over `n2` (TMatrixCalculator.hpp:246-302) -/
def average (inp : TRes K R) (m n1 n2 : Nat) (s : Alignment.State K R) : Alignment.State K R :=
  let n12min := if n1 > n2 then n1 - n2 else n2 - n1
  let r := loop n12min (n1 + n2 + 1) (fun N => addOrder sqrt ι inp m n1 n2 N) (s.C, s.p, (⟨0, 0, 0, 0⟩ : Alignment.Block K))
  let b := r.2.2
  { C := r.1
    p := r.2.1
    out := (((s.out.setElement 0 n1 m 0 n2 b.t00).setElement 0 n1 m 1 n2 b.t01).setElement 1 n1 m 0 n2 b.t10).setElement
      1 n1 m 1 n2 b.t11 }

/-- `apply_orientation_distribution` (TMatrixCalculator.hpp:225-307): `p` are the expansion coefficients of the distribution;
the loops over `m`, `n1`, `n2` (239-246) are those of `AlignmentAverageTask`; the ensemble T-matrix starts as a copy -/
def applyOrientation (inp : TRes K R) (p : Vec R) : Alignment.State K R :=
  Alignment.elements inp.nmax (average sqrt ι inp) { C := ⟨0, fun _ => 0, true⟩, p := p, out := inp }

end

end Verif.Calculator
