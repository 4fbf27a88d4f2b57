import Verif.Model.Table
import Verif.Model.Content
import Verif.Model.Numpy

/-!
# `get_table` (src/CTMModule.cpp:146-479), from its arguments to the value it returns

Numbers are exact.  Not modelled: the log files and the diagnostic output (`quicksched_graph_log`, `quicksched_task_log`,
`quicksched_task_type_log`, `memory_log`, `verbose`), and that arguments can also be given by position.
-/
namespace Verif.GetTable

open Verif.Graph
open Verif.Content
open Verif.Exec (Place)
open Verif.Clebsch (Vec)

set_option autoImplicit false

noncomputable section

/-! ## Python objects -/

/-- a shape distribution, as the task generator sees it (ShapeDistribution.hpp:113-137) -/
structure Shapes where
  number : Nat
  ratio : Nat → ℝ
  weight : Nat → ℝ

/-- an alignment distribution: size and axis ratio to `compute_alignment()` and expansion coefficients (AlignmentDistribution.hpp:49-51,
OrientationDistribution.hpp) -/
structure Alignment where
  aligned : ℝ → ℝ → Bool
  coeff : ℝ → ℝ → Vec ℝ

/-- `get_refractive_index(wavelength, grain_size, grain_type)` (DustProperties.hpp:66-68) -/
abbrev Dust := ℝ → ℝ → Int → ℂ

/-- Python objects.  The pointer in an object is null after `__new__` (PyShapeDistribution.hpp:83-91 and the like) and is set by `__init__`. -/
inductive Object
  | shapes (s : Option Shapes)
  | alignment (a : Option Alignment)
  | dust (d : Option Dust)
  | other

/-! ## arguments -/

/-- the arguments of a call; optional arguments that are not given are `none` (CTMModule.cpp:178-201) -/
structure Arguments where
  types : Numpy.NdArray
  sizes : Numpy.NdArray
  wavelengths : Numpy.NdArray
  thetas : Numpy.NdArray
  shapes : Object
  alignment : Object
  dust : Object
  minimumOrder : Option Int
  maximumOrder : Option Int
  factor : Option Int
  tolerance : Option ℝ
  angles : Option Int
  memory : Option Int
  threads : Option Int
  absorption : Option Bool
  extinction : Option Bool
  scattering : Option Bool
  account : Option Bool

/-- the values with which the calculation starts (the variables of CTMModule.cpp:237-292) -/
structure Job where
  types : List Int
  sizes : List ℝ
  wavelengths : List ℝ
  thetas : List ℝ
  shapes : Shapes
  alignment : Alignment
  dust : Dust
  minOrder : Nat
  maxOrder : Nat
  factor : Nat
  tol : ℝ
  ngrid : Nat
  memory : Nat
  threads : Int
  want : Qty → Bool
  account : Bool

/-- what becomes of a call before the calculation starts -/
inductive Parsed
  /-- a Python exception -/
  | raised
  /-- undefined behaviour -/
  | ub
  /-- infinite numbers, not-a-number: not modelled -/
  | special
  | job (j : Job)

/-- format unit `I`: an `unsigned int`, without a check for overflow (CTMModule.cpp:206-209, 220) -/
def unsigned32 (default : Nat) : Option Int → Nat
  | none => default
  | some x => (x % 2 ^ 32).toNat

/-- format unit `k`: an `unsigned long`, without a check for overflow (CTMModule.cpp:210, 220) -/
def unsigned64 (default : Nat) : Option Int → Nat
  | none => default
  | some x => (x % 2 ^ 64).toNat

/-- format unit `i`: an `int`, with a check for overflow (CTMModule.cpp:211, 220) -/
def signed32 (default : Int) : Option Int → Option Int
  | none => some default
  | some x => if -2 ^ 31 ≤ x ∧ x < 2 ^ 31 then some x else none

/-- numbers of an array as real numbers -/
def reals (l : List Numpy.Num) : Option (List ℝ) :=
  l.mapM fun | .fin q => some (q : ℝ) | _ => none

/-- numbers of an array of integers -/
def ints (l : List Numpy.Num) : Option (List Int) :=
  l.mapM fun | .fin q => some q.num | _ => none

/-- quantities that are asked for: `do_extinction`, `do_absorption`, `do_scattering` with their defaults (CTMModule.cpp:171-173) -/
def wanted (a : Arguments) : Qty → Bool
  | .abs => a.absorption.getD true
  | .ext => a.extinction.getD false
  | .scat => a.scattering.getD false

/-- `get_table` up to the generation of the tasks (CTMModule.cpp:151-292), in the order of the statements.  The three objects are used whatever their
class is (format unit `O`; CTMModule.cpp:220, 252-257): a pointer to something else, or a null pointer, is undefined behaviour -/
def parse (a : Arguments) : Parsed :=
  match signed32 4 a.threads with
  | none => .raised
  | some threads =>
  match a.shapes, a.alignment, a.dust with
  | .shapes (some shapes), .alignment (some alignment), .dust (some dust) =>
    match Numpy.unpack .int a.types, Numpy.unpack .double a.sizes, Numpy.unpack .double a.wavelengths, Numpy.unpack .double a.thetas with
    | some types, some sizes, some wavelengths, some thetas =>
      match ints types, reals sizes, reals wavelengths, reals thetas with
      | some types, some sizes, some wavelengths, some thetas =>
        .job ⟨types, sizes, wavelengths, thetas, shapes, alignment, dust, unsigned32 10 a.minimumOrder, unsigned32 100 a.maximumOrder,
          unsigned32 2 a.factor, a.tolerance.getD (1 / 10 ^ 4), unsigned32 20 a.angles, unsigned64 (10 ^ 10) a.memory, threads, wanted a,
          a.account.getD false⟩
      | _, _, _, _ => .special
    | _, _, _, _ => .ub
  | _, _, _ => .ub

/-! ## the calculation -/

/-- the request as `Model/Table` sees it; `slots` is the number of T-matrices that fit in memory, at least one (C26) -/
def Job.request (j : Job) (slots : Nat) : Table.Request ℝ :=
  ⟨j.types, j.sizes, j.wavelengths, j.thetas.length, j.want, j.shapes.number, j.minOrder, j.maxOrder, slots⟩

/-- the calculation as `Model/Content` sees it: sizes and wavelengths have been sorted (TaskManager.hpp:458-459), refractive indices and orientation
distributions are looked up for each grain (TaskManager.hpp:978-995, 1115-1117).  `gl`, `jdj`, `ydy`, `jdjm` are the special functions. -/
def Job.problem (j : Job) (slots : Nat) (gl : Nat → (Nat → ℝ) × (Nat → ℝ)) (jdj ydy jdjm : Nat → ℂ → (Nat → ℂ) × (Nat → ℂ) → (Nat → ℂ) × (Nat → ℂ)) :
    Problem where
  P := (j.request slots).params
  minOrder := j.minOrder
  factor := j.factor
  tol := j.tol
  radius p := (Table.sortedSizes (j.request slots)).getD p.is 0
  wavelength p := (Table.sortedWls (j.request slots)).getD p.il 0
  mr p := j.dust ((Table.sortedWls (j.request slots)).getD p.il 0) ((Table.sortedSizes (j.request slots)).getD p.is 0) (j.types.getD p.ic 0)
  axisRatio := j.shapes.ratio
  weight := j.shapes.weight
  aligned c := j.alignment.aligned ((Table.sortedSizes (j.request slots)).getD c.par.is 0) (j.shapes.ratio c.ish)
  coeff c := j.alignment.coeff ((Table.sortedSizes (j.request slots)).getD c.par.is 0) (j.shapes.ratio c.ish)
  theta i := j.thetas.getD i 0
  ntheta := j.thetas.length
  ngrid := j.ngrid
  accountForScattering := j.account
  gl := gl
  jdj := jdj
  ydy := ydy
  jdjm := jdjm

/-! ## the returned value -/

/-- The request with sizes, wavelengths and compositions replaced by their positions in the vectors of the task manager: the result objects are then
identified by these positions. -/
def Job.positions (j : Job) (slots : Nat) : Table.Request Nat :=
  ⟨(List.range j.types.length).map Int.ofNat, List.range j.sizes.length, List.range j.wavelengths.length, j.thetas.length, j.want, j.shapes.number,
    j.minOrder, j.maxOrder, slots⟩

/-- `get_Qabs(itheta)` etc., `get_scattering_matrix(index)(row, column)` (CTMModule.cpp:375-387, 394-412, 443-453): what is in the result object in memory;
`none`: it is not an object of that class -/
def stored (mem : Place Loc → Val) : Table.Calc Nat (Option ℝ) where
  coef o i k :=
    match o.q, mem (.inl (.result o.q ⟨o.type.toNat, o.size, o.wl⟩)) with
    | .ext, .ext E => [E.Qext i, E.Qextpol i, E.Qextcpol i][k]?
    | .abs, .abs A => [A.Qabs i, A.Qabspol i][k]?
    | _, _ => none
  mat o i r c :=
    match o.q, mem (.inl (.result o.q ⟨o.type.toNat, o.size, o.wl⟩)) with
    | .scat, .scat Z => some (Z i r c)
    | _, _ => none

/-- the value that is returned to Python (CTMModule.cpp:344-478), given the memory after the tasks have been executed -/
def returned (j : Job) (slots : Nat) (mem : Place Loc → Val) : Option (Table.Ret (Option ℝ)) := Table.getTable (j.positions slots) (stored mem)

end

end Verif.GetTable
