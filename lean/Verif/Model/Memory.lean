import Verif.Model.Account

/-!
# The memory of the objects of a table calculation

`generate_tasks` (src/TaskManager.hpp:436-1345) first adds up `get_memory_size` of all the objects it is going to create, and then creates them.  Sizes in bytes; the memory of the
scheduler itself, and the bookkeeping of the allocator, are not part of this.
-/
namespace Verif.Memory

open Verif.Graph

set_option autoImplicit false

/-- an object that is allocated with `new`: a task (possibly one that is a resource, too), or a resource that is not a task -/
inductive Item
  | task (t : Tk)
  | res (r : Rs)
  deriving DecidableEq

/-- the `new` before a call of `register_task` and `register_resource` (TaskManager.hpp:783-1328): objects that are tasks and resources are one object, the `get_m_resource(m)` are parts
of a T-matrix -/
def made : Call → Option Item
  | .task t => some (.task t)
  | .res (.inter i) _ => some (.res (.inter i))
  | .res (.tm i) _ => some (.res (.tm i))
  | .res (.intvars p) _ => some (.res (.intvars p))
  | .res (.result q p) _ => some (.res (.result q p))
  | .res (.unav q c) _ => some (.res (.unav q c))
  | .res (.conv c) _ => some (.res (.conv c))
  | _ => none

/-- the objects that are created -/
def created (l : List Call) : List Item := l.filterMap made

/-- the objects for which a memory size is added in the dry run, in its order (TaskManager.hpp:511-582) -/
def fixedItems (P : Params) : List Item :=
  [.task .nbased] ++ (List.range P.nq).map (fun i => .task (.gauss i)) ++ (qtys P).map (fun q => .task (.grid q)) ++ (qtys P).map (fun q => .task (.swig q))
  ++ (List.range P.nq).map (fun i => .task (.wigner i)) ++ (List.range P.nshape).flatMap (fun is => (List.range P.nq).map fun ig => .task (.geom is ig))

/-- one T-matrix (TaskManager.hpp:624-693) -/
def cellItems (P : Params) (c : Cell) : List Item :=
  (qtys P).map (fun q => .res (.unav q c)) ++ [.res (.conv c)]
  ++ (List.range P.nq).flatMap (fun ig => [.task (.inter c ig), .task (.m0 c ig)])
  ++ [.task (.align c)] ++ (qtys P).map (fun q => .task (.meas q c))
  ++ [.task (.reset1 c), .task (.reset2 c), .task (.reset3 c)]
  ++ (List.range P.maxOrder).map (fun i => .task (.mall c (i + 1)))

/-- one iteration of the loops over composition, size and wavelength (TaskManager.hpp:590-697) -/
def parItems (P : Params) (p : Par) : List Item :=
  .res (.intvars p) :: (qtys P).flatMap (fun q => [.res (.result q p), .task (.avg q p)])
  ++ (List.range P.nshape).flatMap (fun ish => cellItems P ⟨p, ish⟩)

/-- slot number `i` (TaskManager.hpp:721-726, 739-744) -/
def slotItems (i : Nat) : List Item := [.res (.tm (2 * i)), .res (.tm (2 * i + 1)), .res (.inter i)]

/-- everything (TaskManager.hpp:509-747); the first slot and the extra slots are `nt` slots -/
def accounted (P : Params) : List Item := fixedItems P ++ (pars P).flatMap (parItems P) ++ (List.range P.nt).flatMap slotItems

/-! ### sizes -/

/-- `sizeof` of the types -/
structure Sizes where
  /-- `float_type`; `std::complex<float_type>` has twice that size -/
  float : Nat
  /-- pointers -/
  ptr : Nat
  /-- `Matrix<...>`, without its elements -/
  matrix : Nat
  /-- `Resource` -/
  resource : Nat
  /-- the object itself, without the elements of its vectors -/
  object : Item → Nat

/-- the numbers that determine the sizes -/
structure Args where
  /-- `_maximum_order`, `_minimum_order` -/
  max : Nat
  min : Nat
  /-- `_gauss_legendre_factor` -/
  factor : Nat
  /-- `number_of_angles` -/
  nang : Nat
  /-- `ngauss`, for the absorption grid -/
  ngauss : Nat
  /-- `get_number_of_points()` of the shape distribution -/
  nshape : Nat

/-- `this_ngauss = minimum_ngauss + i * _gauss_legendre_factor`, with `minimum_ngauss = _minimum_order * _gauss_legendre_factor` (TaskManager.hpp:494-495, 518-519) -/
def Args.ng (A : Args) (i : Nat) : Nat := A.min * A.factor + i * A.factor

/-- `maximum_ngauss` (TaskManager.hpp:496-497) -/
def Args.maxNg (A : Args) : Nat := A.max * A.factor

/-- the loops `for n = 1 .. nmax, for m = 0 .. n` with a term that depends on `n` (e.g. ExtinctionCoefficientTask.hpp:297-302) -/
def orders (nmax : Nat) (f : Nat → Nat) : Nat := ((List.range nmax).flatMap fun i => (List.range (i + 2)).map fun _ => f (i + 1)).sum

/-- `get_memory_size` as it is called in the dry run: NBasedResources.hpp:77-84, GaussBasedResources.hpp:90-101, ExtinctionCoefficientTask.hpp:87-91, 180-184, 293-304,
AbsorptionCoefficientTask.hpp:83-87, 203-209, 359-371, ScatteringMatrixTask.hpp:85-89, 184-191, 339-351, WignerDResources.hpp:102-112, ParticleGeometryResource.hpp:92-101,
InteractionResource.hpp:86-89, 212-236, 439-442, 555-558, ConvergedSizeResources.hpp:101-104, ShapeAveragingTask.hpp:75-81, 207-213, 343-349, TMatrixResource.hpp:140-149, 536-539,
853-856, 1237-1240, AlignmentAverageTask.hpp:78-81; the arguments are those of TaskManager.hpp:513-693, 721-726, 739-744 -/
def reported (z : Sizes) (A : Args) (x : Item) : Nat :=
  z.object x + match x with
  | .task .nbased => A.max * A.max + 2 * A.max * A.max
  | .task (.gauss i) => 2 * A.ng i * z.float + 2 * A.ng i * z.float + 2 * A.ng i * z.float + 2 * A.ng i * z.float
  | .task (.grid .ext) => 4 * A.nang * z.float
  | .task (.grid .abs) => 4 * A.nang * z.float + 6 * A.ngauss * z.float
  | .task (.grid .scat) => 4 * A.nang * z.float + 4 * (2 * A.nang) * z.float
  | .task (.swig .ext) => orders A.max fun n => 2 * A.nang * n * z.float
  | .task (.swig .abs) => orders A.max fun n => 2 * A.nang * n * z.float + 2 * A.nang * n * z.float
  | .task (.swig .scat) => orders A.max fun n => 2 * n * z.float + 2 * A.nang * n * z.float
  | .task (.wigner i) =>
    if A.min + i < 100 then (A.min + i + 1) * 2 * A.ng i * (A.min + i) * z.float + (A.min + i + 1) * 2 * A.ng i * (A.min + i) * z.float else 0
  | .task (.geom _ ig) => 2 * A.ng ig * z.float + 2 * A.ng ig * z.float + 2 * A.ng ig * z.float
  | .task (.avg _ _) => A.nshape * z.ptr
  | .task _ => 0
  | .res (.result .ext _) | .res (.unav .ext _) => 3 * A.nang * z.float
  | .res (.result .abs _) | .res (.unav .abs _) => 2 * A.nang * z.float
  | .res (.result .scat _) | .res (.unav .scat _) => 16 * A.nang * z.float
  | .res (.tm _) => ((List.range (A.max + 1)).map fun m => 8 * (A.max + 1 - m) * (A.max + 1 - m) * z.float).sum
  | .res (.inter _) => 2 * A.maxNg * z.float + 2 * A.maxNg * z.float + 4 * A.maxNg * z.float + 4 * A.maxNg * z.float
      + 2 * A.maxNg * A.max * z.float + 2 * A.maxNg * A.max * z.float + 2 * A.maxNg * A.max * z.float + 2 * A.maxNg * A.max * z.float
      + 4 * A.maxNg * A.max * z.float + 4 * A.maxNg * A.max * z.float
  | .res _ => 0

/-- a container that a constructor fills -/
inductive Store
  /-- a `std::vector` of numbers, complex numbers, pointers, or `Resource`s -/
  | floats (n : Nat)
  | complexes (n : Nat)
  | ptrs (n : Nat)
  | resources (n : Nat)
  /-- a `Matrix` that is a member, real or complex -/
  | matrix (rows columns : Nat)
  | cmatrix (rows columns : Nat)
  /-- a `Matrix` in a vector -/
  | inVector (rows columns : Nat)
  | inVectorC (rows columns : Nat)

/-- the elements -/
def Store.elements (z : Sizes) : Store → Nat
  | .floats n => n * z.float
  | .complexes n => n * (2 * z.float)
  | .ptrs n => n * z.ptr
  | .resources _ => 0
  | .matrix r c | .inVector r c => r * c * z.float
  | .cmatrix r c | .inVectorC r c => r * c * (2 * z.float)

/-- objects in a vector: `Matrix` objects and `Resource`s -/
def Store.headers (z : Sizes) : Store → Nat
  | .resources n => n * z.resource
  | .inVector _ _ | .inVectorC _ _ => z.matrix
  | _ => 0

/-- two vectors with a matrix for every pair (n, m) (ExtinctionCoefficientTask.hpp:262-284, AbsorptionCoefficientTask.hpp:322-349, ScatteringMatrixTask.hpp:305-329) -/
def pairs (nmax : Nat) (f : Nat → List Store) : List Store := (List.range nmax).flatMap fun i => (List.range (i + 2)).flatMap fun _ => f (i + 1)

/-- what the constructors allocate: NBasedResources.hpp:61-63, GaussBasedResources.hpp:74-79, ExtinctionCoefficientTask.hpp:70-79, 163-171, 262-284, AbsorptionCoefficientTask.hpp:66-75,
180-193, 322-349, ScatteringMatrixTask.hpp:62-74, 162-176, 305-329 (the grid has `number_of_angles` polar and `2 * number_of_angles` azimuth angles; a result has a matrix for every pair,
TaskManager.hpp:832, 1056-1058, ScatteringMatrixTask.hpp:272-275), WignerDResources.hpp:75-91, ParticleGeometryResource.hpp:76-82, ShapeAveragingTask.hpp:61-67, 193-199, 329-335,
TMatrixResource.hpp:118-130, InteractionResource.hpp:192-200 -/
def stores (A : Args) : Item → List Store
  | .task .nbased => [.matrix A.max A.max, .cmatrix A.max A.max]
  | .task (.gauss i) => [.floats (2 * A.ng i), .floats (2 * A.ng i), .floats (2 * A.ng i), .floats (2 * A.ng i)]
  | .task (.grid .ext) => [.floats A.nang, .floats A.nang, .floats A.nang, .floats A.nang]
  | .task (.grid .abs) => [.floats A.nang, .floats A.nang, .floats A.nang, .floats A.nang, .floats A.ngauss, .floats A.ngauss, .floats A.ngauss, .floats A.ngauss, .floats A.ngauss,
      .floats A.ngauss, .floats A.ngauss]
  | .task (.grid .scat) => [.floats A.nang, .floats A.nang, .floats A.nang, .floats A.nang, .floats (2 * A.nang), .floats (2 * A.nang), .floats (2 * A.nang)]
  | .task (.swig .ext) => pairs A.max fun n => [.inVector A.nang n, .inVector A.nang n]
  | .task (.swig .abs) => pairs A.max fun n => [.inVector A.nang n, .inVector A.nang n, .inVector A.ngauss n, .inVector A.ngauss n]
  | .task (.swig .scat) => pairs A.max fun n => [.inVector 1 n, .inVector 1 n, .inVector A.nang n, .inVector A.nang n]
  | .task (.wigner i) =>
    if A.min + i < 100 then (List.range (A.min + i + 1)).flatMap fun _ => [.inVector (2 * A.ng i) (A.min + i), .inVector (2 * A.ng i) (A.min + i)] else []
  | .task (.geom _ ig) => [.floats (2 * A.ng ig), .floats (2 * A.ng ig), .floats (2 * A.ng ig)]
  | .task (.avg _ _) => [.ptrs A.nshape]
  | .task _ => []
  | .res (.result .ext _) | .res (.unav .ext _) => [.floats A.nang, .floats A.nang, .floats A.nang]
  | .res (.result .abs _) | .res (.unav .abs _) => [.floats A.nang, .floats A.nang]
  | .res (.result .scat _) | .res (.unav .scat _) => (List.range (A.nang * (2 * A.nang))).map fun _ => .inVector 4 4
  | .res (.tm _) => .resources (A.max + 1) :: (List.range (A.max + 1)).map fun m => .inVectorC (2 * (A.max + 1 - m)) (2 * (A.max + 1 - m))
  | .res (.inter _) => [.floats (2 * A.maxNg), .floats (2 * A.maxNg), .complexes (2 * A.maxNg), .complexes (2 * A.maxNg), .matrix (2 * A.maxNg) A.max, .matrix (2 * A.maxNg) A.max,
      .matrix (2 * A.maxNg) A.max, .matrix (2 * A.maxNg) A.max, .cmatrix (2 * A.maxNg) A.max, .cmatrix (2 * A.maxNg) A.max]
  | .res _ => []

/-- `TMatrixAuxiliarySpaceManager::get_memory_size(num_threads, maximum_order)` (TMatrixResource.hpp:335-351, 417-423, TaskManager.hpp:699-702); `manager` and `space` are the sizes of
the objects, `uint` that of `uint_fast32_t` -/
def auxReported (z : Sizes) (uint manager space nthreads nmax : Nat) : Nat :=
  manager + nthreads * (space + 8 * nmax * nmax * z.float + 8 * nmax * nmax * z.float + 2 * nmax * uint + 4 * nmax * z.float + 2 * nmax * z.float + (nmax + 1) * (2 * nmax + 1) * z.float)

/-- what the constructors allocate (TMatrixResource.hpp:321-326, 390-396) -/
def auxAllocated (z : Sizes) (uint manager space nthreads nmax : Nat) : Nat :=
  manager + nthreads * z.ptr + ((List.range nthreads).map fun _ => space + (2 * nmax) * (2 * nmax) * (2 * z.float) + (2 * nmax) * (2 * nmax) * (2 * z.float) + (2 * nmax) * uint
    + (2 * nmax) * (2 * z.float) + nmax * z.float + nmax * z.float + (nmax + 1) * (2 * nmax + 1) * z.float).sum

end Verif.Memory
