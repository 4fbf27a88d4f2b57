import Verif.Model.Table

/-!
# The dry run of `generate_tasks` (src/TaskManager.hpp:509-747) and the pointer vectors
-/
namespace Verif.Account

open Verif.Graph

/-- `number_of_readwrite_resources()` of the class of a task (NBasedResources.hpp:101, GaussBasedResources.hpp:118,
ExtinctionCoefficientTask.hpp:201, 322, 496 and the same for absorption and scattering, WignerDResources.hpp:133,
ParticleGeometryResource.hpp:121, ShapeAveragingTask.hpp:98, InteractionResource.hpp:464, 575,
TMatrixResource.hpp:565, 879, 1257, AlignmentAverageTask.hpp:101) -/
def rwOf : Tk → Nat
  | .m0 _ _ => 2
  | _ => 1

/-- `number_of_readonly_resources()` of the class of a task (NBasedResources.hpp:108, GaussBasedResources.hpp:125,
ExtinctionCoefficientTask.hpp:208, 329, 503 and the same for absorption and scattering, WignerDResources.hpp:140,
ParticleGeometryResource.hpp:128, ShapeAveragingTask.hpp:105, InteractionResource.hpp:471, 582,
TMatrixResource.hpp:572, 886, 1264, AlignmentAverageTask.hpp:108) -/
def roOf : Tk → Nat
  | .nbased | .gauss _ | .grid _ | .avg _ _ | .reset1 _ | .reset2 _ | .reset3 _ => 0
  | .swig _ | .wigner _ | .geom _ _ | .align _ => 1
  | .inter _ _ => 3
  | .mall _ _ => 4
  | .meas _ _ => 5
  | .m0 _ _ => 6

/-- calls of the `account_for_...` functions of the `MemoryManager` (TaskManager.hpp:204-285); `deps` is
`number_of_dependent_tasks` -/
inductive Ev
  | computable (t : Tk) (deps : Nat)
  | task (t : Tk) (deps : Nat)
  | resource
  | result

/-- the counters of the `MemoryManager` (TaskManager.hpp:115-138) -/
structure Acc where
  tasks : Nat
  resources : Nat
  depLinks : Nat
  rwLinks : Nat
  roLinks : Nat
  taskPtrs : Nat
  resPtrs : Nat
  resultPtrs : Nat

/-- constructor (TaskManager.hpp:151-168) -/
def Acc.zero : Acc := ⟨0, 0, 0, 0, 0, 0, 0, 0⟩

/-- `account_for_computable`, `account_for_task`, `account_for_resource`, `account_for_result`
(TaskManager.hpp:204-285), without the memory sizes -/
def step (a : Acc) : Ev → Acc
  | .computable t d =>
    { a with
      tasks := a.tasks + 1
      resources := a.resources + 1
      rwLinks := a.rwLinks + rwOf t
      roLinks := a.roLinks + roOf t
      depLinks := a.depLinks + d
      taskPtrs := a.taskPtrs + 1 }
  | .task t d =>
    { a with
      tasks := a.tasks + 1
      rwLinks := a.rwLinks + rwOf t
      roLinks := a.roLinks + roOf t
      depLinks := a.depLinks + d
      taskPtrs := a.taskPtrs + 1 }
  | .resource => { a with resources := a.resources + 1, resPtrs := a.resPtrs + 1 }
  | .result => { a with resources := a.resources + 1, resultPtrs := a.resultPtrs + 1 }

/-- the computables that do not depend on the parameter values (TaskManager.hpp:511-582) -/
def fixedEvs (P : Params) : List Ev :=
  [.computable .nbased 0] ++ (List.range P.nq).map (fun i => .computable (.gauss i) 0)
  ++ (qtys P).map (fun q => .computable (.grid q) 0) ++ (qtys P).map (fun q => .computable (.swig q) 1)
  ++ (List.range P.nq).map (fun i => .computable (.wigner i) 1)
  ++ (List.range P.nshape).flatMap (fun is => (List.range P.nq).map fun ig => .computable (.geom is ig) 1)

/-- one T-matrix (TaskManager.hpp:624-693) -/
def cellEvs (P : Params) (c : Cell) : List Ev :=
  (qtys P).map (fun _ => .resource) ++ [.resource]
  ++ (List.range P.nq).flatMap (fun ig => [.task (.inter c ig) 2, .task (.m0 c ig) (4 + if 0 < ig then 1 else 0)])
  ++ [.task (.align c) 0] ++ (qtys P).map (fun q => .task (.meas q c) 3)
  ++ [.task (.reset1 c) 1, .task (.reset2 c) (1 + (qtys P).length), .task (.reset3 c) 1]
  ++ (List.range P.maxOrder).map (fun i => .task (.mall c (i + 1)) 2)

/-- one iteration of the loops over composition, size and wavelength (TaskManager.hpp:590-697) -/
def parEvs (P : Params) (p : Par) : List Ev :=
  .resource :: (qtys P).flatMap (fun q => [.result, .task (.avg q p) 0])
  ++ (List.range P.nshape).flatMap (fun ish => cellEvs P ⟨p, ish⟩)

/-- two T-matrices and one interaction resource (TaskManager.hpp:721-726, 739-744) -/
def slotEvs : List Ev := [.resource, .resource, .resource]

/-- The complete dry run, including the first slot and the extra slots: `nt` slots (TaskManager.hpp:509-747). -/
def dryRun (P : Params) : Acc :=
  (fixedEvs P ++ (pars P).flatMap (parEvs P) ++ (List.range P.nt).flatMap fun _ => slotEvs).foldl step Acc.zero

/-- Objects that are stored in the vector `resources`, in this order (TaskManager.hpp:939, 949, 1009, 1085, 1097, 1108,
1125): interaction resources, T-matrices, interaction variables, results of one shape, control objects.  The
`get_m_resource(m)` objects are parts of T-matrices, computables and results are in the other vectors. -/
def stored (l : List Call) : List Rs :=
  l.filterMap fun
    | .res (.inter i) _ => some (.inter i)
    | .res (.tm i) _ => some (.tm i)
    | .res (.intvars p) _ => some (.intvars p)
    | .res (.unav q c) _ => some (.unav q c)
    | .res (.conv c) _ => some (.conv c)
    | _ => none

/-- `quadrature_points_offset` (TaskManager.hpp:794): the running index after the `NBasedResources` -/
def gaussOffset : Nat := 1

/-- `wigner_d_offset` (TaskManager.hpp:882): after the quadrature points, the grids and the special Wigner functions -/
def wignerOffset (P : Params) : Nat := gaussOffset + P.nq + (qtys P).length + (qtys P).length

/-- `particle_geometry_offset` (TaskManager.hpp:904) -/
def geomOffset (P : Params) : Nat := wignerOffset P + P.nq

/-- `interaction_resource_offset` (TaskManager.hpp:934) -/
def interOffset : Nat := 0

/-- `tmatrix_resource_offset` (TaskManager.hpp:945) -/
def tmOffset (P : Params) : Nat := interOffset + P.nt

/-! ## Memory -/

/-- the sizes that enter the accounting -/
structure Mem where
  /-- `_maximum_memory_usage` -/
  max : Nat
  /-- `memory_used` after the first `allocate_quicksched_memory` (TaskManager.hpp:716-720) -/
  base : Nat
  /-- `TMatrixResource::get_memory_size`, `InteractionResource::get_memory_size` -/
  tm : Nat
  inter : Nat
  /-- `total_number_of_Tmatrices` -/
  total : Nat
  /-- `size_res` of the scheduler at that point, and the number of resources accounted for -/
  rsize : Nat
  res : Nat

/-- values of type `size_t` -/
def W : Nat := 2 ^ 64

/-- `sizeof(struct res)`, four ints (res.h:21-34), and `sizeof(Resource *)` -/
def sizeofRes : Nat := 16
def sizeofPtr : Nat := 8

/-- memory of the resource table of the scheduler when `n` resources are reserved (qsched.c:122-134); the other tables
do not change any more -/
def resTable (m : Mem) (n : Nat) : Nat := max m.rsize n * sizeofRes

/-- `memory_used` after the first slot (TaskManager.hpp:721-729) -/
def used1 (m : Mem) : Nat := m.base + (2 * m.tm + m.inter + 3 * sizeofPtr + (resTable m (m.res + 3) - resTable m m.res))

/-- `memory_per_Tmatrix` (TaskManager.hpp:730-731) -/
def perSlot (m : Mem) : Nat := used1 m - m.base

/-- `memory_left` (TaskManager.hpp:733-734): an unsigned subtraction -/
def left (m : Mem) : Nat := (m.max + (W - used1 m)) % W

/-- `number_of_extra_tmatrices` (TaskManager.hpp:735-736): `total_number_of_Tmatrices - 1` is unsigned, too -/
def extra (m : Mem) : Nat := min (left m / perSlot m) ((m.total + (W - 1)) % W)

/-- `memory_used` at the end (TaskManager.hpp:737-747) -/
def used2 (m : Mem) : Nat :=
  used1 m + extra m * (2 * m.tm + m.inter) + 3 * sizeofPtr
    + (resTable m (m.res + 3 + 3 * extra m) - resTable m (m.res + 3))

/-- `ScatteringMatrixResult::get_memory_size(number_of_angles)` without the object itself, as called by the dry run
(TaskManager.hpp:616, 637; ScatteringMatrixTask.hpp:85-89) -/
def scatAccounted (nth : Nat) : Nat := 16 * nth * 8

/-- what the constructor allocates: it is called with `get_number_of_angles()` of the grid, `nth * 2 nth`
(TaskManager.hpp:1056-1058, 832; ScatteringMatrixTask.hpp:69-72, 274) -/
def scatReal (nth : Nat) : Nat := nth * (2 * nth) * (16 * 8)

end Verif.Account
