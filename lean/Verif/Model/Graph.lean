import Mathlib.Logic.Function.Basic
import Mathlib.Data.List.Range
import Verif.Spec.Store

/-!
# The calls `TaskManager::generate_tasks` makes to the scheduler (src/TaskManager.hpp:439-1347)

The C++ objects (tasks, resources) are named symbolically; the ids which the scheduler hands out are introduced by
`toOps`.  Memory accounting is in `Model.Account`.
-/
namespace Verif.Graph

/-- extinction, absorption, scattering: `do_extinction`, `do_absorption`, `do_scattering` -/
inductive Qty | ext | abs | scat
  deriving DecidableEq

/-- what the loops of `generate_tasks` depend on -/
structure Params where
  /-- `number_of_quadrature_tasks = _maximum_order - _minimum_order` (TaskManager.hpp:499-500) -/
  nq : Nat
  /-- `_maximum_order` -/
  maxOrder : Nat
  /-- `number_of_shapes` -/
  nshape : Nat
  /-- `number_of_compositions`, `number_of_sizes`, `number_of_wavelengths` -/
  nc : Nat
  ns : Nat
  nl : Nat
  /-- `number_of_tmatrices` (TaskManager.hpp:745) -/
  nt : Nat
  want : Qty → Bool

/-- the quantities for which the `if (do_...)` blocks are executed, in program order -/
def qtys (P : Params) : List Qty := [Qty.ext, .abs, .scat].filter P.want

/-- one iteration of the loops over composition, size and wavelength (TaskManager.hpp:975, 981, 985) -/
structure Par where
  ic : Nat
  is : Nat
  il : Nat
  deriving DecidableEq

/-- one iteration of the loop over the shapes (TaskManager.hpp:1072): one T-matrix -/
structure Cell where
  par : Par
  ish : Nat
  deriving DecidableEq

/-- the task objects -/
inductive Tk
  | nbased
  | gauss (i : Nat)
  | grid (q : Qty)
  /-- `ExtinctionSpecialWignerDResources` etc. -/
  | swig (q : Qty)
  | wigner (i : Nat)
  | geom (is ig : Nat)
  /-- `ExtinctionShapeAveragingTask` etc. -/
  | avg (q : Qty) (p : Par)
  /-- `InteractionTask` -/
  | inter (c : Cell) (ig : Nat)
  /-- `TMatrixM0Task` -/
  | m0 (c : Cell) (ig : Nat)
  /-- `AlignmentAverageTask` -/
  | align (c : Cell)
  /-- `ExtinctionCoefficientTask` etc. -/
  | meas (q : Qty) (c : Cell)
  /-- the two `ResetTMatrixResourceTask`s -/
  | reset1 (c : Cell)
  | reset2 (c : Cell)
  /-- `ResetInteractionResourceTask` -/
  | reset3 (c : Cell)
  /-- `TMatrixMAllTask` -/
  | mall (c : Cell) (m : Nat)
  deriving DecidableEq

/-- the resource objects -/
inductive Rs
  | nbased
  | gauss (i : Nat)
  | grid (q : Qty)
  | swig (q : Qty)
  | wigner (i : Nat)
  | geom (is ig : Nat)
  /-- `InteractionResource` number `i` -/
  | inter (i : Nat)
  /-- `TMatrixResource` number `i`; `2 s` and `2 s + 1` are the single and the ensemble T-matrix of slot `s` -/
  | tm (i : Nat)
  /-- `get_m_resource(m)` of it -/
  | tmM (i m : Nat)
  | intvars (p : Par)
  | result (q : Qty) (p : Par)
  | unav (q : Qty) (c : Cell)
  /-- `ConvergedSizeResources` -/
  | conv (c : Cell)
  deriving DecidableEq

/-- calls of the scheduler wrapper (QuickSchedWrapper.hpp:397-487) -/
inductive Call
  | res (r : Rs) (parent : Option Rs)
  | task (t : Tk)
  /-- `link_tasks(a, b)` -/
  | link (a b : Tk)
  /-- `link_task_and_resource(t, r, true)` -/
  | lock (t : Tk) (r : Rs)
  /-- `link_task_and_resource(t, r, false)` -/
  | use (t : Tk) (r : Rs)
  deriving DecidableEq

/-- steps 1 and 2, and the resources shared by all parameter values (TaskManager.hpp:783-953).
The `link_resources` functions are NBasedResources.hpp:91, GaussBasedResources.hpp:108,
ExtinctionCoefficientTask.hpp:191, 309 (and the same for absorption and scattering), WignerDResources.hpp:120,
ParticleGeometryResource.hpp:108. -/
def fixedCalls (P : Params) : List Call :=
  [.res .nbased none, .task .nbased, .lock .nbased .nbased]
  ++ (List.range P.nq).flatMap (fun i => [.res (.gauss i) none, .task (.gauss i), .lock (.gauss i) (.gauss i)])
  ++ (qtys P).flatMap (fun q => [.res (.grid q) none, .task (.grid q), .lock (.grid q) (.grid q)])
  ++ (qtys P).flatMap (fun q => [.res (.swig q) none, .task (.swig q), .lock (.swig q) (.swig q),
      .use (.swig q) (.grid q), .link (.grid q) (.swig q)])
  ++ (List.range P.nq).flatMap (fun i => [.res (.wigner i) none, .task (.wigner i), .lock (.wigner i) (.wigner i),
      .use (.wigner i) (.gauss i), .link (.gauss i) (.wigner i)])
  ++ (List.range P.nshape).flatMap (fun is => (List.range P.nq).flatMap fun ig =>
      [.res (.geom is ig) none, .task (.geom is ig), .lock (.geom is ig) (.geom is ig),
       .use (.geom is ig) (.gauss ig), .link (.gauss ig) (.geom is ig)])
  ++ (List.range P.nt).map (fun i => .res (.inter i) none)
  ++ (List.range (2 * P.nt)).flatMap (fun i => Call.res (.tm i) none ::
      (List.range (P.maxOrder + 1)).map fun m => Call.res (.tmM i m) (some (.tm i)))

/-- the calls for one interaction (TaskManager.hpp:1005-1069); `link_resources` of the averaging tasks:
ShapeAveragingTask.hpp:88, 220, 356 -/
def headCalls (P : Params) (p : Par) : List Call :=
  .res (.intvars p) none ::
  (qtys P).flatMap fun q => [.res (.result q p) none, .task (.avg q p), .lock (.avg q p) (.result q p)]

/-- one iteration of the loop over the orders (TaskManager.hpp:1138-1195); `u` is
`unlock_tasks[resource_reuse_index]`; `link_resources`: InteractionResource.hpp:449, TMatrixResource.hpp:546 -/
def orderCalls (c : Cell) (s : Nat) (u : Option Tk) (ig : Nat) : List Call :=
  [.task (.inter c ig), .lock (.inter c ig) (.inter s), .use (.inter c ig) (.geom c.ish ig),
   .use (.inter c ig) (.conv c), .use (.inter c ig) (.intvars c.par), .link (.geom c.ish ig) (.inter c ig)]
  ++ (u.map fun t => Call.link t (.inter c ig)).toList
  ++ [.task (.m0 c ig), .lock (.m0 c ig) (.tmM (2 * s) 0), .lock (.m0 c ig) (.conv c),
      .use (.m0 c ig) .nbased, .use (.m0 c ig) (.gauss ig), .use (.m0 c ig) (.geom c.ish ig),
      .use (.m0 c ig) (.intvars c.par), .use (.m0 c ig) (.inter s), .use (.m0 c ig) (.wigner ig),
      .link .nbased (.m0 c ig), .link (.wigner ig) (.m0 c ig), .link (.inter c ig) (.m0 c ig)]
  ++ (if ig = 0 then (u.map fun t => Call.link t (.m0 c ig)).toList
      else [.link (.m0 c (ig - 1)) (.inter c ig)])

/-- the extinction, absorption and scattering tasks of one T-matrix (TaskManager.hpp:1210-1271) -/
def measCalls (c : Cell) (s : Nat) (q : Qty) : List Call :=
  [.task (.meas q c), .lock (.meas q c) (.unav q c), .use (.meas q c) (.intvars c.par),
   .use (.meas q c) (.tm (2 * s + 1)), .use (.meas q c) .nbased, .use (.meas q c) (.grid q),
   .use (.meas q c) (.swig q), .link (.align c) (.meas q c), .link (.swig q) (.meas q c),
   .use (.avg q c.par) (.unav q c), .link (.meas q c) (.avg q c.par)]

/-- the tasks that clear the slot (TaskManager.hpp:1274-1311) -/
def resetCalls (P : Params) (c : Cell) (s : Nat) : List Call :=
  [.task (.reset1 c), .lock (.reset1 c) (.tm (2 * s)), .link (.align c) (.reset1 c),
   .task (.reset2 c), .lock (.reset2 c) (.tm (2 * s + 1)), .link (.reset1 c) (.reset2 c)]
  ++ (qtys P).map (fun q => .link (.meas q c) (.reset2 c))
  ++ [.task (.reset3 c), .lock (.reset3 c) (.inter s), .link (.reset2 c) (.reset3 c)]

/-- one iteration of the loop over `m` (TaskManager.hpp:1314-1328); `link_resources`: TMatrixResource.hpp:863 -/
def mallCalls (P : Params) (c : Cell) (s : Nat) (i : Nat) : List Call :=
  [.task (.mall c (i + 1)), .lock (.mall c (i + 1)) (.tmM (2 * s) (i + 1)), .use (.mall c (i + 1)) .nbased,
   .use (.mall c (i + 1)) (.conv c), .use (.mall c (i + 1)) (.intvars c.par), .use (.mall c (i + 1)) (.inter s),
   .link (.m0 c (P.nq - 1)) (.mall c (i + 1)), .link (.mall c (i + 1)) (.align c)]

/-- the calls for one T-matrix (TaskManager.hpp:1072-1328) -/
def cellCalls (P : Params) (c : Cell) (s : Nat) (u : Option Tk) : List Call :=
  (qtys P).map (fun q => .res (.unav q c) none) ++ [.res (.conv c) none]
  ++ (List.range P.nq).flatMap (orderCalls c s u)
  ++ [.task (.align c), .lock (.align c) (.tm (2 * s)), .use (.align c) (.tm (2 * s + 1))]
  ++ (qtys P).flatMap (measCalls c s)
  ++ resetCalls P c s
  ++ (List.range P.maxOrder).flatMap (mallCalls P c s)

/-- the variables of the big loop (TaskManager.hpp:966-967) and the calls made so far -/
structure LoopSt where
  /-- `resource_reuse_index` -/
  reuse : Nat
  /-- `unlock_tasks` -/
  unlock : Nat → Option Tk
  calls : List Call

/-- body of the loop over the shapes (TaskManager.hpp:1072-1339) -/
def cellStep (P : Params) (st : LoopSt) (c : Cell) : LoopSt where
  calls := st.calls ++ cellCalls P c st.reuse (st.unlock st.reuse)
  unlock := Function.update st.unlock st.reuse (some (.reset3 c))
  reuse := (st.reuse + 1) % P.nt

/-- body of the loop over the wavelengths (TaskManager.hpp:985-1340) -/
def parStep (P : Params) (st : LoopSt) (p : Par) : LoopSt :=
  ((List.range P.nshape).map fun ish => (⟨p, ish⟩ : Cell)).foldl (cellStep P)
    { st with calls := st.calls ++ headCalls P p }

/-- the iterations of the loops over compositions, sizes and wavelengths, in order -/
def pars (P : Params) : List Par :=
  (List.range P.nc).flatMap fun ic => (List.range P.ns).flatMap fun is => (List.range P.nl).map fun il => ⟨ic, is, il⟩

/-- All T-matrices, in the order in which they are created. -/
def cells (P : Params) : List Cell := (pars P).flatMap fun p => (List.range P.nshape).map fun ish => ⟨p, ish⟩

/-- All calls; `none` is the dereference of the null pointer `previous_m0task` (TaskManager.hpp:1323), which happens
if the loop over the orders is empty and the loop over `m` is not. -/
def generate (P : Params) : Option (List Call) :=
  if P.nq = 0 ∧ 0 < P.maxOrder ∧ cells P ≠ [] then none
  else some (fixedCalls P ++ ((pars P).foldl (parStep P) ⟨0, fun _ => none, []⟩).calls)

/-! ## From objects to ids -/

/-- the task objects in the order of their registration -/
def tasksIn (l : List Call) : List Tk := l.filterMap fun | .task t => some t | _ => none

/-- the resource objects in the order of their registration -/
def resIn (l : List Call) : List Rs := l.filterMap fun | .res r _ => some r | _ => none

/-- `register_task` and `register_resource` store the id they get from the scheduler in the object
(QuickSchedWrapper.hpp:404, 440); the ids are consecutive.  The payload is a `WrappedTask`, the cost is 1
(QuickSchedWrapper.hpp:438-439).  `ty` is the number of the task's type, `pl` the bytes of its `WrappedTask`. -/
def toOp (ts : List Tk) (rs : List Rs) (ty : Tk → Nat) (pl : Tk → List Nat) : Call → Store.Op
  | .res _ parent => .res none (parent.map fun r => rs.idxOf r)
  | .task t => .task (ty t) 0 1 (pl t)
  | .link a b => .link .deps (ts.idxOf a) (ts.idxOf b)
  | .lock t r => .link .locks (ts.idxOf t) (rs.idxOf r)
  | .use t r => .link .uses (ts.idxOf t) (rs.idxOf r)

def toOps (ty : Tk → Nat) (pl : Tk → List Nat) (l : List Call) : List Store.Op :=
  l.map (toOp (tasksIn l) (resIn l) ty pl)

end Verif.Graph
