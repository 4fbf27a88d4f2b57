import Verif.Model.Graph
import Mathlib.Order.Defs.LinearOrder

/-!
# The table that `get_table` returns (src/CTMModule.cpp:344-470) and the result vector it reads

`α` is the type of grain sizes and wavelengths (no NaN: a linear order), `β` the type of the table entries.
-/
namespace Verif.Table

open Verif.Graph

/-! ## numpy arrays -/

/-- element of the data block at which `PyArray_GetPtr` points, for a C-contiguous array as made by
`PyArray_SimpleNew` -/
def offset (dims idx : List Nat) : Nat := (dims.zip idx).foldl (fun a di => a * di.1 + di.2) 0

/-- an array: its shape and the content of the data block (`none` is memory that has not been written) -/
structure Arr (β : Type) where
  dims : List Nat
  data : Nat → Option β

/-- `PyArray_SimpleNew` (CTMModule.cpp:359, 431): the memory is not initialised -/
def Arr.new {β} (dims : List Nat) : Arr β := ⟨dims, fun _ => none⟩

/-- `*reinterpret_cast<double *>(PyArray_GetPtr(result_array, idx)) = v`; `none` is a write outside the data block -/
def Arr.set {β} (a : Arr β) (idx : List Nat) (v : β) : Option (Arr β) :=
  if offset a.dims idx < a.dims.prod then some { a with data := Function.update a.data (offset a.dims idx) (some v) }
  else none

/-- indexing of the array by the user -/
def Arr.get {β} (a : Arr β) (idx : List Nat) : Option β := a.data (offset a.dims idx)

/-- `PyArray_Squeeze` (CTMModule.cpp:417, 460): drop the axes of length 1 -/
def Arr.squeeze {β} (a : Arr β) : Arr β := { a with dims := a.dims.filter (· ≠ 1) }

/-- The assignments to the array, in program order; the value is `none` if the right hand side is undefined. -/
def exec {β} (a : Arr β) (ws : List (List Nat × Option β)) : Option (Arr β) :=
  ws.foldlM (fun a w => w.2.bind fun v => a.set w.1 v) a

/-! ## The result objects -/

/-- what the user asked for -/
structure Request (α : Type) where
  types : List Int
  sizes : List α
  wls : List α
  /-- number of zenith angles -/
  nth : Nat
  want : Qty → Bool
  nshape : Nat
  /-- `_minimum_order`, `_maximum_order` -/
  minOrder : Nat
  maxOrder : Nat
  /-- number of T-matrix slots that fit in memory, at least one -/
  slots : Nat

/-- a `Result` object: its class and the composition, size and wavelength it was made with (Result.hpp:46-78) -/
structure Obj (α : Type) where
  q : Qty
  type : Int
  size : α
  wl : α

variable {α β : Type} [LinearOrder α]

/-- `std::sort(_sizes.begin(), _sizes.end())` (TaskManager.hpp:458): for a linear order there is one sorted
permutation -/
def sortedSizes (R : Request α) : List α := R.sizes.mergeSort (· ≤ ·)

/-- `std::sort(_wavelengths.begin(), _wavelengths.end())` (TaskManager.hpp:459) -/
def sortedWls (R : Request α) : List α := R.wls.mergeSort (· ≤ ·)

/-- the loop bounds (TaskManager.hpp:475-500, 745) -/
def Request.params (R : Request α) : Params where
  nq := R.maxOrder - R.minOrder
  maxOrder := R.maxOrder
  nshape := R.nshape
  nc := R.types.length
  ns := (sortedSizes R).length
  nl := (sortedWls R).length
  nt := R.slots
  want := R.want

/-- `number_of_results` (TaskManager.hpp:461-470), and `_number_of_results` of the `ResultKey` -/
def nres (want : Qty → Bool) : Nat := (want .ext).toNat + (want .abs).toNat + (want .scat).toNat

/-- the objects stored in `results[running_result_index]` (TaskManager.hpp:1024, 1041, 1060), in this order: the
result objects are registered as resources just before they are stored -/
def resultsIn (l : List Call) : List (Qty × Par) :=
  l.filterMap fun | .res (.result q p) _ => some (q, p) | _ => none

/-- `new ExtinctionCoefficientResult(grain_type, particle_size, wavelength, number_of_angles)` and the like
(TaskManager.hpp:1021, 1038, 1056), with `grain_type = _compositions[icomp]` etc. (TaskManager.hpp:978, 984, 990) -/
def mkObj (R : Request α) (x : Qty × Par) : Option (Obj α) := do
  let t ← R.types[x.2.ic]?
  let s ← (sortedSizes R)[x.2.is]?
  let w ← (sortedWls R)[x.2.il]?
  some ⟨x.1, t, s, w⟩

/-- the vector `results` after `generate_tasks` -/
def results (R : Request α) : Option (List (Obj α)) := do
  let l ← generate R.params
  (resultsIn l).mapM (mkObj R)

/-- `ResultKey::get_result_index` (ResultKey.hpp:143-157) -/
def resultIndex (R : Request α) (ic is il ir : Nat) : Nat :=
  ic * (sortedSizes R).length * (sortedWls R).length * nres R.want + is * (sortedWls R).length * nres R.want
    + il * nres R.want + ir

/-- The values that the tasks computed for a result object: coefficients per angle (component 0, 1, 2 are `Q`, `Qpol`,
`Qcpol`) and scattering matrices per angle index.  They are functions of what the object was made for; that the tasks
combine the right data is C22. -/
structure Calc (α β : Type) where
  coef : Obj α → Nat → Nat → β
  mat : Obj α → Nat → Nat → Nat → β

/-- `static_cast<XResult *>(results[result_index])` followed by a use: defined if the index is in range and the object
is of class `X` (CTMModule.cpp:372-374, 391-393, 440-441) -/
def cast (rs : List (Obj α)) (q : Qty) (i : Nat) : Option (Obj α) :=
  (rs[i]?).bind fun o => if o.q = q then some o else none

/-- `get_Qabs(itheta)` etc.: the vectors have `number_of_angles` elements (ExtinctionCoefficientTask.hpp:71-75, 99) -/
def getCoef (R : Request α) (C : Calc α β) (o : Obj α) (i k : Nat) : Option β :=
  if i < R.nth then some (C.coef o i k) else none

/-- `get_scattering_matrix(index)(row, col)`: there are `theta_out.size() * phi_out.size()` matrices of size 4 by 4
(ScatteringMatrixTask.hpp:62-73, 98, 274; TaskManager.hpp:832) -/
def getMat (R : Request α) (C : Calc α β) (o : Obj α) (i r c : Nat) : Option β :=
  if i < R.nth * (2 * R.nth) ∧ r < 4 ∧ c < 4 then some (C.mat o i r c) else none

/-- assignments for absorption: `iresult` starts at 0 (CTMModule.cpp:365-387) -/
def absWrites (R : Request α) (C : Calc α β) (rs : List (Obj α)) (it is il ith : Nat) :
    List (List Nat × Option β) :=
  if R.want .abs then
    let o := cast rs .abs (resultIndex R it is il (R.want .ext).toNat)
    [([it, is, il, ith, 0], o.bind fun o => getCoef R C o ith 0),
     ([it, is, il, ith, 1], o.bind fun o => getCoef R C o ith 1)]
  else []

/-- assignments for extinction: `iresult` goes on after absorption (CTMModule.cpp:388-412) -/
def extWrites (R : Request α) (C : Calc α β) (rs : List (Obj α)) (it is il ith : Nat) :
    List (List Nat × Option β) :=
  if R.want .ext then
    let o := cast rs .ext (resultIndex R it is il 0)
    let k := if R.want .abs then 2 else 0
    [([it, is, il, ith, k], o.bind fun o => getCoef R C o ith 0),
     ([it, is, il, ith, k + 1], o.bind fun o => getCoef R C o ith 1),
     ([it, is, il, ith, k + 2], o.bind fun o => getCoef R C o ith 2)]
  else []

/-- shape of the first array (CTMModule.cpp:346-357) -/
def firstDims (R : Request α) : List Nat :=
  [R.types.length, (sortedSizes R).length, (sortedWls R).length, R.nth,
    (if R.want .abs then 2 else 0) + (if R.want .ext then 3 else 0)]

/-- the loops over type, size, wavelength and angle (CTMModule.cpp:361-416) -/
def firstWrites (R : Request α) (C : Calc α β) (rs : List (Obj α)) : List (List Nat × Option β) :=
  (List.range R.types.length).flatMap fun it => (List.range (sortedSizes R).length).flatMap fun is =>
  (List.range (sortedWls R).length).flatMap fun il => (List.range R.nth).flatMap fun ith =>
    absWrites R C rs it is il ith ++ extWrites R C rs it is il ith

/-- shape of the second array (CTMModule.cpp:422-429) -/
def secondDims (R : Request α) : List Nat :=
  [R.types.length, (sortedSizes R).length, (sortedWls R).length, R.nth, 2 * R.nth, 4, 4]

/-- the loops for the scattering matrices (CTMModule.cpp:433-459); `num_results = do_extinction + do_absorption` -/
def secondWrites (R : Request α) (C : Calc α β) (rs : List (Obj α)) : List (List Nat × Option β) :=
  (List.range R.types.length).flatMap fun it => (List.range (sortedSizes R).length).flatMap fun is =>
  (List.range (sortedWls R).length).flatMap fun il =>
    let o := cast rs .scat (resultIndex R it is il ((R.want .ext).toNat + (R.want .abs).toNat))
    (List.range R.nth).flatMap fun ith => (List.range (2 * R.nth)).flatMap fun ip =>
    (List.range 4).flatMap fun r => (List.range 4).map fun c =>
      ([it, is, il, ith, ip, r, c], o.bind fun o => getMat R C o (2 * ith * R.nth + ip) r c)

/-- the value returned to Python (CTMModule.cpp:469-478) -/
inductive Ret (β : Type)
  | both (a b : Arr β)
  | one (a : Arr β)
  /-- a null pointer (without a Python exception) -/
  | null

/-- the first array, if it is made (CTMModule.cpp:344-418); the outer `none` is undefined behaviour -/
def firstArr (R : Request α) (C : Calc α β) (rs : List (Obj α)) : Option (Option (Arr β)) :=
  if R.want .abs || R.want .ext then
    (exec (Arr.new (firstDims R)) (firstWrites R C rs)).map fun a => some a.squeeze
  else some none

/-- the second array, if it is made (CTMModule.cpp:420-461) -/
def secondArr (R : Request α) (C : Calc α β) (rs : List (Obj α)) : Option (Option (Arr β)) :=
  if R.want .scat then
    (exec (Arr.new (secondDims R)) (secondWrites R C rs)).map fun a => some a.squeeze
  else some none

/-- the return statements (CTMModule.cpp:469-478) -/
def mkRet : Option (Arr β) → Option (Arr β) → Ret β
  | some a, some b => .both a b
  | some a, none => .one a
  | none, some b => .one b
  | none, none => .null

/-- `get_table` after the tasks have been executed; `none` is undefined behaviour -/
def getTable (R : Request α) (C : Calc α β) : Option (Ret β) :=
  (results R).bind fun rs => (firstArr R C rs).bind fun a => (secondArr R C rs).map fun b => mkRet a b

end Verif.Table
