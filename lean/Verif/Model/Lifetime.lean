import Mathlib.Algebra.BigOperators.Group.Finset.Basic
import Mathlib.Algebra.BigOperators.Intervals

/-!
# References on Python objects, NumPy arrays and C++ objects in the Python module

The Python/C API is modelled by reference counts: an object is destroyed when the last reference on it is released.  A C++ object made with `new` is an object with one
reference, the pointer to it; `delete` is the release of that reference.  Undefined behaviour (a null pointer or the address of an object that has been destroyed is
used) is `none`.  Values are of an arbitrary type `V`; arrays are represented without their elements (`Model.Numpy`, `Model.Table`).
-/
namespace Verif.Lifetime

set_option autoImplicit false

/-- what an object is -/
inductive Kind (V : Type)
  /-- an instance of one of the classes of the module; its reference, if any, is the pointer to the C++ object (PyShapeDistribution.hpp:52-55) -/
  | wrapper
  /-- a C++ object -/
  | cpp (v : V)
  /-- a NumPy array; its reference, if any, is on the array that owns the data -/
  | array
  /-- the characters of a C++ string -/
  | text (s : String)
  /-- any other Python object, and tuples of references -/
  | other

/-- an object: the number of references on it, and the references it has itself -/
structure Node (V : Type) where
  rc : Nat
  kind : Kind V
  refs : List Nat

/-- all objects; `held` are the references the Python program has (variables, elements of lists, …); `names` are the fields `tp_name` of the classes -/
structure State (V : Type) where
  next : Nat
  node : Nat → Option (Node V)
  held : Nat → Nat
  names : List Nat

variable {V : Type}

/-- a new object; the reference on it is returned -/
def make (k : Kind V) (refs : List Nat) (s : State V) : State V × Nat :=
  ({ s with next := s.next + 1, node := fun p => if p = s.next then some ⟨1, k, refs⟩ else s.node p }, s.next)

/-- `Py_INCREF` -/
def incref (o : Nat) (s : State V) : Option (State V) :=
  (s.node o).map fun n => { s with node := fun p => if p = o then some { n with rc := n.rc + 1 } else s.node p }

def increfs : List Nat → State V → Option (State V)
  | [], s => some s
  | o :: l, s => (incref o s).bind (increfs l)

/-- Release references: an object is destroyed with its last one, and its own references are released (`dealloc`: PyShapeDistribution.hpp:62-68,
PyAlignmentDistribution.hpp:59-65, PyDustProperties.hpp:64-70, PyOrientationDistribution.hpp:70-76, PyTMatrix.hpp:67-72; the destructors of the classes that call Python
functions: PyDustProperties.hpp:271-277, PyOrientationDistribution.hpp:496-502; `delete` does nothing for a null pointer).  The first argument bounds the number of steps. -/
def release : Nat → List Nat → State V → Option (State V)
  | _, [], s => some s
  | 0, _ :: _, _ => none
  | f + 1, o :: l, s =>
    match s.node o with
    | none => none
    | some n =>
      if n.rc ≤ 1 then release f (n.refs ++ l) { s with node := fun p => if p = o then none else s.node p }
      else release f l { s with node := fun p => if p = o then some { n with rc := n.rc - 1 } else s.node p }

/-- number of references on an object -/
def rcOf (s : State V) (o : Nat) : Nat := ((s.node o).map Node.rc).getD 0

/-- number of all references -/
def total (s : State V) : Nat := ∑ o ∈ Finset.range s.next, rcOf s o

/-- `Py_DECREF`, `delete`; there are no more steps than references -/
def decref (o : Nat) (s : State V) : Option (State V) := release (total s) [o] s

def decrefs : List Nat → State V → Option (State V)
  | [], s => some s
  | o :: l, s => (decref o s).bind (decrefs l)

/-- the Python program gets a reference -/
def hold (o : Nat) (s : State V) : State V := { s with held := fun p => if p = o then s.held p + 1 else s.held p }

/-- the Python program gives up a reference -/
def unhold (o : Nat) (s : State V) : State V := { s with held := fun p => if p = o then s.held p - 1 else s.held p }

/-- the pointer in an instance of a class of the module is overwritten -/
def setPtr (o c : Nat) (s : State V) : Option (State V) :=
  (s.node o).map fun n => { s with node := fun p => if p = o then some { n with refs := [c] } else s.node p }

/-- the C++ object of an instance: `self->_shape_distribution->…` etc. (PyShapeDistribution.hpp:104-109, PyDustProperties.hpp:143-144, CTMModule.cpp:251-256); the
function of the user and its arguments are used too (PyDustProperties.hpp:300-311) -/
def valueOf (o : Nat) (s : State V) : Option V :=
  match s.node o with
  | some ⟨_, .wrapper, c :: _⟩ =>
    match s.node c with
    | some ⟨_, .cpp v, refs⟩ => if refs.all fun r => (s.node r).isSome then some v else none
    | _ => none
  | _ => none

/-- `alloc` (`__new__`): a null pointer (PyShapeDistribution.hpp:83-91, PyAlignmentDistribution.hpp:80-88, PyDustProperties.hpp:85-93, PyOrientationDistribution.hpp:91-99,
PyTMatrix.hpp:84-90) -/
def alloc (s : State V) : State V × Nat := make .wrapper [] s

/-- `init` with correct arguments: a new C++ object, which takes its own references on the function of the user and its additional arguments (`refs`, empty for the other
classes); the pointer to it overwrites the old one (PyShapeDistribution.hpp:138-172, 228-272; PyDustProperties.hpp:173-206, 258-267, 377-400;
PyOrientationDistribution.hpp:114-148, 279-322, 381-424, 480-491, 607-636; PyAlignmentDistribution.hpp:118-182) -/
def init (o : Nat) (v : V) (refs : List Nat) (s : State V) : Option (State V) := do
  let s ← increfs refs s
  let (s, c) := make (.cpp v) refs s
  setPtr o c s

/-- `init` of the T-matrix: if the orientations are averaged, the pointer to the T-matrix is overwritten with that of the average (PyTMatrix.hpp:200-223,
TMatrixCalculator.hpp:230-236) -/
def initMatrix (o : Nat) (v : V) (average : Option V) (s : State V) : Option (State V) := do
  let s ← init o v [] s
  match average with
  | none => some s
  | some w => init o w [] s

/-- an argument for an array: an array, or something that is converted to one -/
inductive Arg
  | array (o : Nat)
  | value

/-- `PyArray_Converter`: a new reference on the array, or a new array -/
def convert (a : Arg) (s : State V) : Option (State V × Nat) :=
  match a with
  | .array o => (incref o s).map fun s => (s, o)
  | .value => some (make .array [] s)

def converts : List Arg → State V → Option (State V × List Nat)
  | [], s => some (s, [])
  | a :: l, s => do
    let (s, t) ← convert a s
    let (s, ts) ← converts l s
    some (s, t :: ts)

/-- a view on an array (NumPy: the reference is on the array that owns the data) -/
def view (o : Nat) (s : State V) : Option (State V × Nat) := do
  let n ← s.node o
  let owner := n.refs.head?.getD o
  let s ← incref owner s
  some (make .array [owner] s)

/-- `PyArray_Squeeze`: a view, or a new reference on the array itself if it has no axis of length one -/
def squeeze (o : Nat) (one : Bool) (s : State V) : Option (State V × Nat) :=
  if one then view o s else (incref o s).map fun s => (s, o)

/-- `unpack_numpy_array` (PyHelperFunctions.hpp:55-84), followed by `Py_DECREF` (PyOrientationDistribution.hpp:184-186, PyTMatrix.hpp:645-657, CTMModule.cpp:262-292); an
array without axes is replaced by a view -/
def unpack (t : Nat) (ndim : Nat) (s : State V) : Option (State V) := do
  let s ← if ndim = 0 then (view t s).map Prod.fst else some s
  decref t s

def unpacks : List Nat → List Nat → State V → Option (State V)
  | t :: ts, d :: ds, s => (unpack t d s).bind (unpacks ts ds)
  | _, _, s => some s

/-- what the Python program does; `ndim`: numbers of axes of the arrays, `one`: the result has an axis of length one -/
inductive Op (V : Type)
  /-- creates any other object, copies a reference, gives up a reference -/
  | object
  | take (o : Nat)
  | drop (o : Nat)
  /-- `C.__new__(C)`; `C(…)` with correct and with wrong arguments -/
  | alloc
  | create (v : V) (refs : List Nat)
  | createMatrix (v : V) (average : Option V)
  | createWrong
  /-- `o.__init__(…)` with correct and with wrong arguments -/
  | init (o : Nat) (v : V) (refs : List Nat)
  | initWrong (o : Nat)
  /-- a method that returns a number (`get_limits`, `get_refractive_index`, `get_nmax`, …) -/
  | use (o : Nat)
  /-- an alignment distribution from the orientation distributions `os` -/
  | align (f : List V → V) (os : List Nat)
  /-- `get_absorption_cross_section` and `get_absorption_cross_sections` -/
  | absorption (o : Nat) (a : Arg) (ndim : Nat)
  | absorptions (o : Nat) (a : Arg) (ndim : Nat) (one : Bool)
  | extinction (o : Nat) (a b : Arg) (ndimA ndimB : Nat) (one : Bool)
  /-- `get_scattering_matrix` and `evaluate` -/
  | unpacking (o : Nat) (as : List Arg) (ndims : List Nat) (one : Bool)
  /-- `get_table` for three objects; `first`, `second`: the results that are asked for -/
  | table (os : List Nat) (as : List Arg) (ndims : List Nat) (first second : Option Bool)
  /-- a method with correct arrays before an argument that is wrong -/
  | wrongCall (as : List Arg)
  /-- the name of a class (`__name__`, `repr`, error messages) -/
  | className (k : Nat)

/-- an argument of a routine that accepts arrays with at most one axis and replaces arrays without axes (PyTMatrix.hpp:299-326); `none` in the result: the routine returns
with an exception -/
def reshape (t : Nat) (ndim : Nat) (s : State V) : Option (State V × Option Nat) :=
  if ndim > 1 then some (s, none)
  else if ndim = 0 then (view t s).map fun p => (p.1, some p.2)
  else some (s, some t)

/-- the result of a routine (PyTMatrix.hpp:446, 584, 713; PyOrientationDistribution.hpp:214; CTMModule.cpp:417, 460): a new array, squeezed -/
def result (one : Bool) (s : State V) : Option (State V × Nat) :=
  let (s, r) := make .array [] s
  squeeze r one s

/-- one action of the Python program -/
def step : Op V → State V → Option (State V)
  | .object, s => let (s, o) := make .other [] s; some (hold o s)
  | .take o, s => (incref o s).map (hold o)
  | .drop o, s => decref o (unhold o s)
  | .alloc, s => let (s, o) := alloc s; some (hold o s)
  | .create v refs, s => do
    let (s, o) := alloc s
    let s ← init o v refs s
    some (hold o s)
  | .createMatrix v w, s => do
    let (s, o) := alloc s
    let s ← initMatrix o v w s
    some (hold o s)
  | .createWrong, s => let (s, o) := alloc s; decref o s
  | .init o v refs, s => init o v refs s
  | .initWrong _, s => some s
  | .use o, s => (valueOf o s).map fun _ => s
  -- PyAlignmentDistribution.hpp:170-181, SizeBasedAlignmentDistribution.hpp: copies are made
  | .align f os, s => do
    let vs ← os.mapM fun o => valueOf o s
    let (s, o) := alloc s
    let s ← init o (f vs) [] s
    some (hold o s)
  -- PyTMatrix.hpp:273-351
  | .absorption o a ndim, s => do
    let (s, t) ← convert a s
    let (s, t) ← reshape t ndim s
    match t with
    | none => some s
    | some t =>
      let (s, r) := make .array [] s
      let _ ← valueOf o s
      let s ← decref t s
      some (hold r s)
  -- PyTMatrix.hpp:369-447
  | .absorptions o a ndim one, s => do
    let (s, t) ← convert a s
    let (s, t) ← reshape t ndim s
    match t with
    | none => some s
    | some t =>
      let _ ← valueOf o s
      let s ← decref t s
      let (s, r) ← result one s
      some (hold r s)
  -- PyTMatrix.hpp:466-585
  | .extinction o a b ndimA ndimB one, s => do
    let (s, t) ← convert a s
    let (s, u) ← convert b s
    let (s, t) ← reshape t ndimA s
    match t with
    | none => some s
    | some t =>
      let (s, u) ← reshape u ndimB s
      match u with
      | none => some s
      | some u =>
        let _ ← valueOf o s
        let s ← decref t s
        let s ← decref u s
        let (s, r) ← result one s
        some (hold r s)
  -- PyOrientationDistribution.hpp:164-215, PyTMatrix.hpp:606-714
  | .unpacking o as ndims one, s => do
    let (s, ts) ← converts as s
    let s ← unpacks ts ndims s
    let _ ← valueOf o s
    let (s, r) ← result one s
    some (hold r s)
  -- CTMModule.cpp:219-292, 348-478; `Py_BuildValue("OO", …)` makes a tuple with new references
  | .table os as ndims first second, s => do
    let (s, ts) ← converts as s
    let _ ← os.mapM fun o => valueOf o s
    let s ← unpacks ts ndims s
    match first, second with
    | none, none => some s
    | some one, none => let (s, r) ← result one s; some (hold r s)
    | none, some one => let (s, r) ← result one s; some (hold r s)
    | some one, some one' => do
      let (s, r) ← result one s
      let (s, r') ← result one' s
      let s ← increfs [r, r'] s
      let (s, t) := make .other [r, r'] s
      some (hold t s)
  | .wrongCall as, s => do
    let (s, _) ← converts as s
    some s
  | .className k, s => do
    let o ← s.names[k]?
    let n ← s.node o
    match n.kind with
    | .text _ => some s
    | _ => none

/-- a history of the Python program -/
def run : List (Op V) → State V → Option (State V)
  | [], s => some s
  | o :: l, s => (step o s).bind (run l)

/-- the class names in the order of `PyInit_CosTuuM` (CTMModule.cpp:529-560) -/
def classes : List String :=
  ["TMatrix", "SingleShapeShapeDistribution", "DraineHensleyShapeDistribution", "SizeBasedAlignmentDistribution", "DraineDustProperties", "CustomDustProperties",
    "RandomOrientationDistribution", "MishchenkoOrientationDistribution", "DavisGreensteinOrientationDistribution", "CustomOrientationDistribution"]

/-- `initialize` of a class: `tp_name` is the address of the characters of the temporary string `object_name.str()`, which is destroyed at the end of the statement
(PyTMatrix.hpp:750-761 and the corresponding lines for the other classes) -/
def initClass (name : String) (s : State V) : Option (State V) := do
  let (s, o) := make (.text ("CosTuuM." ++ name)) [] s
  let s := { s with names := s.names ++ [o] }
  decref o s

def initClasses : List String → State V → Option (State V)
  | [], s => some s
  | c :: l, s => (initClass c s).bind (initClasses l)

/-- no objects -/
def empty : State V := ⟨0, fun _ => none, fun _ => 0, []⟩

/-- the state after the module has been imported (CTMModule.cpp:523-563) -/
def imported : Option (State V) := initClasses classes empty

end Verif.Lifetime
