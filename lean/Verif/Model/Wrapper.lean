import Mathlib.Data.List.Basic
import Mathlib.Logic.Function.Basic

/-!
# Parts of `QuickSchedWrapper.hpp`: the type dictionary and the progress counter
-/
namespace Verif.Wrapper

/-! ## Task types (QuickSchedWrapper.hpp:421-445) -/

/-- `_type_dict` (a map from type names to numbers) and `_task_type` (the next number). A C++ type is identified with
its `typeid(task).name()`. -/
structure Dict where
  map : List (String × Nat)
  next : Nat

/-- constructor (QuickSchedWrapper.hpp:306) -/
def Dict.empty : Dict := ⟨[], 0⟩

/-- `register_task`: find the type name in the dictionary or add it (QuickSchedWrapper.hpp:428-435); returns the
number. -/
def Dict.register (d : Dict) (name : String) : Nat × Dict :=
  match d.map.lookup name with
  | some n => (n, d)
  | none => (d.next, ⟨(name, d.next) :: d.map, d.next + 1⟩)

/-- Registering tasks of the given types one after the other: their numbers and the final dictionary. -/
def registerAll : List String → Dict → List Nat × Dict
  | [], d => ([], d)
  | n :: ns, d => ((d.register n).1 :: (registerAll ns (d.register n).2).1, (registerAll ns (d.register n).2).2)

/-! ## Progress output (QuickSchedWrapper.hpp:106-149) -/

/-- `set_output_fraction(0.01)` (QuickSchedWrapper.hpp:134-136, 382): `round(0.01 * total)`, half away from zero.
The C++ code computes the product in double precision; for totals of the form `100 k + 50` the rounding error could
decide between two neighbouring values, here it is always the upper one. -/
def outputInterval (total : Nat) : Nat := (total + 50) / 100

/-- `num_done_now % _output_interval == 0` (QuickSchedWrapper.hpp:144); `none` is the division by zero. -/
def shouldReport (interval done : Nat) : Option Bool := if interval = 0 then none else some (done % interval == 0)

/-- The counter, which threads are between `++_num_tasks_done` and `_num_tasks_done.load()`, and the messages
printed so far (latest first). -/
structure Counter where
  done : Nat
  mid : Nat → Bool
  printed : List Nat

/-- What a thread does in `task_done` (QuickSchedWrapper.hpp:141-148). -/
inductive Act
  /-- `++_num_tasks_done` -/
  | inc (th : Nat)
  /-- `_num_tasks_done.load()` and the message -/
  | load (th : Nat)

/-- One action; `none` is undefined behaviour (division by zero).  An action that does not fit the position of its
thread does nothing. -/
def Counter.act (interval : Nat) (c : Counter) : Act → Option Counter
  | .inc th => some (if c.mid th then c else { c with done := c.done + 1, mid := Function.update c.mid th true })
  | .load th =>
    if c.mid th then
      (shouldReport interval c.done).map fun b =>
        { c with mid := Function.update c.mid th false, printed := if b then c.done :: c.printed else c.printed }
    else some c

def Counter.run (interval : Nat) : List Act → Counter → Option Counter
  | [], c => some c
  | a :: as, c => (c.act interval a).bind (Counter.run interval as)

def Counter.init : Counter := ⟨0, fun _ => false, []⟩

end Verif.Wrapper
