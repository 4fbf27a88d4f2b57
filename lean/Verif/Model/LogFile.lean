import Verif.Model.Text
import Verif.Model.Wrapper
import Verif.Spec.Store

/-!
# The log files of the QuickSched wrapper (QuickSchedWrapper.hpp:95-100, 397-505, CTMModule.cpp:322-333)

The text that is written when `get_table` is asked for a graph log, a task log and a task type log.  The names of the
types are whatever `typeid(..).name()` returns: here any text.
-/
namespace Verif.LogFile
open Verif Store Text

abbrev Str := List Char

/-- The calls of the wrapper that fill the scheduler.  Tasks and resources are identified with the numbers that
`set_id` stored in them (QuickSchedWrapper.hpp:404, 438). -/
inductive Call
  /-- `register_resource(resource, parent)` -/
  | resource (name : Str) (parent : Option Nat)
  /-- `register_task(task)` -/
  | task (name : Str)
  /-- `link_task_and_resource(task, resource, write_access)` -/
  | access (t r : Nat) (write : Bool)
  /-- `link_tasks(first, second)` -/
  | order (a b : Nat)
  deriving DecidableEq

/-- `a << "\t" << b << "\t" << c << "\n"` -/
def row (a b c : Str) : Str := a ++ '\t' :: b ++ '\t' :: c ++ ['\n']

/-- What one call appends to the graph log; `nr` and `nt` are the numbers of resources and tasks registered before,
which are the numbers `qsched_addres` and `qsched_addtask` return (QuickSchedWrapper.hpp:406-412, 440-442, 463-471,
485-488). -/
def entry (nr nt : Nat) : Call → Str
  | .resource name parent =>
    row "resource".toList (showNat nr) name ++
      (match parent with
        | some p => row "child".toList (showNat nr) (showNat p)
        | none => [])
  | .task name => row "task".toList (showNat nt) name
  | .access t r write =>
    if write then row "writelink".toList (showNat t) (showNat r)
    else row "readlink".toList (showNat t) (showNat r)
  | .order a b => row "tasklink".toList (showNat a) (showNat b)

def isResource : Call → Bool
  | .resource .. => true
  | _ => false

def isTask : Call → Bool
  | .task .. => true
  | _ => false

/-- The graph log after the calls. -/
def graphLog (nr nt : Nat) : List Call → Str
  | [] => []
  | c :: l => entry nr nt c ++ graphLog (nr + (isResource c).toNat) (nt + (isTask c).toNat) l

/-- What the same calls do to the scheduler (QuickSchedWrapper.hpp:399-403, 436-437, 457-461, 483): the type number
comes from the dictionary, the flags are `task_flag_none` and the cost is 1 (`get_cost` is never called). -/
def toOps (payload : Str → List Nat) : Wrapper.Dict → List Call → List Op
  | _, [] => []
  | d, .resource _ parent :: l => .res none parent :: toOps payload d l
  | d, .task name :: l =>
    .task (d.register (String.ofList name)).1 0 1 (payload name) :: toOps payload (d.register (String.ofList name)).2 l
  | d, .access t r write :: l => .link (if write then .locks else .uses) t r :: toOps payload d l
  | d, .order a b :: l => .link .deps a b :: toOps payload d l

/-- One line of the task log: `Task::print` (QuickSchedWrapper.hpp:95-100) -/
def taskRow (qid tic toc type id : Nat) : Str :=
  showNat qid ++ '\t' :: showNat tic ++ '\t' :: showNat toc ++ '\t' :: showNat type ++ '\t' :: showNat id ++ ['\n']

/-- The task log (CTMModule.cpp:322-328): the tasks in the order of the vector `tasks`; `rec` are the fields `qid`,
`tic`, `toc` and `type` of the task. -/
def taskLog (rec : Nat → Nat × Nat × Nat × Nat) (ids : List Nat) : Str :=
  "# thread\tstart\tend\ttype\ttask id\n".toList ++
    ids.flatMap fun i => taskRow (rec i).1 (rec i).2.1 (rec i).2.2.1 (rec i).2.2.2 i

/-- The type log (CTMModule.cpp:329-333, QuickSchedWrapper.hpp:503-507).  `std::map` iterates in the order of the names;
here the order is that of the list `dict`. -/
def typeLog (dict : List (Str × Nat)) : Str :=
  "# type\tlabel\n".toList ++ dict.flatMap fun e => showNat e.2 ++ '\t' :: e.1 ++ ['\n']

end Verif.LogFile
