import Verif.Spec.TaskGraph

/-!
# What a plot of the tasks should show

The log files of a run: `rec` are the thread, the two times and the type of a task, `ids` the tasks in the order of the log, `dict` the
names of the types with their numbers.
-/
namespace Verif.TaskPlot

open Verif
open Verif.LogFile (Str)
open Verif.TaskGraph (ClassName mangled)

set_option autoImplicit false

/-- the records fit into the columns -/
structure Records (rec : Nat → Nat × Nat × Nat × Nat) (ids : List Nat) (types : Nat) : Prop where
  some : ids ≠ []
  thread : ∀ t ∈ ids, (rec t).1 < 2 ^ 31
  times : ∀ t ∈ ids, (rec t).2.1 ≤ (rec t).2.2.1 ∧ (rec t).2.2.1 < 2 ^ 64
  type : ∀ t ∈ ids, (rec t).2.2.2 < types

/-- the types have the numbers 0, 1, …, and the names of classes of at most 98 characters -/
structure Types (dict : List (Str × Nat)) (types : Nat) : Prop where
  numbers : (dict.map Prod.snd).Perm (List.range types)
  few : types ≤ 2 ^ 31
  names : ∀ e ∈ dict, ∃ name, ClassName name ∧ name.length ≤ 98 ∧ '#' ∉ name ∧ e.1 = mangled name

end Verif.TaskPlot
