import Verif.Model.Exec
import Verif.Spec.Graph

/-!
# The objects a T-matrix calculation works on are handed to its tasks by reference

`generate_tasks` passes the interaction resource and the two T-matrix objects of the slot `resource_reuse_index` to the constructors of the
tasks (TaskManager.hpp:1119-1125, 1160-1162, 1174-1179, 1201-1203, 1214-1218, 1235-1239, 1256-1260, 1276-1302, 1316-1320); the tasks store the
references and use nothing else to find the objects (InteractionResource.hpp:421-429, TMatrixResource.hpp:512-526, 834-843, 1226-1227,
AlignmentAverageTask.hpp:61-68).
So a task is a program over "my interaction resource" and "my T-matrix objects", which is then tied to the objects of a slot.
-/
namespace Verif.Exec

/-- the same program, with every location replaced -/
def Prog.rename {L L' V : Type} (f : L → L') : Prog L V → Prog L' V
  | .done => .done
  | .read x k => .read (f x) fun v => (k v).rename f
  | .write x v k => .write (f x) v (k.rename f)

end Verif.Exec

namespace Verif.Graph
open Verif.Exec

/-- from "my objects" (those of slot 0) to the objects of slot `s`: `interaction_resources[s]`, `tmatrices[2 s]`, `tmatrices[2 s + 1]` -/
def Loc.shift (s : Nat) : Loc → Loc
  | .inter i => .inter (i + s)
  | .head i => .head (i + 2 * s)
  | .block i m => .block (i + 2 * s) m
  | x => x

/-- the slot whose objects a task is constructed with -/
def slotOf (P : Params) (t : Tk) : Nat := (cellOf t).elim 0 (slot P)

/-- the program of a task, tied to the objects of its slot -/
def placed {V : Type} (P : Params) (code : Tk → Nat → Prog (Place Loc) V) (t : Tk) (id : Nat) : Prog (Place Loc) V :=
  (code t id).rename (Sum.map (Loc.shift (slotOf P t)) _root_.id)

/-- the same calculation with a single slot (the least memory) -/
def one (P : Params) : Params := { P with nt := 1 }

end Verif.Graph
