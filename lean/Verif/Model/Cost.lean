import Verif.Model.Prepare
import Verif.Model.Times

/-!
# Costs and priorities as the code stores them

`struct task` stores `cost` and `weight` as `int` (task.h:56-57), times as `ticks`, an unsigned 64 bit integer
(cycle.h:237).  `Verif.Model.Prepare` computes with integers of any size; here the results are stored as the code
stores them.  Converting a value that does not fit to `int` keeps the lowest 32 bits (implementation defined; this is what
gcc and clang do).
-/
namespace Verif.Cost
open Verif

/-- conversion of an integer to `int` -/
def toInt (x : Int) : Int := (x + 2 ^ 31) % 2 ^ 32 - 2 ^ 31

/-- `t->toc - t->tic` in unsigned 64 bit arithmetic -/
def ticks (tic toc : Nat) : Int := ((toc : Int) - tic) % 2 ^ 64

/-- `t->cost = t->toc - t->tic` at the start of `qsched_done` (qsched.c:621-622); the wrapper creates the scheduler with
`qsched_flag_none` (QuickSchedWrapper.hpp:309), so that costs are always measured. -/
def recost (tic toc : Nat) : Int := toInt (ticks tic toc)

/-- The cost with which the wrapper registers a task (QuickSchedWrapper.hpp:436-437): always 1, whatever the task's
`get_cost` (QuickSchedWrapper.hpp:72, TMatrixResource.hpp:1127-1129) returns. -/
def registeredCost (_getCost : Int) : Int := 1

/-- Body of the backward loop (qsched.c:1123-1133): `maxweight` is a `long long`, the sum is stored in an `int`. -/
def back (unlocks : Nat → List Nat) (cost : Nat → Int) (st : (Nat → Int) × (Nat → Int)) (t : Nat) :
    (Nat → Int) × (Nat → Int) :=
  let r := (unlocks t).foldl (fun (x : (Nat → Int) × Int) u =>
    (Function.update x.1 u (x.1 u + 1), if st.2 u > x.2 then st.2 u else x.2)) (st.1, 0)
  (r.1, Function.update st.2 t (toInt (cost t + r.2)))

/-- the backward loop -/
def backward (unlocks : Nat → List Nat) (cost : Nat → Int) (tid : List Nat) (wait weight : Nat → Int) :
    (Nat → Int) × (Nat → Int) :=
  tid.reverse.foldl (back unlocks cost) (wait, weight)

/-- `qsched_prepare` as `Prepare.prepare`, with stored weights. -/
def prepare (count : Nat) (unlocks : Nat → List Nat) (cost : Nat → Int) (E : Prepare.EnqCfg)
    (wait weight : Nat → Int) : Option Prepare.Ready :=
  let wait0 := Prepare.setWaits count unlocks wait
  let ready := (Prepare.kahnInit count wait0).tid.length
  let st := Prepare.kahn count unlocks wait0
  if st.tid.length < count then none
  else
    let b := backward unlocks cost st.tid st.wait weight
    some
      { wait := b.1
        weight := b.2
        queue := Prepare.enqueueReady E b.2 b.1 (st.tid.take ready) (fun _ => Queue.init count)
        waiting := count
        order := st.tid }

end Verif.Cost
