import Verif.Model.Prepare
import Verif.Model.Sched

/-!
# From `qsched_prepare` to the parallel region (`qsched_run_openmp`, quicksched/qsched.c:314-340)
-/
namespace Verif.Prepare
open Verif

/-- The memory in which the parallel region starts after `qsched_prepare` returned `r`; `s` is the memory before
the call.  `qsched_prepare` changes the wait counters, the queues and `waiting` (qsched.c:1091-1093, 1096-1146);
the resources are not touched.  The queue locks are initialised by `queue_init` (queue.c:230).  The observation
counters `starts` and `ends` are set to zero: they count the calls of this run. -/
def restart {C : Sched.Cfg} (r : Ready) (s : Sched.St C) : Sched.St C :=
  { s with
    wait := r.wait
    queue := r.queue
    waiting := r.waiting
    qlock := fun _ => false
    starts := fun _ => 0
    ends := fun _ => 0
    pc := fun _ => .top }

/-- The memory of a scheduler that was just filled: `qsched_addres` and `qsched_addtask` initialise the locks, the
hold counters and the wait counters to zero (qsched.c:1200-1203, 1444-1453). -/
def fresh (C : Sched.Cfg) : Sched.St C :=
  { lock := fun _ => false
    hold := fun _ => 0
    qlock := fun _ => false
    queue := fun _ => Queue.init 0
    wait := fun _ => 0
    waiting := 0
    tqid := fun _ => 0
    starts := fun _ => 0
    ends := fun _ => 0
    pc := fun _ => .exited }

end Verif.Prepare
