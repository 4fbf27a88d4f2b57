import Verif.Model.Prepare

/-!
# Task flags (quicksched/task.h:20-23): virtual and skipped tasks

`qsched_prepare`, `qsched_enqueue` and `qsched_done` with flags (qsched.c:1045-1155, 564-604, 612-655), at the
granularity of the changes of the counters.  A call of `qsched_done` that is under way is a `Frame`: the task and the
unlocks that remain to be processed.  `qsched_enqueue` of a virtual task calls `qsched_done` recursively
(qsched.c:569-575).  All calls that are under way, of all threads and of all recursion levels, are in one list and any
of them may continue: this allows more executions than the C code has (there an outer call waits for the
inner one).  Locks, weights, and the distribution over the queues are not modelled here: `queued` is the content of
all queues.
-/
namespace Verif.Flags
open Verif.Prepare

structure Cfg where
  count : Nat
  unlocks : Nat → List Nat
  /-- `task_flag_virtual` -/
  virt : Nat → Bool
  /-- `task_flag_skip` -/
  skip : Nat → Bool

/-- a call of `qsched_done` that is under way -/
abbrev Frame := Nat × List Nat

structure St where
  wait : Nat → Int
  waiting : Int
  queued : List Nat
  frames : List Frame
  /-- the tasks `qsched_prepare` has still to look at (qsched.c:1136-1140); `none` during the run -/
  prep : Option (List Nat)
  /-- observation: how often the user function was called for each task -/
  calls : Nat → Nat
  /-- observation: how often `qsched_done` was completed for each task -/
  fin : Nat → Nat

/-- `qsched_enqueue` (qsched.c:564-604). -/
def enqueue (C : Cfg) (s : St) (u : Nat) : St :=
  if C.virt u then { s with frames := (u, C.unlocks u) :: s.frames } else { s with queued := u :: s.queued }

/-- "Run through the tasks and set the waits" (qsched.c:1096-1101): skipped tasks are left out. -/
def setWaits (C : Cfg) (wait : Nat → Int) : Nat → Int :=
  (List.range C.count).foldl (fun w k => if C.skip k then w else bump w 1 (C.unlocks k)) wait

/-- The state in which the enqueueing loop of `qsched_prepare` starts (qsched.c:1136).  The topological sort and the
backward loop change the counters and restore them (qsched.c:1103-1133); its result, the list of tasks that are ready
initially, is `tid[0 .. ready-1]`. -/
def start (C : Cfg) (waiting : Int) : St :=
  let w := setWaits C (fun _ => 0)
  { wait := w, waiting := waiting, queued := [], frames := []
    prep := some ((List.range C.count).filter fun k => w k = 0), calls := fun _ => 0, fin := fun _ => 0 }

inductive Step (C : Cfg) : St → St → Prop
  /-- `if (t->wait == 0 && !(t->flags & task_flag_skip)) qsched_enqueue(s, t)` (qsched.c:1138-1139) -/
  | look {s t ts} : s.prep = some (t :: ts) →
      Step C s (let s' := { s with prep := some ts }
        if s.wait t = 0 ∧ C.skip t = false then enqueue C s' t else s')
  /-- `s->waiting = count` (qsched.c:1146), after all calls of `qsched_done` made by the loop have returned -/
  | go {s} : s.prep = some [] → s.frames = [] →
      Step C s { s with waiting := C.count, prep := none }
  /-- a worker gets a task from a queue, calls the user function and enters `qsched_done` (qsched.c:331-337) -/
  | run {s t l l'} : s.prep = none → s.queued = l ++ t :: l' →
      Step C s { s with queued := l ++ l', frames := (t, C.unlocks t) :: s.frames
                        calls := Function.update s.calls t (s.calls t + 1) }
  /-- `if (atomic_dec(&t2->wait) == 1 && !(t2->flags & task_flag_skip)) qsched_enqueue(s, t2)`
  (qsched.c:632-636) -/
  | unlock {s t u us l l'} : s.frames = l ++ (t, u :: us) :: l' →
      Step C s (let s' := { s with frames := l ++ (t, us) :: l'
                                   wait := Function.update s.wait u (s.wait u - 1) }
        if s.wait u = 1 ∧ C.skip u = false then enqueue C s' u else s')
  /-- `atomic_dec(&s->waiting)` (qsched.c:640) -/
  | done {s t l l'} : s.frames = l ++ (t, []) :: l' →
      Step C s { s with frames := l ++ l', waiting := s.waiting - 1
                        fin := Function.update s.fin t (s.fin t + 1) }

inductive Reach (C : Cfg) (s0 : St) : St → Prop
  | refl : Reach C s0 s0
  | step {s s'} : Reach C s0 s → Step C s s' → Reach C s0 s'

end Verif.Flags
