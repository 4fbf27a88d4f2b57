import Verif.Model.Sched
import Mathlib.Logic.Relation

/-!
# Vocabulary for the properties of the scheduler

What a user of the scheduler provides and observes.
-/
namespace Verif.Sched

/-- `a` is a proper ancestor of `r` in the resource tree. -/
def Ancestor (parent : Nat → Option Nat) (a r : Nat) : Prop :=
  Relation.TransGen (fun p c => parent c = some p) a r

/-- Two resources conflict if they are equal or one contains the other. -/
def Conflict (parent : Nat → Option Nat) (r r' : Nat) : Prop :=
  r = r' ∨ Ancestor parent r r' ∨ Ancestor parent r' r

/-- A scheduler that was filled through the API: at least one queue, links only between existing tasks
(`qsched_addunlock` is only called with ids returned by `qsched_addtask`), parents created before their
children. -/
structure WfCfg (C : Cfg) : Prop where
  nq_pos : 0 < C.nq
  links : ∀ a < C.count, ∀ u ∈ C.unlocks a, u < C.count
  tree : ∀ r p, C.parent r = some p → p < r

/-- The number of links from tasks to `t`. -/
def inLinks (C : Cfg) (t : Nat) : Nat := ∑ a ∈ Finset.range C.count, (C.unlocks a).count t

/-- The state in which the parallel region of `qsched_run_openmp` starts. -/
structure Prepared (C : Cfg) (s : St C) : Prop where
  lock : ∀ r, s.lock r = false
  hold : ∀ r, s.hold r = 0
  qlock : ∀ q, s.qlock q = false
  wait : ∀ t, s.wait t = inLinks C t
  waiting : s.waiting = C.count
  starts : ∀ t, s.starts t = 0
  ends : ∀ t, s.ends t = 0
  /-- every task without incoming links is in exactly one queue, once; no other task is in a queue -/
  queued : ∀ t, ∑ q ∈ Finset.range C.nq, (s.queue q).toList.count t
    = if t < C.count ∧ inLinks C t = 0 then 1 else 0
  /-- the queues are in heap order -/
  heap : ∀ q i, 0 < i → i < (s.queue q).count →
    C.weight ((s.queue q).inds i) ≤ C.weight ((s.queue q).inds ((i - 1) / 2))
  pc : ∀ th, s.pc th = .top

/-- Thread `th` is inside the user function for task `t`, which was told thread number `id`. -/
def Runs {C : Cfg} (s : St C) (th : Fin C.nth) (t id : Nat) : Prop := s.pc th = .run t id

/-- All threads have left the parallel loop. -/
def AllExited {C : Cfg} (s : St C) : Prop := ∀ th, s.pc th = .exited

/-- The position lies between locking queue `q` and unlocking it again (`queue_get`, queue.c:66-130;
`queue_put`, queue.c:151-196). -/
def InQueueSection (q : Nat) : Pc → Prop
  | .scan c _ | .lockNext c _ _ _ _ | .lockIn c _ _ _ _ _ | .rollNext c _ _ _ | .rollIn c _ _ _ _
  | .take c _ _ | .relq c _ => q = c.q
  | .putQ _ _ _ q' | .putU _ _ q' => q = q'
  | _ => False

end Verif.Sched

namespace Verif.Sched

/-- No task locks a resource twice, or a resource together with one of its ancestors.  (Such a task could
never be locked: `qsched_locktask` would fail on its own first lock.) -/
def NoSelfConflict (C : Cfg) : Prop :=
  ∀ t < C.count, (C.locks t).Pairwise fun r r' => ¬ Conflict C.parent r r'

/-- The links form no cycle (checked by `qsched_prepare`). -/
def AcyclicLinks (C : Cfg) : Prop :=
  ∃ rank : Nat → Nat, ∀ a < C.count, ∀ b ∈ C.unlocks a, rank a < rank b

/-- Some scheduler can bring the run to its end, whatever the random choices are: in every state it can name
a thread that is able to take a step, and following its choices every thread exits after finitely many steps. -/
inductive CanFinish (C : Cfg) : St C → Prop
  | done {s} : AllExited s → CanFinish C s
  | step {s} (th : Fin C.nth) (able : ∀ ch, (step C s th ch).isSome = true)
      (next : ∀ ch s', step C s th ch = some s' → CanFinish C s') : CanFinish C s

end Verif.Sched

namespace Verif.Sched

/-- An execution: a sequence of states in which each one follows from the one before by a step of some thread
(or nothing happens). -/
def IsRun (C : Cfg) (run : Nat → St C) : Prop :=
  ∀ n, run (n + 1) = run n ∨ ∃ th ch, step C (run n) th ch = some (run (n + 1))

/-- The thread has just failed to lock task `t`, entry `k` of the queue it searches: `qsched_locktask` is
unrolling the locks it got and will return 0 (qsched.c:755-763). -/
def FailedToLock (c : Ctx) (k t : Nat) (p : Pc) : Prop := ∃ got, p = .rollNext c k t got

end Verif.Sched
