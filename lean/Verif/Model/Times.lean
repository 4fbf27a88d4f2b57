import Verif.Model.Sched

/-!
# The times and thread numbers QuickSched records (qsched.c:619-620, 868-870)

The worker threads of `Verif.Model.Sched`, together with a clock that is read with `getticks`.  Any amount of time
may pass at every step; the clock is the same for all threads and never goes back (on x86 it is `rdtsc`,
quicksched/cycle.h:241-245; that the counters of different processor cores agree is an assumption about the machine).
The values are taken as natural numbers: that the 64 bit counter wraps around is not modelled.
-/
namespace Verif.Times
open Verif Sched

/-- The scheduler with the fields of the tasks that no scheduling decision depends on. -/
structure TSt (C : Cfg) where
  s : St C
  /-- what `getticks` would return -/
  now : Nat
  /-- `t->tic`, `t->toc` (task.h:53) -/
  tic : Nat → Nat
  toc : Nat → Nat
  /-- observed by the user: when the user function was called for a task, and with which thread number -/
  began : Nat → Nat
  told : Nat → Nat

/-- `t->tic = getticks()` at the end of `qsched_gettask` (qsched.c:869), next to `t->qid = qid` -/
def ticOf (p : Pc) (now : Nat) (tic : Nat → Nat) : Nat → Nat :=
  match p with
  | .setq t => Function.update tic t now
  | _ => tic

/-- `t->toc = getticks()` (qsched.c:620): the first thing `qsched_done` does when the user function has returned -/
def tocOf (p : Pc) (now : Nat) (toc : Nat → Nat) : Nat → Nat :=
  match p with
  | .run t _ => Function.update toc t now
  | _ => toc

/-- the call of the user function (qsched.c:334) -/
def beganOf (p : Pc) (now : Nat) (began : Nat → Nat) : Nat → Nat :=
  match p with
  | .call t => Function.update began t now
  | _ => began

/-- its first argument, `t->qid` (qsched.c:334) -/
def toldOf (p : Pc) (tqid : Nat → Nat) (told : Nat → Nat) : Nat → Nat :=
  match p with
  | .call t => Function.update told t (tqid t)
  | _ => told

/-- One step of thread `th` that ends `dt` ticks after the previous step of any thread. -/
def tstep (C : Cfg) (x : TSt C) (th : Fin C.nth) (ch dt : Nat) : Option (TSt C) :=
  (step C x.s th ch).map fun s' =>
    { s := s'
      now := x.now + dt
      tic := ticOf (x.s.pc th) (x.now + dt) x.tic
      toc := tocOf (x.s.pc th) (x.now + dt) x.toc
      began := beganOf (x.s.pc th) (x.now + dt) x.began
      told := toldOf (x.s.pc th) x.s.tqid x.told }

/-- The states that some schedule, some choices and some durations lead to. -/
inductive TReach (C : Cfg) (x0 : TSt C) : TSt C → Prop
  | refl : TReach C x0 x0
  | step {x x'} (th : Fin C.nth) (ch dt : Nat) : TReach C x0 x → tstep C x th ch dt = some x' → TReach C x0 x'

end Verif.Times
