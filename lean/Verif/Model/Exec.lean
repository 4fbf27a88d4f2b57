import Verif.Model.Sched

/-!
# Tasks that compute: the worker threads together with the memory the tasks work on

`qsched_run_openmp` calls `fun(t->qid, t->type, data)` (qsched.c:334), which is `QuickSched::execute_task`
(QuickSchedWrapper.hpp:286-297) and calls `Task::execute(thread_id)`.  What a task does is a program that reads and writes shared
locations and the auxiliary space of the thread number it was given (`TMatrixAuxiliarySpaceManager::get_space`,
TMatrixResource.hpp:432-434, and the same in AlignmentAverageTask.hpp:124).  Every single read and write is a step of its own that other
threads can interleave with.
-/
namespace Verif.Exec
open Verif.Sched

/-- What a task does: a finite sequence of reads and writes, which depends on the values read.  (Simplification: all locations hold values
of one type; how values are represented does not matter here.) -/
inductive Prog (L V : Type) where
  | done
  | read (x : L) (k : V → Prog L V)
  | write (x : L) (v : V) (k : Prog L V)

/-- a task alone, from the first to the last step -/
def Prog.run {L V : Type} [DecidableEq L] : Prog L V → (L → V) → L → V
  | .done, m => m
  | .read x k, m => (k (m x)).run m
  | .write x v k, m => k.run (Function.update m x v)

/-- shared locations, and one auxiliary space for every thread number -/
abbrev Place (L : Type) := L ⊕ Nat

/-- the worker threads, the memory, and what every worker still has to do for the task it executes -/
structure XSt (C : Cfg) (L V : Type) where
  st : St C
  mem : Place L → V
  prog : Fin C.nth → Prog (Place L) V

/-- One step: of the scheduler (which starts a task, or leaves it once nothing is left to do; qsched.c:334), or of the task a worker
executes. -/
inductive XStep (C : Cfg) {L V : Type} [DecidableEq L] (body : Nat → Nat → Prog (Place L) V) : XSt C L V → XSt C L V → Prop
  /-- anything but a call of the user function -/
  | sched {x : XSt C L V} {s' : St C} (th : Fin C.nth) (ch : Nat) : step C x.st th ch = some s' → (∀ t, x.st.pc th ≠ .call t) →
      (∀ t id, x.st.pc th = .run t id → x.prog th = .done) → XStep C body x { x with st := s' }
  /-- the user function is called with task `t` -/
  | call {x : XSt C L V} {s' : St C} (th : Fin C.nth) (ch t : Nat) : step C x.st th ch = some s' → x.st.pc th = .call t →
      XStep C body x { x with st := s', prog := Function.update x.prog th (body t (x.st.tqid t)) }
  | read {x : XSt C L V} {t id : Nat} {p : Place L} {k : V → Prog (Place L) V} (th : Fin C.nth) : x.st.pc th = .run t id →
      x.prog th = .read p k → XStep C body x { x with prog := Function.update x.prog th (k (x.mem p)) }
  | write {x : XSt C L V} {t id : Nat} {p : Place L} {v : V} {k : Prog (Place L) V} (th : Fin C.nth) : x.st.pc th = .run t id →
      x.prog th = .write p v k → XStep C body x { x with mem := Function.update x.mem p v, prog := Function.update x.prog th k }

/-- what any interleaving of the threads can reach -/
inductive XReach (C : Cfg) {L V : Type} [DecidableEq L] (body : Nat → Nat → Prog (Place L) V) (x0 : XSt C L V) : XSt C L V → Prop
  | refl : XReach C body x0 x0
  | step {x x'} : XReach C body x0 x → XStep C body x x' → XReach C body x0 x'

/-- the tasks one after the other, on one thread -/
def seq {T L V : Type} [DecidableEq L] (body : T → Nat → Prog (Place L) V) (l : List T) (m : Place L → V) : Place L → V :=
  l.foldl (fun m t => (body t 0).run m) m

end Verif.Exec
