import Verif.Model.Store
import Verif.Model.Run

/-!
# The run of a scheduler that was filled through the API

Connects the memory after the filling calls (`Model.Store`) with `qsched_prepare` (`Model.Prepare`) and the workers
(`Model.Sched`).
-/
namespace Verif.Api
open Verif

/-- What the workers see: the arrays of the scheduler (qsched.c:1078-1086 sets the pointers `unlocks`, `locks`,
`uses` of each task; `view` follows them).  Resources that were never registered are never accessed. -/
def cfgOf (s : Store.Store) (nq nth : Nat) (weight : Nat → Int) : Sched.Cfg where
  count := s.count
  locks := Store.view s .locks
  unlocks := Store.view s .deps
  parent := fun r => if r < s.rcount then (s.res r).parent else none
  nq := nq
  nth := nth
  weight := weight

/-- What `qsched_enqueue` reads (qsched.c:581-590): locks, then uses, and the owners. -/
def enqOf (s : Store.Store) (nq : Nat) : Prepare.EnqCfg where
  nq := nq
  resources := fun t => Store.view s .locks t ++ Store.view s .uses t
  owner := fun r => if r < s.rcount then (s.res r).owner else none

/-- `qsched_prepare` of a scheduler that was filled and not run yet: the wait counters are zero (qsched.c:1450);
`weight0` is the uninitialised content of the weights, which `qsched_prepare` overwrites. -/
def prepareOf (s : Store.Store) (nq : Nat) (weight0 : Nat → Int) : Option Prepare.Ready :=
  Prepare.prepare s.count (Store.view s .deps) (fun t => (s.tasks t).cost) (enqOf s nq) (fun _ => 0) weight0

/-- The state in which the workers start. -/
def startOf (s : Store.Store) (nq nth : Nat) (r : Prepare.Ready) : Sched.St (cfgOf s nq nth r.weight) :=
  Prepare.restart r (Prepare.fresh _)

end Verif.Api
