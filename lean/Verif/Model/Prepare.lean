import Verif.Model.Queue
import Mathlib.Logic.Function.Basic

/-!
# `qsched_prepare` (quicksched/qsched.c:1045-1155) and `qsched_enqueue` (qsched.c:564-604)

The tasks have flags `task_flag_none` (the only value CosTuuM uses); the flags are modelled in
`Verif.Model.Flags`.  Sorting and linking the dependency arrays (the `dirty` part, qsched.c:1058-1089) is
modelled in `Verif.Model.Store`; here `unlocks t` is the resulting list.
-/
namespace Verif.Prepare
open Verif

/-- `for (j...) tasks[us[j]].wait += d` (qsched.c:1099-1100). -/
def bump (wait : Nat → Int) (d : Int) (us : List Nat) : Nat → Int :=
  us.foldl (fun w u => Function.update w u (w u + d)) wait

/-- "Run through the tasks and set the waits" (qsched.c:1096-1101). -/
def setWaits (count : Nat) (unlocks : Nat → List Nat) (wait : Nat → Int) : Nat → Int :=
  (List.range count).foldl (fun w k => bump w 1 (unlocks k)) wait

/-- State of the topological sort: the wait counters and `tid[0 .. j-1]`. -/
structure K where
  wait : Nat → Int
  tid : List Nat

/-- `if ((tasks[u].wait -= 1) == 0) tid[j++] = u` (qsched.c:1113-1117). -/
def relax (st : K) (u : Nat) : K :=
  { wait := Function.update st.wait u (st.wait u - 1)
    tid := if st.wait u - 1 = 0 then st.tid ++ [u] else st.tid }

/-- The tasks that are ready initially (qsched.c:1105-1110). -/
def kahnInit (count : Nat) (wait : Nat → Int) : K :=
  { wait := wait, tid := (List.range count).filter fun k => wait k = 0 }

/-- One iteration of `for (k = 0; k < j; k++)` (qsched.c:1111-1118); it does nothing if `k >= j`. -/
def kahnStep (unlocks : Nat → List Nat) (st : K) (k : Nat) : K :=
  match st.tid[k]? with
  | some t => (unlocks t).foldl relax st
  | none => st

/-- The whole topological sort (qsched.c:1103-1118).  The C loop runs while `k < j`; `tid` has room for `count`
entries, so that more than `count` iterations would be an access outside the allocation; that `j <= count` is the
theorem `c06_no_overflow`. -/
def kahn (count : Nat) (unlocks : Nat → List Nat) (wait : Nat → Int) : K :=
  (List.range count).foldl (kahnStep unlocks) (kahnInit count wait)

/-- One iteration of the backward loop (qsched.c:1124-1133): wait counters are restored, the weight is the cost plus
the largest weight (at least 0) among the unlocked tasks. -/
def back (unlocks : Nat → List Nat) (cost : Nat → Int) (st : (Nat → Int) × (Nat → Int)) (t : Nat) :
    (Nat → Int) × (Nat → Int) :=
  let r := (unlocks t).foldl (fun (x : (Nat → Int) × Int) u =>
    (Function.update x.1 u (x.1 u + 1), if st.2 u > x.2 then st.2 u else x.2)) (st.1, 0)
  (r.1, Function.update st.2 t (cost t + r.2))

/-- The backward loop (qsched.c:1124-1133), `k = count - 1 ... 0`. -/
def backward (unlocks : Nat → List Nat) (cost : Nat → Int) (tid : List Nat) (wait weight : Nat → Int) :
    (Nat → Int) × (Nat → Int) :=
  tid.reverse.foldl (back unlocks cost) (wait, weight)

/-- The number of resources in `rs` owned by queue `j` (qsched.c:581-590): the final value of `scores[j]`.
`owner r = none` is `qsched_owner_none`. -/
def score (owner : Nat → Option Nat) (rs : List Nat) (j : Nat) : Nat := rs.countP fun r => owner r = some j

/-- The choice of the queue in `qsched_enqueue` (qsched.c:592-599). -/
def pickQueue (nq : Nat) (score cnt : Nat → Nat) : Nat :=
  ((List.range (nq - 1)).map (· + 1)).foldl
    (fun qid j => if score j > score qid ∨ (score j = score qid ∧ cnt j < cnt qid) then j else qid) 0

/-- What `qsched_enqueue` needs to know: locks followed by uses of each task, and the owners of the resources. -/
structure EnqCfg where
  nq : Nat
  resources : Nat → List Nat
  owner : Nat → Option Nat

/-- `qsched_enqueue` for a task without flags (qsched.c:578-602). -/
def enqueue (E : EnqCfg) (weight : Nat → Int) (queue : Nat → Queue.Q) (t : Nat) : Nat → Queue.Q :=
  let q := pickQueue E.nq (score E.owner (E.resources t)) (fun j => (queue j).count)
  Function.update queue q (Queue.put weight (queue q) t)

/-- "Run through the tasks and enqueue the non-waiting ones" (qsched.c:1136-1140). -/
def enqueueReady (E : EnqCfg) (weight wait : Nat → Int) (ts : List Nat) (queue : Nat → Queue.Q) : Nat → Queue.Q :=
  ts.foldl (fun q t => if wait t = 0 then enqueue E weight q t else q) queue

/-- Result of `qsched_prepare`. -/
structure Ready where
  wait : Nat → Int
  weight : Nat → Int
  queue : Nat → Queue.Q
  waiting : Int
  /-- the topological order `tid` -/
  order : List Nat

/-- `qsched_prepare` after the sorting part; `none` is `quicksched_error("Circular dependencies detected.")`. -/
def prepare (count : Nat) (unlocks : Nat → List Nat) (cost : Nat → Int) (E : EnqCfg)
    (wait weight : Nat → Int) : Option Ready :=
  let wait0 := setWaits count unlocks wait
  let ready := (kahnInit count wait0).tid.length
  let st := kahn count unlocks wait0
  if st.tid.length < count then none
  else
    let b := backward unlocks cost st.tid st.wait weight
    some
      { wait := b.1
        weight := b.2
        queue := enqueueReady E b.2 b.1 (st.tid.take ready) (fun _ => Queue.init count)
        waiting := count
        order := st.tid }

end Verif.Prepare
