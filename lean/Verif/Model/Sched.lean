import Verif.Model.Queue
import Mathlib.Algebra.BigOperators.Group.Finset.Basic
import Mathlib.Data.Fintype.BigOperators

/-!
# The worker threads of QuickSched (quicksched/qsched.c, quicksched/queue.c)

A small step model of `qsched_run_openmp` after `qsched_prepare`: any number of threads, any number
of queues, any task graph, any resource tree.  Every access to shared memory that another thread can
interfere with is one step: reading `waiting`, reading a queue's `count`, every lock operation, every
read, increment or decrement of a `hold` counter, every decrement of a `wait` counter, the decrement of
`waiting`.  The updates of the heap inside a queue are one step each (`Queue.remove`, `Queue.put`); that
they happen under the queue's lock, so that the C code's sequence of array accesses cannot be
interleaved with another one, is a theorem (`c09_queue_exclusive`), not an assumption.

Not modelled here: timers; resource owners (they only influence which queue `qsched_enqueue` picks,
and that pick is an arbitrary choice here; `Verif.Model.Enqueue` models the pick itself); the flags
`skip` and `virtual` (CosTuuM never sets them; `Verif.Model.Flags` models them).
-/
namespace Verif.Sched
open Verif

/-- What a prepared scheduler contains and a run does not change: `struct qsched` (qsched.h:83-168),
`struct task` (task.h:26-58), `struct res` (res.h:20-34). -/
structure Cfg where
  /-- number of tasks, `s->count` -/
  count : Nat
  /-- `t->locks[0 .. nr_locks-1]` -/
  locks : Nat → List Nat
  /-- `t->unlocks[0 .. nr_unlocks-1]` -/
  unlocks : Nat → List Nat
  /-- `res->parent`, `none` is `qsched_res_none` -/
  parent : Nat → Option Nat
  /-- `s->nr_queues` -/
  nq : Nat
  /-- number of OpenMP threads -/
  nth : Nat
  /-- `t->weight` -/
  weight : Nat → Int

/-- The resources visited by `for (finger = parent; finger != none; finger = res[finger].parent)`
(qsched.c:679-680, 726-727).  A parent is always created before its children (`qsched_addres`,
qsched.c:1167-1207, returns consecutive ids), so the `p < r` test never fails; it makes the
definition total. -/
def anc (parent : Nat → Option Nat) (r : Nat) : List Nat :=
  match parent r with
  | none => []
  | some p => if p < r then p :: anc parent p else []
termination_by r

/-- The queue a worker was given: `omp_get_thread_num() % nr_queues` (qsched.c:328). -/
def qid (C : Cfg) (th : Nat) : Nat := th % C.nq

/-- Local variables of `queue_get` (queue.c:55-134): the queue, the captured `count`, and where to go
on if no task is found: `none` is the thread's own queue (insist = 1), `some qids` the remaining other
queues (insist = 0, qsched.c:844-855). -/
structure Ctx where
  q : Nat
  cont : Option (List Nat)
  n : Nat

/-- Position inside `qsched_lockres` (qsched.c:665-709). `up` are the ancestors already held. -/
inductive RPc where
  | chk1 (r : Nat)
  | tryl (r : Nat)
  | chk2 (r : Nat)
  | climb (r : Nat) (up todo : List Nat)
  | inc (r : Nat) (up : List Nat) (f : Nat) (fs : List Nat)
  | relf (r : Nat) (up : List Nat) (f : Nat) (fs : List Nat)
  | failU (r : Nat) (up : List Nat)
  | failD (todo : List Nat)

/-- Position inside `qsched_unlockres` (qsched.c:717-728). -/
inductive UPc where
  | unl (r : Nat)
  | dec (todo : List Nat)

/-- Position of a worker. -/
inductive Pc where
  /-- about to test `while (s->waiting)` (qsched.c:831) -/
  | top
  /-- `qsched_gettask` returned NULL -/
  | exited
  /-- about to test `q->count == 0` of the own queue (queue.c:61) -/
  | own
  /-- collecting the other nonempty queues (qsched.c:842-844) -/
  | collect (k : Nat) (acc : List Nat)
  /-- about to try another queue (qsched.c:845-855) -/
  | others (qs : List Nat)
  /-- about to lock a queue (queue.c:66-70) -/
  | acq (q : Nat) (cont : Option (List Nat))
  /-- search loop, about to test entry `k` (queue.c:78-82) -/
  | scan (c : Ctx) (k : Nat)
  /-- loop of `qsched_locktask` (qsched.c:750-752) -/
  | lockNext (c : Ctx) (k t : Nat) (got todo : List Nat)
  | lockIn (c : Ctx) (k t : Nat) (got todo : List Nat) (rp : RPc)
  /-- unroll loop of `qsched_locktask` (qsched.c:758-759); `got` has the latest lock first -/
  | rollNext (c : Ctx) (k t : Nat) (got : List Nat)
  | rollIn (c : Ctx) (k t : Nat) (got : List Nat) (up : UPc)
  /-- all locks obtained, about to remove entry `k` (queue.c:89-121) -/
  | take (c : Ctx) (k t : Nat)
  /-- about to unlock the queue (queue.c:130) and return `o` -/
  | relq (c : Ctx) (o : Option Nat)
  /-- about to set `t->qid` (qsched.c:872) -/
  | setq (t : Nat)
  /-- about to call the user function (qsched.c:334) -/
  | call (t : Nat)
  /-- in the user function, called with thread id `id` -/
  | run (t id : Nat)
  /-- loop releasing the locks in `qsched_done` (qsched.c:625-626) -/
  | relNext (t : Nat) (todo : List Nat)
  | relIn (t : Nat) (todo : List Nat) (up : UPc)
  /-- loop over the unlocks in `qsched_done` (qsched.c:629-637) -/
  | deps (t : Nat) (us : List Nat)
  /-- `qsched_enqueue(u)` (qsched.c:564-604), then `queue_put` (queue.c:144-197) -/
  | enq (t : Nat) (us : List Nat) (u : Nat)
  | putL (t : Nat) (us : List Nat) (u q : Nat)
  | putQ (t : Nat) (us : List Nat) (u q : Nat)
  | putU (t : Nat) (us : List Nat) (q : Nat)
  /-- about to decrement `waiting` (qsched.c:640) -/
  | fin (t : Nat)

/-- Shared memory, the position of every worker, and two counters that record what a user
observes: how often the user function was entered (`starts`) and left (`ends`) for each task. -/
structure St (C : Cfg) where
  /-- `res->lock` -/
  lock : Nat → Bool
  /-- `res->hold` -/
  hold : Nat → Int
  /-- `queue->lock` -/
  qlock : Nat → Bool
  /-- the queues -/
  queue : Nat → Queue.Q
  /-- `t->wait` -/
  wait : Nat → Int
  /-- `s->waiting` -/
  waiting : Int
  /-- `t->qid` -/
  tqid : Nat → Nat
  starts : Nat → Nat
  ends : Nat → Nat
  pc : Fin C.nth → Pc

/-- Where `gettask` goes on after an unsuccessful `queue_get` (qsched.c:838-855). -/
def afterFail : Option (List Nat) → Pc
  | none => .collect 0 []
  | some qs => .others qs

/-- One step of `qsched_lockres`: new memory and position; `ok` and `fail` are the positions after
`return 1` and `return 0`. -/
def stepR {C : Cfg} (s : St C) (ok : Nat → Pc) (fail : Pc) (k : RPc → Pc) : RPc → St C × Pc
  | .chk1 r => (s, if s.hold r ≠ 0 then fail else k (.tryl r))                       -- qsched.c:670
  | .tryl r =>                                                                       -- qsched.c:670
    if s.lock r then (s, fail)
    else ({ s with lock := Function.update s.lock r true }, k (.chk2 r))
  | .chk2 r =>                                                                       -- qsched.c:674
    (s, if s.hold r ≠ 0 then k (.failU r []) else k (.climb r [] (anc C.parent r)))
  | .climb r _ [] => (s, ok r)                                                       -- qsched.c:707
  | .climb r up (f :: fs) =>                                                         -- qsched.c:681
    if s.lock f then (s, k (.failU r up))
    else ({ s with lock := Function.update s.lock f true }, k (.inc r up f fs))
  | .inc r up f fs =>                                                                -- qsched.c:683
    ({ s with hold := Function.update s.hold f (s.hold f + 1) }, k (.relf r up f fs))
  | .relf r up f fs =>                                                               -- qsched.c:684
    ({ s with lock := Function.update s.lock f false }, k (.climb r (up ++ [f]) fs))
  | .failU r up =>                                                                   -- qsched.c:675, 691
    ({ s with lock := Function.update s.lock r false }, k (.failD up))
  | .failD [] => (s, fail)                                                           -- qsched.c:676, 699
  | .failD (f :: fs) =>                                                              -- qsched.c:694-696
    ({ s with hold := Function.update s.hold f (s.hold f - 1) }, k (.failD fs))

/-- One step of `qsched_unlockres` (qsched.c:717-728); `done` is the position after it returns. -/
def stepU {C : Cfg} (s : St C) (done : Pc) (k : UPc → Pc) : UPc → St C × Pc
  | .unl r => ({ s with lock := Function.update s.lock r false }, k (.dec (anc C.parent r)))
  | .dec [] => (s, done)
  | .dec (f :: fs) => ({ s with hold := Function.update s.hold f (s.hold f - 1) }, k (.dec fs))

/-- One step of worker `th`: new memory and new position, or `none` if the worker spins on a lock that
is taken (or has exited).  `ch` resolves the choices: `rand_r` in `qsched_gettask` (qsched.c:846) and
the queue picked by `qsched_enqueue` (qsched.c:592-600). -/
def act (C : Cfg) (s : St C) (th : Fin C.nth) (ch : Nat) : Option (St C × Pc) :=
  match s.pc th with
  | .top => some (s, if s.waiting = 0 then .exited else .own)
  | .exited => none
  | .own =>
    some (s, if (s.queue (qid C th)).count = 0 then .collect 0 [] else .acq (qid C th) none)
  | .collect k acc =>
    some (s, if k < C.nq then
        (if k ≠ qid C th ∧ (s.queue k).count > 0 then .collect (k + 1) (acc ++ [k])
          else .collect (k + 1) acc)
      else .others acc)
  | .others [] => some (s, .top)
  | .others (q0 :: qs) =>
    let l := q0 :: qs
    let i := ch % l.length
    let q := l.getD i 0
    -- `qids[k] = qids[--naq]` happens after the attempt failed; the list is only used then
    let rest := (l.set i (l.getLastD 0)).dropLast
    some (s, if (s.queue q).count = 0 then .others rest else .acq q (some rest))
  | .acq q cont =>
    if s.qlock q then
      (match cont with
        | none => none                            -- lock_lock spins
        | some qs => some (s, .others qs))        -- lock_trylock fails
    else
      some ({ s with qlock := Function.update s.qlock q true }, .scan ⟨q, cont, (s.queue q).count⟩ 0)
  | .scan c k =>
    some (s, if k < c.n then
        .lockNext c k ((s.queue c.q).inds k) [] (C.locks ((s.queue c.q).inds k))
      else .relq c none)
  | .lockNext c k t _ [] => some (s, .take c k t)
  | .lockNext c k t got (r :: todo) => some (s, .lockIn c k t got todo (.chk1 r))
  | .lockIn c k t got todo rp =>
    some (stepR s (fun r => .lockNext c k t (r :: got) todo) (.rollNext c k t got)
      (.lockIn c k t got todo) rp)
  | .rollNext c k _ [] => some (s, .scan c (k + 1))
  | .rollNext c k t (r :: got) => some (s, .rollIn c k t got (.unl r))
  | .rollIn c k t got up => some (stepU s (.rollNext c k t got) (.rollIn c k t got) up)
  | .take c k t =>
    some ({ s with queue := Function.update s.queue c.q (Queue.remove C.weight (s.queue c.q) k) },
      .relq c (some t))
  | .relq c o =>
    some ({ s with qlock := Function.update s.qlock c.q false },
      match o with | some t => .setq t | none => afterFail c.cont)
  | .setq t => some ({ s with tqid := Function.update s.tqid t (qid C th) }, .call t)
  | .call t =>
    some ({ s with starts := Function.update s.starts t (s.starts t + 1) }, .run t (s.tqid t))
  | .run t _ =>
    some ({ s with ends := Function.update s.ends t (s.ends t + 1) }, .relNext t (C.locks t))
  | .relNext t [] => some (s, .deps t (C.unlocks t))
  | .relNext t (r :: rs) => some (s, .relIn t rs (.unl r))
  | .relIn t todo up => some (stepU s (.relNext t todo) (.relIn t todo) up)
  | .deps t [] => some (s, .fin t)
  | .deps t (u :: us) =>
    some ({ s with wait := Function.update s.wait u (s.wait u - 1) },
      if s.wait u = 1 then .enq t us u else .deps t us)
  | .enq t us u => some (s, .putL t us u (ch % C.nq))
  | .putL t us u q =>
    if s.qlock q then none
    else some ({ s with qlock := Function.update s.qlock q true }, .putQ t us u q)
  | .putQ t us u q =>
    some ({ s with queue := Function.update s.queue q (Queue.put C.weight (s.queue q) u) }, .putU t us q)
  | .putU t us q => some ({ s with qlock := Function.update s.qlock q false }, .deps t us)
  | .fin _ => some ({ s with waiting := s.waiting - 1 }, .top)

/-- One step of the system. -/
def step (C : Cfg) (s : St C) (th : Fin C.nth) (ch : Nat) : Option (St C) :=
  (act C s th ch).map fun x => { x.1 with pc := Function.update s.pc th x.2 }

/-- The states that some schedule and some choices lead to from `s`. -/
inductive Reach (C : Cfg) (s0 : St C) : St C → Prop
  | refl : Reach C s0 s0
  | step {s s'} (th : Fin C.nth) (ch : Nat) : Reach C s0 s → step C s th ch = some s' → Reach C s0 s'

end Verif.Sched
