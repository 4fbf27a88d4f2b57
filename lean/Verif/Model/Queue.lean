import Mathlib.Data.Int.Order.Basic
import Mathlib.Data.List.Range

/-!
# Task queues (quicksched/queue.c)

A queue is a C array `inds` of task ids together with the number of entries `count` and the
allocated capacity `size` (quicksched/queue.h, `struct queue`).  The array is modelled as a
function from positions to task ids; only the first `count` positions are meaningful.
`w t` is `tasks[t].weight`.
-/
namespace Verif.Queue

/-- `struct queue` (quicksched/queue.h:24-38) without its lock (the lock is part of the
scheduler model in `Verif.Model.Sched`). -/
structure Q where
  /-- `inds[]` -/
  inds : Nat → Nat
  /-- `count` -/
  count : Nat
  /-- `size`: the number of allocated entries -/
  size : Nat

/-- Exchange two array entries: `temp = inds[i]; inds[i] = inds[j]; inds[j] = temp`
(queue.c:101-103, 115-117, 187-189). -/
def swap (a : Nat → Nat) (i j : Nat) : Nat → Nat :=
  fun x => if x = i then a j else if x = j then a i else a x

/-- The bubble-up loop of `queue_put` (queue.c:184-193) and the first loop of `queue_get`
(queue.c:98-107).  The C code keeps the weight of the moving entry in `w`; it is the weight of
entry `k` in every iteration, which is what is written here. -/
def siftUp (w : Nat → Int) (a : Nat → Nat) (k : Nat) : Nat → Nat :=
  if h : k = 0 then a
  else
    let j := (k - 1) / 2
    if w (a j) < w (a k) then siftUp w (swap a j k) j else a
termination_by k
decreasing_by omega

/-- Child selection and loop of the second branch of `queue_get` (queue.c:109-121);
`count` is the number of entries that remain. -/
def siftDown (w : Nat → Int) (count : Nat) (a : Nat → Nat) (k : Nat) : Nat → Nat :=
  if _h : 2 * k + 1 ≥ count then a
  else
    let j := if 2 * k + 2 < count ∧ w (a (2 * k + 1)) < w (a (2 * k + 2)) then 2 * k + 2 else 2 * k + 1
    if w (a k) < w (a j) then siftDown w count (swap a j k) j else a
termination_by count - k
decreasing_by
  all_goals split <;> omega

/-- Removal of the entry at position `k` (queue.c:91-121): the last entry is moved to position
`k`, the count is decreased and the heap is repaired.  When `k` is the last position the C code
runs the same repair code on the position just behind the new end; so does this model. -/
def remove (w : Nat → Int) (q : Q) (k : Nat) : Q :=
  let count := q.count - 1
  let a := Function.update q.inds k (q.inds count)
  let a' := if k > 0 ∧ w (a k) > w (a ((k - 1) / 2)) then siftUp w a k else siftDown w count a k
  { q with inds := a', count := count }

/-- The search loop of `queue_get` (queue.c:77-86): the first position at or after `k` whose
task can be locked.  `lockable t` is the return value of `qsched_locktask(s, t)`. -/
def scan (lockable : Nat → Bool) (q : Q) (k : Nat) : Option Nat :=
  if _h : k < q.count then
    if lockable (q.inds k) then some k else scan lockable q (k + 1)
  else none
termination_by q.count - k

/-- `queue_get` (queue.c:55-134) as one uninterrupted critical section: the early return for an
empty queue, the search and the removal.  Returns the task id (`none` is `qsched_task_none`) and
the new queue. The locking of the queue itself is modelled in `Verif.Model.Sched`. -/
def get (w : Nat → Int) (lockable : Nat → Bool) (q : Q) : Option Nat × Q :=
  if q.count = 0 then (none, q)
  else
    match scan lockable q 0 with
    | some k => (some (q.inds k), remove w q k)
    | none => (none, q)

/-- `queue_put` (queue.c:144-197): the capacity is doubled (`queue_grow` = 2) when the array is
full, the task is appended and bubbled up. -/
def put (w : Nat → Int) (q : Q) (t : Nat) : Q :=
  { inds := siftUp w (Function.update q.inds q.count t) q.count
    count := q.count + 1
    size := if q.count ≥ q.size then q.size * 2 else q.size }

/-- `queue_init(q, size)` (queue.c:217-234). -/
def init (size : Nat) : Q := { inds := fun _ => 0, count := 0, size := size }

/-- The task ids currently in the queue, in array order. -/
def Q.toList (q : Q) : List Nat := (List.range q.count).map q.inds

end Verif.Queue
