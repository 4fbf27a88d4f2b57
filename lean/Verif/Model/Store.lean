import Mathlib.Logic.Function.Basic
import Mathlib.Data.List.Range

/-!
# Filling a scheduler (quicksched/qsched.c: `qsched_init`, `qsched_ensure`, `qsched_addres`, `qsched_addtask`,
`qsched_addunlock`, `qsched_addlock`, `qsched_adduse`, and the sorting part of `qsched_prepare`)

Every C array is modelled with its allocated size; reading or writing outside of the allocation is undefined
behaviour and modelled as `none`.  Memory that `malloc` returned is uninitialised: its content is the parameter
`Junk`, which is arbitrary in all theorems.  Integers are unbounded (the C code uses `int`; sizes above 2^31 are
not modelled), `malloc` never fails.
-/
namespace Verif.Store

/-- The three link tables: dependencies (`deps`, `deps_key`), locks and uses (qsched.h:104-135).  The C code that
handles them is the same code three times. -/
inductive Kind | deps | locks | uses
  deriving DecidableEq

/-- `struct task` (task.h:26-58), the fields that are set before a run. -/
structure TaskRec where
  type : Nat
  flags : Nat
  cost : Int
  /-- offset of the payload in `s->data` -/
  data : Nat
  /-- `nr_unlocks`, `nr_locks`, `nr_uses` -/
  nr : Kind → Nat

/-- `struct res` (res.h:20-34); `none` is `qsched_owner_none` / `qsched_res_none`. -/
structure ResRec where
  owner : Option Nat
  parent : Option Nat

/-- one link table: `deps`/`deps_key`, `count_deps`, `size_deps` -/
structure Links where
  size : Nat
  count : Nat
  data : Nat → Nat
  key : Nat → Nat

/-- `struct qsched` (qsched.h:83-168), the arrays. -/
structure Store where
  tsize : Nat
  count : Nat
  tasks : Nat → TaskRec
  rsize : Nat
  rcount : Nat
  res : Nat → ResRec
  links : Kind → Links
  dsize : Nat
  dcount : Nat
  /-- `s->data` -/
  bytes : Nat → Nat

/-- What uninitialised memory contains. -/
structure Junk where
  tasks : Nat → TaskRec
  res : Nat → ResRec
  ints : Kind → Nat → Nat
  keys : Kind → Nat → Nat
  bytes : Nat → Nat

/-- `new = malloc(..); memcpy(new, old, count); free(old)` (e.g. qsched.c:1342-1356). -/
def regrow {α : Type} (junk old : Nat → α) (count : Nat) : Nat → α := fun i => if i < count then old i else junk i

/-- `qsched_init` (qsched.c:1582-1618) with the constants of qsched.h:37-45. -/
def init (J : Junk) : Store where
  tsize := 1000
  count := 0
  tasks := J.tasks
  rsize := 2000
  rcount := 0
  res := J.res
  links := fun k => { size := 2000, count := 0, data := J.ints k, key := J.keys k }
  dsize := 8000
  dcount := 0
  bytes := J.bytes

/-- `qsched_addres` (qsched.c:1167-1210). -/
def addres (J : Junk) (s : Store) (owner parent : Option Nat) : Option Store :=
  let s := if s.rcount = s.rsize then { s with rsize := s.rsize * 2, res := regrow J.res s.res s.rcount } else s
  if s.rcount < s.rsize then
    some { s with res := Function.update s.res s.rcount ⟨owner, parent⟩, rcount := s.rcount + 1 }
  else none

/-- `qsched_addlock`, `qsched_adduse`, `qsched_addunlock` (qsched.c:1220-1263, 1274-1317, 1330-1374). -/
def addlink (J : Junk) (s : Store) (k : Kind) (t v : Nat) : Option Store :=
  let L := s.links k
  let L := if L.count = L.size then
    { L with size := L.size * 2, data := regrow (J.ints k) L.data L.count, key := regrow (J.keys k) L.key L.count }
    else L
  if L.count < L.size ∧ t < s.count then
    let L := { L with data := Function.update L.data L.count v, key := Function.update L.key L.count t,
                      count := L.count + 1 }
    let r := s.tasks t
    some { s with
      links := Function.update s.links k L
      tasks := Function.update s.tasks t { r with nr := Function.update r.nr k (r.nr k + 1) } }
  else none

/-- `(size + 15) & ~15` (qsched.c:1418). -/
def roundUp (n : Nat) : Nat := (n + 15) / 16 * 16

/-- `memcpy(&bytes[at], payload, length)`. -/
def blit (bytes : Nat → Nat) (pos : Nat) (payload : List Nat) : Nat → Nat :=
  fun i => if pos ≤ i ∧ i < pos + payload.length then payload.getD (i - pos) 0 else bytes i

/-- `qsched_addtask` (qsched.c:1387-1469).  The buffer for the payloads is doubled at most once. -/
def addtask (J : Junk) (s : Store) (type flags : Nat) (cost : Int) (payload : List Nat) : Option Store :=
  let s := if s.count = s.tsize then { s with tsize := s.tsize * 2, tasks := regrow J.tasks s.tasks s.count } else s
  let size2 := roundUp payload.length
  let s := if s.dcount + size2 > s.dsize then
    { s with dsize := s.dsize * 2, bytes := regrow J.bytes s.bytes s.dcount } else s
  if s.count < s.tsize ∧ s.dcount + payload.length ≤ s.dsize then
    some { s with
      tasks := Function.update s.tasks s.count
        { type := type, flags := flags, cost := cost, data := s.dcount, nr := fun _ => 0 }
      bytes := blit s.bytes s.dcount payload
      dcount := s.dcount + size2
      count := s.count + 1 }
  else none

/-- `qsched_ensure` (qsched.c:102-212) for one link table. -/
def ensureLinks (J : Junk) (k : Kind) (L : Links) (n : Nat) : Links :=
  if L.size < n then
    { L with size := n, data := regrow (J.ints k) L.data L.count, key := regrow (J.keys k) L.key L.count }
  else L

/-- `qsched_ensure` (qsched.c:102-212). -/
def ensure (J : Junk) (s : Store) (nt nr nd nl nu nb : Nat) : Store :=
  let s := if s.tsize < nt then { s with tsize := nt, tasks := regrow J.tasks s.tasks s.count } else s
  let s := if s.rsize < nr then { s with rsize := nr, res := regrow J.res s.res s.rcount } else s
  let n : Kind → Nat := fun | .deps => nd | .locks => nl | .uses => nu
  let s := { s with links := fun k => ensureLinks J k (s.links k) (n k) }
  if s.dsize < nb then { s with dsize := nb, bytes := regrow J.bytes s.bytes s.dcount } else s

/-! ## `qsched_sort` (qsched.c:906-952), with `min = 0`, `max = nb - 1` -/

/-- `for (i < N) bucket_inds[ind[i]]++` (qsched.c:929-931). -/
def bucketCount (key : Nat → Nat) (N : Nat) : Nat → Nat :=
  (List.range N).foldl (fun b i => Function.update b (key i) (b (key i) + 1)) (fun _ => 0)

/-- `for (i = 1; i < num_buckets; i++) bucket_inds[i] += bucket_inds[i-1]` (qsched.c:932-934). -/
def prefixSum (nb : Nat) (b : Nat → Nat) : Nat → Nat :=
  (List.range (nb - 1)).foldl (fun b i => Function.update b (i + 1) (b (i + 1) + b i)) b

/-- `for (i = num_buckets - 1; i > 0; i--) bucket_inds[i] = bucket_inds[i-1]; bucket_inds[0] = 0`
(qsched.c:936-939). -/
def shift (nb : Nat) (b : Nat → Nat) : Nat → Nat :=
  Function.update ((List.range (nb - 1)).reverse.foldl (fun b i => Function.update b (i + 1) (b i)) b) 0 0

/-- State of the last loop: `bucket_inds`, `new_data`, `new_ind`; `none` after an access outside `new_data`. -/
def scatter (data key : Nat → Nat) (N : Nat) (b nd nk : Nat → Nat) (n : Nat) :
    Option ((Nat → Nat) × (Nat → Nat) × (Nat → Nat)) :=
  (List.range n).foldl (fun st i => st.bind fun (b, nd, nk) =>
    let p := b (key i)
    if p < N then
      some (Function.update b (key i) (p + 1), Function.update nd p (data i), Function.update nk p (key i))
    else none) (some (b, nd, nk))

/-- `qsched_sort`: `none` is an access outside `bucket_inds` or `new_data`. -/
def sort (J : Junk) (k : Kind) (nb : Nat) (L : Links) : Option Links :=
  if L.count = 0 then some L
  else if ∀ i < L.count, L.key i < nb then
    (scatter L.data L.key L.count (shift nb (prefixSum nb (bucketCount L.key L.count))) (J.ints k) (J.keys k)
        L.count).map fun (_, nd, nk) =>
      { L with data := fun i => if i < L.count then nd i else L.data i
               key := fun i => if i < L.count then nk i else L.key i }
  else none

/-- The sorting part of `qsched_prepare` (qsched.c:1061-1077).  When the scheduler is not dirty the C code skips
it; sorting again would not change anything then. -/
def sortAll (J : Junk) (s : Store) : Option Store :=
  (sort J .deps s.count (s.links .deps)).bind fun d =>
  (sort J .locks s.count (s.links .locks)).bind fun l =>
  (sort J .uses s.count (s.links .uses)).map fun u =>
    { s with links := fun | .deps => d | .locks => l | .uses => u }

/-- `tasks[k].unlocks = &tasks[k-1].unlocks[tasks[k-1].nr_unlocks]` (qsched.c:1078-1086): the offset of the first
link of task `t` in the sorted table. -/
def off (s : Store) (k : Kind) : Nat → Nat
  | 0 => 0
  | t + 1 => off s k t + (s.tasks t).nr k

/-- What the task sees during a run: `t->unlocks[0 .. nr_unlocks-1]` etc. -/
def view (s : Store) (k : Kind) (t : Nat) : List Nat :=
  (List.range ((s.tasks t).nr k)).map fun j => (s.links k).data (off s k t + j)

/-- `qsched_getdata` (qsched.c:552-555): `n` bytes of the payload of task `t`. -/
def payload (s : Store) (t n : Nat) : List Nat := (List.range n).map fun j => s.bytes ((s.tasks t).data + j)

end Verif.Store
