import Verif.Proofs.Prepare
import Verif.Model.Run
import Verif.Properties.Queue
import Verif.Properties.Liveness

/-!
# Preparation of a run: C06 (cycle detection), C07 (weights), C11 (home queue), C14 (running again)
-/
namespace Verif.Prepare
open Verif

section
variable {count : Nat} {unlocks : Nat → List Nat} {cost : Nat → Int} {E : EnqCfg} {wait weight : Nat → Int}

theorem transGen_rank {rank : Nat → Nat} (h : ∀ a < count, ∀ b ∈ unlocks a, rank a < rank b) {a b : Nat}
    (hab : Relation.TransGen (Link count unlocks) a b) : rank a < rank b := by
  induction hab with
  | single h1 => exact h _ h1.1 _ h1.2
  | tail _ h1 ih => exact ih.trans (h _ h1.1 _ h1.2)

theorem setWaits_zero (hw : ∀ t, wait t = 0) (u : Nat) :
    setWaits count unlocks wait u = inLinks count unlocks u := by
  rw [setWaits_apply, hw]; simp

/-- the whole picture of a successful preparation -/
theorem prepare_some (hu : ∀ a < count, ∀ u ∈ unlocks a, u < count) (hw : ∀ t, wait t = 0) {r : Ready}
    (h : prepare count unlocks cost E wait weight = some r) :
    let st := kahn count unlocks (setWaits count unlocks wait)
    st.tid.length = count ∧ KInv count unlocks st (st.tid.flatMap unlocks) ∧
    r.order = st.tid ∧ r.wait = (backward unlocks cost st.tid st.wait weight).1 ∧
    r.weight = (backward unlocks cost st.tid st.wait weight).2 ∧ r.waiting = count ∧
    r.queue = enqueueReady E r.weight r.wait
      (st.tid.take (kahnInit count (setWaits count unlocks wait)).tid.length) (fun _ => Queue.init count) := by
  intro st
  obtain ⟨I, hpx⟩ := kahn_final hu _ (setWaits_zero (count := count) (unlocks := unlocks) hw)
  have hlen := kahn_length I
  unfold prepare at h
  dsimp only at h
  split at h
  · cases h
  · rename_i hnl
    simp only [Option.some.injEq] at h
    subst h
    refine ⟨by have : ¬ st.tid.length < count := hnl; have : st.tid.length ≤ count := hlen; omega, I, rfl, rfl, rfl, rfl, rfl⟩

/-- **C06 (cycle detection).** If all links end in existing tasks and the wait counters are zero, preparing fails
with "Circular dependencies detected." exactly if some task depends on itself through the links. -/
theorem c06_cycle_detection (hu : ∀ a < count, ∀ u ∈ unlocks a, u < count) (hw : ∀ t, wait t = 0) :
    prepare count unlocks cost E wait weight = none ↔ HasCycle count unlocks := by
  obtain ⟨I, hpx⟩ := kahn_final hu _ (setWaits_zero (count := count) (unlocks := unlocks) hw)
  have hlen := kahn_length I
  constructor
  · intro h
    by_contra hc
    have hall := complete_of_no_cycle hc I
    have : count ≤ (kahn count unlocks (setWaits count unlocks wait)).tid.length := by
      have := (List.nodup_range (n := count)).subperm (l₂ := (kahn count unlocks (setWaits count unlocks wait)).tid)
        (fun t ht => hall t (List.mem_range.1 ht))
      simpa using this.length_le
    unfold prepare at h
    dsimp only at h
    rw [if_neg (by omega)] at h
    cases h
  · rintro ⟨t, ht⟩
    by_contra hs
    obtain ⟨r, hr⟩ := Option.ne_none_iff_exists'.1 hs
    obtain ⟨hl, _⟩ := prepare_some hu hw hr
    have hall : ∀ t < count, t ∈ (kahn count unlocks (setWaits count unlocks wait)).tid := by
      intro t ht
      have hp : (kahn count unlocks (setWaits count unlocks wait)).tid.Perm (List.range count) :=
        (I.nodup.subperm fun t ht => List.mem_range.2 (I.lt t ht)).perm_of_length_le (by simp [hl])
      exact hp.mem_iff.2 (List.mem_range.2 ht)
    obtain ⟨rank, hrank⟩ := no_cycle_of_order hall hu I.order
    exact absurd (transGen_rank hrank ht) (lt_irrefl _)

/-- **C06 (topological order).** If preparing succeeds, the order contains every task exactly once, and every task
comes before the tasks it unlocks. -/
theorem c06_order (hu : ∀ a < count, ∀ u ∈ unlocks a, u < count) (hw : ∀ t, wait t = 0) {r : Ready}
    (h : prepare count unlocks cost E wait weight = some r) :
    r.order.Perm (List.range count) ∧
    ∀ i j, ∀ (hi : i < r.order.length) (hj : j < r.order.length), r.order[j] ∈ unlocks r.order[i] → i < j := by
  obtain ⟨hl, I, ho, -⟩ := prepare_some hu hw h
  rw [ho] 
  have hp : (kahn count unlocks (setWaits count unlocks wait)).tid.Perm (List.range count) :=
    (I.nodup.subperm fun t ht => List.mem_range.2 (I.lt t ht)).perm_of_length_le (by simp [hl])
  refine ⟨hp, ?_⟩
  intro i j hi hj hm
  have := I.order j hj _ (I.lt _ (List.getElem_mem hi)) hm
  obtain ⟨k, hk, hke⟩ := List.mem_iff_getElem.1 this
  rw [List.length_take] at hk
  rw [List.getElem_take] at hke
  have := (I.nodup.getElem_inj_iff).1 hke
  omega

/-- **C06 (no overflow).** The array of the topological sort has room for `count` entries; after any number `n` of
iterations of the loop no more than `count` were written, cyclic or not. -/
theorem c06_no_overflow (hu : ∀ a < count, ∀ u ∈ unlocks a, u < count) (hw : ∀ t, wait t = 0) (n : Nat) :
    ((List.range n).foldl (kahnStep unlocks) (kahnInit count (setWaits count unlocks wait))).tid.length ≤ count :=
  kahn_length (kahn_inv hu _ (setWaits_zero (count := count) (unlocks := unlocks) hw) n).1

theorem weight_eq (hu : ∀ a < count, ∀ u ∈ unlocks a, u < count) (hw : ∀ t, wait t = 0) {r : Ready}
    (h : prepare count unlocks cost E wait weight = some r) :
    (∀ t < count, r.weight t = cost t + max0 r.weight (unlocks t)) ∧ (∀ t, count ≤ t → r.weight t = weight t) := by
  obtain ⟨hl, I, ho, -, hweight, -⟩ := prepare_some hu hw h
  obtain ⟨hp, hord⟩ := c06_order hu hw h
  rw [ho] at hp
  have hrev : ∀ i, ∀ (hi : i < (kahn count unlocks (setWaits count unlocks wait)).tid.reverse.length),
      ∀ u ∈ unlocks (kahn count unlocks (setWaits count unlocks wait)).tid.reverse[i],
        u ∈ (kahn count unlocks (setWaits count unlocks wait)).tid.reverse.take i := by
    rw [← ho]
    rw [← ho] at hl
    intro i hi u hum
    rw [List.length_reverse] at hi
    rw [List.getElem_reverse] at hum
    have htl : r.order[r.order.length - 1 - i] < count := by
      have := (c06_order hu hw h).1.mem_iff.1 (List.getElem_mem (l := r.order) (n := r.order.length - 1 - i) (by omega))
      simpa using this
    have hum' : u ∈ r.order := (c06_order hu hw h).1.mem_iff.2 (List.mem_range.2 (hu _ htl u hum))
    obtain ⟨j, hj, rfl⟩ := List.mem_iff_getElem.1 hum'
    have := hord _ j (by omega) hj hum
    rw [List.mem_iff_getElem]
    refine ⟨r.order.length - 1 - j, by simp; omega, ?_⟩
    rw [List.getElem_take, List.getElem_reverse]
    congr 1; omega
  obtain ⟨h1, h2⟩ := back_weights unlocks cost _ (List.nodup_reverse.2 I.nodup) hrev
    ((kahn count unlocks (setWaits count unlocks wait)).wait, weight)
  rw [hweight]
  refine ⟨?_, ?_⟩
  · intro t ht
    exact h1 t (List.mem_reverse.2 (hp.mem_iff.2 (List.mem_range.2 ht)))
  · intro t ht
    refine h2 t ?_
    rw [List.mem_reverse]
    intro hm
    have := List.mem_range.1 (hp.mem_iff.1 hm)
    omega

/-- **C07 (weights are critical paths).** After preparing, the weight of a task is the largest total cost of a chain
of tasks that starts with it and in which every task unlocks the next one: some chain has this cost and no chain
costs more.  The costs may be anything, also negative. -/
theorem c07_critical_path (hu : ∀ a < count, ∀ u ∈ unlocks a, u < count) (hw : ∀ t, wait t = 0) {r : Ready}
    (h : prepare count unlocks cost E wait weight = some r) (t : Nat) (ht : t < count) :
    (∃ p, PathFrom unlocks t p ∧ (p.map cost).sum = r.weight t) ∧
    (∀ p, PathFrom unlocks t p → (p.map cost).sum ≤ r.weight t) := by
  obtain ⟨hwt, -⟩ := weight_eq hu hw h
  obtain ⟨hl, I, ho, -⟩ := prepare_some hu hw h
  have hall : ∀ t < count, t ∈ (kahn count unlocks (setWaits count unlocks wait)).tid := by
    intro t ht
    rw [← ho]
    exact (c06_order hu hw h).1.mem_iff.2 (List.mem_range.2 ht)
  obtain ⟨rank, hrank⟩ := no_cycle_of_order hall hu I.order
  refine ⟨?_, ?_⟩
  · -- the rank is bounded on the tasks, so induction on (bound - rank)
    obtain ⟨B, hB⟩ : ∃ B, ∀ t < count, rank t ≤ B :=
      ⟨(Finset.range count).sup rank, fun t ht => Finset.le_sup (f := rank) (Finset.mem_range.2 ht)⟩
    induction hm : B - rank t using Nat.strong_induction_on generalizing t with
    | _ m ih =>
      have he := hwt t ht
      obtain ⟨-, -, h3⟩ := foldl_max_ge r.weight (unlocks t) 0
      rcases h3 with h3 | ⟨u, hum, h3⟩
      · refine ⟨[t], rfl, ?_⟩
        rw [he]; unfold max0; rw [h3]; simp
      · have h4 := hrank t ht u hum
        have h5 := hB u (hu t ht u hum)
        obtain ⟨p, hp, hs⟩ := ih (B - rank u) (by omega) u (hu t ht u hum) rfl
        cases p with
        | nil => exact absurd hp (by simp [PathFrom])
        | cons b l =>
          have hb : b = u := by
            cases l with
            | nil => exact hp
            | cons c l => exact hp.1
          subst hb
          refine ⟨t :: b :: l, ⟨rfl, hum, hp⟩, ?_⟩
          rw [he]; unfold max0; rw [h3, ← hs]; simp
  · intro p
    induction p generalizing t with
    | nil => intro hp; exact absurd hp (by simp [PathFrom])
    | cons a l ih =>
      intro hp
      obtain ⟨h1, h2, -⟩ := foldl_max_ge r.weight (unlocks t) 0
      cases l with
      | nil =>
        obtain rfl : a = t := hp
        rw [hwt a ht]
        unfold max0
        simpa using h1
      | cons b l =>
        obtain ⟨rfl, hb, hp⟩ := hp
        have := ih b (hu a ht b hb) hp
        have h3 := h2 b hb
        rw [hwt a ht]
        unfold max0
        rw [List.map_cons, List.sum_cons]
        omega

/-! ## C11 -/

/-- **C11 (choice of the queue).** The chosen queue exists, no queue has a higher score, and among the queues with
the same score none has fewer tasks; ties are resolved to the lowest number. -/
theorem c11_pick (nq : Nat) (hq : 0 < nq) (score cnt : Nat → Nat) :
    let q := pickQueue nq score cnt
    q < nq ∧ (∀ j < nq, score j ≤ score q) ∧ (∀ j < nq, score j = score q → cnt q ≤ cnt j) ∧
    (∀ j < q, score j = score q → cnt q < cnt j) := by
  obtain ⟨n, rfl⟩ : ∃ n, nq = n + 1 := ⟨nq - 1, by omega⟩
  unfold pickQueue
  simp only [Nat.add_sub_cancel]
  clear hq
  induction n with
  | zero =>
    refine ⟨by simp, ?_, ?_, by simp⟩
    · intro j hj; have : j = 0 := by omega
      subst this; simp
    · intro j hj; have : j = 0 := by omega
      subst this; simp
  | succ n ih =>
    rw [List.range_succ, List.map_append, List.foldl_append]
    generalize ((List.range n).map (· + 1)).foldl (fun qid j => if score j > score qid ∨
      (score j = score qid ∧ cnt j < cnt qid) then j else qid) 0 = q at ih ⊢
    obtain ⟨h1, h2, h3, h4⟩ := ih
    simp only [List.map_cons, List.map_nil, List.foldl_cons, List.foldl_nil]
    split
    · rename_i hc
      refine ⟨by omega, ?_, ?_, ?_⟩
      · intro j hj
        by_cases hjn : j = n + 1
        · subst hjn; exact le_refl _
        · have := h2 j (by omega); omega
      · intro j hj he
        by_cases hjn : j = n + 1
        · subst hjn; exact le_refl _
        · have := h2 j (by omega)
          have := h3 j (by omega)
          omega
      · intro j hj he
        have := h2 j (by omega)
        have := h3 j (by omega)
        omega
    · rename_i hc
      refine ⟨by omega, ?_, ?_, h4⟩
      · intro j hj
        by_cases hjn : j = n + 1
        · subst hjn; omega
        · exact h2 j (by omega)
      · intro j hj he
        by_cases hjn : j = n + 1
        · subst hjn; omega
        · exact h3 j (by omega) he

/-- **C11 (enqueue).** A ready task is added, once, to exactly one existing queue `q`: no queue owns more of the
resources the task locks or uses, and among the queues that own equally many none holds fewer tasks.  The other
queues do not change. -/
theorem c11_enqueue (hq : 0 < E.nq) (weight : Nat → Int) (queue : Nat → Queue.Q) (t : Nat) :
    ∃ q < E.nq,
      (∀ j < E.nq, (E.resources t).countP (fun r => E.owner r = some j)
        ≤ (E.resources t).countP (fun r => E.owner r = some q)) ∧
      (∀ j < E.nq, (E.resources t).countP (fun r => E.owner r = some j)
        = (E.resources t).countP (fun r => E.owner r = some q) → (queue q).count ≤ (queue j).count) ∧
      (enqueue E weight queue t q).toList.Perm (t :: (queue q).toList) ∧
      (∀ j, j ≠ q → enqueue E weight queue t j = queue j) := by
  obtain ⟨h1, h2, h3, -⟩ := c11_pick E.nq hq (score E.owner (E.resources t)) (fun j => (queue j).count)
  refine ⟨_, h1, h2, h3, ?_, ?_⟩
  · unfold enqueue
    rw [Function.update_self]
    exact Queue.c09_put _ _ _
  · intro j hj
    unfold enqueue
    rw [Function.update_of_ne hj]

theorem enqueueReady_spec (hq : 0 < E.nq) (weight wait : Nat → Int) (ts : List Nat) :
    ∀ queue : Nat → Queue.Q, (∀ q, Queue.IsHeap weight (queue q).inds (queue q).count) →
      (∀ q, Queue.IsHeap weight (enqueueReady E weight wait ts queue q).inds (enqueueReady E weight wait ts queue q).count) ∧
      ∀ x, ∑ q ∈ Finset.range E.nq, (enqueueReady E weight wait ts queue q).toList.count x
        = (ts.filter fun t => wait t = 0).count x + ∑ q ∈ Finset.range E.nq, (queue q).toList.count x := by
  induction ts with
  | nil => intro queue hh; exact ⟨hh, by simp [enqueueReady]⟩
  | cons t ts ih =>
    intro queue hh
    unfold enqueueReady
    rw [List.foldl_cons]
    by_cases ht : wait t = 0
    · rw [if_pos ht]
      obtain ⟨q, hqlt, -, -, hp, ho⟩ := c11_enqueue hq weight queue t
      have hheap : ∀ j, Queue.IsHeap weight (enqueue E weight queue t j).inds (enqueue E weight queue t j).count := by
        intro j
        unfold enqueue
        rw [Function.update_apply]
        split
        · exact Queue.heap_put _ _ _ (hh _)
        · exact hh j
      obtain ⟨i1, i2⟩ := ih (enqueue E weight queue t) hheap
      refine ⟨i1, ?_⟩
      intro x
      have := i2 x
      unfold enqueueReady at this
      rw [this, List.filter_cons, if_pos (by simpa using ht), List.count_cons]
      have hs : ∑ j ∈ Finset.range E.nq, (enqueue E weight queue t j).toList.count x
          = (if t = x then 1 else 0) + ∑ j ∈ Finset.range E.nq, (queue j).toList.count x := by
        rw [← Finset.add_sum_erase _ _ (Finset.mem_range.2 hqlt),
          ← Finset.add_sum_erase (a := q) (Finset.range E.nq) (fun j => (queue j).toList.count x) (Finset.mem_range.2 hqlt)]
        have e1 : ∑ j ∈ (Finset.range E.nq).erase q, (enqueue E weight queue t j).toList.count x
            = ∑ j ∈ (Finset.range E.nq).erase q, (queue j).toList.count x := by
          apply Finset.sum_congr rfl
          intro j hj
          rw [ho j (Finset.ne_of_mem_erase hj)]
        rw [e1, hp.count_eq, List.count_cons]
        simp only [beq_iff_eq]
        omega
      rw [hs]
      simp only [beq_iff_eq]
      omega
    · rw [if_neg ht]
      obtain ⟨i1, i2⟩ := ih queue hh
      refine ⟨i1, ?_⟩
      intro x
      have := i2 x
      unfold enqueueReady at this
      rw [this, List.filter_cons, if_neg (by simpa using ht)]

end

/-! ## C14: from preparation to the run, once and again -/

section
variable {C : Sched.Cfg} {cost : Nat → Int} {E : EnqCfg}

/-- **C14 (preparing starts a run).** In a scheduler without residue (no locks, no holds, all wait counters zero,
as after it was filled or after a completed run), a successful preparation produces exactly the state in which a
run is to start: every task waits for the number of its links, exactly the tasks without incoming links are
available, each in one queue. -/
theorem c14_prepared (hC : Sched.WfCfg C) (hE : E.nq = C.nq) (s : Sched.St C) (weight0 : Nat → Int)
    (hl : ∀ r, s.lock r = false) (hh : ∀ r, s.hold r = 0) (hw : ∀ t, s.wait t = 0) {r : Ready}
    (h : prepare C.count C.unlocks cost E s.wait weight0 = some r) (hwt : C.weight = r.weight) :
    Sched.Prepared C (restart r s) := by
  obtain ⟨hlen, I, ho, hwait, hweight, hwaiting, hqueue⟩ := prepare_some hC.links hw h
  have hin : ∀ t, r.wait t = Sched.inLinks C t := by
    intro t
    rw [hwait, backward_fst, I.wait]
    unfold inLinks Sched.inLinks
    ring
  obtain ⟨hheap, hcnt⟩ := enqueueReady_spec (E := E) (by rw [hE]; exact hC.nq_pos) r.weight r.wait
    ((kahn C.count C.unlocks (setWaits C.count C.unlocks s.wait)).tid.take
      (kahnInit C.count (setWaits C.count C.unlocks s.wait)).tid.length)
    (fun _ => Queue.init C.count) (by intro q i _ hi; simp [Queue.init] at hi)
  rw [← hqueue] at hheap hcnt
  refine
    { lock := hl, hold := hh, qlock := fun _ => rfl, wait := hin, waiting := hwaiting, starts := fun _ => rfl
      ends := fun _ => rfl, queued := ?_, heap := ?_, pc := fun _ => rfl }
  · intro t
    have := hcnt t
    rw [hE] at this
    show ∑ q ∈ Finset.range C.nq, (r.queue q).toList.count t = _
    rw [this]
    obtain ⟨-, hpx⟩ := kahn_final hC.links _ (setWaits_zero (count := C.count) (unlocks := C.unlocks) hw)
    rw [← List.prefix_iff_eq_take.1 hpx]
    have e0 : ∑ q ∈ Finset.range C.nq, (Queue.init C.count).toList.count t = 0 := by
      simp [Queue.init, Queue.Q.toList]
    rw [e0]
    have hinit : (kahnInit C.count (setWaits C.count C.unlocks s.wait)).tid
        = (List.range C.count).filter (fun k => Sched.inLinks C k = 0) := by
      unfold kahnInit
      apply List.filter_congr
      intro k _
      rw [setWaits_zero hw]
      simp only [Nat.cast_eq_zero]
      rfl
    rw [hinit, List.filter_filter]
    have hf : (List.range C.count).filter (fun a => decide (r.wait a = 0) && decide (Sched.inLinks C a = 0))
        = (List.range C.count).filter (fun k => Sched.inLinks C k = 0) := by
      apply List.filter_congr
      intro k _
      rw [hin]
      simp
    rw [hf]
    by_cases hc : t < C.count ∧ Sched.inLinks C t = 0
    · rw [if_pos hc]
      have hn : ((List.range C.count).filter (fun k => Sched.inLinks C k = 0)).Nodup := List.nodup_range.filter _
      rw [List.count_eq_one_of_mem hn (by simpa using hc)]
    · rw [if_neg hc]
      rw [List.count_eq_zero_of_not_mem (by simpa using hc)]
  · intro q i hi hlt
    rw [hwt]
    exact hheap q i hi hlt

/-- **C14 (a completed run can be prepared again).** After a run in which all threads left, preparing again succeeds
whatever the resource owners have become, restores the same dependency counters and weights, and leads to a state
in which a run starts: by `c01_exactly_once` and `c01_reaches_end` the second run executes every task again. -/
theorem c14_again (hC : Sched.WfCfg C) (hE : E.nq = C.nq) {weight0 : Nat → Int} {r : Ready}
    (h : prepare C.count C.unlocks cost E (Prepare.fresh C).wait weight0 = some r) (hwt : C.weight = r.weight)
    (hth : 0 < C.nth) {s : Sched.St C} (hr : Sched.Reach C (restart r (fresh C)) s) (he : Sched.AllExited s)
    (E' : EnqCfg) (hE' : E'.nq = C.nq) :
    ∃ r', prepare C.count C.unlocks cost E' s.wait r.weight = some r' ∧ r'.wait = r.wait ∧ r'.weight = r.weight ∧
      Sched.Prepared C (restart r' s) := by
  have hp := c14_prepared hC hE (fresh C) weight0 (fun _ => rfl) (fun _ => rfl) (fun _ => rfl) h hwt
  obtain ⟨h1, h2, -, h4, -, -⟩ := Sched.c04_no_residue hC hp hr hth he
  have hs : prepare C.count C.unlocks cost E' s.wait r.weight ≠ none := by
    rw [Ne, c06_cycle_detection hC.links h4, ← c06_cycle_detection (cost := cost) (E := E) (wait := (fresh C).wait)
      (weight := weight0) hC.links (fun _ => rfl), h]
    simp
  obtain ⟨r', hr'⟩ := Option.ne_none_iff_exists'.1 hs
  have hwts : r'.weight = r.weight := by
    funext t
    by_cases ht : t < C.count
    · obtain ⟨⟨p, hp1, hp2⟩, hp3⟩ := c07_critical_path hC.links h4 hr' t ht
      obtain ⟨⟨q, hq1, hq2⟩, hq3⟩ := c07_critical_path hC.links (fun _ => rfl) h t ht
      have := hp3 q hq1
      have := hq3 p hp1
      omega
    · exact (weight_eq hC.links h4 hr').2 t (by omega)
  have hP := c14_prepared hC hE' s r.weight h1 h2 h4 hr' (hwt.trans hwts.symm)
  refine ⟨r', hr', ?_, hwts, hP⟩
  funext t
  exact (hP.wait t).trans (hp.wait t).symm

/-- **C01, from the filled scheduler to the end of the run.** Fill a scheduler with any tasks, links and resources.
If preparing it reports no cycle, then in every execution every task has been executed exactly once when a thread
leaves; and no matter what happened before, the run can still be brought to its end (no task may conflict with
itself). -/
theorem c01_whole_run (hC : Sched.WfCfg C) (hE : E.nq = C.nq) {weight0 : Nat → Int} {r : Ready}
    (h : prepare C.count C.unlocks cost E (Prepare.fresh C).wait weight0 = some r) (hwt : C.weight = r.weight)
    {s : Sched.St C} (hr : Sched.Reach C (restart r (fresh C)) s) :
    ((∃ th, s.pc th = .exited) → ∀ t < C.count, s.starts t = 1 ∧ s.ends t = 1) ∧
    (Sched.NoSelfConflict C → Sched.CanFinish C s) := by
  have hp := c14_prepared hC hE (fresh C) weight0 (fun _ => rfl) (fun _ => rfl) (fun _ => rfl) h hwt
  refine ⟨fun he t ht => Sched.c01_exactly_once hC hp hr he t ht, fun hN => ?_⟩
  refine Sched.c05_can_finish hC hN ?_ hp hr
  obtain ⟨hlen, I, ho, -⟩ := prepare_some hC.links (fun _ => rfl) h
  refine no_cycle_of_order ?_ hC.links I.order
  intro t ht
  rw [← ho]
  exact (c06_order hC.links (fun _ => rfl) h).1.mem_iff.2 (List.mem_range.2 ht)

end

/-! ## Preparing twice without running in between -/

theorem relax_positive (us : List Nat) : ∀ st : K, (∀ u ∈ us, 0 < st.wait u - (us.count u : Int)) →
    (us.foldl relax st).tid = st.tid ∧ ∀ x, (us.foldl relax st).wait x = st.wait x - (us.count x : Int) := by
  induction us with
  | nil => intro st _; simp
  | cons u us ih =>
    intro st h
    have hu := h u (by simp)
    rw [List.count_cons_self] at hu
    push_cast at hu
    have hne : st.wait u - 1 ≠ 0 := by omega
    have hrel : relax st u = { wait := Function.update st.wait u (st.wait u - 1), tid := st.tid } := by
      unfold relax; rw [if_neg hne]
    obtain ⟨h1, h2⟩ := ih (relax st u) (by
      intro x hx
      rw [hrel]
      have := h x (by simp [hx])
      rw [List.count_cons] at this
      dsimp only
      rw [Function.update_apply]
      by_cases hxu : x = u
      · subst hxu; simp at this ⊢; omega
      · have hux : ¬ u = x := fun e => hxu e.symm
        simp [hxu, hux] at this ⊢; omega)
    rw [List.foldl_cons]
    refine ⟨by rw [h1, hrel], ?_⟩
    intro x
    rw [h2, hrel, List.count_cons]
    dsimp only
    rw [Function.update_apply]
    by_cases hxu : x = u
    · subst hxu; simp; ring
    · have hux : ¬ u = x := fun e => hxu e.symm
      simp [hxu, hux]

/-- **C14 (the limit of preparing again).** Preparing resets nothing: when it is called a second time without a run
in between, the dependency counters still hold the number of links, and any scheduler with at least one link is
then reported as circular, although it is not. -/
theorem c14_twice_fails {count : Nat} {unlocks : Nat → List Nat} {cost : Nat → Int} {E : EnqCfg}
    {wait weight : Nat → Int} (hw : ∀ t, wait t = inLinks count unlocks t)
    (hlink : ∃ a b, Link count unlocks a b) (hu : ∀ a < count, ∀ u ∈ unlocks a, u < count) :
    prepare count unlocks cost E wait weight = none := by
  have hw2 : ∀ t, setWaits count unlocks wait t = 2 * inLinks count unlocks t := by
    intro t; rw [setWaits_apply, hw]; ring
  set R := (List.range count).filter (fun k => inLinks count unlocks k = 0) with hR
  have hinit : (kahnInit count (setWaits count unlocks wait)).tid = R := by
    unfold kahnInit
    apply List.filter_congr
    intro k _
    rw [hw2]
    simp
  have hRn : R.Nodup := List.nodup_range.filter _
  have hRl : ∀ t ∈ R, t < count := fun t ht => by simpa using (List.mem_filter.1 ht).1
  have key : ∀ n, let st := (List.range n).foldl (kahnStep unlocks) (kahnInit count (setWaits count unlocks wait))
      st.tid = R ∧ ∀ u, st.wait u = 2 * inLinks count unlocks u - (((R.take n).flatMap unlocks).count u : Int) := by
    intro n
    induction n with
    | zero => exact ⟨hinit, fun u => by simp [kahnInit, hw2]⟩
    | succ n ih =>
      rw [List.range_succ, List.foldl_append, List.foldl_cons, List.foldl_nil]
      generalize (List.range n).foldl (kahnStep unlocks) (kahnInit count (setWaits count unlocks wait)) = st at ih
      obtain ⟨i1, i2⟩ := ih
      unfold kahnStep
      rw [i1]
      cases ht : R[n]? with
      | none =>
        have hlen : R.length ≤ n := List.getElem?_eq_none_iff.1 ht
        refine ⟨i1, ?_⟩
        dsimp only
        rw [List.take_of_length_le (by omega)]
        rwa [List.take_of_length_le hlen] at i2
      | some t =>
        obtain ⟨hlt, htn⟩ := List.getElem?_eq_some_iff.1 ht
        have htake : R.take (n + 1) = R.take n ++ [t] := by
          rw [List.take_succ_eq_append_getElem hlt, htn]
        have hle : ∀ u, ((R.take (n + 1)).flatMap unlocks).count u ≤ inLinks count unlocks u := fun u =>
          count_flatMap_le ((List.take_sublist _ _).nodup hRn) (fun x hx => hRl x (List.mem_of_mem_take hx)) u
        have hsplit : ∀ u, ((R.take (n + 1)).flatMap unlocks).count u
            = ((R.take n).flatMap unlocks).count u + (unlocks t).count u := by
          intro u; rw [htake, List.flatMap_append, List.count_append]; simp
        obtain ⟨j1, j2⟩ := relax_positive (unlocks t) st (by
          intro u hum
          have h1 := hle u
          have h2 := hsplit u
          have h3 : 0 < (unlocks t).count u := List.count_pos_iff.2 hum
          rw [i2 u]
          omega)
        refine ⟨j1.trans i1, ?_⟩
        intro u
        rw [j2, i2, hsplit]
        push_cast; ring
  obtain ⟨h1, -⟩ := key count
  unfold prepare
  dsimp only
  rw [if_pos]
  unfold kahn
  rw [h1]
  obtain ⟨a, b, ha, hb⟩ := hlink
  have hbn : b ∉ R := by
    intro hm
    have hz : inLinks count unlocks b = 0 := by simpa using (List.mem_filter.1 hm).2
    have := count_flatMap_le (count := count) (unlocks := unlocks) (P := [a]) (by simp) (by simpa using ha) b
    have h2 : 0 < ([a].flatMap unlocks).count b := by simpa using hb
    omega
  have hsub : (b :: R).Subperm (List.range count) := by
    apply (List.nodup_cons.2 ⟨hbn, hRn⟩).subperm
    intro x hx
    rcases List.mem_cons.1 hx with rfl | h
    · exact List.mem_range.2 (hu a ha _ hb)
    · exact List.mem_range.2 (hRl x h)
  have := hsub.length_le
  simp at this
  omega

/-! ## Concrete cases -/

/-- a diamond: 0 unlocks 1 and 2, both unlock 3 (2 even twice) -/
def exU : Nat → List Nat
  | 0 => [1, 2]
  | 1 => [3]
  | 2 => [3, 3]
  | _ => []

def exCost : Nat → Int
  | 0 => 5
  | 1 => 10
  | 2 => 1
  | _ => 7

def exE : EnqCfg where
  nq := 2
  resources := fun _ => [0]
  owner := fun _ => some 1

theorem siftUp_zero (w a) : Queue.siftUp w a 0 = a := by rw [Queue.siftUp]; simp

example : ∃ r, prepare 4 exU exCost exE (fun _ => 0) (fun _ => 0) = some r ∧
    r.order = [0, 1, 2, 3] ∧ r.weight 0 = 22 ∧ r.weight 2 = 8 ∧ r.wait 3 = 3 ∧
    (r.queue 0).toList = [] ∧ (r.queue 1).toList = [0] := by
  refine ⟨_, rfl, by decide, by decide, by decide, by decide, ?_, ?_⟩
  all_goals
    dsimp only
    have e : List.take (kahnInit 4 (setWaits 4 exU fun _ => 0)).tid.length
      (kahn 4 exU (setWaits 4 exU fun _ => 0)).tid = [0] := by decide
    have e2 : (backward exU exCost (kahn 4 exU (setWaits 4 exU fun _ => 0)).tid
      (kahn 4 exU (setWaits 4 exU fun _ => 0)).wait fun _ => 0).1 0 = 0 := by decide
    rw [e]
    simp [enqueueReady, e2, enqueue, pickQueue, score, exE, Queue.put, Queue.init, siftUp_zero, Queue.Q.toList]

/-- the diamond prepared twice in a row -/
example : ∃ r, prepare 4 exU exCost exE (fun _ => 0) (fun _ => 0) = some r ∧
    prepare 4 exU exCost exE r.wait r.weight = none := ⟨_, rfl, by decide⟩

/-- a cycle of length two -/
example : prepare 2 (fun t => if t = 0 then [1] else [0]) exCost exE (fun _ => 0) (fun _ => 0) = none := by
  decide

/-- a whole scheduler around the diamond: all tasks lock resource 0, two queues, three threads -/
def exCfg : Sched.Cfg where
  count := 4
  locks := fun t => if t < 3 then [t] else []
  unlocks := exU
  parent := fun r => if r = 2 then some 1 else none
  nq := 2
  nth := 3
  weight := fun t => if t = 0 then 22 else if t = 1 then 17 else if t = 2 then 8 else if t = 3 then 7 else 0

theorem exCfg_wf : Sched.WfCfg exCfg where
  nq_pos := by decide
  links := by
    intro a ha u hu
    have : a < 4 := ha
    show u < 4
    interval_cases a <;> simp [exCfg, exU] at hu <;> omega
  tree := by
    intro r p h
    simp only [exCfg] at h
    split at h
    · cases h; omega
    · cases h

/-- The hypotheses of `c14_prepared`, `c14_again` and `c01_whole_run` are met. -/
example : ∃ r, prepare exCfg.count exCfg.unlocks exCost exE (fresh exCfg).wait (fun _ => 0) = some r ∧
    exCfg.weight = r.weight ∧ Sched.NoSelfConflict exCfg ∧ ∃ s, Sched.Reach exCfg (restart r (fresh exCfg)) s ∧
      Sched.AllExited s := by
  obtain ⟨r, hr⟩ : ∃ r, prepare exCfg.count exCfg.unlocks exCost exE (fresh exCfg).wait (fun _ => 0) = some r :=
    ⟨_, rfl⟩
  have hw : exCfg.weight = r.weight := by
    funext t
    by_cases ht : t < 4
    · have e : some r = prepare exCfg.count exCfg.unlocks exCost exE (fresh exCfg).wait (fun _ => 0) := hr.symm
      have : r = _ := Option.some.inj (e.trans rfl)
      rw [this]
      interval_cases t <;> decide
    · rw [(weight_eq exCfg_wf.links (fun _ => rfl) hr).2 t (by simp [exCfg]; omega)]
      simp only [exCfg]
      split_ifs <;> first | omega | rfl
  have hN : Sched.NoSelfConflict exCfg := by
    intro t ht
    simp only [exCfg]
    split <;> simp
  refine ⟨r, hr, hw, hN, ?_⟩
  have hp := c14_prepared exCfg_wf (E := exE) rfl (fresh exCfg) (fun _ => 0) (fun _ => rfl) (fun _ => rfl)
    (fun _ => rfl) hr hw
  have hacyc : Sched.AcyclicLinks exCfg := by
    refine ⟨id, ?_⟩
    intro a ha b hb
    have : a < 4 := ha
    show a < b
    interval_cases a <;> simp [exCfg, exU] at hb <;> omega
  obtain ⟨s, h1, h2, -⟩ := Sched.c01_reaches_end exCfg_wf hN hacyc (by decide) hp .refl
  exact ⟨s, h1, h2⟩

end Verif.Prepare
