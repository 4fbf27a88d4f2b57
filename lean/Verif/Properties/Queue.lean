import Verif.Proofs.Queue

/-!
# C09, C10: task queues

Property theorems about `queue_put` and `queue_get` (quicksched/queue.c), for all queues that can
arise from an initialised queue by any history of puts and gets, with any weights and any outcome
of the attempts to lock tasks.
-/
namespace Verif.Queue

/-- One call on a queue: put a task, or get one where `lockable` tells which tasks can be locked at
that moment. -/
inductive Op where
  | put (t : Nat)
  | get (lockable : Nat → Bool)

/-- Effect of a history of calls on (queue, tasks handed out so far). -/
def runOps (w : Nat → Int) : List Op → Q × List Nat → Q × List Nat
  | [], s => s
  | .put t :: ops, (q, out) => runOps w ops (put w q t, out)
  | .get l :: ops, (q, out) =>
    runOps w ops ((get w l q).2, (match (get w l q).1 with | some t => t :: out | none => out))

/-- The tasks put by a history. -/
def puts : List Op → List Nat
  | [] => []
  | .put t :: ops => t :: puts ops
  | .get _ :: ops => puts ops

/-- A queue that some history of calls on a freshly initialised queue produces. -/
def Reachable (w : Nat → Int) (q : Q) : Prop :=
  ∃ size ops, (runOps w ops (init size, [])).1 = q

theorem get_heap (w : Nat → Int) (l) (q : Q) (h : IsHeap w q.inds q.count) :
    IsHeap w (get w l q).2.inds (get w l q).2.count := by
  unfold get
  split
  · exact h
  · split
    · rename_i k hk
      exact heap_remove w q k (scan_some hk).2.1 h
    · exact h

theorem runOps_heap (w : Nat → Int) (ops) (q : Q) (out) (h : IsHeap w q.inds q.count) :
    IsHeap w (runOps w ops (q, out)).1.inds (runOps w ops (q, out)).1.count := by
  induction ops generalizing q out with
  | nil => exact h
  | cons op ops ih =>
    cases op with
    | put t => exact ih _ _ (heap_put w q t h)
    | get l => exact ih _ _ (get_heap w l q h)

/-- **C09 (order).** In every reachable queue no task is heavier than its heap parent, and the first
entry is a task of maximal weight. -/
theorem c09_heap_order (w : Nat → Int) (q : Q) (hq : Reachable w q) :
    (∀ i, 0 < i → i < q.count → w (q.inds i) ≤ w (q.inds ((i - 1) / 2))) ∧
    (∀ t ∈ q.toList, w t ≤ w (q.inds 0)) := by
  obtain ⟨size, ops, rfl⟩ := hq
  have h := runOps_heap w ops (init size) [] (by intro i _ hn; simp [init] at hn)
  refine ⟨h, ?_⟩
  intro t ht
  obtain ⟨i, hi, rfl⟩ := (mem_toList _ _).1 ht
  exact heap_root w _ _ h i hi

theorem reachable_heap (w : Nat → Int) (q : Q) (hq : Reachable w q) : IsHeap w q.inds q.count :=
  (c09_heap_order w q hq).1

/-- **C09 (put).** Putting a task adds exactly that task. -/
theorem c09_put (w : Nat → Int) (q : Q) (t : Nat) :
    (put w q t).toList.Perm (t :: q.toList) := by
  rw [List.perm_iff_count]
  intro x
  rw [toList_count, cnt_put, List.count_cons, toList_count]
  simp

/-- **C09 (get).** A successful get removes exactly the returned task; an unsuccessful one leaves the
queue as it was. -/
theorem c09_get (w : Nat → Int) (lockable : Nat → Bool) (q : Q) (hq : Reachable w q) :
    match get w lockable q with
    | (some t, q') => (t :: q'.toList).Perm q.toList
    | (none, q') => q' = q := by
  have h := reachable_heap w q hq
  unfold get
  by_cases h0 : q.count = 0
  · simp [h0]
  · simp only [h0, if_false]
    cases hs : scan lockable q 0 with
    | none => rfl
    | some k =>
      have hk := (scan_some hs).2.1
      show List.Perm _ _
      rw [List.perm_iff_count]
      intro x
      have := cnt_remove w q k x hk h
      rw [List.count_cons, toList_count, toList_count, ← this]
      simp

/-- **C09 (histories).** Over any history of calls, what is in the queue plus what was handed out is
what was put in: nothing is lost and nothing is duplicated. -/
theorem c09_history (w : Nat → Int) (size : Nat) (ops : List Op) :
    ((runOps w ops (init size, [])).2 ++ (runOps w ops (init size, [])).1.toList).Perm (puts ops) := by
  have gen : ∀ (ops pre : List Op) (q : Q) (out : List Nat), runOps w pre (init size, []) = (q, out) →
      ((runOps w ops (q, out)).2 ++ (runOps w ops (q, out)).1.toList).Perm (puts ops ++ (out ++ q.toList)) := by
    intro ops
    induction ops with
    | nil => intro pre q out _; exact List.Perm.refl _
    | cons op ops ih =>
      intro pre q out hpre
      have happ : ∀ op, runOps w (pre ++ [op]) (init size, []) = runOps w [op] (q, out) := by
        intro op
        rw [← hpre]
        clear ih hpre
        generalize (init size, ([] : List Nat)) = s
        induction pre generalizing s with
        | nil => rfl
        | cons p pre ih => cases p <;> obtain ⟨s1, s2⟩ := s <;> exact ih _
      cases op with
      | put t =>
        have := ih (pre ++ [.put t]) _ _ (happ _)
        refine this.trans ?_
        have hp := c09_put w q t
        simp only [puts, List.cons_append]
        refine ((hp.append_left out).append_left (puts ops)).trans ?_
        rw [← List.append_assoc]
        refine List.perm_middle.trans ?_
        simp
      | get l =>
        have := ih (pre ++ [.get l]) _ _ (happ _)
        refine this.trans ?_
        have hq : Reachable w q := ⟨size, pre, by rw [hpre]⟩
        have hg := c09_get w l q hq
        simp only [puts]
        refine List.Perm.append_left _ ?_
        cases hgr : get w l q with
        | mk r q' =>
          rw [hgr] at hg
          simp only [runOps, hgr]
          cases r with
          | none => simp only at hg ⊢; rw [hg]
          | some t =>
            simp only at hg ⊢
            refine List.Perm.trans ?_ (hg.append_left out)
            rw [List.cons_append]
            exact List.perm_middle.symm
  simpa [Q.toList, init] using gen ops [] (init size) [] rfl

/-- **C10 (soundness, best first).** The returned task was in the queue and could be locked; every task
in front of it in the queue could not be locked, and if the heaviest task at the head of the queue can
be locked then that one is returned. -/
theorem c10_get_lockable (w : Nat → Int) (lockable : Nat → Bool) (q : Q) (hq : Reachable w q) (t : Nat)
    (h : (get w lockable q).1 = some t) :
    (∃ k < q.count, q.inds k = t ∧ ∀ i < k, lockable (q.inds i) = false) ∧
    t ∈ q.toList ∧ lockable t = true ∧
    (lockable (q.inds 0) = true → t = q.inds 0 ∧ ∀ u ∈ q.toList, w u ≤ w t) := by
  unfold get at h
  by_cases h0 : q.count = 0
  · simp [h0] at h
  · simp only [h0, if_false] at h
    cases hs : scan lockable q 0 with
    | none => rw [hs] at h; simp at h
    | some k =>
      rw [hs] at h
      simp only [Option.some.injEq] at h
      obtain ⟨_, hk, hl, hbefore⟩ := scan_some hs
      subst h
      refine ⟨⟨k, hk, rfl, fun i hi => hbefore i (Nat.zero_le _) hi⟩,
        (mem_toList _ _).2 ⟨k, hk, rfl⟩, hl, ?_⟩
      intro hroot
      have : k = 0 := by
        by_contra hne
        have := hbefore 0 (le_refl _) (by omega)
        rw [hroot] at this; cases this
      subst this
      exact ⟨rfl, (c09_heap_order w q hq).2⟩

/-- **C10 (completeness).** "none" is only returned if no task in the queue could be locked. -/
theorem c10_get_none (w : Nat → Int) (lockable : Nat → Bool) (q : Q)
    (h : (get w lockable q).1 = none) : ∀ t ∈ q.toList, lockable t = false := by
  intro t ht
  obtain ⟨i, hi, rfl⟩ := (mem_toList _ _).1 ht
  unfold get at h
  have h0 : q.count ≠ 0 := by omega
  simp only [h0, if_false] at h
  cases hs : scan lockable q 0 with
  | none => exact scan_none hs i (Nat.zero_le _) hi
  | some k => rw [hs] at h; simp at h

/-- **C09 (capacity).** In a queue initialised with a positive size, every put writes inside the
(possibly enlarged) allocation, over all histories. -/
theorem c09_capacity (w : Nat → Int) (size : Nat) (hs : 0 < size) (ops : List Op) (t : Nat) :
    let q := (runOps w ops (init size, [])).1
    q.count < (put w q t).size := by
  have gen : ∀ (ops : List Op) (q : Q) (out), q.count ≤ q.size → 0 < q.size →
      (runOps w ops (q, out)).1.count ≤ (runOps w ops (q, out)).1.size ∧
      0 < (runOps w ops (q, out)).1.size := by
    intro ops
    induction ops with
    | nil => intro q out h1 h2; exact ⟨h1, h2⟩
    | cons op ops ih =>
      intro q out h1 h2
      cases op with
      | put t =>
        refine ih _ _ ?_ ?_ <;> simp only [put] <;> split <;> omega
      | get l =>
        have h3 : (get w l q).2.count ≤ q.count ∧ (get w l q).2.size = q.size := by
          unfold get
          split
          · simp
          · split <;> simp [remove]
        refine ih _ _ ?_ ?_ <;> omega
  intro q
  obtain ⟨h1, h2⟩ := gen ops (init size) [] (by simp [init]) (by simpa [init] using hs)
  show q.count < if q.count ≥ q.size then q.size * 2 else q.size
  change q.count ≤ q.size at h1
  change 0 < q.size at h2
  split <;> omega

/-! A concrete history: three tasks with weights 5, 9, 7; the heaviest (task 1) is taken first when it
can be locked, otherwise the first lockable one in heap order. -/
def exW : Nat → Int := fun t => [5, 9, 7].getD t 0
def exOps : List Op := [.put 0, .put 1, .put 2]
def exQ : Q := (runOps exW exOps (init 1, [])).1

theorem exQ_reachable : Reachable exW exQ := ⟨1, exOps, rfl⟩

example : exQ.count = 3 ∧ exQ.inds 0 = 1 ∧ exQ.size = 4 := by
  simp [exQ, exOps, runOps, put, init, siftUp, swap, exW, Function.update]

example : (get exW (fun _ => true) exQ).1 = some 1 := by
  simp [exQ, exOps, runOps, get, scan, put, init, siftUp, swap, exW, Function.update]

example : (get exW (fun t => t == 0) exQ).1 = some 0 := by
  simp [exQ, exOps, runOps, get, scan, put, init, siftUp, swap, exW, Function.update]

end Verif.Queue
