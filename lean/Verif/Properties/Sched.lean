import Verif.Spec.Sched
import Verif.Proofs.Sched

/-!
# C01 - C04, C18: the worker threads

For every scheduler filled through the API, every number of threads and queues, every schedule and all
random choices.
-/
namespace Verif.Sched
open Verif Finset

variable {C : Cfg} {s0 s : St C}

theorem prepared_inv (h : Prepared C s0) : Inv C s0 where
  L := by intro x; simp [h.lock, h.pc, lockedBy]
  H := by intro x; simp [h.hold, h.pc, holdsBy]
  P := by intro x th hp; simp [h.pc, passedBy] at hp
  QL := by intro x; simp [h.qlock, h.pc, qlBy]
  heap := by intro q i h0 hi; exact h.heap q i h0 hi
  wf := by intro th; simp [h.pc, PcWf]
  tok := by
    intro t
    have := h.queued t
    simp only [Queue.toList_count] at this
    simp [h.pc, pendBy, h.starts, this, h.wait, ind]
  runs := by intro t; simp [h.starts, h.ends, h.pc, runBy]
  waits := by intro t; simp [h.wait, h.ends, h.pc, todoBy, ind, inLinks]
  dom := by intro th t ht; simp [h.pc, todoBy] at ht
  left := by simp [h.waiting, h.ends, h.pc, finBy, ind]

theorem reach_inv (hC : WfCfg C) (h0 : Prepared C s0) (hr : Reach C s0 s) : Inv C s := by
  induction hr with
  | refl => exact prepared_inv h0
  | step th ch _ hs ih => exact inv_step hC.nq_pos hC.links ih hs

/-- **C01 (at most once).** No task is ever started twice, and nothing that is not a task is started;
a task ends at most as often as it was started. -/
theorem c01_at_most_once (hC : WfCfg C) (h0 : Prepared C s0) (hr : Reach C s0 s) (t : Nat) :
    s.starts t ≤ 1 ∧ s.ends t ≤ s.starts t ∧ (C.count ≤ t → s.starts t = 0) := by
  have I := reach_inv hC h0 hr
  have h1 := I.tok t
  have h2 := I.runs t
  refine ⟨?_, by omega, ?_⟩
  · have h3 : ind (t < C.count ∧ s.wait t = 0) ≤ 1 := by simp only [ind]; split <;> omega
    omega
  · intro ht
    rw [ind, if_neg (by omega)] at h1
    omega

theorem act_exited {th : Fin C.nth} {p p' : Pc} {s' : St C} (ha : Act C s th p s' p')
    (hp : p' = .exited) : s'.waiting = 0 := by
  cases ha
  case topX h => exact h
  case relqN c => cases hc : c.cont <;> simp [afterFail, hc] at hp
  all_goals cases hp

/-- a thread only leaves when nothing is waiting -/
theorem exited_waiting (hC : WfCfg C) (h0 : Prepared C s0) (hr : Reach C s0 s)
    (he : ∃ th, s.pc th = .exited) : s.waiting = 0 := by
  induction hr with
  | refl => obtain ⟨th, h⟩ := he; rw [h0.pc] at h; cases h
  | step th ch hr1 hs ih =>
    rename_i s1 s2
    obtain ⟨th', hp⟩ := he
    have I1 := reach_inv hC h0 hr1
    have I2 := reach_inv hC h0 (.step th ch hr1 hs)
    simp only [step, Option.map_eq_some_iff] at hs
    obtain ⟨⟨s', p'⟩, ha, rfl⟩ := hs
    have ha := act_Act ha
    by_cases hij : th' = th
    · subst hij
      have hp : p' = .exited := by simpa using hp
      subst hp
      have := act_exited ha rfl
      exact this
    · have h1 := ih ⟨th', by simpa [Function.update_of_ne hij] using hp⟩
      -- `waiting` never grows and never becomes negative
      have h2 : s'.waiting ≤ s1.waiting := by
        generalize s1.pc th = p at ha
        cases ha <;> simp
      have h3 := I2.left
      simp only at h3 ⊢
      omega

/-- **C01 (exactly once).** As soon as any thread has left the loop, every task has been executed
exactly once: started once and finished once. -/
theorem c01_exactly_once (hC : WfCfg C) (h0 : Prepared C s0) (hr : Reach C s0 s)
    (he : ∃ th, s.pc th = .exited) (t : Nat) (ht : t < C.count) : s.starts t = 1 ∧ s.ends t = 1 := by
  have hz := exited_waiting hC h0 hr he
  have I := reach_inv hC h0 hr
  have h3 := I.left
  rw [hz] at h3
  have h4 : ∑ a ∈ range C.count, ind (s.ends a = 0) = 0 := by omega
  have h5 := (Finset.sum_eq_zero_iff.1 h4) t (mem_range.2 ht)
  have h6 : s.ends t ≠ 0 := by
    intro e; simp [ind, e] at h5
  have h7 := c01_at_most_once hC h0 hr t
  omega

/-- **C02.** Whenever a task has been started, every task that unlocks it has finished. -/
theorem c02_dependencies (hC : WfCfg C) (h0 : Prepared C s0) (hr : Reach C s0 s) (a b : Nat)
    (ha : a < C.count) (hab : b ∈ C.unlocks a) (hb : s.starts b ≠ 0) : s.ends a = 1 := by
  have I := reach_inv hC h0 hr
  have h1 := I.tok b
  have h2 : s.wait b = 0 := by
    by_contra hc
    rw [ind, if_neg (by tauto)] at h1
    omega
  have h3 := I.waits b
  rw [h2] at h3
  have h4 : ∑ a ∈ range C.count, ind (s.ends a = 0) * (C.unlocks a).count b = 0 := by omega
  have h5 := (Finset.sum_eq_zero_iff.1 h4) a (mem_range.2 ha)
  have h6 : 0 < (C.unlocks a).count b := List.count_pos_iff.2 hab
  have h7 : s.ends a ≠ 0 := by
    intro e
    simp only [ind, e, if_true, one_mul] at h5
    omega
  have h8 := c01_at_most_once hC h0 hr a
  omega

theorem mem_anc (hC : WfCfg C) (a r : Nat) : a ∈ anc C.parent r ↔ Ancestor C.parent a r := by
  induction r using Nat.strong_induction_on with
  | _ r ih =>
    unfold anc
    cases hp : C.parent r with
    | none =>
      simp only [List.not_mem_nil, false_iff]
      intro h
      obtain ⟨b, _, hb⟩ := Relation.TransGen.tail'_iff.1 h
      rw [hp] at hb; cases hb
    | some p =>
      have hlt := hC.tree r p hp
      simp only [hlt, if_true, List.mem_cons]
      rw [ih p hlt]
      constructor
      · rintro (rfl | h)
        · exact .single hp
        · exact .tail h hp
      · intro h
        obtain ⟨b, hab, hb⟩ := Relation.TransGen.tail'_iff.1 h
        rw [hp] at hb
        cases hb
        rcases Relation.reflTransGen_iff_eq_or_transGen.1 hab with h | h
        · exact .inl h.symm
        · exact .inr h

theorem anc_lt (hC : WfCfg C) {a r : Nat} (h : a ∈ anc C.parent r) : a < r := by
  have key := (mem_anc hC a r).1 h
  clear h
  induction key with
  | single h => exact hC.tree _ _ h
  | tail h1 h2 ih => exact lt_trans ih (hC.tree _ _ h2)

theorem mem_hs {l : List Nat} {r x : Nat} (hr : r ∈ l) (hx : x ∈ anc C.parent r) : x ∈ hs C l :=
  List.mem_flatMap.2 ⟨r, hr, hx⟩

/-- **C03.** Two tasks that execute at the same time have no conflicting locks: no resource locked by one
equals, contains or is contained in a resource locked by the other. -/
theorem c03_mutual_exclusion (hC : WfCfg C) (h0 : Prepared C s0) (hr : Reach C s0 s)
    {th th' : Fin C.nth} (hne : th ≠ th') {t t' id id' : Nat} (h1 : Runs s th t id) (h2 : Runs s th' t' id')
    {r r' : Nat} (hl : r ∈ C.locks t) (hl' : r' ∈ C.locks t') : ¬ Conflict C.parent r r' := by
  have I := reach_inv hC h0 hr
  have key : ∀ {th th' : Fin C.nth} {t t' id id' r r' : Nat}, Runs s th t id → Runs s th' t' id' →
      r ∈ C.locks t → r' ∈ C.locks t' → ¬ Ancestor C.parent r r' := by
    intro th th' t t' id id' r r' h1 h2 hl hl' ha
    have p := I.P r th (by rw [h1]; simp only [passedBy]; exact List.count_pos_iff.2 hl)
    have h := I.H r
    have h3 := le_sum (fun i => holdsBy C r (s.pc i)) th'
    have h4 : 0 < holdsBy C r (s.pc th') := by
      rw [h2]; simp only [holdsBy]
      exact List.count_pos_iff.2 (mem_hs hl' ((mem_anc hC r r').2 ha))
    omega
  rintro (rfl | ha | ha)
  · have h := I.L r
    have h3 := two_le_sum (fun i => lockedBy C r (s.pc i)) th th' hne
    have h4 : 0 < lockedBy C r (s.pc th) := by
      rw [h1]; simp only [lockedBy]; exact List.count_pos_iff.2 hl
    have h5 : 0 < lockedBy C r (s.pc th') := by
      rw [h2]; simp only [lockedBy]; exact List.count_pos_iff.2 hl'
    have h6 : ind (s.lock r = true) ≤ 1 := by simp only [ind]; split <;> omega
    omega
  · exact key h1 h2 hl hl' ha
  · exact key h2 h1 hl' hl ha

/-- **C04.** When all threads have left, nothing is left behind: no resource is locked or held, no queue is
locked, every wait counter and the number of waiting tasks are zero and the queues are empty. -/
theorem c04_no_residue (hC : WfCfg C) (h0 : Prepared C s0) (hr : Reach C s0 s) (hth : 0 < C.nth)
    (he : AllExited s) :
    (∀ r, s.lock r = false) ∧ (∀ r, s.hold r = 0) ∧ (∀ q, s.qlock q = false) ∧
    (∀ t, s.wait t = 0) ∧ s.waiting = 0 ∧ (∀ q < C.nq, (s.queue q).count = 0) := by
  have I := reach_inv hC h0 hr
  have hex : ∃ th, s.pc th = .exited := ⟨⟨0, hth⟩, he _⟩
  have hall := c01_exactly_once hC h0 hr hex
  have hends : ∀ a ∈ range C.count, ind (s.ends a = 0) = 0 := by
    intro a ha
    have := (hall a (mem_range.1 ha)).2
    simp [ind, this]
  have hw : ∀ t, s.wait t = 0 := by
    intro t
    have h := I.waits t
    have hz : ∑ a ∈ range C.count, ind (s.ends a = 0) * (C.unlocks a).count t = 0 := by
      apply Finset.sum_eq_zero
      intro a ha
      rw [hends a ha, zero_mul]
    rw [hz] at h
    simpa [he _, todoBy] using h
  refine ⟨?_, ?_, ?_, hw, ?_, ?_⟩
  · intro r
    have h := I.L r
    simpa [he _, lockedBy, ind] using h
  · intro r
    have h := I.H r
    simpa [he _, holdsBy] using h
  · intro q
    have h := I.QL q
    simpa [he _, qlBy, ind] using h
  · have h := I.left
    rw [Finset.sum_eq_zero hends] at h
    simpa [he _, finBy] using h
  · intro q hq
    by_contra hc
    have h := I.tok ((s.queue q).inds 0)
    have hmem : 0 < Queue.cnt (s.queue q).inds (s.queue q).count ((s.queue q).inds 0) := by
      rw [← Queue.toList_count]
      exact List.count_pos_iff.2 ((Queue.mem_toList _ _).2 ⟨0, by omega, rfl⟩)
    have hle := Finset.single_le_sum (f := fun q => Queue.cnt (s.queue q).inds (s.queue q).count
      ((s.queue (q)).inds 0)) (fun _ _ => Nat.zero_le _) (mem_range.2 hq)
    have hle := Finset.single_le_sum (f := fun q' => Queue.cnt (s.queue q').inds (s.queue q').count
      ((s.queue q).inds 0)) (fun _ _ => Nat.zero_le _) (mem_range.2 hq)
    have hlt : (s.queue q).inds 0 < C.count := by
      by_contra hc
      rw [ind, if_neg (by omega)] at h
      omega
    have h1 := (hall _ hlt).1
    simp only [ind] at h
    split at h <;> omega

theorem qlBy_pos {q : Nat} {p : Pc} : 0 < qlBy q p ↔ InQueueSection q p := by
  cases p <;> simp [qlBy, InQueueSection, ind, apply_ite]

/-- **C09 (exclusive access).** At no time are two threads between locking and unlocking the same queue. -/
theorem c09_queue_exclusive (hC : WfCfg C) (h0 : Prepared C s0) (hr : Reach C s0 s)
    {th th' : Fin C.nth} (hne : th ≠ th') (q : Nat) :
    ¬ (InQueueSection q (s.pc th) ∧ InQueueSection q (s.pc th')) := by
  have I := reach_inv hC h0 hr
  have h := I.QL q
  have h3 := two_le_sum (fun i => qlBy q (s.pc i)) th th' hne
  have h6 : ind (s.qlock q = true) ≤ 1 := by simp only [ind]; split <;> omega
  rw [← qlBy_pos, ← qlBy_pos]
  omega

/-- **C09 (exclusive access).** Only a thread in that section changes a queue: the accesses of one `queue_get`
or `queue_put` to the heap are not interleaved with those of another one. -/
theorem c09_queue_changes {th : Fin C.nth} {ch : Nat} {s' : St C}
    (h : step C s th ch = some s') (q : Nat) (hq : ¬ InQueueSection q (s.pc th)) :
    s'.queue q = s.queue q := by
  simp only [step, Option.map_eq_some_iff] at h
  obtain ⟨⟨s', p'⟩, ha, rfl⟩ := h
  rw [← qlBy_pos] at hq
  exact act_queue (act_Act ha) q (by omega)

/-- a thread that is about to call, or has called, the user function, has its own number -/
theorem reach_ids (hC : WfCfg C) (h0 : Prepared C s0) (hr : Reach C s0 s) (th : Fin C.nth) (t : Nat) :
    (s.pc th = .call t → s.tqid t = qid C th) ∧ (∀ id, s.pc th = .run t id → id = qid C th) := by
  induction hr generalizing th t with
  | refl => simp [h0.pc]
  | step th1 ch hr1 hs ih =>
    rename_i s1 s2
    have I := reach_inv hC h0 hr1
    simp only [step, Option.map_eq_some_iff] at hs
    obtain ⟨⟨s', p'⟩, ha, rfl⟩ := hs
    have ha := act_Act ha
    by_cases hij : th = th1
    · subst hij
      simp only [Function.update_self]
      have ih := ih th
      revert ha ih
      generalize s1.pc th = p
      intro ha ih
      cases ha
      case setq t' => simp; rintro rfl; simp
      case call t' => simp; rintro rfl; exact (ih t').1 rfl
      case relqN c => cases hc : c.cont <;> simp [afterFail]
      all_goals simp
    · simp only [Function.update_of_ne hij]
      refine ⟨fun hp => ?_, (ih th t).2⟩
      rw [← (ih th t).1 hp]
      have h1 := I.tok t
      have h3 := two_le_sum (fun i => pendBy t (s1.pc i)) th th1 hij
      have h4 : pendBy t (s1.pc th) = 1 := by simp [hp, pendBy]
      have h6 : ind (t < C.count ∧ s1.wait t = 0) ≤ 1 := by simp only [ind]; split <;> omega
      have h7 : pendBy t (s1.pc th1) = 0 := by omega
      revert ha h7
      generalize s1.pc th1 = p
      intro ha h7
      cases ha <;> first
        | rfl
        | (simp only [pendBy, ind] at h7
           split at h7
           · omega
           · simp [Function.update_of_ne (by assumption)])

/-- **C18.** Whenever the number of threads does not exceed the number of queues (CosTuuM creates one
queue per thread), tasks that execute at the same time were told different thread numbers, and every number is
smaller than the number of queues. -/
theorem c18_thread_ids (hC : WfCfg C) (h0 : Prepared C s0) (hr : Reach C s0 s) (hle : C.nth ≤ C.nq)
    {th th' : Fin C.nth} (hne : th ≠ th') {t t' id id' : Nat} (h1 : Runs s th t id) (h2 : Runs s th' t' id') :
    id ≠ id' ∧ id < C.nq := by
  have e1 := (reach_ids hC h0 hr th t).2 id h1
  have e2 := (reach_ids hC h0 hr th' t').2 id' h2
  unfold qid at e1 e2
  have := th.2
  have := th'.2
  rw [Nat.mod_eq_of_lt (by omega)] at e1 e2
  subst e1 e2
  exact ⟨fun h => hne (Fin.ext h), by omega⟩

/-- **C18 (what the number is).** The number a task is told is the number of its thread modulo the number of
queues; in particular, with fewer queues than threads, two concurrently executing tasks on threads `th` and `th'`
with `th ≡ th'` are told the same number. -/
theorem c18_thread_id_value (hC : WfCfg C) (h0 : Prepared C s0) (hr : Reach C s0 s)
    {th : Fin C.nth} {t id : Nat} (h1 : Runs s th t id) : id = th.val % C.nq :=
  (reach_ids hC h0 hr th t).2 id h1

end Verif.Sched
