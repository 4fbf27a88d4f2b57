import Verif.Properties.Sched

/-!
# C10 in the presence of other threads

A worker gives up on a queue only after it has tried to lock every task that is in the queue.
-/
namespace Verif.Sched
open Verif

variable {C : Cfg}

/-- the search a position belongs to and the number of entries that have been tried -/
def searched : Pc → Option (Ctx × Nat)
  | .scan c k => some (c, min k c.n)
  | .lockNext c k _ _ _ => some (c, k)
  | .lockIn c k _ _ _ _ => some (c, k)
  | .rollNext c k _ _ => some (c, k)
  | .rollIn c k _ _ _ => some (c, k)
  | .take c k _ => some (c, k)
  | .relq c none => some (c, c.n)
  | _ => none

theorem searched_section {p : Pc} {c : Ctx} {d : Nat} (h : searched p = some (c, d)) : InQueueSection c.q p := by
  cases p with
  | relq c o => cases o <;> simp [searched, InQueueSection] at h ⊢; rw [h.1]
  | _ => simp_all [searched, InQueueSection]

/-- one more entry counts as tried only right after a failed attempt -/
theorem act_searched {s s' : St C} {th : Fin C.nth} {p p' : Pc} (ha : Act C s th p s' p') {c : Ctx} {d : Nat}
    (h : searched p' = some (c, d)) (hw : PcWf C s p) :
    d = 0 ∨ (s'.queue = s.queue ∧ (searched p = some (c, d) ∨
      (1 ≤ d ∧ searched p = some (c, d - 1) ∧ ∃ t, (s.queue c.q).inds (d - 1) = t ∧ FailedToLock c (d - 1) t p))) := by
  cases ha
  case rnE c' k t =>
    have hk := hw.2.2.1
    have ht := hw.2.2.2
    simp only [searched, Option.some.injEq, Prod.mk.injEq] at h
    obtain ⟨rfl, rfl⟩ := h
    simp only [searched, Option.some.injEq, Prod.mk.injEq]
    refine .inr ⟨trivial, .inr ⟨by omega, ⟨trivial, by omega⟩, t, ?_, [], ?_⟩⟩
    · rw [← ht]; congr 1; omega
    · congr 1; omega
  case acqL q cont hl => 
    simp only [searched, Option.some.injEq, Prod.mk.injEq] at h
    left; omega
  case scanT c' k hk => 
    simp only [searched, Option.some.injEq, Prod.mk.injEq] at h
    obtain ⟨rfl, rfl⟩ := h
    simp only [searched, Option.some.injEq, Prod.mk.injEq]
    exact .inr ⟨trivial, .inl ⟨trivial, by omega⟩⟩
  case scanE c' k hk => 
    simp only [searched, Option.some.injEq, Prod.mk.injEq] at h
    obtain ⟨rfl, rfl⟩ := h
    simp only [searched, Option.some.injEq, Prod.mk.injEq]
    exact .inr ⟨trivial, .inl ⟨trivial, by omega⟩⟩
  case relqN c' => cases hc : c'.cont <;> simp [afterFail, hc, searched] at h
  all_goals first
    | (simp [searched] at h; done)
    | (right; refine ⟨rfl, .inl ?_⟩; simpa [searched] using h)

/-- **C10 (every task is tried).** When a thread is about to return from a queue empty-handed, then for every task
that is in the queue it has, since it locked the queue, tried and failed to lock that task. -/
theorem c10_all_tried (hC : WfCfg C) (run : Nat → St C) (h0 : Prepared C (run 0)) (hrun : IsRun C run)
    (j : Nat) (th : Fin C.nth) (c : Ctx) (hj : (run j).pc th = .relq c none) :
    ∀ t ∈ ((run j).queue c.q).toList, ∃ i < j, (∃ k, FailedToLock c k t ((run i).pc th)) ∧
      ∀ m, i ≤ m → m ≤ j → InQueueSection c.q ((run m).pc th) := by
  have hreach : ∀ n, Reach C (run 0) (run n) := by
    intro n
    induction n with
    | zero => exact .refl
    | succ n ih =>
      rcases hrun n with h | ⟨th, ch, h⟩
      · rw [h]; exact ih
      · exact .step th ch ih h
  have key : ∀ j c d, searched ((run j).pc th) = some (c, d) → ∀ k < d, ∃ i ≤ j,
      FailedToLock c k (((run j).queue c.q).inds k) ((run i).pc th) ∧
      ∀ m, i ≤ m → m ≤ j → InQueueSection c.q ((run m).pc th) := by
    intro j
    induction j with
    | zero => intro c d h; rw [h0.pc] at h; simp [searched] at h
    | succ j ih =>
      intro c d h k hk
      have hsec := searched_section h
      have extend : ∀ i, i ≤ j → FailedToLock c k (((run (j+1)).queue c.q).inds k) ((run i).pc th) →
          (∀ m, i ≤ m → m ≤ j → InQueueSection c.q ((run m).pc th)) → ∃ i ≤ j + 1,
          FailedToLock c k (((run (j+1)).queue c.q).inds k) ((run i).pc th) ∧
          ∀ m, i ≤ m → m ≤ j + 1 → InQueueSection c.q ((run m).pc th) := by
        intro i hi h1 h2
        refine ⟨i, by omega, h1, ?_⟩
        intro m hm hm'
        by_cases hmj : m = j + 1
        · subst hmj; exact hsec
        · exact h2 m hm (by omega)
      rcases hrun j with hs | ⟨th1, ch, hs⟩
      · rw [hs] at h
        obtain ⟨i, hi, h1, h2⟩ := ih c d h k hk
        exact extend i hi (by rw [hs]; exact h1) h2
      · have I := reach_inv hC h0 (hreach j)
        have hqch := c09_queue_changes hs c.q
        have hexc := fun hne => c09_queue_exclusive hC h0 (hreach j) (th := th) (th' := th1) hne c.q
        generalize hgen : run (j + 1) = s2 at *
        simp only [step, Option.map_eq_some_iff] at hs
        obtain ⟨⟨s', p'⟩, ha, rfl⟩ := hs
        have ha := act_Act ha
        by_cases hij : th = th1
        · subst hij
          simp only [Function.update_self] at h
          rcases act_searched ha h (I.wf th) with h3 | ⟨hq, h4 | ⟨hd, h4, t, ht, hf⟩⟩
          · omega
          · obtain ⟨i, hi, h1, h2⟩ := ih c d h4 k hk
            exact extend i hi (by simp only [hq]; exact h1) h2
          · by_cases hkd : k = d - 1
            · subst hkd
              refine extend j (le_refl _) ?_ ?_
              · simp only [hq, ht]; exact hf
              · intro m hm hm'
                have : m = j := by omega
                subst this
                exact searched_section h4
            · obtain ⟨i, hi, h1, h2⟩ := ih c (d - 1) h4 k (by omega)
              exact extend i hi (by simp only [hq]; exact h1) h2
        · simp only [Function.update_of_ne hij] at h
          obtain ⟨i, hi, h1, h2⟩ := ih c d h k hk
          refine extend i hi ?_ h2
          have := hqch (fun h3 => hexc hij ⟨searched_section h, h3⟩)
          rw [this]; exact h1
  intro t ht
  have I := reach_inv hC h0 (hreach j)
  obtain ⟨k, hk, rfl⟩ := (Queue.mem_toList _ _).1 ht
  have hn : c.n = ((run j).queue c.q).count := by
    have := I.wf th
    rw [hj] at this
    exact this.2 rfl
  obtain ⟨i, hi, h1, h2⟩ := key j c c.n (by rw [hj]; rfl) k (by omega)
  have hne : i ≠ j := by
    rintro rfl
    obtain ⟨got, h3⟩ := h1
    rw [hj] at h3; cases h3
  exact ⟨i, by omega, ⟨k, h1⟩, h2⟩

end Verif.Sched
