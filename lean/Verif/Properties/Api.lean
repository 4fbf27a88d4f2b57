import Verif.Model.Api
import Verif.Properties.Store
import Verif.Properties.Prepare
import Verif.Properties.Liveness

/-!
# From the filling calls to the end of the run

C01, C02, C03, C05, C06 once more, now in terms of the calls that filled the scheduler: nothing is assumed about the
scheduler's memory.
-/
namespace Verif.Api
open Verif Verif.Store

/-- The filling calls are used as documented: links are made for tasks that exist, dependencies lead to tasks that
exist when the run starts, and the parent of a resource exists before its child. -/
structure Proper (ops : List Op) : Prop where
  tasks : Valid ops
  targets : ∀ t v, Op.link .deps t v ∈ ops → v < (tasksOf ops).length
  parents : ∀ pre post o p, ops = pre ++ Op.res o (some p) :: post → p < (resOf pre).length

/-- The parent of resource `r` according to the calls. -/
def parentOf (ops : List Op) (r : Nat) : Option Nat := ((resOf ops)[r]?).bind Prod.snd

theorem mem_linksOf {k t v ops} : v ∈ linksOf k t ops ↔ Op.link k t v ∈ ops := by
  unfold linksOf
  rw [List.mem_filterMap]
  constructor
  · rintro ⟨o, ho, h⟩
    cases o <;> simp at h
    obtain ⟨⟨rfl, rfl⟩, rfl⟩ := h
    exact ho
  · intro h
    exact ⟨_, h, by simp⟩

theorem valid_lt {ops : List Op} (h : Valid ops) {k t v} (hm : Op.link k t v ∈ ops) : t < (tasksOf ops).length := by
  obtain ⟨pre, post, rfl⟩ := List.append_of_mem hm
  have := h pre post k t v rfl
  rw [tasksOf_append]; simp; omega

theorem resOf_split (ops : List Op) : ∀ r x, (resOf ops)[r]? = some x →
    ∃ pre post, ops = pre ++ Op.res x.1 x.2 :: post ∧ (resOf pre).length = r := by
  induction ops with
  | nil => intro r x h; simp [resOf] at h
  | cons o ops ih =>
    intro r x h
    have other : (resOf (o :: ops) = resOf ops ∧ resOf [o] = []) ∨ ∃ a b, o = .res a b := by
      cases o
      case res a b => exact .inr ⟨a, b, rfl⟩
      all_goals exact .inl ⟨rfl, rfl⟩
    rcases other with ⟨e1, e2⟩ | ⟨a, b, rfl⟩
    · rw [e1] at h
      obtain ⟨pre, post, rfl, hl⟩ := ih r x h
      refine ⟨o :: pre, post, rfl, ?_⟩
      rw [← List.singleton_append, resOf_append, e2]; simpa using hl
    · have e : resOf (Op.res a b :: ops) = (a, b) :: resOf ops := rfl
      rw [e] at h
      cases r with
      | zero =>
        simp at h
        subst h
        exact ⟨[], ops, rfl, rfl⟩
      | succ r =>
        simp at h
        obtain ⟨pre, post, rfl, hl⟩ := ih r x h
        refine ⟨.res a b :: pre, post, rfl, ?_⟩
        have e : resOf (Op.res a b :: pre) = (a, b) :: resOf pre := rfl
        rw [e]; simp [hl]

/-- **The whole life of a scheduler.**  Take any properly used sequence of filling calls (with at most 8000 bytes of
payload per task), any number of queues and threads.  The calls and the sorting that starts the run stay within
the allocated memory.  The run refuses to start if and only if the dependencies given by the calls have a cycle.
Otherwise, in every state that can be reached by any interleaving of the threads:
each task has been started at most once, and a task
that is executed now has been started once, has not ended, and is executed by a single thread; a task that has started comes after the end of every task that was declared
to unlock it; two tasks that execute at the same time never hold conflicting resources, where the hierarchy is the one
that was declared; as soon as one thread has left, every task has been executed exactly once; if no task locks
conflicting resources itself, all tasks can still be brought to completion; and with at least one queue per thread, tasks that execute at
the same time were told different thread numbers. -/
theorem api_run (J Jp : Junk) (l : List (Op × Junk)) (ops : List Op) (hl : l.map Prod.fst = ops)
    (hfit : PayloadsAtMost 8000 ops) (hv : Proper ops) (nq nth : Nat) (hq : 0 < nq) (weight0 : Nat → Int) :
    ∃ s, exec (l ++ [(.prepare, Jp)]) (init J) = some s ∧
      (prepareOf s nq weight0 = none ↔
        Prepare.HasCycle (tasksOf ops).length (fun t => linksOf .deps t ops)) ∧
      ∀ r, prepareOf s nq weight0 = some r → ∀ st, Sched.Reach _ (startOf s nq nth r) st →
        (∀ t, st.ends t ≤ st.starts t ∧ st.starts t ≤ 1) ∧
        (∀ th t id, Sched.Runs st th t id → t < (tasksOf ops).length ∧ st.starts t = 1 ∧ st.ends t = 0 ∧
          ∀ th' id', Sched.Runs st th' t id' → th' = th) ∧
        (∀ a b, Op.link .deps a b ∈ ops → st.starts b ≠ 0 → st.ends a = 1) ∧
        (∀ th th' t t' id id' x x', th ≠ th' → Sched.Runs st th t id → Sched.Runs st th' t' id' →
          Op.link .locks t x ∈ ops → Op.link .locks t' x' ∈ ops → ¬ Sched.Conflict (parentOf ops) x x') ∧
        ((∃ th, st.pc th = .exited) → ∀ t < (tasksOf ops).length, st.starts t = 1 ∧ st.ends t = 1) ∧
        ((∀ t, (linksOf .locks t ops).Pairwise fun x x' => ¬ Sched.Conflict (parentOf ops) x x') →
          Sched.CanFinish _ st) ∧
        (nth ≤ nq → ∀ th th' t t' id id', th ≠ th' → Sched.Runs st th t id → Sched.Runs st th' t' id' → id ≠ id' ∧ id < nq) := by
  subst hl
  have hfit' : PayloadsAtMost 8000 ((l ++ [(Op.prepare, Jp)]).map Prod.fst) := by
    intro a b c d hm
    refine hfit a b c d ?_
    simpa using hm
  have hvalid : Valid ((l ++ [(Op.prepare, Jp)]).map Prod.fst) := by
    intro pre post k t v hx
    rw [List.map_append] at hx
    -- the link is not the last call
    rcases List.eq_nil_or_concat post with rfl | ⟨post', y, rfl⟩
    · have := congrArg List.getLast? hx
      simp at this
    · have hx' : List.map Prod.fst l = pre ++ Op.link k t v :: post' := by
        have h2 := congrArg List.dropLast hx
        rw [List.map_cons, List.map_nil, List.concat_eq_append, List.dropLast_concat, ← List.cons_append,
          ← List.append_assoc, List.dropLast_concat] at h2
        exact h2
      exact hv.tasks pre post' k t v hx'
  obtain ⟨s, hs⟩ := c08_safe J _ hfit' hvalid
  have hview := c08_links J Jp l hfit s hs
  have hc := c12_nothing_lost J _ hfit' s hs
  have e1 : tasksOf ((l ++ [(Op.prepare, Jp)]).map Prod.fst) = tasksOf (l.map Prod.fst) := by
    rw [List.map_append, tasksOf_append]; simp [tasksOf]
  have e2 : resOf ((l ++ [(Op.prepare, Jp)]).map Prod.fst) = resOf (l.map Prod.fst) := by
    rw [List.map_append, resOf_append]; simp [resOf]
  rw [e1, e2] at hc
  obtain ⟨hcount, hrcount, -, hres, -⟩ := hc
  generalize hops : l.map Prod.fst = ops at *
  have hpar : ∀ (w : Nat → Int), (cfgOf s nq nth w).parent = parentOf ops := by
    intro w
    funext r
    show (if r < s.rcount then (s.res r).parent else none) = _
    unfold parentOf
    by_cases h : r < s.rcount
    · rw [if_pos h]
      rw [hrcount] at h
      rw [List.getElem?_eq_getElem h]
      exact (hres r _ _ (List.getElem?_eq_getElem h)).2
    · rw [if_neg h, List.getElem?_eq_none (by omega)]; rfl
  have hwf : ∀ w, Sched.WfCfg (cfgOf s nq nth w) := by
    intro w
    refine ⟨hq, ?_, ?_⟩
    · intro a ha u hu
      change u ∈ view s .deps a at hu
      rw [hview .deps a ha, mem_linksOf] at hu
      show u < s.count
      rw [hcount]
      exact hv.targets a u hu
    · intro r p h
      rw [hpar] at h
      unfold parentOf at h
      obtain ⟨x, hx, hxp⟩ := Option.bind_eq_some_iff.1 h
      obtain ⟨pre, post, he, hlen⟩ := resOf_split ops r x hx
      rw [hxp] at he
      have := hv.parents pre post _ p he
      omega
  have hlink : ∀ a b, Prepare.Link s.count (view s .deps) a b ↔
      Prepare.Link (tasksOf ops).length (fun t => linksOf .deps t ops) a b := by
    intro a b
    unfold Prepare.Link
    rw [hcount]
    constructor
    · rintro ⟨h1, h2⟩; exact ⟨h1, by rw [hview .deps a (by omega)] at h2; exact h2⟩
    · rintro ⟨h1, h2⟩; exact ⟨h1, by rw [hview .deps a (by omega)]; exact h2⟩
  refine ⟨s, hs, ?_, ?_⟩
  · unfold prepareOf
    rw [Prepare.c06_cycle_detection (count := s.count) (unlocks := view s .deps) (hwf (fun _ => 0)).links
      (fun _ => rfl)]
    unfold Prepare.HasCycle
    have : Prepare.Link s.count (view s .deps)
        = Prepare.Link (tasksOf ops).length (fun t => linksOf .deps t ops) := by
      funext a b; exact propext (hlink a b)
    rw [this]
  · intro r hr st hreach
    have hC := hwf r.weight
    have hp : Sched.Prepared _ (startOf s nq nth r) :=
      Prepare.c14_prepared (E := enqOf s nq) (cost := fun t => (s.tasks t).cost) hC rfl
        (Prepare.fresh _) weight0 (fun _ => rfl) (fun _ => rfl) (fun _ => rfl) hr rfl
    have hlt : ∀ th t id, Sched.Runs st th t id → t < s.count := by
      intro th t id h
      by_contra hge
      have h1 := (Sched.c01_at_most_once hC hp hreach t).2.2 (Nat.le_of_not_lt hge)
      have I := Sched.reach_inv hC hp hreach
      have h2 := I.runs t
      have h3 := Sched.le_sum (fun i => Sched.runBy t (st.pc i)) th
      have h4 : 0 < Sched.runBy t (st.pc th) := by
        rw [show st.pc th = .run t id from h]; simp [Sched.runBy, Sched.ind]
      omega
    have hlk : ∀ a b, Op.link .deps a b ∈ ops → a < s.count ∧ b ∈ view s .deps a := by
      intro a b h
      have ha : a < s.count := by rw [hcount]; exact valid_lt hv.tasks h
      exact ⟨ha, by rw [hview .deps a ha, mem_linksOf]; exact h⟩
    refine ⟨fun t => ⟨(Sched.c01_at_most_once hC hp hreach t).2.1, (Sched.c01_at_most_once hC hp hreach t).1⟩,
      ?_, ?_, ?_, ?_, ?_, ?_⟩
    · intro th t id h
      refine ⟨hcount ▸ hlt th t id h, ?_⟩
      have I := Sched.reach_inv hC hp hreach
      have h2 := I.runs t
      have h3 := Sched.le_sum (fun i => Sched.runBy t (st.pc i)) th
      have h4 : 0 < Sched.runBy t (st.pc th) := by
        rw [show st.pc th = .run t id from h]; simp [Sched.runBy, Sched.ind]
      have h5 := Sched.c01_at_most_once hC hp hreach t
      refine ⟨by omega, by omega, ?_⟩
      intro th' id' h'
      by_contra hne
      have h6 : Sched.runBy t (st.pc th) + Sched.runBy t (st.pc th') ≤ ∑ i, Sched.runBy t (st.pc i) := by
        rw [← Finset.sum_pair (Ne.symm hne) (f := fun i => Sched.runBy t (st.pc i))]
        exact Finset.sum_le_univ_sum_of_nonneg (fun _ => Nat.zero_le _)
      have h7 : 0 < Sched.runBy t (st.pc th') := by
        rw [show st.pc th' = .run t id' from h']; simp [Sched.runBy, Sched.ind]
      omega
    · intro a b hab hb
      obtain ⟨ha, hm⟩ := hlk a b hab
      exact Sched.c02_dependencies hC hp hreach a b ha hm hb
    · intro th th' t t' id id' x x' hne h1 h2 hx hx'
      have := Sched.c03_mutual_exclusion hC hp hreach hne h1 h2 (r := x) (r' := x')
        (by show x ∈ view s .locks t; rw [hview .locks t (hlt _ _ _ h1), mem_linksOf]; exact hx)
        (by show x' ∈ view s .locks t'; rw [hview .locks t' (hlt _ _ _ h2), mem_linksOf]; exact hx')
      rw [hpar] at this
      exact this
    · intro he t ht
      exact Sched.c01_exactly_once hC hp hreach he t (by show t < s.count; omega)
    · intro hN
      refine (Prepare.c01_whole_run (E := enqOf s nq) (cost := fun t => (s.tasks t).cost) hC rfl hr rfl hreach).2 ?_
      intro t ht
      rw [hpar]
      show (view s .locks t).Pairwise _
      rw [hview .locks t ht]
      exact hN t
    · intro hle th th' t t' id id' hne h1 h2
      exact Sched.c18_thread_ids hC hp hreach hle hne h1 h2

/-! ## The concrete history of `Properties.Store` is a proper one -/

example : Proper exOps := by
  refine ⟨?_, ?_, ?_⟩
  · intro pre post k t v hx
    have : ∀ n, n < 11 → ∀ k t v, exOps[n]? = some (Op.link k t v) → t < (tasksOf (exOps.take n)).length := by
      intro n hn k t v hh
      interval_cases n <;> simp [exOps] at hh <;> obtain ⟨-, rfl, -⟩ := hh <;> simp [exOps, tasksOf]
    have hn : pre.length < 11 := by
      have := congrArg List.length hx
      simp [exOps] at this
      omega
    have h2 := this pre.length hn k t v (by rw [hx]; simp)
    rw [hx] at h2
    simpa using h2
  · intro t v h
    simp [exOps] at h
    simp [exOps, tasksOf]
    omega
  · intro pre post o p hx
    have hm : Op.res o (some p) ∈ exOps := by rw [hx]; simp
    simp [exOps] at hm

end Verif.Api
