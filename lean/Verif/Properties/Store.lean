import Verif.Proofs.Store
import Mathlib.Tactic.IntervalCases

/-!
# Filling a scheduler: C08 (links), C12 (growth), C13 (payloads)

`l` is a history of calls, each with an arbitrary content of uninitialised memory; `exec l (init J)` is the
scheduler after them.
-/
namespace Verif.Store

/-- **C08 (links end up with the right task).** After any history of calls that ends with preparing a run, each task
sees exactly what it was linked with, in the order of the calls: for the dependencies, the locks and the uses.
Earlier preparations (a run, then more links, then another run) make no difference. -/
theorem c08_links (J Jp : Junk) (l : List (Op × Junk)) (hfit : PayloadsAtMost 8000 (l.map Prod.fst)) (s : Store)
    (h : exec (l ++ [(.prepare, Jp)]) (init J) = some s) (k : Kind) (t : Nat) (ht : t < s.count) :
    view s k t = linksOf k t (l.map Prod.fst) := by
  have happ : ∀ (l : List (Op × Junk)) s0, exec (l ++ [(.prepare, Jp)]) s0 = (exec l s0).bind (sortAll Jp) := by
    intro l
    induction l with
    | nil => intro s0; simp [exec, exec1]
    | cons x l ih =>
      obtain ⟨o, J⟩ := x
      intro s0
      simp only [List.cons_append, exec]
      cases exec1 J s0 o with
      | none => rfl
      | some s1 => exact ih s1
  rw [happ] at h
  obtain ⟨s1, h1, h2⟩ := Option.bind_eq_some_iff.1 h
  have I := exec_inv l (inv_init J) h1 hfit
  obtain ⟨s2, h3, -, h4⟩ := inv_prepare I Jp
  rw [h3] at h2
  cases h2
  rw [h4 k t ht, linksOf_append]
  simp [linksOf]

/-- **C08 (the calls are safe).** If links are only made for registered tasks, no call accesses memory out of
bounds, however many calls there are and in whatever order. -/
theorem c08_safe (J : Junk) (l : List (Op × Junk)) (hfit : PayloadsAtMost 8000 (l.map Prod.fst))
    (hv : Valid (l.map Prod.fst)) : ∃ s, exec l (init J) = some s :=
  exec_ok l (inv_init J) hfit (by simpa using hv)

/-- **C12 (nothing is lost).** After any history of calls, also beyond the initial or reserved capacity, with
reservations and preparations in between, every registered task has its id, type, flags and cost, every resource its
owner and parent, and every task has as many links as were made (`c08_links` says which ones). -/
theorem c12_nothing_lost (J : Junk) (l : List (Op × Junk)) (hfit : PayloadsAtMost 8000 (l.map Prod.fst)) (s : Store)
    (h : exec l (init J) = some s) :
    s.count = (tasksOf (l.map Prod.fst)).length ∧ s.rcount = (resOf (l.map Prod.fst)).length ∧
    (∀ i ty fl co pl, (tasksOf (l.map Prod.fst))[i]? = some (ty, fl, co, pl) →
      (s.tasks i).type = ty ∧ (s.tasks i).flags = fl ∧ (s.tasks i).cost = co) ∧
    (∀ i o p, (resOf (l.map Prod.fst))[i]? = some (o, p) → (s.res i).owner = o ∧ (s.res i).parent = p) ∧
    (∀ k t, t < s.count → (s.tasks t).nr k = (linksOf k t (l.map Prod.fst)).length) := by
  have I := exec_inv l (inv_init J) h hfit
  rw [List.nil_append] at I
  refine ⟨I.tcount, I.rcount, ?_, ?_, I.nr⟩
  · intro i ty fl co pl hx
    obtain ⟨h1, h2, h3, -⟩ := I.task i ty fl co pl hx
    exact ⟨h1, h2, h3⟩
  · intro i o p hx
    rw [I.res i o p hx]
    exact ⟨rfl, rfl⟩

/-- **C12 (reservations).** After a reservation every capacity is at least what was asked for and at least what it
was before, and everything stored is still there. -/
theorem c12_reserve (J : Junk) (s : Store) (nt nr nd nl nu nb : Nat) :
    let s' := ensure J s nt nr nd nl nu nb
    (max nt s.tsize ≤ s'.tsize ∧ max nr s.rsize ≤ s'.rsize ∧ max nb s.dsize ≤ s'.dsize ∧
      max nd (s.links .deps).size ≤ (s'.links .deps).size ∧ max nl (s.links .locks).size ≤ (s'.links .locks).size ∧
      max nu (s.links .uses).size ≤ (s'.links .uses).size) ∧
    (s'.count = s.count ∧ ∀ i < s.count, s'.tasks i = s.tasks i) ∧
    (s'.rcount = s.rcount ∧ ∀ i < s.rcount, s'.res i = s.res i) ∧
    (s'.dcount = s.dcount ∧ ∀ i < s.dcount, s'.bytes i = s.bytes i) ∧
    (∀ k, (s'.links k).count = (s.links k).count ∧
      ∀ i < (s.links k).count, (s'.links k).data i = (s.links k).data i ∧ (s'.links k).key i = (s.links k).key i) := by
  have hk : ∀ k L n, max n L.size ≤ (ensureLinks J k L n).size ∧ (ensureLinks J k L n).count = L.count ∧
      ∀ i < L.count, (ensureLinks J k L n).data i = L.data i ∧ (ensureLinks J k L n).key i = L.key i := by
    intro k L n
    unfold ensureLinks
    split
    · refine ⟨by dsimp only; omega, rfl, ?_⟩
      intro i hi
      simp [regrow, hi]
    · refine ⟨by omega, rfl, fun i _ => ⟨rfl, rfl⟩⟩
  unfold ensure
  by_cases h1 : s.tsize < nt <;> by_cases h2 : s.rsize < nr <;> by_cases h3 : s.dsize < nb <;>
    simp only [h1, h2, h3, if_true, if_false] <;>
    exact ⟨⟨by omega, by omega, by omega, (hk _ _ _).1, (hk _ _ _).1, (hk _ _ _).1⟩,
      ⟨by trivial, fun i hi => by simp [regrow, hi]⟩, ⟨by trivial, fun i hi => by simp [regrow, hi]⟩,
      ⟨by trivial, fun i hi => by simp [regrow, hi]⟩, fun k => (hk _ _ _).2⟩

/-- **C13 (payloads), for payloads of at most 8000 bytes.** The bytes handed to the task function are the bytes
passed when the task was registered, and the payloads of different tasks do not overlap.  CosTuuM's payload is a
`WrappedTask` (two pointers, QuickSchedWrapper.hpp:424).  Missing: larger payloads, for which the property is false
(`c13_violated`). -/
theorem c13_payload_partial (J : Junk) (l : List (Op × Junk)) (hfit : PayloadsAtMost 8000 (l.map Prod.fst)) (s : Store)
    (h : exec l (init J) = some s) :
    (∀ i ty fl co pl, (tasksOf (l.map Prod.fst))[i]? = some (ty, fl, co, pl) → payload s i pl.length = pl) ∧
    (∀ i j ty fl co pl, i < j → j < s.count → (tasksOf (l.map Prod.fst))[i]? = some (ty, fl, co, pl) →
      (s.tasks i).data + pl.length ≤ (s.tasks j).data) := by
  have I := exec_inv l (inv_init J) h hfit
  rw [List.nil_append] at I
  refine ⟨?_, I.sep⟩
  intro i ty fl co pl hx
  obtain ⟨-, -, -, -, h5⟩ := I.task i ty fl co pl hx
  apply List.ext_getElem
  · simp [payload]
  · intro n h1 h2
    simp only [payload, List.getElem_map, List.getElem_range]
    rw [h5 n h2, List.getD, List.getElem?_eq_getElem h2]
    rfl

/-- **C13 (violated).** The buffer for the payloads is doubled only once per task: a first task with more than
16000 bytes of payload is copied past the end of the buffer. -/
theorem c13_violated (J J' : Junk) (ty fl : Nat) (co : Int) (pl : List Nat) (hp : 16000 < pl.length) :
    exec [(.task ty fl co pl, J')] (init J) = none := by
  have h := roundUp_ge pl.length
  have key : addtask J' (init J) ty fl co pl = none := by
    unfold addtask
    have h1 : ¬ (init J).count = (init J).tsize := by show ¬ (0 : Nat) = 1000; omega
    rw [if_neg h1]
    have h2 : (init J).dcount + roundUp pl.length > (init J).dsize := by
      show 0 + roundUp pl.length > 8000; omega
    dsimp only
    rw [if_pos h2]
    have h3 : ¬ ((init J).count < (init J).tsize ∧ (init J).dcount + pl.length ≤ (init J).dsize * 2) := by
      show ¬ ((0 : Nat) < 1000 ∧ 0 + pl.length ≤ 8000 * 2); omega
    dsimp only
    rw [if_neg h3]
  simp only [exec, exec1, key]
  rfl

/-! ## A concrete history -/

/-- three tasks, links made in a mixed order, a preparation in between, one more link afterwards -/
def exOps : List Op :=
  [.task 0 0 1 [7, 8], .task 1 0 1 [9], .res none none, .link .locks 1 0, .link .deps 0 1, .task 0 0 1 [],
   .link .deps 0 2, .prepare, .reserve 10 10 10 10 10 10000, .link .deps 1 2, .link .deps 0 1]

def exL (J : Junk) : List (Op × Junk) := exOps.map fun o => (o, J)

/-- The hypotheses of the theorems are met and the result is what one expects. -/
example (J : Junk) : ∃ s, exec (exL J ++ [(.prepare, J)]) (init J) = some s ∧ s.count = 3 ∧
    view s .deps 0 = [1, 2, 1] ∧ view s .deps 1 = [2] ∧ view s .locks 1 = [0] ∧ payload s 1 1 = [9] := by
  have hfit : PayloadsAtMost 8000 ((exL J ++ [(Op.prepare, J)]).map Prod.fst) := by
    intro a b c d hm
    simp [exL, exOps] at hm
    rcases hm with ⟨-, -, -, rfl⟩ | ⟨-, -, -, rfl⟩ | ⟨-, -, -, rfl⟩ <;> simp
  have hfit' : PayloadsAtMost 8000 ((exL J).map Prod.fst) := fun a b c d hm => hfit a b c d (by simp; simp at hm; simp [hm])
  have hv : Valid ((exL J ++ [(Op.prepare, J)]).map Prod.fst) := by
    have e : (exL J ++ [(Op.prepare, J)]).map Prod.fst = exOps ++ [.prepare] := by simp [exL, exOps]
    rw [e]
    intro pre post k t v hx
    have : ∀ n, n < 12 → ∀ k t v, (exOps ++ [Op.prepare])[n]? = some (Op.link k t v) →
        t < (tasksOf ((exOps ++ [Op.prepare]).take n)).length := by
      intro n hn k t v hh
      interval_cases n <;> simp [exOps] at hh <;> obtain ⟨-, rfl, -⟩ := hh <;> simp [exOps, tasksOf]
    have hn : pre.length < 12 := by
      have := congrArg List.length hx
      simp [exOps] at this
      omega
    have h2 := this pre.length hn k t v (by rw [hx]; simp)
    rw [hx] at h2
    simpa using h2
  obtain ⟨s, hs⟩ := c08_safe J _ hfit hv
  have hc := c12_nothing_lost J _ hfit s hs
  have h3 : s.count = 3 := by rw [hc.1]; simp [exL, exOps, tasksOf]
  refine ⟨s, hs, h3, ?_, ?_, ?_, ?_⟩
  · rw [c08_links J J _ hfit' s hs .deps 0 (by omega)]; simp [exL, exOps, linksOf]
  · rw [c08_links J J _ hfit' s hs .deps 1 (by omega)]; simp [exL, exOps, linksOf]
  · rw [c08_links J J _ hfit' s hs .locks 1 (by omega)]; simp [exL, exOps, linksOf]
  · exact (c13_payload_partial J _ hfit s hs).1 1 1 0 1 [9] (by simp [exL, exOps, tasksOf])

end Verif.Store
