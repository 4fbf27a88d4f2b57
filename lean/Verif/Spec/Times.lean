import Verif.Model.Times
import Verif.Spec.Sched

/-!
# Vocabulary for the recorded times
-/
namespace Verif.Times
open Verif Sched

/-- A worker has fetched task `t` from a queue and recorded that in the task. -/
def Taken {C : Cfg} (s : St C) (t : Nat) : Prop := (∃ th, s.pc th = .call t) ∨ s.starts t ≠ 0

/-- The scheduler is prepared; whatever times are stored in the tasks lie in the past. -/
structure TPrepared (C : Cfg) (x : TSt C) : Prop where
  prepared : Prepared C x.s
  tic : ∀ t, x.tic t ≤ x.now
  toc : ∀ t, x.toc t ≤ x.now

/-- In the records, task `a` was over when task `b` began. -/
def Before {C : Cfg} (x : TSt C) (a b : Nat) : Prop := x.s.ends a = 1 ∧ x.toc a ≤ x.tic b

/-- Tasks `a` and `b` need resources one of which equals, contains or is contained in the other. -/
def Clash (C : Cfg) (a b : Nat) : Prop := ∃ r ∈ C.locks a, ∃ r' ∈ C.locks b, Conflict C.parent r r'

end Verif.Times
