import Verif.Model.Store

/-!
# What a user of the scheduler expects from filling it: call histories
-/
namespace Verif.Store

/-- A call of the filling interface.  `prepare` stands for the start of a run. -/
inductive Op
  | task (type flags : Nat) (cost : Int) (payload : List Nat)
  | res (owner parent : Option Nat)
  | link (k : Kind) (t v : Nat)
  | reserve (nt nr nd nl nu nb : Nat)
  | prepare

/-- The effect of a call. -/
def exec1 (J : Junk) (s : Store) : Op → Option Store
  | .task a b c d => addtask J s a b c d
  | .res a b => addres J s a b
  | .link k t v => addlink J s k t v
  | .reserve a b c d e f => some (ensure J s a b c d e f)
  | .prepare => sortAll J s

/-- The effect of a sequence of calls; `none` if one of them accessed memory out of bounds. The content of the
uninitialised memory may be different in every call. -/
def exec : List (Op × Junk) → Store → Option Store
  | [], s => some s
  | (o, J) :: l, s => (exec1 J s o).bind (exec l)

/-- The tasks registered by the calls: type, flags, cost, payload, in the order of their ids. -/
def tasksOf (ops : List Op) : List (Nat × Nat × Int × List Nat) :=
  ops.filterMap fun | .task a b c d => some (a, b, c, d) | _ => none

/-- The resources registered by the calls: owner, parent, in the order of their ids. -/
def resOf (ops : List Op) : List (Option Nat × Option Nat) :=
  ops.filterMap fun | .res a b => some (a, b) | _ => none

/-- What task `t` was linked with, in the order of the calls. -/
def linksOf (k : Kind) (t : Nat) (ops : List Op) : List Nat :=
  ops.filterMap fun | .link k' t' v => if k' = k ∧ t' = t then some v else none | _ => none

/-- The calls are used as documented: links are made for existing tasks. -/
def Valid (ops : List Op) : Prop :=
  ∀ pre post k t v, ops = pre ++ Op.link k t v :: post → t < (tasksOf pre).length

/-- No payload is larger than `n` bytes. -/
def PayloadsAtMost (n : Nat) (ops : List Op) : Prop := ∀ a b c d, Op.task a b c d ∈ ops → d.length ≤ n

end Verif.Store
