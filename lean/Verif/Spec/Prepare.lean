import Mathlib.Logic.Relation
import Mathlib.Algebra.BigOperators.Group.Finset.Basic

/-!
# Vocabulary for `qsched_prepare`: graphs of links, cycles and paths
-/
namespace Verif.Prepare

/-- Task `a` unlocks task `b`. -/
def Link (count : Nat) (unlocks : Nat → List Nat) (a b : Nat) : Prop := a < count ∧ b ∈ unlocks a

/-- Some task depends, through one or more links, on itself. -/
def HasCycle (count : Nat) (unlocks : Nat → List Nat) : Prop :=
  ∃ t, Relation.TransGen (Link count unlocks) t t

/-- Number of links that end in `t`. -/
def inLinks (count : Nat) (unlocks : Nat → List Nat) (t : Nat) : Nat :=
  ∑ a ∈ Finset.range count, (unlocks a).count t

/-- `l` is a path of links that starts with task `t`. -/
def PathFrom (unlocks : Nat → List Nat) (t : Nat) : List Nat → Prop
  | [] => False
  | [a] => a = t
  | a :: b :: l => a = t ∧ b ∈ unlocks a ∧ PathFrom unlocks b (b :: l)

end Verif.Prepare
