import Verif.Model.Lifetime

/-!
# Specification: references
-/
namespace Verif.Lifetime

set_option autoImplicit false

variable {V : Type}

/-- number of references that objects have on the object `o` -/
def owned (s : State V) (o : Nat) : Nat := ∑ p ∈ Finset.range s.next, ((s.node p).map fun n => n.refs.count o).getD 0

/-- The reference counts are right, except that there are `lost o` references on the object `o` that nobody has: every count is the number of references of the Python
program, of other objects, and of nobody; objects without references do not exist. -/
structure Counted (s : State V) (lost : Nat → Nat) : Prop where
  fresh : ∀ o, s.next ≤ o → s.node o = none
  pos : ∀ o n, s.node o = some n → 1 ≤ n.rc
  count : ∀ o, rcOf s o = s.held o + owned s o + lost o

/-- instances of the classes of the module have a C++ object or a null pointer -/
def Typed (s : State V) : Prop :=
  ∀ p n, s.node p = some n → n.kind = .wrapper → n.refs = [] ∨ ∃ c, n.refs = [c] ∧ ∀ m, s.node c = some m → ∃ v, m.kind = .cpp v

/-- the object exists -/
def Alive (s : State V) (o : Nat) : Prop := (s.node o).isSome = true

/-- the Python program has a reference on an instance of a class of the module; it has been initialised -/
def Held (s : State V) (o : Nat) : Prop := 0 < s.held o
def Instance (s : State V) (o : Nat) : Prop := Held s o ∧ ∃ n, s.node o = some n ∧ n.kind = .wrapper
def Ready (s : State V) (o : Nat) : Prop := Held s o ∧ ∃ n, s.node o = some n ∧ n.kind = .wrapper ∧ n.refs ≠ []

/-- the Python program has the array -/
def Given (s : State V) : Arg → Prop
  | .array o => Held s o ∧ ∃ n, s.node o = some n ∧ n.kind = .array
  | .value => True

/-- The Python program uses objects that it has references on; methods and `get_table` are used with objects that have been initialised. -/
def Legal (s : State V) : Op V → Prop
  | .object | .alloc | .createMatrix _ _ | .createWrong => True
  | .take o | .drop o => Held s o
  | .create _ refs => ∀ r ∈ refs, Held s r
  | .init o _ refs => Instance s o ∧ ∀ r ∈ refs, Held s r
  | .initWrong o => Instance s o
  | .use o => Ready s o
  | .align _ os => ∀ o ∈ os, Ready s o
  | .absorption o a _ | .absorptions o a _ _ => Ready s o ∧ Given s a
  | .extinction o a b _ _ _ => Ready s o ∧ Given s a ∧ Given s b
  | .unpacking o as ndims _ => Ready s o ∧ (∀ a ∈ as, Given s a) ∧ ndims.length = as.length
  | .table os as ndims _ _ => (∀ o ∈ os, Ready s o) ∧ (∀ a ∈ as, Given s a) ∧ ndims.length = as.length
  | .wrongCall as => ∀ a ∈ as, Given s a
  | .className _ => False

/-- The actions that lose no reference: everything but second initialisations, averages over orientations, arrays without axes or with several axes (for the methods of
the T-matrix), arrays before a wrong argument, and results with several axes. -/
def Tidy (s : State V) : Op V → Prop
  | .createMatrix _ average => average = none
  | .init o _ _ => ∀ n, s.node o = some n → n.refs = []
  | .absorption _ _ ndim => ndim = 1
  | .absorptions _ _ _ _ | .extinction _ _ _ _ _ _ | .unpacking _ _ _ _ => False
  | .table _ _ ndims first second => first = none ∧ second = none ∧ ∀ d ∈ ndims, d ≠ 0
  | .wrongCall as => as = []
  | _ => True

/-- a history of legal actions -/
def LegalRun : State V → List (Op V) → Prop
  | _, [] => True
  | s, op :: l => Legal s op ∧ ∀ s', step op s = some s' → LegalRun s' l

/-- a history of actions that lose nothing, without calls of `__init__` (instances are created by calling the class) -/
def TidyRun : State V → List (Op V) → Prop
  | _, [] => True
  | s, op :: l => Tidy s op ∧ (∀ o v refs, op ≠ .init o v refs) ∧ ∀ s', step op s = some s' → TidyRun s' l

/-- the states that a Python program can reach -/
def Reachable (s : State V) : Prop := ∃ (s0 : State V) (ops : List (Op V)), imported = some s0 ∧ LegalRun s0 ops ∧ run ops s0 = some s

end Verif.Lifetime
