import Verif.Model.TaskGraph

/-!
# What a picture of the task graph should show
-/
namespace Verif.TaskGraph

open Verif
open Verif.Text (showNat)
open Verif.LogFile (Str Call)

/-- the name of a class, as `typeid` returns it for GCC: its length, followed by its name -/
def mangled (name : Str) : Str := showNat name.length ++ name

/-- a name of a class: one to 99 characters, no blanks -/
def ClassName (name : Str) : Prop := 1 ≤ name.length ∧ name.length ≤ 99 ∧ ∀ c ∈ name, Units.isSpace c = false

/-- the name of a task, of a resource -/
def taskOf : Call → Option Str
  | .task name => some name
  | _ => none

def resourceOf : Call → Option Str
  | .resource name _ => some name
  | _ => none

/-- all tasks and resources are objects of classes with such a name -/
def Classes (l : List Call) : Prop := ∀ c ∈ l, ∀ s, taskOf c = some s ∨ resourceOf c = some s → ∃ name, ClassName name ∧ s = mangled name

/-- task, resource number `i` is an object of the class with the given name -/
def TaskClass (l : List Call) (i : Nat) (name : Str) : Prop := (l.filterMap taskOf)[i]? = some (mangled name)
def ResourceClass (l : List Call) (i : Nat) (name : Str) : Prop := (l.filterMap resourceOf)[i]? = some (mangled name)

/-- resource number `i` is registered with resource number `p` as its parent -/
def Child (l : List Call) (i p : Nat) : Prop := ∃ a name b, l = a ++ Call.resource name (some p) :: b ∧ (a.filterMap resourceOf).length = i

/-- all numbers are those of registered tasks and resources -/
def Registered (l : List Call) : Prop :=
  (∀ t r w, Call.access t r w ∈ l → t < (l.filterMap taskOf).length ∧ r < (l.filterMap resourceOf).length) ∧
  (∀ a b, Call.order a b ∈ l → a < (l.filterMap taskOf).length ∧ b < (l.filterMap taskOf).length) ∧
  ∀ i p, Child l i p → p < (l.filterMap resourceOf).length

/-- an arrow in the picture -/
def arrow (a b attributes : Str) : Str := a ++ "->".toList ++ b ++ attributes ++ ";".toList

def resNode (r : Str) : Str := "res".toList ++ r

/-- The arrows the picture should have: black for tasks that wait for others, blue for resources that are read, red for resources that are written, green from children
to parents. -/
inductive Arrow (l : List Call) : Str → Prop
  | order {a b : Nat} {A B : Str} : Call.order a b ∈ l → TaskClass l a A → TaskClass l b B → Arrow l (arrow A B [])
  | reads {t r : Nat} {A R : Str} : Call.access t r false ∈ l → TaskClass l t A → ResourceClass l r R → Arrow l (arrow A (resNode R) "[color=\"blue\"]".toList)
  | writes {t r : Nat} {A R : Str} : Call.access t r true ∈ l → TaskClass l t A → ResourceClass l r R → Arrow l (arrow A (resNode R) "[color=\"red\"]".toList)
  | child {i p : Nat} {A B : Str} : Child l i p → ResourceClass l i A → ResourceClass l p B → Arrow l (arrow (resNode A) (resNode B) "[color=\"green\"]".toList)

/-- the resources that are read or written -/
def Accessed (l : List Call) (R : Str) : Prop := ∃ t r w, Call.access t r w ∈ l ∧ ResourceClass l r R

end Verif.TaskGraph
