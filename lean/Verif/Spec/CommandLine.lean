import Verif.Model.CommandLine

/-!
# Specification of the command line
-/
namespace Verif.CommandLine.Spec

open Verif.Text (Failure)
open Verif.Yaml (Str Map find)
open Verif.CommandLine

/-- hyphens -/
def hyphens (k : Nat) : Str := List.replicate (k + 1) '-'

/-- The options on a command line without a request for help, with their arguments (empty if there is none):
`--name=argument`, `--name argument`, where the argument does not start with a hyphen, or `--name`. -/
inductive Items : List Str → List (Str × Str) → Prop where
  | nil : Items [] []
  | equals {k name v rest items} : '=' ∉ name → name.head? ≠ some '-' → Items rest items →
      Items ((hyphens k ++ name ++ ['='] ++ v) :: rest) ((name, v) :: items)
  | separate {k name b rest items} : '=' ∉ name → name.head? ≠ some '-' → hyphens k ++ name ≠ "--help".toList →
      hyphens k ++ name ≠ "-h".toList → b.head? ≠ some '-' → Items rest items →
      Items ((hyphens k ++ name) :: b :: rest) ((name, b) :: items)
  | alone {k name rest items} : '=' ∉ name → name.head? ≠ some '-' → hyphens k ++ name ≠ "--help".toList →
      hyphens k ++ name ≠ "-h".toList → (∀ b, rest.head? = some b → b.head? = some '-') → Items rest items →
      Items ((hyphens k ++ name) :: rest) ((name, []) :: items)

/-- a long or a short name of an option -/
def Names (o : CommandOption) (name : Str) : Prop := name = o.name ∨ name = [o.abbreviation]

/-- the first option with that name -/
def First (options : List CommandOption) (name : Str) (o : CommandOption) : Prop :=
  ∃ a b, options = a ++ o :: b ∧ Names o name ∧ ∀ x ∈ a, ¬ Names x name

/-- the text of a value, by type -/
def Normal (real : Str → Except Failure Str) (t : ArgumentType) (s v : Str) : Prop :=
  match t with
  | .none => ∃ b, Text.convertBool s = .ok b ∧ v = Text.showBool b
  | .int => ∃ n, Text.stringToInteger intFast32 s = .ok n ∧ v = Text.showInt n
  | .double => real s = .ok v
  | .string => v = s

/-- the value of an option on the command line -/
def Given (real : Str → Except Failure Str) (o : CommandOption) (argument v : Str) : Prop :=
  if o.argument = .none then v = "true".toList else Normal real o.argument (if argument = [] then o.default else argument) v

/-- the value of an option that is not on the command line -/
def Default (real : Str → Except Failure Str) (o : CommandOption) (v : Str) : Prop :=
  if o.default = [] then v = [] else Normal real o.argument o.default v

/-- all options on the command line are known, and their values can be converted and are not empty -/
def Known (real : Str → Except Failure Str) (options : List CommandOption) (items : List (Str × Str)) : Prop :=
  ∀ i ∈ items, ∃ o v, First options i.1 o ∧ Given real o i.2 v ∧ v ≠ []

/-- the last item for an option -/
def Last (options : List CommandOption) (items : List (Str × Str)) (o : CommandOption) (argument : Str) : Prop :=
  ∃ a i b, items = a ++ i :: b ∧ First options i.1 o ∧ i.2 = argument ∧ ∀ j ∈ b, ¬ First options j.1 o

/-- no item for an option -/
def Absent (options : List CommandOption) (items : List (Str × Str)) (o : CommandOption) : Prop := ∀ i ∈ items, ¬ First options i.1 o

/-- the options of a parser after any calls of `add_option` -/
inductive Registered : List CommandOption → Prop where
  | start : Registered initial
  | add {options options' o} : Registered options → addOption o options = .ok options' → Registered options'

end Verif.CommandLine.Spec
