import Verif.Model.Yaml

/-!
# Specification of parameter files
-/
namespace Verif.Yaml.Spec

open Verif.Yaml

/-- a map: the keys are in ascending order (and different) -/
def Sorted (m : Map) : Prop := m.Pairwise fun a b => a.1 < b.1

/-- no blanks or tabs at the start or the end -/
def Trimmed (s : Str) : Prop := ∀ c, s.head? = some c ∨ s.getLast? = some c → c ≠ ' ' ∧ c ≠ '\t'

/-- a text that can be part of a line: no start of a comment and no end of a line, no blanks at its ends -/
def Clean (s : Str) : Prop := '#' ∉ s ∧ '\n' ∉ s ∧ Trimmed s

/-- a key: names, joined by colons; all but the last are names of groups -/
def Key (k : Str) (groups : List Str) (name : Str) : Prop :=
  k = List.intercalate [':'] (groups ++ [name]) ∧ ∀ p ∈ groups ++ [name], ':' ∉ p ∧ Clean p

/-- a value -/
def Value (v : Str) : Prop := v ≠ [] ∧ Clean v

/-- a dictionary as it can be read from a file -/
def WellFormed (m : Map) : Prop := Sorted m ∧ ∀ e ∈ m, (∃ groups name, Key e.1 groups name) ∧ Value e.2

/-! ## indentation -/

/-- the number of blanks and tabs at the start of a line -/
def indentation (line : Str) : Nat := (line.takeWhile fun c => c = ' ' ∨ c = '\t').length

/-- a line with contents: its first character that is not a blank or a tab is not the start of a comment -/
def Contents (line : Str) : Prop := ∃ c, line[indentation line]? = some c ∧ c ≠ '#'

/-- the first indentation after the last line that is not indented -/
inductive FirstLevel : List Str → Option Nat → Prop where
  | start : FirstLevel [] none
  | skip {a l i} : FirstLevel a i → ¬ Contents l → FirstLevel (a ++ [l]) i
  | reset {a l i} : FirstLevel a i → Contents l → indentation l = 0 → FirstLevel (a ++ [l]) none
  | first {a l} : FirstLevel a none → Contents l → indentation l ≠ 0 → FirstLevel (a ++ [l]) (some (indentation l))
  | next {a l i} : FirstLevel a (some i) → Contents l → indentation l ≠ 0 → FirstLevel (a ++ [l]) (some i)

/-! ## histories of queries -/

/-- a dictionary after any history: `given` are the values from the file and those set later -/
inductive History : (Str → Option Str) → Dictionary → Prop where
  | file {m : Map} : Sorted m → History (find m) ⟨m, []⟩
  | add {given d} (key value : Str) : History given d → History (fun k => if k = key then some value else given k) (addValue key value d)
  | string {given d} (key : Str) {r d'} : History given d → getString key d = .ok (r, d') → History given d'
  | stringOr {given d} (key default : Str) : History given d → History given (getStringOr key default d).2
  | value {given d} {α : Type} (t : DataType α) (key : Str) {r d'} : History given d → getValue t key d = .ok (r, d') → History given d'
  | valueOr {given d} {α : Type} (t : DataType α) (key : Str) (default : α) {r d'} : History given d →
      getValueOr t key default d = .ok (r, d') → History given d'
  | physicalOr {given d} {α : Type} (t : DataType α) (key default : Str) {r d'} : History given d →
      getPhysicalOr t key default d = .ok (r, d') → History given d'

end Verif.Yaml.Spec
