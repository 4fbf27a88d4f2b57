import Verif.Model.LogFile

/-!
# What a reader of the log files sees

A text is a sequence of lines, each ended by a newline; a line is a sequence of fields with tabs between them.
-/
namespace Verif.LogFile
open Verif Text

/-- cut a text at every occurrence of a character -/
def cut (sep : Char) : Str → List Str
  | [] => [[]]
  | c :: l => if c = sep then [] :: cut sep l else
    match cut sep l with
    | [] => [[c]]
    | w :: ws => (c :: w) :: ws

/-- the lines of a text (without the empty rest after the last newline), cut into fields -/
def rows (text : Str) : List (List Str) := ((cut '\n' text).dropLast).map (cut '\t')

/-- A name that can be written into a field. -/
def Plain (s : Str) : Prop := ∀ c ∈ s, c ≠ '\t' ∧ c ≠ '\n'

/-- The number in a field. -/
def number (s : Str) : Nat := s.foldl (fun v c => 10 * v + digit c) 0

/-- The fields a call is expected to leave. -/
def record (nr nt : Nat) : Call → List (List Str)
  | .resource name none => [["resource".toList, showNat nr, name]]
  | .resource name (some p) => [["resource".toList, showNat nr, name], ["child".toList, showNat nr, showNat p]]
  | .task name => [["task".toList, showNat nt, name]]
  | .access t r true => [["writelink".toList, showNat t, showNat r]]
  | .access t r false => [["readlink".toList, showNat t, showNat r]]
  | .order a b => [["tasklink".toList, showNat a, showNat b]]

/-- number of resources, tasks among the calls -/
def resources (l : List Call) : Nat := l.countP isResource
def tasks (l : List Call) : Nat := l.countP isTask

/-- All names can be written into a field. -/
def Names (l : List Call) : Prop := ∀ c ∈ l, (∀ n p, c = .resource n p → Plain n) ∧ (∀ n, c = .task n → Plain n)

/-- The second number of a line with three fields that starts with a given word and the number `t`. -/
def pick (kind : Str) (t : Nat) : List Str → Option Nat
  | [k, a, b] => if k = kind ∧ number a = t then some (number b) else none
  | _ => none

/-- The second numbers of all such lines. -/
def links (kind : Str) (t : Nat) (text : Str) : List Nat := (rows text).filterMap (pick kind t)

/-- The names in the lines with three fields that start with a given word. -/
def labels (kind : Str) (text : Str) : List (Nat × Str) :=
  (rows text).filterMap fun
    | [k, a, b] => if k = kind then some (number a, b) else none
    | _ => none

end Verif.LogFile
