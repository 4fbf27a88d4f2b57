import Verif.Spec.Decimal

/-!
# Text files with a table
-/
namespace Verif.TableFile.Spec

open Verif.Text.Spec

/-- a line of a file with a table -/
inductive Line
  /-- a comment -/
  | comment (text : List Char)
  /-- numbers, and something behind them -/
  | numbers (ls : List Literal) (more : List Char)

def Line.text : Line → List Char
  | .comment t => '#' :: t
  | .numbers ls more => ls.flatMap Literal.text ++ more

def blank (c : Char) : Prop := c ∈ [' ', '\t', '\x0b', '\x0c', '\r']

/-- nothing, or something that starts with a blank -/
def Apart (s : List Char) : Prop := ∀ c r, s = c :: r → blank c

/-- there is no newline in the line; there are `ncol` numbers, each but the first with a blank in front; what follows starts with a blank -/
def Line.Proper (ncol : Nat) : Line → Prop
  | .comment t => '\n' ∉ t
  | .numbers ls more => ls.length = ncol ∧ (∀ l ∈ ls, l.Proper ∧ '\n' ∉ l.blanks) ∧ (∀ l ∈ ls.tail, l.blanks ≠ []) ∧ Apart more ∧ '\n' ∉ more

/-- the row in a line -/
noncomputable def Line.row : Line → Option (List ℝ)
  | .comment _ => none
  | .numbers ls _ => some (ls.map Literal.number)

/-- the file with these lines, with or without a newline at its end -/
def fileText (newline : Bool) : List Line → List Char
  | [] => []
  | [l] => l.text ++ if newline then ['\n'] else []
  | l :: ls => l.text ++ '\n' :: fileText newline ls

end Verif.TableFile.Spec
