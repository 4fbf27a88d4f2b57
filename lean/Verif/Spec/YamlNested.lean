import Verif.Spec.Yaml

/-!
# Specification of nested parameter files

A block of lines has an indentation. It consists of lines with a name and a value, and of lines with a name only, followed by an
inner block with a larger indentation. Comments and empty lines can be anywhere.
-/
namespace Verif.Yaml.Spec

open Verif.Yaml

/-- blanks and tabs only -/
def Blanks (s : Str) : Prop := ∀ c ∈ s, c = ' ' ∨ c = '\t'

/-- a line with an indentation, a name and a value (which can be empty), and possibly a comment -/
def Line (n : Nat) (name value l : Str) : Prop := ∃ a b c d comment : Str, Blanks a ∧ Blanks b ∧ Blanks c ∧ Blanks d ∧ a.length = n ∧
  name ≠ [] ∧ ':' ∉ name ∧ Clean name ∧ Clean value ∧ (comment = [] ∨ comment.head? = some '#') ∧
  l = a ++ name ++ b ++ [':'] ++ c ++ value ++ d ++ comment

/-- a block of lines in a group, its indentation, and the keys with their values -/
inductive Block : List Str → Nat → List Str → List (Str × Str) → Prop where
  | nil {path n} : Block path n [] []
  | skip {path n l ls es} : ¬ Contents l → Block path n ls es → Block path n (l :: ls) es
  | entry {path n name value l ls es} : Line n name value l → value ≠ [] → Block path n ls es →
      Block path n (l :: ls) ((List.intercalate [':'] (path ++ [name]), value) :: es)
  | group {path n name l n' inner es1 ls es2} : Line n name [] l → n < n' → Block (path ++ [name]) n' inner es1 → es1 ≠ [] →
      Block path n ls es2 → Block path n (l :: (inner ++ ls)) (es1 ++ es2)

/-- the last value of every key -/
def lastValue (es : List (Str × Str)) (key : Str) : Option Str := (es.reverse.find? fun e => e.1 = key).map (·.2)

end Verif.Yaml.Spec
