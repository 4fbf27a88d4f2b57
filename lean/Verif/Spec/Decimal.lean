import Verif.Spec.Text
import Mathlib.Data.Real.Archimedean

/-!
# Decimal numbers
-/
namespace Verif.Text.Spec

/-- a decimal number with at most six significant digits -/
def Short (z : ℝ) : Prop := ∃ n e : ℤ, |n| < 10 ^ 6 ∧ z = n * 10 ^ e

/-- `y` is `x` rounded to six significant digits: no number with six digits is closer -/
def Rounded (x y : ℝ) : Prop := Short y ∧ ∀ z, Short z → |y - x| ≤ |z - x|

/-- how a number can be written: blanks, sign, digits, a point and digits, an exponent -/
structure Literal where
  blanks : List Char
  /-- no sign, or a sign that is negative or not -/
  sign : Option Bool
  whole : List Nat
  /-- digits after a point -/
  frac : Option (List Nat)
  /-- upper case letter, sign, digits -/
  exp : Option (Bool × Option Bool × List Nat)

/-- blanks are blank, all digits are digits, there is at least one, and at least one in an exponent -/
def Literal.Proper (l : Literal) : Prop :=
  (∀ c ∈ l.blanks, c ∈ [' ', '\t', '\n', '\x0b', '\x0c', '\r']) ∧ (∀ d ∈ l.whole, d < 10) ∧ (∀ f, l.frac = some f → ∀ d ∈ f, d < 10) ∧ (l.whole ≠ [] ∨ ∃ f, l.frac = some f ∧ f ≠ [])
    ∧ ∀ u s ds, l.exp = some (u, s, ds) → ds ≠ [] ∧ ∀ d ∈ ds, d < 10

def signText : Option Bool → List Char
  | none => []
  | some true => ['-']
  | some false => ['+']

def fracText : Option (List Nat) → List Char
  | none => []
  | some f => '.' :: f.map digitChar

def expText : Option (Bool × Option Bool × List Nat) → List Char
  | none => []
  | some (u, s, ds) => (if u then 'E' else 'e') :: (signText s ++ ds.map digitChar)

def expValue : Option (Bool × Option Bool × List Nat) → ℤ
  | none => 0
  | some (_, s, ds) => if s = some true then -(value 10 ds : ℤ) else value 10 ds

/-- the text -/
def Literal.text (l : Literal) : List Char :=
  l.blanks ++ (signText l.sign ++ (l.whole.map digitChar ++ (fracText l.frac ++ expText l.exp)))

/-- the number: whole part, tenths, hundredths, ..., times a power of ten -/
noncomputable def Literal.number (l : Literal) : ℝ :=
  (if l.sign = some true then -1 else 1) * (value 10 l.whole + value 10 (l.frac.getD []) / 10 ^ (l.frac.getD []).length)
    * 10 ^ expValue l.exp

/-- the characters that would continue a number -/
def Stops (rest : List Char) : Prop := ∀ c r, rest = c :: r → c ∉ "0123456789.eExX".toList

end Verif.Text.Spec
