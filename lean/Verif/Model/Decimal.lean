import Verif.Model.Units
import Mathlib.Data.Int.Log
import Mathlib.Data.Real.Archimedean

/-!
# Real numbers as texts: `strtod`, `stod`, `sscanf` and `operator<<`, as used by Utilities.hpp:222-230, 400-412, 419-423, 467-491

Numbers are exact: neither the rounding of a text to a binary number, nor overflow and underflow are modelled.  Texts are lists of characters, as in `Model/Text`.
-/
namespace Verif.Text

set_option autoImplicit false

/-! ## reading -/

/-- the outcome of `strtod` -/
inductive Scan
  /-- there is no number -/
  | none
  /-- infinity, not a number, or a hexadecimal number: not modelled -/
  | special
  /-- a decimal number, and the text after it -/
  | number (x : ℝ) (rest : List Char)

/-- is there an optional sign, and what follows it -/
def takeSign : List Char → Bool × List Char
  | '-' :: s => (true, s)
  | '+' :: s => (false, s)
  | s => (false, s)

/-- the digits at the start of a text, as a list of numbers -/
def takeDigits (s : List Char) : List Nat := (s.takeWhile isDigit).map digit

/-- the number written with the given digits -/
def ofDigits (ds : List Nat) : Nat := ds.foldl (fun v d => v * 10 + d) 0

/-- the exponent, if there is a letter `e` followed by an optional sign and at least one digit, and the text after it -/
def takeExponent (s : List Char) : Option Int × List Char :=
  match s with
  | [] => (none, s)
  | c :: r =>
    if c = 'e' ∨ c = 'E' then
      let t := takeSign r
      if takeDigits t.2 = [] then (none, s)
      else (some (if t.1 then -(ofDigits (takeDigits t.2) : Int) else ofDigits (takeDigits t.2)), t.2.dropWhile isDigit)
    else (none, s)

/-- `inf`, `nan` or `0x` (in upper or lower case) -/
def isSpecial (s : List Char) : Bool :=
  let t := s.map toLower
  t.take 3 = ['i', 'n', 'f'] || t.take 3 = ['n', 'a', 'n'] || t.take 2 = ['0', 'x']

/-- the digits after a point, and the text after them -/
def takeFraction : List Char → List Nat × List Char
  | '.' :: r => (takeDigits r, r.dropWhile isDigit)
  | s => ([], s)

/-- `strtod` (C standard library; Utilities.hpp:224): blanks, sign, digits with an optional point, optional exponent -/
noncomputable def readReal (s : List Char) : Scan :=
  let t := takeSign (s.dropWhile Units.isSpace)
  if isSpecial t.2 then .special
  else
    let i := takeDigits t.2
    let f := takeFraction (t.2.dropWhile isDigit)
    if i = [] ∧ f.1 = [] then .none
    else
      let e := takeExponent f.2
      let x : ℝ := ofDigits (i ++ f.1) * 10 ^ (e.1.getD 0 - f.1.length : Int)
      .number (if t.1 then -x else x) e.2

/-- `convert<double>` (Utilities.hpp:222-230): the text after the number is ignored -/
noncomputable def convertReal (s : List Char) : Except Failure ℝ :=
  match readReal s with
  | .none => .error .error
  | .special => .error .undefined
  | .number x _ => .ok x

/-- `split_value` (Utilities.hpp:480-494): a number (`stod`), blanks, a unit -/
noncomputable def splitValue (s : List Char) : Except Failure (ℝ × List Char) :=
  match readReal s with
  | .none => .error .error
  | .special => .error .undefined
  | .number x rest => .ok (x, rest.dropWhile (· = ' '))

/-- the format `"%lf + %lfi"` of `sscanf`, `convert<std::complex<double>>` (Utilities.hpp:400-412).  The letter at the end is not checked: both numbers have been
read.  (A number that ends with a letter `e` without an exponent is accepted here.) -/
noncomputable def convertComplex (s : List Char) : Except Failure (ℝ × ℝ) :=
  match readReal s with
  | .none => .error .error
  | .special => .error .undefined
  | .number x rest =>
    match rest.dropWhile Units.isSpace with
    | '+' :: r =>
      match readReal r with
      | .none => .error .error
      | .special => .error .undefined
      | .number y _ => .ok (x, y)
    | _ => .error .error

/-! ## writing -/

/-- the nearest integer, the even one of two -/
noncomputable def roundEven (y : ℝ) : Nat :=
  let n := ⌊y⌋₊
  if y - n < 1 / 2 then n else if 1 / 2 < y - n then n + 1 else if n % 2 = 0 then n else n + 1

/-- without zeros at the end -/
def stripZeros (s : List Char) : List Char := (s.reverse.dropWhile (· = '0')).reverse

/-- at least two digits -/
def twoDigits (n : Nat) : List Char := if n < 10 then '0' :: showNat n else showNat n

/-- six digits and the decimal exponent of a positive number -/
noncomputable def sixDigits (a : ℝ) : Nat × Int :=
  let e := Int.log 10 a
  let m := roundEven (a / 10 ^ (e - 5))
  if m = 10 ^ 6 then (10 ^ 5, e + 1) else (m, e)

/-- six digits and an exponent, in the format `%g`: with an exponent if it is less than -4 or greater than 5, without zeros at the end -/
def layout (m : Nat) (e : Int) : List Char :=
  let ds := showNat m
  if e < -4 ∨ 6 ≤ e then
    let t := stripZeros (ds.drop 1)
    ds.take 1 ++ ((if t = [] then [] else '.' :: t) ++ ('e' :: (if e < 0 then '-' else '+') :: twoDigits e.natAbs))
  else if 0 ≤ e then
    let t := stripZeros (ds.drop (e.toNat + 1))
    ds.take (e.toNat + 1) ++ (if t = [] then [] else '.' :: t)
  else '0' :: '.' :: (List.replicate (-e - 1).toNat '0' ++ stripZeros ds)

/-- `sstream << value` for a `double` (Utilities.hpp:419-423): six significant digits, the default of C++ streams -/
noncomputable def showReal (x : ℝ) : List Char :=
  if x = 0 then ['0']
  else (if x < 0 then ['-'] else []) ++ layout (sixDigits |x|).1 (sixDigits |x|).2

/-- `to_string<std::complex<double>>` (Utilities.hpp:467-471) -/
noncomputable def showComplex (z : ℝ × ℝ) : List Char := showReal z.1 ++ (" + ".toList ++ (showReal z.2 ++ ['i']))

/-- the text for a physical value (YAMLDictionary.hpp:457-458, 481-482) -/
noncomputable def showPhysical (q : Units.Quantity) (x : ℝ) : List Char := showReal x ++ (' ' :: Units.siUnitName q)

/-- a text with a number and a unit, converted to SI units (YAMLDictionary.hpp:453-456, 477-480) -/
noncomputable def convertPhysical (q : Units.Quantity) (s : List Char) : Except Failure ℝ :=
  match splitValue s with
  | .error e => .error e
  | .ok (x, unit) => Units.toSI q x unit

end Verif.Text
