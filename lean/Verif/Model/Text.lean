import Mathlib.Data.Nat.Digits.Defs
import Mathlib.Data.Int.Init
import Mathlib.Data.Real.Archimedean
import Mathlib.Data.Rat.Floor
import Mathlib.Data.Real.Basic
import Mathlib.Algebra.Order.Floor.Ring

/-!
# Text and number utilities (src/Utilities.hpp)

A `std::string` is a list of characters (ASCII, no null characters). A position in a string that only moves forward is
represented by the part of the string from there on; reading at the end of a string gives a null character, as in C++.
-/
namespace Verif.Text

/-- why a function gives no result -/
inductive Failure
  /-- `ctm_error`: the program ends with a message -/
  | error
  /-- undefined behaviour: signed overflow or access outside a string -/
  | undefined
  deriving DecidableEq, Repr

/-! ## `string_to_integer` (Utilities.hpp:108-201) -/

/-- an integer type: number of bits, signed or not -/
structure IntType where
  bits : Nat
  signed : Bool
  deriving DecidableEq, Repr

/-- conversion of a value to an integer type (modulo `2^bits`) -/
def IntType.wrap (t : IntType) (x : Int) : Int := if t.signed then x.bmod (2 ^ t.bits) else x % 2 ^ t.bits

/-- `a *= b` for operands of type `t`: types narrower than `int` are promoted to `int` (32 bits); overflow is undefined for
signed types and wraps around for unsigned ones -/
def IntType.mul (t : IntType) (a b : Int) : Except Failure Int :=
  if t.signed then
    if -(2 ^ (t.bits - 1)) ≤ a * b ∧ a * b < 2 ^ (t.bits - 1) then .ok (a * b) else .error .undefined
  else if t.bits < 32 then
    if -(2 ^ 31) ≤ a * b ∧ a * b < 2 ^ 31 then .ok (t.wrap (a * b)) else .error .undefined
  else .ok (t.wrap (a * b))

/-- `isdigit` -/
def isDigit (c : Char) : Bool := '0' ≤ c && c ≤ '9'

/-- `value[idx] - '0'` -/
def digit (c : Char) : Nat := c.toNat - '0'.toNat

/-- `isxdigit` -/
def isXDigit (c : Char) : Bool := isDigit c || ('a' ≤ c && c ≤ 'f') || ('A' ≤ c && c ≤ 'F')

/-- `tolower` -/
def toLower (c : Char) : Char := if 'A' ≤ c ∧ c ≤ 'Z' then Char.ofNat (c.toNat + 32) else c

/-- the value of a hexadecimal digit (Utilities.hpp:140-149) -/
def xdigit (c : Char) : Nat := if isDigit c then digit c else 10 + (toLower c).toNat - 'a'.toNat

/-- `value[idx]` with the position at the start of the list -/
def here : List Char → Char
  | [] => Char.ofNat 0
  | c :: _ => c

/-- the loop over the digits from the last to the first (Utilities.hpp:159-164, 174-179); `base` is a `uint_fast32_t` of 64
bits; the sum is computed in `uint_fast32_t` and converted to the integer type -/
def accumulate (t : IntType) (radix : Nat) (digits : List Nat) : Int :=
  (digits.reverse.foldl (fun (s : Int × Nat) (d : Nat) => (t.wrap ((s.1 + s.2 * d) % 2 ^ 64), s.2 * radix % 2 ^ 64)) (0, 1)).1

/-- the loop over the digits of the exponent (Utilities.hpp:190-196), in `uint_fast32_t` -/
def accumulateExponent (digits : List Nat) : Nat :=
  (digits.reverse.foldl (fun (s : Nat × Nat) (d : Nat) => ((s.1 + s.2 * d) % 2 ^ 64, s.2 * 10 % 2 ^ 64)) (0, 1)).1

/-- `for (i = 0; i < exponent; ++i) extra_part *= 10` (Utilities.hpp:197-200) -/
def powerOfTen (t : IntType) : Nat → Except Failure Int
  | 0 => .ok (t.wrap 1)
  | e + 1 => do
    let x ← powerOfTen t e
    t.mul x 10

/-- the decimal branch (Utilities.hpp:166-203) -/
def decimalPart (t : IntType) (rest : List Char) : Except Failure Int := do
  let digits := (rest.takeWhile isDigit).map digit
  let rest := rest.dropWhile isDigit
  let ivalue := accumulate t 10 digits
  if here rest = 'e' ∨ here rest = 'E' then
    let exponent := accumulateExponent (((rest.drop 1).takeWhile isDigit).map digit)
    let extra ← powerOfTen t exponent
    t.mul ivalue extra
  else .ok ivalue

/-- the hexadecimal branch (Utilities.hpp:136-165), after the prefix -/
def hexPart (t : IntType) (rest : List Char) : Except Failure Int :=
  let digits := (rest.takeWhile isXDigit).map xdigit
  if digits.length = 0 then .error .error
  else if digits.length * 4 > t.bits - (if t.signed then 1 else 0) then .error .error
  else .ok (accumulate t 16 digits)

/-- `string_to_integer` (Utilities.hpp:108-208) -/
def stringToInteger (t : IntType) (value : List Char) : Except Failure Int :=
  if value.length = 0 then .error .error
  else
    let rest := value.dropWhile (· = ' ')
    if rest.length = 0 then .error .error
    else do
      let sign : Int := if here rest = '-' then -1 else 1
      let rest := if here rest = '-' then rest.drop 1 else rest
      let ivalue ←
        if here rest = '0' ∧ (here (rest.drop 1) = 'x' ∨ here (rest.drop 1) = 'X') then hexPart t (rest.drop 2)
        else decimalPart t rest
      t.mul ivalue sign

/-- `sstream << value` for an unsigned integer (Utilities.hpp:419-423, 540-555) -/
def showNat (n : Nat) : List Char :=
  if n = 0 then ['0'] else (Nat.digits 10 n).reverse.map fun d => Char.ofNat ('0'.toNat + d)

/-- `sstream << value` for a signed integer -/
def showInt (n : Int) : List Char := if n < 0 then '-' :: showNat n.natAbs else showNat n.natAbs

/-! ## `convert<bool>` (Utilities.hpp:353-388) -/

/-- the loop from the last character backwards and `substr(0, i + 1)` (Utilities.hpp:369-373), for a non-empty string; the loop
leaves the string if it only meets blanks (not possible after the first loop) -/
def stripEnd (s : List Char) : List Char := (s.reverse.dropWhile (· = ' ')).reverse

/-- `convert<bool>` (Utilities.hpp:353-388): for a string without any character but blanks, `i = size() - 1` is `2^64 - 1` and
the next access is outside the string -/
def convertBool (value : List Char) : Except Failure Bool :=
  let copy := (value.map toLower).dropWhile (· = ' ')
  if copy.length = 0 then .error .undefined
  else
    let copy := stripEnd copy
    if copy = "true".toList ∨ copy = "yes".toList ∨ copy = "on".toList ∨ copy = "y".toList then .ok true
    else if copy = "false".toList ∨ copy = "no".toList ∨ copy = "off".toList ∨ copy = "n".toList then .ok false
    else .error .error

/-- `to_string<bool>` (Utilities.hpp:452-458) -/
def showBool (b : Bool) : List Char := if b then "true".toList else "false".toList

/-! ## times and sizes -/

/-- `human_readable_time` (Utilities.hpp:601-627): the numbers that are printed with their unit, and the number of seconds.
Simplification: exact numbers, non-negative times below `2^64` minutes. -/
noncomputable def humanReadableTime (time : ℝ) : List (Nat × Char) × ℝ :=
  let minutes := ⌊time / 60⌋₊
  let seconds := time - 60 * minutes
  let pieces :=
    if minutes > 0 then
      let hours := minutes / 60
      if hours > 0 then
        let minutes := minutes - 60 * hours
        let days := hours / 24
        if days > 0 then
          let hours := hours - 24 * days
          let years := days / 365
          if years > 0 then
            let days := days - 365 * years
            [(years, 'y'), (days, 'd'), (hours, 'h'), (minutes, 'm')]
          else [(days, 'd'), (hours, 'h'), (minutes, 'm')]
        else [(hours, 'h'), (minutes, 'm')]
      else [(minutes, 'm')]
    else []
  (pieces, seconds)

/-- `byte_unit` (Utilities.hpp:635-651) -/
def byteUnit (exponent : Nat) : Except Failure (List Char) :=
  match exponent with
  | 0 => .ok "bytes".toList
  | 1 => .ok "KB".toList
  | 2 => .ok "MB".toList
  | 3 => .ok "GB".toList
  | 4 => .ok "TB".toList
  | _ => .error .error

/-- the loop `while ((bytes >> 10) > 0)` (Utilities.hpp:661-665): `sizecount` and `bytefloat` -/
def byteLoop (bytes sizecount : Nat) (bytefloat : ℚ) : Nat × ℚ :=
  if bytes / 1024 > 0 then byteLoop (bytes / 1024) (sizecount + 1) (bytefloat / 1024) else (sizecount, bytefloat)
termination_by bytes
decreasing_by omega

/-- `std::round` for non-negative numbers -/
def roundNat (x : ℚ) : Nat := ⌊x + 1 / 2⌋₊

/-- `human_readable_bytes` (Utilities.hpp:658-671): the number that is printed, and its unit. Simplification: exact numbers. -/
def humanReadableBytes (bytes : Nat) : Except Failure (ℚ × List Char) := do
  let r := byteLoop bytes 0 bytes
  let unit ← byteUnit r.1
  .ok (roundNat (100 * r.2) / 100, unit)

/-! ## strings -/

/-- `rfind`: the last position at which `needle` occurs, tried from `pos` downwards; `none`: `npos` -/
def rfind (haystack needle : List Char) : Nat → Option Nat
  | 0 => if needle.isPrefixOf haystack then some 0 else none
  | pos + 1 => if needle.isPrefixOf (haystack.drop (pos + 1)) then some (pos + 1) else rfind haystack needle pos

/-- `string_ends_with` (Utilities.hpp:680-688); `npos` is `2^64 - 1`, larger than any position -/
def stringEndsWith (haystack needle : List Char) : Bool :=
  if needle.length > haystack.length then false
  else
    match rfind haystack needle (haystack.length - needle.length) with
    | none => false
    | some check => check = haystack.length - needle.length

/-- `compose_filename` (Utilities.hpp:540-555) -/
def composeFilename (folder pre extension : List Char) (counter padding : Nat) : List Char :=
  (if folder.isEmpty then [] else folder ++ ['/']) ++ pre
    ++ (List.replicate (padding - (showNat counter).length) '0' ++ showNat counter) ++ ['.'] ++ extension

/-- `find(c)` in the rest of a string and `substr` up to there, and the rest after the character; without the character: the whole
rest. (The code then continues at `npos + 1 = 0`, see `splitString`.) -/
def cut (c : Char) (s : List Char) : List Char × Option (List Char) :=
  (s.takeWhile (· ≠ c), match s.dropWhile (· ≠ c) with | [] => none | _ :: r => some r)

/-- `split_string` (Utilities.hpp:84-97). `value` is the whole string: where a character is not found, `npos + 1` is 0, and the
next search starts at the beginning of the string again. -/
def splitString (value : List Char) : List Char × List Char × List Char :=
  let r0 := ((cut '[' value).2).getD value
  let c1 := cut ',' r0
  let r1 := c1.2.getD value
  let c2 := cut ',' r1
  let r2 := c2.2.getD value
  let c3 := cut ']' r2
  (c1.1, c2.1, c3.1)

/-! ## numbers -/

/-- the loop of `decompose` (Utilities.hpp:702-709) -/
def decomposeLoop (divisor number : Nat) (components : List Nat) (h : 0 < divisor) : List Nat :=
  if hc : divisor ≤ number ∧ number > 1 then
    if hd : number % divisor = 0 ∧ divisor > 1 then
      decomposeLoop divisor (number / divisor) (components ++ [divisor]) h
    else decomposeLoop (divisor + 1) number components (by omega)
  else components
termination_by (number, number + 1 - divisor)
decreasing_by
  · exact Prod.Lex.left _ _ (Nat.div_lt_self (by omega) hd.2)
  · exact Prod.Lex.right _ (by omega)

/-- `decompose` (Utilities.hpp:698-711); (`divisor > 1`, which the loop of the model tests too, is always true) -/
def decompose (number : Nat) : List Nat := decomposeLoop 2 number [] (by omega)

/-- `as_binary_sequence` (Utilities.hpp:720-733): one pass of the loop appends a blank before every fourth digit, and a digit -/
def asBinarySequence (value : Nat) : List Char :=
  ((List.range 64).foldl (fun (s : List Char × Nat) i =>
    let out := if i > 0 ∧ i % 4 = 0 then s.1 ++ [' '] else s.1
    (out ++ showNat ((value &&& s.2) >>> (63 - i)), s.2 >>> 1)) ([], 0x8000000000000000)).1

/-- `argsort` (Utilities.hpp:774-786): `r` is a possible result. The standard only says that `std::sort` permutes the range such
that no element is smaller, in the given order, than one before it. -/
def Argsort {α : Type} [LT α] (values : List α) (r : List Nat) : Prop :=
  r.Perm (List.range values.length)
  ∧ ∀ i j : Nat, i < j → ∀ a b, r[i]? = some a → r[j]? = some b → ∀ x y, values[a]? = some x → values[b]? = some y → ¬ y < x

end Verif.Text
