import Verif.Model.Decimal

/-!
# Tables from text files: `Table::from_ascii_file` (Table.hpp:121-145)

A file is the list of its characters, or `none` if it can not be opened.  Reading one number is the operator `>>` of the standard library for floating
point numbers: the characters of a number are collected first, and converted afterwards.  Numbers are exact, as in `Model/Decimal`.
-/
namespace Verif.TableFile

open Verif.Text

set_option autoImplicit false

/-- one more character in front -/
def push (c : Char) (r : List Char × List Char) : List Char × List Char := (c :: r.1, r.2)

/-- the characters after the sign which belong to a number, and what follows them; `digit`, `point`, `scientific`: was there a digit, a decimal
point, an exponent.  (Table.hpp:141: the operator `>>` of the stream; `num_get::do_get`, stage 2.  Leading zeros are dropped and `E` is replaced by
`e` there, without an effect on the value.) -/
def collect (digit point scientific : Bool) : List Char → List Char × List Char
  | [] => ([], [])
  | c :: r =>
    if isDigit c then push c (collect true point scientific r)
    else if c = '.' ∧ point = false ∧ scientific = false then push c (collect digit true scientific r)
    else if (c = 'e' ∨ c = 'E') ∧ scientific = false ∧ digit = true then
      match r with
      | [] => ([c], [])
      | s :: r' =>
        if s = '+' ∨ s = '-' then push c (push s (collect digit point true r'))
        else push c (collect digit point true (s :: r'))
    else ([], c :: r)
termination_by l => l.length

/-- with an optional sign -/
def collectSigned : List Char → List Char × List Char
  | [] => ([], [])
  | c :: r => if c = '+' ∨ c = '-' then push c (collect false false false r) else collect false false false (c :: r)

/-- `linestr >> x` (Table.hpp:141): blanks are skipped; the stream fails if nothing is left, or if the collected characters are not one number -/
noncomputable def extract (s : List Char) : Option (ℝ × List Char) :=
  let t := collectSigned (s.dropWhile Units.isSpace)
  match readReal t.1 with
  | .number x [] => some (x, t.2)
  | _ => none

/-- the loop over the columns (Table.hpp:140-142): once the stream has failed (`none`), all further elements keep or get the value zero
(Table.hpp:53-57) -/
noncomputable def columns : Nat → Option (List Char) → List ℝ
  | 0, _ => []
  | n + 1, none => 0 :: columns n none
  | n + 1, some s =>
    match extract s with
    | some (x, r) => x :: columns n (some r)
    | none => 0 :: columns n none

/-- `std::getline` until it fails (Table.hpp:135): everything up to a newline is a line, and what follows the last newline if there is something;
`line`: the characters read so far, last one first -/
def getlines (line : List Char) : List Char → List (List Char)
  | [] => if line = [] then [] else [line.reverse]
  | c :: r => if c = '\n' then line.reverse :: getlines [] r else getlines (c :: line) r

/-- the loop over the lines (Table.hpp:135-144): lines with `#` as first character are skipped, for all others there is one more row -/
noncomputable def readLines (ncol : Nat) : List (List Char) → List (List ℝ) → List (List ℝ)
  | [], rows => rows
  | line :: rest, rows =>
    if here line ≠ '#' then readLines ncol rest (rows ++ [columns ncol (some line)]) else readLines ncol rest rows

/-- `from_ascii_file` (Table.hpp:129-145); `rows`: the rows the table has already -/
noncomputable def fromAscii (ncol : Nat) (rows : List (List ℝ)) (file : Option (List Char)) : Except Failure (List (List ℝ)) :=
  match file with
  | none => .error .error
  | some text => .ok (readLines ncol (getlines [] text) rows)

end Verif.TableFile
