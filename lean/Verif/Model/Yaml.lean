import Verif.Model.Text
import Mathlib.Data.Char
import Mathlib.Data.List.Lex

/-!
# Parameter files and dictionaries (src/YAMLDictionary.hpp)

Strings are lists of characters (ASCII). A `std::map` with `std::string` keys is a list of pairs in ascending order of the keys
(lexicographic order of the characters), which is the order of its iterators.
-/
namespace Verif.Yaml

open Verif.Text (Failure cut)

abbrev Str := List Char

/-- `std::map<std::string, std::string>` -/
abbrev Map := List (Str × Str)

/-- `map.find(key)` -/
def find (m : Map) (key : Str) : Option Str := (m.find? fun e => e.1 = key).map (·.2)

/-- `map[key] = value` -/
def assign (key value : Str) : Map → Map
  | [] => [(key, value)]
  | e :: m => if key < e.1 then (key, value) :: e :: m else if e.1 = key then (key, value) :: m else e :: assign key value m

/-! ## reading a file (YAMLDictionary.hpp:64-251) -/

/-- blanks and tabs -/
def isBlank (c : Char) : Bool := c = ' ' || c = '\t'

/-- `is_comment_line` (YAMLDictionary.hpp:64-77) -/
def isCommentLine (line : Str) : Bool :=
  match line.dropWhile isBlank with
  | [] => false
  | c :: _ => c = '#'

/-- `is_empty_line` (YAMLDictionary.hpp:86-93) -/
def isEmptyLine (line : Str) : Bool := (line.dropWhile isBlank).isEmpty

/-- `strip_comments_line` (YAMLDictionary.hpp:100-105) -/
def stripComments (line : Str) : Str := line.takeWhile (· ≠ '#')

/-- `is_indented_line` (YAMLDictionary.hpp:114-125) -/
def indentationOf (line : Str) : Nat :=
  let i := (line.takeWhile isBlank).length
  if i = line.length then 0 else i

/-- `strip_whitespace_line` (YAMLDictionary.hpp:151-165) -/
def stripBlanks (line : Str) : Str :=
  if isEmptyLine line then []
  else
    let line := line.dropWhile isBlank
    (line.reverse.dropWhile isBlank).reverse

/-- `read_keyvaluepair` (YAMLDictionary.hpp:133-144) -/
def readPair (line : Str) : Except Failure (Str × Str) :=
  match cut ':' line with
  | (_, none) => .error .error
  | (key, some value) => .ok (stripBlanks key, stripBlanks value)

/-- the vectors `groupname` and `levels` (YAMLDictionary.hpp:180-181) -/
structure Stack where
  groups : List Str
  levels : List Nat
  deriving DecidableEq, Repr

/-- the loop `while (indentation < levels.back())` (YAMLDictionary.hpp:201-205): `back` of an empty vector and erasing the element
before the first one are undefined -/
def popLevels (indentation : Nat) (s : Stack) : Except Failure Stack :=
  match h : s.levels.getLast? with
  | none => .error .undefined
  | some back =>
    if indentation < back then
      if s.groups = [] then .error .undefined
      else popLevels indentation ⟨s.groups.dropLast, s.levels.dropLast⟩
    else .ok s
termination_by s.levels.length
decreasing_by
  have : s.levels ≠ [] := by
    intro e
    rw [e] at h
    cases h
  have := List.length_pos_of_ne_nil this
  rw [List.length_dropLast]
  omega

/-- the loop that removes all levels (YAMLDictionary.hpp:235-238) -/
def clearLevels : Nat → Stack → Stack
  | 0, s => s
  | n + 1, s => clearLevels n ⟨s.groups.dropLast, s.levels.dropLast⟩

/-- the levels for an indented line (YAMLDictionary.hpp:196-209) -/
def enter (indentation : Nat) (s : Stack) : Except Failure Stack :=
  match s.levels.getLast? with
  | some back => if indentation > back then .ok ⟨s.groups, s.levels ++ [indentation]⟩ else popLevels indentation s
  | none => .ok ⟨s.groups, s.levels ++ [indentation]⟩

/-- the part that depends on the indentation only (YAMLDictionary.hpp:193-215, 229-238) -/
def indent (indentation : Nat) (s : Stack) : Except Failure Stack :=
  if indentation > 0 then
    match enter indentation s with
    | .error e => .error e
    | .ok s => if s.levels.length ≠ s.groups.length then .error .error else .ok s
  else
    if s.groups.length ≠ s.levels.length then .error .error
    else .ok (clearLevels s.levels.length s)

/-- the complete name of a key (YAMLDictionary.hpp:223-227) -/
def fullKey (groups : List Str) (name : Str) : Str := groups.foldl (fun key g => key ++ (g ++ [':'])) [] ++ name

/-- one pass of the loop over the lines (YAMLDictionary.hpp:183-249); for an unindented line all groups have been removed, so that
the key is its name -/
def readLine (s : Stack × Map) (line : Str) : Except Failure (Stack × Map) :=
  if !isCommentLine line && !isEmptyLine line then
    let line := stripComments line
    match readPair line with
    | .error e => .error e
    | .ok (name, value) =>
      match indent (indentationOf line) s.1 with
      | .error e => .error e
      | .ok stack =>
        if value = [] then .ok (⟨stack.groups ++ [name], stack.levels⟩, s.2)
        else if indentationOf line > 0 then .ok (stack, assign (fullKey stack.groups name) value s.2)
        else .ok (stack, assign name value s.2)
  else .ok s

/-- `getline` until the end of the stream: a last line without a newline character counts if it is not empty -/
def lines : Str → List Str
  | [] => []
  | c :: s =>
    if c = '\n' then [] :: lines s
    else match lines s with
      | [] => [[c]]
      | l :: ls => (c :: l) :: ls

/-- the loop over the lines -/
def readLines : Stack × Map → List Str → Except Failure (Stack × Map)
  | s, [] => .ok s
  | s, l :: ls =>
    match readLine s l with
    | .error e => .error e
    | .ok s => readLines s ls

/-- the constructor from a stream (YAMLDictionary.hpp:178-251) -/
def read (text : Str) : Except Failure Map :=
  match readLines (⟨[], []⟩, []) (lines text) with
  | .error e => .error e
  | .ok s => .ok s.2

/-! ## printing (YAMLDictionary.hpp:270-358) -/

/-- the loop that splits a key into its groups, and its name (YAMLDictionary.hpp:281-287, 340); `rest` is the key from `spos` on -/
def splitKey (rest : Str) (groups : List Str) : List Str × Str :=
  match h : cut ':' rest with
  | (_, none) => (groups, rest)
  | (g, some r) => splitKey r (groups ++ [g])
termination_by rest.length
decreasing_by
  unfold cut at h
  injection h with h1 h2
  have hl : (rest.dropWhile (· ≠ ':')).length ≤ rest.length := by
    have := congrArg List.length (List.takeWhile_append_dropWhile (p := (· ≠ ':')) (l := rest))
    rw [List.length_append] at this
    omega
  split at h2
  · cases h2
  · rename_i e
    injection h2 with h2
    rw [e, List.length_cons, h2] at hl
    omega

/-- `while (i < n && groupname[i] == keygroups[i]) ++i`: the number of equal elements at the start (YAMLDictionary.hpp:294-297,
319-322) -/
def common : List Str → List Str → Nat
  | a :: as, b :: bs => if a = b then common as bs + 1 else 0
  | _, _ => 0

/-- `for (j = i; j < groupname.size(); ++j) groupname.pop_back()` (YAMLDictionary.hpp:303-305): the size decreases while the counter
increases -/
def popHalf (j : Nat) (groups : List Str) : List Str :=
  if j < groups.length then popHalf (j + 1) groups.dropLast else groups
termination_by groups.length - j
decreasing_by
  rw [List.length_dropLast]
  omega

/-- `while (keygroups.size() < groupname.size()) groupname.erase(groupname.end() - 1)` (YAMLDictionary.hpp:313-316) -/
def popTo (n : Nat) (groups : List Str) : List Str :=
  if n < groups.length then popTo n groups.dropLast else groups
termination_by groups.length
decreasing_by
  rw [List.length_dropLast]
  omega

/-- `n` times `pop_back` (YAMLDictionary.hpp:328-330) -/
def popMany : Nat → List Str → List Str
  | 0, groups => groups
  | n + 1, groups => popMany n groups.dropLast

/-- the loop that adds and prints the new groups (YAMLDictionary.hpp:307-311, 332-336): group names, indentation, output -/
def printGroups : List Str → List Str → Str → Str → List Str × Str × Str
  | [], groups, ind, out => (groups, ind, out)
  | g :: gs, groups, ind, out => printGroups gs (groups ++ [g]) (ind ++ "  ".toList) (out ++ (ind ++ g ++ ":\n".toList))

/-- one pass of the loop over the dictionary (YAMLDictionary.hpp:276-357); `text` is what is printed after the name and `": "` -/
def printEntry (text : Str → Str → Str) (s : List Str × Str) (e : Str × Str) : List Str × Str :=
  let k := splitKey e.1 []
  let groups := s.1
  let r :=
    if k.1.length > groups.length then
      let i := common groups k.1
      printGroups (k.1.drop i) (popHalf i groups) (List.replicate i "  ".toList).flatten s.2
    else
      let groups := popTo k.1.length groups
      let i := common groups k.1
      printGroups (k.1.drop i) (popMany (k.1.length - i) groups) (List.replicate i "  ".toList).flatten s.2
  (r.1, r.2.2 ++ (r.2.1 ++ k.2 ++ ": ".toList ++ text e.1 e.2 ++ "\n".toList))

/-- `print_contents(stream, false)` (YAMLDictionary.hpp:270-358) -/
def print (m : Map) : Str := (m.foldl (printEntry fun _ value => value) ([], [])).2

/-- `print_contents(stream, true)`: with the used values (YAMLDictionary.hpp:342-352) -/
def printUsed (used m : Map) : Str :=
  (m.foldl (printEntry fun key value => (find used key).getD "value not used".toList ++ " # (".toList ++ value ++ ")".toList) ([], [])).2

/-! ## queries -/

/-- the two dictionaries (YAMLDictionary.hpp:52-56) -/
structure Dictionary where
  values : Map
  used : Map
  deriving DecidableEq

/-- `add_value` (YAMLDictionary.hpp:368-371) -/
def addValue (key value : Str) (d : Dictionary) : Dictionary := ⟨assign key value d.values, assign key value d.used⟩

/-- `has_value` (YAMLDictionary.hpp:491-494) -/
def hasValue (key : Str) (d : Dictionary) : Bool := (find d.values key).isSome

/-- `get_value<std::string>(key)` (YAMLDictionary.hpp:507-519) -/
def getString (key : Str) (d : Dictionary) : Except Failure (Str × Dictionary) :=
  match find d.values key with
  | none => .error .error
  | some v => .ok (v, ⟨d.values, assign key v d.used⟩)

/-- `get_value<std::string>(key, default_value)` (YAMLDictionary.hpp:532-550) -/
def getStringOr (key default : Str) (d : Dictionary) : Str × Dictionary :=
  match find d.values key with
  | none => (default, ⟨assign key "default value".toList d.values, assign key default d.used⟩)
  | some v =>
    if v = "default value".toList then (default, ⟨assign key "default value".toList d.values, assign key default d.used⟩)
    else (v, ⟨d.values, assign key v d.used⟩)

/-- a type of parameters: `Utilities::convert` and `Utilities::to_string` -/
structure DataType (α : Type) where
  convert : Str → Except Failure α
  toString : α → Str

/-- `get_value<T>(key)` (YAMLDictionary.hpp:404-409), and `get_physical_value(key)` (450-459) with the conversion to SI units -/
def getValue {α : Type} (t : DataType α) (key : Str) (d : Dictionary) : Except Failure (α × Dictionary) :=
  match getString key d with
  | .error e => .error e
  | .ok (s, d) =>
    match t.convert s with
    | .error e => .error e
    | .ok x => .ok (x, ⟨d.values, assign key (t.toString x) d.used⟩)

/-- `get_value<T>(key, default_value)` (YAMLDictionary.hpp:427-438) -/
def getValueOr {α : Type} (t : DataType α) (key : Str) (default : α) (d : Dictionary) : Except Failure (α × Dictionary) :=
  let r := getStringOr key [] d
  match (if r.1 = [] then .ok default else t.convert r.1) with
  | .error e => .error e
  | .ok x => .ok (x, ⟨r.2.values, assign key (t.toString x) r.2.used⟩)

/-- `get_physical_value(key, default_value)` (YAMLDictionary.hpp:473-483): the default is a text too -/
def getPhysicalOr {α : Type} (t : DataType α) (key default : Str) (d : Dictionary) : Except Failure (α × Dictionary) :=
  let r := getStringOr key default d
  match t.convert r.1 with
  | .error e => .error e
  | .ok x => .ok (x, ⟨r.2.values, assign key (t.toString x) r.2.used⟩)

end Verif.Yaml
