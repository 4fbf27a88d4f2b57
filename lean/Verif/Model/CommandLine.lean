import Verif.Model.Yaml

/-!
# Command line options (src/CommandLineOption.cpp, src/CommandLineParser.cpp)
-/
namespace Verif.CommandLine

open Verif.Text (Failure cut)
open Verif.Yaml (Str Map find assign)

/-- `CommandLineOptionArgumentType` (CommandLineOption.hpp:40-49) -/
inductive ArgumentType where
  | none | int | double | string
  deriving DecidableEq

/-- the members of a `CommandLineOption` without its description (CommandLineOption.cpp:99-104) -/
structure CommandOption where
  name : Str
  abbreviation : Char
  argument : ArgumentType
  default : Str
  required : Bool
  deriving DecidableEq

/-- `CommandLineOption::matches` (CommandLineOption.cpp:193-195) -/
def CommandOption.matches (o : CommandOption) (option : Str) : Bool := option = o.name || option = [o.abbreviation]

/-- `int_fast32_t` (64 bits here) -/
def intFast32 : Text.IntType := ⟨64, true⟩

/-- conversion to the type of the argument and back to text; `real` is that of `double` values (CommandLineOption.cpp:73-84) -/
def normal (real : Str → Except Failure Str) (t : ArgumentType) (s : Str) : Except Failure Str :=
  match t with
  | .none =>
    match Text.convertBool s with
    | .error e => .error e
    | .ok b => .ok (Text.showBool b)
  | .int =>
    match Text.stringToInteger intFast32 s with
    | .error e => .error e
    | .ok n => .ok (Text.showInt n)
  | .double => real s
  | .string => .ok s

/-- `get_default_value_description` (CommandLineOption.cpp:66-86), `get_default_value` (244-246) -/
def CommandOption.defaultValue (real : Str → Except Failure Str) (o : CommandOption) : Except Failure Str :=
  if o.default = [] then .ok [] else normal real o.argument o.default

/-- `parse_argument` (CommandLineOption.cpp:204-236) -/
def CommandOption.parseArgument (real : Str → Except Failure Str) (o : CommandOption) (argument : Str) : Except Failure Str :=
  match o.argument with
  | .none => .ok "true".toList
  | t => if argument ≠ [] then normal real t argument else normal real t o.default

/-- the constructor of the parser (CommandLineParser.cpp:39-46) -/
def initial : List CommandOption := [⟨"help".toList, 'h', .none, "false".toList, false⟩]

/-- `add_option` (CommandLineParser.cpp:63-86) -/
def addOption (o : CommandOption) (options : List CommandOption) : Except Failure (List CommandOption) :=
  if o.name = "help".toList ∨ o.abbreviation = 'h' then .error .error
  else if options.any (fun x => x.name = o.name) then .ok options
  else .ok (options ++ [o])

/-- the end of `parse_arguments` -/
inductive Outcome where
  /-- the program ends -/
  | exit (code : Nat)
  /-- an argument cannot be converted -/
  | failed (e : Failure)
  /-- `_dictionary` and `_found` -/
  | done (dictionary : Map) (found : Str → Option Bool)

/-- the loop over the options at the end (CommandLineParser.cpp:179-194) -/
def finish (real : Str → Except Failure Str) : List CommandOption → Map → (Str → Option Bool) → Outcome
  | [], d, f => .done d f
  | o :: os, d, f =>
    if find d o.name = none then
      if o.required then .exit 1
      else
        match o.defaultValue real with
        | .error e => .failed e
        | .ok v => finish real os (assign o.name v d) (fun k => if k = o.name then some false else f k)
    else finish real os d (fun k => if k = o.name then some true else f k)

/-- the option and its argument, and the remaining arguments (CommandLineParser.cpp:140-156) -/
def splitArgument (a : Str) (rest : List Str) : Str × Str × List Str :=
  match cut '=' a with
  | (o, some v) => (o.dropWhile (· = '-'), v, rest)
  | (o, none) =>
    match rest with
    | [] => (o.dropWhile (· = '-'), [], [])
    | b :: r => if b.head? ≠ some '-' then (o.dropWhile (· = '-'), b, r) else (o.dropWhile (· = '-'), [], b :: r)

theorem splitArgument_length (a : Str) (rest : List Str) : (splitArgument a rest).2.2.length ≤ rest.length := by
  unfold splitArgument
  split
  · simp
  · split
    · simp
    · split <;> simp

/-- the loop over the arguments (CommandLineParser.cpp:124-176) -/
def parseLoop (real : Str → Except Failure Str) (options : List CommandOption) (args : List Str) (d : Map) : Outcome :=
  match args with
  | [] => finish real options d fun _ => none
  | a :: rest =>
    if a.head? ≠ some '-' then .exit 1
    else if a = "--help".toList ∨ a = "-h".toList then .exit 0
    else
      match options.find? (·.matches (splitArgument a rest).1) with
      | none => .exit 1
      | some o =>
        match o.parseArgument real (splitArgument a rest).2.1 with
        | .error e => .failed e
        | .ok v => if v = [] then .exit 1 else parseLoop real options (splitArgument a rest).2.2 (assign o.name v d)
termination_by args.length
decreasing_by
  have := splitArgument_length a rest
  simp only [List.length_cons]
  omega

/-- `parse_arguments` for the arguments after the name of the program -/
def parse (real : Str → Except Failure Str) (options : List CommandOption) (args : List Str) : Outcome := parseLoop real options args []

end Verif.CommandLine
