import Verif.Model.CommandLine
import Verif.Model.Decimal

/-!
# Command line options with types (src/CommandLineParser.hpp) and their help texts (src/CommandLineOption.cpp)

Real numbers are exact, as in `Model/Decimal`; `int_fast32_t` has 64 bits.
-/
namespace Verif.CommandLine

open Verif.Text (Failure)
open Verif.Yaml (Str Map find)

set_option autoImplicit false

/-- conversion to `double` and back (CommandLineOption.cpp:79-81, 222-229) -/
noncomputable def realText (s : Str) : Except Failure Str :=
  match Text.convertReal s with
  | .error e => .error e
  | .ok x => .ok (Text.showReal x)

/-! ## adding options -/

/-- `add_option<double>` (CommandLineParser.hpp:136-145) -/
noncomputable def realOption (name : Str) (c : Char) (default : ℝ) : CommandOption := ⟨name, c, .double, Text.showReal default, false⟩

/-- `add_option<int_fast32_t>` (CommandLineParser.hpp:157-166) -/
def intOption (name : Str) (c : Char) (default : Int) : CommandOption := ⟨name, c, .int, Text.showInt default, false⟩

/-- `add_option<bool>` (CommandLineParser.hpp:182-189): the default value is ignored -/
def flagOption (name : Str) (c : Char) (_default : Bool) : CommandOption := ⟨name, c, .none, "false".toList, false⟩

/-- `add_option<std::string>` (CommandLineParser.hpp:202-208) -/
def textOption (name : Str) (c : Char) (default : Str) : CommandOption := ⟨name, c, .string, default, false⟩

/-- `add_required_option<double>` (CommandLineParser.hpp:220-225) -/
def realRequired (name : Str) (c : Char) : CommandOption := ⟨name, c, .double, [], true⟩

/-- `add_required_option<int_fast32_t>` (CommandLineParser.hpp:237-242) -/
def intRequired (name : Str) (c : Char) : CommandOption := ⟨name, c, .int, [], true⟩

/-- `add_required_option<std::string>` (CommandLineParser.hpp:257-262) -/
def textRequired (name : Str) (c : Char) : CommandOption := ⟨name, c, .string, [], true⟩

/-! ## values -/

/-- `get_value<std::string>` (CommandLineParser.hpp:273-281) -/
def getText (d : Map) (option : Str) : Except Failure Str :=
  match find d option with
  | none => .error .error
  | some v => .ok v

/-- `get_value<double>` (CommandLineParser.hpp:290-294) -/
noncomputable def getReal (d : Map) (option : Str) : Except Failure ℝ :=
  match getText d option with
  | .error e => .error e
  | .ok v => Text.convertReal v

/-- `get_value<int_fast32_t>` (CommandLineParser.hpp:302-307) -/
def getInt (d : Map) (option : Str) : Except Failure Int :=
  match getText d option with
  | .error e => .error e
  | .ok v => Text.stringToInteger intFast32 v

/-- `get_value<bool>` (CommandLineParser.hpp:315-319) -/
def getFlag (d : Map) (option : Str) : Except Failure Bool :=
  match getText d option with
  | .error e => .error e
  | .ok v => Text.convertBool v

/-- `was_found` (CommandLineParser.hpp:122): `at` throws an exception for unknown options -/
def wasFound (found : Str → Option Bool) (option : Str) : Except Failure Bool :=
  match found option with
  | none => .error .error
  | some b => .ok b

/-! ## help -/

/-- `toupper` for a character in the C locale -/
def toUpper (c : Char) : Char := if 'a' ≤ c ∧ c ≤ 'z' then Char.ofNat (c.toNat - 32) else c

/-- `print_usage` (CommandLineOption.cpp:116-132) -/
def CommandOption.usage (real : Str → Except Failure Str) (o : CommandOption) : Except Failure Str :=
  match o.defaultValue real with
  | .error e => .error e
  | .ok v =>
    let argument := if o.argument ≠ .none then ' ' :: o.name.map toUpper else []
    .ok (if v ≠ [] then "[--".toList ++ o.name ++ argument ++ [']'] else "--".toList ++ o.name ++ argument)

/-- `get_argument_description` (CommandLineOption.cpp:39-52) -/
def describeArgument : ArgumentType → Str
  | .none => "This command line option takes no arguments".toList
  | .int => "This command line option takes an integer argument".toList
  | .double => "This command line option takes a double precision floating point argument".toList
  | .string => "This command line option takes a string argument".toList

/-- `print_description` (CommandLineOption.cpp:140-155) -/
def CommandOption.describe (real : Str → Except Failure Str) (o : CommandOption) (description : Str) : Except Failure Str :=
  match o.defaultValue real with
  | .error e => .error e
  | .ok v =>
    .ok ("--".toList ++ o.name ++ " (-".toList ++ [o.abbreviation] ++ ")\n".toList ++ description ++ ['\n'] ++ describeArgument o.argument
      ++ (if v ≠ [] then if o.argument ≠ .none then " (default: ".toList ++ v ++ [')'] else [] else " and is required".toList) ++ ".\n".toList)

end Verif.CommandLine
