import Verif.Model.Text
import Mathlib.Data.List.Defs

/-!
# Specification of the text utilities
-/
namespace Verif.Text.Spec

/-- the number written with the given digits, most significant digit first -/
def value (radix : Nat) (digits : List Nat) : Nat := digits.foldl (fun v d => v * radix + d) 0

/-- the character of a decimal digit -/
def digitChar (d : Nat) : Char := Char.ofNat (48 + d)

/-- the hexadecimal digits, lower case or upper case -/
def hexChar (upper : Bool) (d : Nat) : Char := if d < 10 then Char.ofNat (48 + d) else Char.ofNat ((if upper then 55 else 87) + d)

/-- the values a type can represent -/
def InRange (t : IntType) (x : Int) : Prop :=
  if t.signed then -(2 ^ (t.bits - 1)) ≤ x ∧ x < 2 ^ (t.bits - 1) else 0 ≤ x ∧ x < 2 ^ t.bits

instance (t : IntType) (x : Int) : Decidable (InRange t x) := by unfold InRange; infer_instance

/-- what is in front of the digits: blanks and possibly a minus sign -/
def lead (blanks : Nat) (neg : Bool) : List Char := List.replicate blanks ' ' ++ if neg then ['-'] else []

/-- with its sign -/
def signed (neg : Bool) (v : Int) : Int := if neg then -v else v

/-- the types `string_to_integer` is used for -/
def types : List IntType := [⟨64, true⟩, ⟨64, false⟩, ⟨32, true⟩, ⟨32, false⟩, ⟨16, false⟩, ⟨8, false⟩]

/-- case is ignored -/
def lower (s : List Char) : List Char := s.map fun c => if 65 ≤ c.toNat ∧ c.toNat ≤ 90 then Char.ofNat (c.toNat + 32) else c

/-- number of seconds in a unit of time -/
def seconds : Char → Nat
  | 'y' => 365 * 24 * 60 * 60
  | 'd' => 24 * 60 * 60
  | 'h' => 60 * 60
  | 'm' => 60
  | _ => 1

/-- a number of this unit or more makes one of the next unit -/
def limit : Char → Option Nat
  | 'd' => some 365
  | 'h' => some 24
  | 'm' => some 60
  | _ => none

end Verif.Text.Spec
