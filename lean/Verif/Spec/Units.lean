import Verif.Model.Units
import Verif.Spec.Text
import Mathlib.Algebra.BigOperators.Group.List.Basic

/-!
# Specification of the unit conversion
-/
namespace Verif.Units.Spec

open Verif.Text.Spec

/-- the dimensions of a unit: exponents of length, time, mass, temperature, current and angle -/
def dim (u : Unit) : Fin 6 → ℤ := ![u.length, u.time, u.mass, u.temperature, u.current, u.angle]

/-- a unit is the product of powers of other units -/
def IsProduct (u : Unit) (l : List (Unit × ℤ)) : Prop :=
  u.value = (l.map fun f => f.1.value ^ f.2).prod ∧ dim u = (l.map fun f => f.2 • dim f.1).sum

/-- a text without letters -/
def NoLetters (s : List Char) : Prop := ∀ c ∈ s, ¬ (65 ≤ c.toNat ∧ c.toNat ≤ 90) ∧ ¬ (97 ≤ c.toNat ∧ c.toNat ≤ 122)

/-- a text for an integer: a sign or not, and decimal digits -/
def IsPower (t : List Char) (p : ℤ) : Prop :=
  ∃ ds : List Nat, ds ≠ [] ∧ (∀ d ∈ ds, d < 10) ∧
    ((t = ds.map digitChar ∧ p = value 10 ds) ∨ (t = '+' :: ds.map digitChar ∧ p = value 10 ds)
      ∨ (t = '-' :: ds.map digitChar ∧ p = -(value 10 ds : ℤ)))

/-- a text for a product of powers: names, which may be followed by `^` and an integer, with anything but letters between them, as
long as a name without power is followed by a blank, and a power not by another digit or sign -/
inductive Writes : List Char → List (List Char × ℤ) → Prop
  | nil (sep : List Char) (h : NoLetters sep) : Writes sep []
  | plain (sep name rest : List Char) (l : List (List Char × ℤ)) (h : NoLetters sep) (hr : rest = [] ∨ rest.head? = some ' ')
      (h' : Writes rest l) : Writes (sep ++ (name ++ rest)) ((name, 1) :: l)
  | power (sep name t rest : List Char) (p : ℤ) (l : List (List Char × ℤ)) (h : NoLetters sep) (hp : IsPower t p)
      (hr : ∀ c, rest.head? = some c → c ≠ '+' ∧ c ≠ '-' ∧ ¬ (48 ≤ c.toNat ∧ c.toNat ≤ 57))
      (h' : Writes rest l) : Writes (sep ++ (name ++ '^' :: (t ++ rest))) ((name, p) :: l)

/-- the dimensions of the quantities: length, time, mass, temperature, current, angle -/
def quantityDim : Quantity → Fin 6 → ℤ
  | .acceleration => ![1, -2, 0, 0, 0, 0]
  | .angle => ![0, 0, 0, 0, 0, 1]
  | .density => ![-3, 0, 1, 0, 0, 0]
  | .energy => ![2, -2, 1, 0, 0, 0]
  | .energyChangeRate => ![-1, -3, 1, 0, 0, 0]
  | .energyRate => ![2, -3, 1, 0, 0, 0]
  | .flux => ![-2, -1, 0, 0, 0, 0]
  | .forcingPower => ![2, -3, 0, 0, 0, 0]
  | .frequency => ![0, -1, 0, 0, 0, 0]
  | .frequencyPerMass => ![0, -1, -1, 0, 0, 0]
  | .inverseLength => ![-1, 0, 0, 0, 0, 0]
  | .inverseSurfaceArea => ![-2, 0, 0, 0, 0, 0]
  | .length => ![1, 0, 0, 0, 0, 0]
  | .mass => ![0, 0, 1, 0, 0, 0]
  | .massRate => ![0, -1, 1, 0, 0, 0]
  | .momentum => ![1, -1, 1, 0, 0, 0]
  | .numberDensity => ![-3, 0, 0, 0, 0, 0]
  | .opacity => ![-1, 0, 0, 0, 0, 0]
  | .pressure => ![-1, -2, 1, 0, 0, 0]
  | .reactionRate => ![3, -1, 0, 0, 0, 0]
  | .surfaceArea => ![2, 0, 0, 0, 0, 0]
  | .surfaceDensity => ![-2, 0, 1, 0, 0, 0]
  | .temperature => ![0, 0, 0, 1, 0, 0]
  | .time => ![0, 1, 0, 0, 0, 0]
  | .velocity => ![1, -1, 0, 0, 0, 0]
  | .volume => ![3, 0, 0, 0, 0, 0]

/-- the amount `x` with dimensions `d` and the amount `y` with dimensions `e`, in SI units, are the same, or belong to the same
photon: `E = h ν`, `λ ν = c` -/
def Corresponds (d : Fin 6 → ℤ) (x : ℝ) (e : Fin 6 → ℤ) (y : ℝ) : Prop :=
  (d = e ∧ x = y)
  ∨ (d = quantityDim .energy ∧ e = quantityDim .frequency ∧ x = 6.626070040e-34 * y)
  ∨ (d = quantityDim .frequency ∧ e = quantityDim .energy ∧ y = 6.626070040e-34 * x)
  ∨ (d = quantityDim .length ∧ e = quantityDim .frequency ∧ x * y = 299792458)
  ∨ (d = quantityDim .frequency ∧ e = quantityDim .length ∧ x * y = 299792458)

end Verif.Units.Spec
