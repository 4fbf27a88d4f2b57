import Verif.Model.Text
import Mathlib.Analysis.SpecialFunctions.Pow.Real

/-!
# Units and their conversion (src/Unit.hpp, src/UnitConverter.hpp, src/PhysicalConstants.hpp)

Simplifications: real numbers for `double`, unbounded integers for the `int_fast32_t` exponents.
-/
namespace Verif.Units

open Verif.Text (Failure isDigit digit)

/-! ## Unit.hpp -/

/-- `class Unit` (Unit.hpp:47-86) -/
structure Unit where
  value : ℝ
  length : Int
  time : Int
  mass : Int
  temperature : Int
  current : Int
  angle : Int

/-- `operator*=` (Unit.hpp:94-103) -/
noncomputable def Unit.mul (u v : Unit) : Unit where
  value := u.value * v.value
  length := u.length + v.length
  time := u.time + v.time
  mass := u.mass + v.mass
  temperature := u.temperature + v.temperature
  current := u.current + v.current
  angle := u.angle + v.angle

/-- `operator/=` (Unit.hpp:111-120) -/
noncomputable def Unit.div (u v : Unit) : Unit where
  value := u.value / v.value
  length := u.length - v.length
  time := u.time - v.time
  mass := u.mass - v.mass
  temperature := u.temperature - v.temperature
  current := u.current - v.current
  angle := u.angle - v.angle

/-- a loop that runs `n` times over a number: the `while` loops of Unit.hpp:132-135, 140-143, the `for` loops of Unit.hpp:262-328
and the loops of UnitConverter.hpp:296-311, 320-342 -/
def times {α : Type} (n : Nat) (f : α → α) (x : α) : α := (List.range n).foldl (fun x _ => f x) x

/-- the value of a power (Unit.hpp:128-144): for `power ≥ 0` the counter starts at 1 -/
noncomputable def powValue (value : ℝ) (power : Int) : ℝ :=
  if power ≥ 0 then times (power - 1).toNat (· * value) value
  else times (-power).toNat (· / value) 1

/-- `operator^=` (Unit.hpp:128-152) -/
noncomputable def Unit.pow (u : Unit) (power : Int) : Unit where
  value := powValue u.value power
  length := u.length * power
  time := u.time * power
  mass := u.mass * power
  temperature := u.temperature * power
  current := u.current * power
  angle := u.angle * power

/-- `unit * scalar`, `scalar * unit` (Unit.hpp:161, 352) -/
noncomputable def Unit.times (u : Unit) (x : ℝ) : ℝ := x * u.value

/-- `unit / scalar`, `scalar / unit` (Unit.hpp:170, 342) -/
noncomputable def Unit.over (u : Unit) (x : ℝ) : ℝ := x / u.value

/-- `is_same_quantity` (Unit.hpp:180-184) -/
def Unit.sameQuantity (u v : Unit) : Bool :=
  u.length = v.length && u.time = v.time && u.mass = v.mass && u.temperature = v.temperature && u.current = v.current
    && u.angle = v.angle

/-- one of the six blocks of `get_equivalent` (Unit.hpp:263-273, 274-284, ...) -/
noncomputable def block (exponent : Int) (base : Unit) (value : ℝ) : ℝ :=
  if exponent ≠ 0 then
    if exponent > 0 then Units.times exponent.toNat (· * base.value) value
    else Units.times (-exponent).toNat (· / base.value) value
  else value

/-- `get_equivalent` (Unit.hpp:256-331) -/
noncomputable def Unit.getEquivalent (u length time mass temperature current angle : Unit) : Unit :=
  let value := block u.length length 1
  let value := block u.time time value
  let value := block u.mass mass value
  let value := block u.temperature temperature value
  let value := block u.current current value
  let value := block u.angle angle value
  ⟨value, u.length, u.time, u.mass, u.temperature, u.current, u.angle⟩

/-- one of the six blocks of `to_string` (Unit.hpp:205-240) -/
def showPart (name : List Char) (exponent : Int) : List Char :=
  if exponent ≠ 0 then ' ' :: name ++ (if exponent ≠ 1 then '^' :: Text.showInt exponent else []) else []

/-- what `to_string` (Unit.hpp:202-242) appends to the printed value -/
def Unit.showDimensions (u : Unit) : List Char :=
  showPart "m".toList u.length ++ showPart "s".toList u.time ++ showPart "kg".toList u.mass ++ showPart "K".toList u.temperature
    ++ showPart "A".toList u.current ++ showPart "radians".toList u.angle

/-! ## UnitConverter.hpp -/

/-- the constants of PhysicalConstants.hpp:78-96 that are used -/
noncomputable def planck : ℝ := 6.626070040e-34
noncomputable def lightspeed : ℝ := 299792458
noncomputable def electronvolt : ℝ := 1.6021766208e-19

/-- `get_single_unit` (UnitConverter.hpp:108-176) -/
noncomputable def singleUnit (name : List Char) : Except Failure Unit :=
  if name = "m".toList then .ok ⟨1, 1, 0, 0, 0, 0, 0⟩
  else if name = "cm".toList then .ok ⟨0.01, 1, 0, 0, 0, 0, 0⟩
  else if name = "pc".toList then .ok ⟨3.086e16, 1, 0, 0, 0, 0, 0⟩
  else if name = "kpc".toList then .ok ⟨3.086e19, 1, 0, 0, 0, 0, 0⟩
  else if name = "angstrom".toList then .ok ⟨1e-10, 1, 0, 0, 0, 0, 0⟩
  else if name = "km".toList then .ok ⟨1000, 1, 0, 0, 0, 0, 0⟩
  else if name = "au".toList then .ok ⟨149597870700, 1, 0, 0, 0, 0, 0⟩
  else if name = "micron".toList then .ok ⟨1e-6, 1, 0, 0, 0, 0, 0⟩
  else if name = "s".toList then .ok ⟨1, 0, 1, 0, 0, 0, 0⟩
  else if name = "Gyr".toList then .ok ⟨3.154e16, 0, 1, 0, 0, 0, 0⟩
  else if name = "Myr".toList then .ok ⟨3.154e13, 0, 1, 0, 0, 0, 0⟩
  else if name = "yr".toList then .ok ⟨3.154e7, 0, 1, 0, 0, 0, 0⟩
  else if name = "h".toList then .ok ⟨3600, 0, 1, 0, 0, 0, 0⟩
  else if name = "kg".toList then .ok ⟨1, 0, 0, 1, 0, 0, 0⟩
  else if name = "g".toList then .ok ⟨0.001, 0, 0, 1, 0, 0, 0⟩
  else if name = "Msol".toList then .ok ⟨1.98855e30, 0, 0, 1, 0, 0, 0⟩
  else if name = "K".toList then .ok ⟨1, 0, 0, 0, 1, 0, 0⟩
  else if name = "radians".toList then .ok ⟨1, 0, 0, 0, 0, 0, 1⟩
  else if name = "degrees".toList then .ok ⟨Real.pi / 180, 0, 0, 0, 0, 0, 1⟩
  else if name = "Hz".toList then .ok ⟨1, 0, -1, 0, 0, 0, 0⟩
  else if name = "J".toList then .ok ⟨1, 2, -2, 1, 0, 0, 0⟩
  else if name = "erg".toList then .ok ⟨1e-7, 2, -2, 1, 0, 0, 0⟩
  else if name = "eV".toList then .ok ⟨electronvolt, 2, -2, 1, 0, 0, 0⟩
  else if name = "Pa".toList then .ok ⟨1, -1, -2, 1, 0, 0, 0⟩
  else if name = "bar".toList then .ok ⟨1e5, -1, -2, 1, 0, 0, 0⟩
  else .error .error

/-- `isalpha` -/
def isAlpha (c : Char) : Bool := ('a' ≤ c && c ≤ 'z') || ('A' ≤ c && c ≤ 'Z')

/-- `name[pos2] != ' ' && name[pos2] != '^'` (UnitConverter.hpp:381, 414) -/
def inName (c : Char) : Bool := c ≠ ' ' && c ≠ '^'

/-- the characters of a power but the first (UnitConverter.hpp:392-395, 426-429) -/
def inPower (c : Char) : Bool := isDigit c || c = '+' || c = '-'

/-- `isspace` -/
def isSpace (c : Char) : Bool := c = ' ' || (9 ≤ c.toNat && c.toNat ≤ 13)

/-- `std::stoi`: blanks, an optional sign, digits; it throws an exception if there are no digits or the number is not an `int` -/
def stoi (s : List Char) : Except Failure Int :=
  let rest := s.dropWhile isSpace
  let sign : Int := if Text.here rest = '-' then -1 else 1
  let rest := if Text.here rest = '-' ∨ Text.here rest = '+' then rest.drop 1 else rest
  let digits := (rest.takeWhile isDigit).map digit
  if digits = [] then .error .error
  else
    let n : Int := sign * (digits.foldl (fun (v : Nat) (d : Nat) => v * 10 + d) 0 : Nat)
    if -(2 ^ 31) ≤ n ∧ n < 2 ^ 31 then .ok n else .error .error

/-- one factor, from its first character `c` on (UnitConverter.hpp:379-398, 412-433): the unit with its power, and the rest of the
string. For a `^` at the end of the string the power is empty (`substr` at the end), and `stoi` throws. -/
noncomputable def factor (c : Char) (r : List Char) : Except Failure (Unit × List Char) :=
  match singleUnit (c :: r.takeWhile inName) with
  | .error e => .error e
  | .ok unit =>
    match r.dropWhile inName with
    | '^' :: p =>
      match stoi (p.take 1 ++ (p.drop 1).takeWhile inPower) with
      | .error e => .error e
      | .ok power => .ok (unit.pow power, (p.drop 1).dropWhile inPower)
    | rest => .ok (unit, rest)

theorem length_dropWhile_le {α : Type} (p : α → Bool) : ∀ l : List α, (l.dropWhile p).length ≤ l.length
  | [] => by simp
  | a :: l => by
    rw [List.dropWhile_cons]
    split
    · exact (length_dropWhile_le p l).trans (by simp)
    · exact le_rfl

/-- the rest is shorter (for the termination of the loop) -/
theorem factor_length (c : Char) (r : List Char) (u : Unit) (rest : List Char) (h : factor c r = .ok (u, rest)) :
    rest.length ≤ r.length := by
  unfold factor at h
  have h1 := length_dropWhile_le inName r
  split at h
  · cases h
  · split at h
    · rename_i p hp
      split at h
      · cases h
      · injection h with h
        injection h with _ h
        rw [hp] at h1
        have := length_dropWhile_le inPower (p.drop 1)
        rw [← h]
        simp only [List.length_cons, List.length_drop] at *
        omega
    · injection h with h
      injection h with _ h
      rw [← h]
      exact h1

/-- the loop over the other factors (UnitConverter.hpp:403-436) -/
noncomputable def unitLoop (unit : Unit) (name : List Char) : Except Failure Unit :=
  match hn : name.dropWhile (fun c => !isAlpha c) with
  | [] => .ok unit
  | c :: r =>
    match hf : factor c r with
    | .error e => .error e
    | .ok (unit2, rest) => unitLoop (unit.mul unit2) rest
termination_by name.length
decreasing_by
  have h1 := factor_length c r unit2 rest hf
  have h2 := length_dropWhile_le (fun c => !isAlpha c) name
  rw [hn, List.length_cons] at h2
  omega

/-- `get_unit` (UnitConverter.hpp:370-438) -/
noncomputable def getUnit (name : List Char) : Except Failure Unit :=
  match name.dropWhile (fun c => !isAlpha c) with
  | [] => .error .error
  | c :: r =>
    match factor c r with
    | .error e => .error e
    | .ok (unit, rest) => unitLoop unit rest

/-- `enum Quantity` (UnitConverter.hpp:66-94) -/
inductive Quantity
  | acceleration | angle | density | energy | energyChangeRate | energyRate | flux | forcingPower | frequency | frequencyPerMass
  | inverseLength | inverseSurfaceArea | length | mass | massRate | momentum | numberDensity | opacity | pressure | reactionRate
  | surfaceArea | surfaceDensity | temperature | time | velocity | volume
  deriving DecidableEq, Repr

/-- `get_SI_unit_name` (UnitConverter.hpp:184-242) -/
def siUnitName : Quantity → List Char
  | .acceleration => "m s^-2".toList
  | .angle => "radians".toList
  | .density => "kg m^-3".toList
  | .energy => "J".toList
  | .energyChangeRate => "J m^-3 s^-1".toList
  | .energyRate => "J s^-1".toList
  | .flux => "m^-2 s^-1".toList
  | .forcingPower => "m^2 s^-3".toList
  | .frequency => "Hz".toList
  | .frequencyPerMass => "Hz kg^-1".toList
  | .inverseLength => "m^-1".toList
  | .inverseSurfaceArea => "m^-2".toList
  | .length => "m".toList
  | .mass => "kg".toList
  | .massRate => "kg s^-1".toList
  | .momentum => "kg m s^-1".toList
  | .numberDensity => "m^-3".toList
  | .opacity => "m^-1".toList
  | .pressure => "Pa".toList
  | .reactionRate => "m^3 s^-1".toList
  | .surfaceArea => "m^2".toList
  | .surfaceDensity => "kg m^-2".toList
  | .temperature => "K".toList
  | .time => "s".toList
  | .velocity => "m s^-1".toList
  | .volume => "m^3".toList

/-- `get_SI_unit` (UnitConverter.hpp:250-252) -/
noncomputable def siUnit (q : Quantity) : Except Failure Unit := getUnit (siUnitName q)

/-- an entry of the four lists of `try_conversion` (UnitConverter.hpp:267-284) -/
structure Conversion where
  a : Quantity
  b : Quantity
  fac : ℝ
  pow : Int

/-- the entries (UnitConverter.hpp:272-284) -/
noncomputable def conversions : List Conversion := [⟨.energy, .frequency, 1 / planck, 1⟩, ⟨.length, .frequency, lightspeed, -1⟩]

/-- the power of a value (UnitConverter.hpp:295-312) -/
noncomputable def forward (S : ℝ) (pow : Int) : ℝ :=
  if pow > 0 then times (pow - 1).toNat (· * S) S else times pow.natAbs (· / S) 1

/-- the inverse power of a value (UnitConverter.hpp:319-345): one multiplication or division for powers 1 and -1 -/
noncomputable def backward (S : ℝ) (pow : Int) : ℝ :=
  let inv : ℝ := 1 / (pow : ℝ)
  if inv > 0 then
    if inv = 1 then times 0 (· * S) S else S ^ inv
  else if inv = -1 then times 1 (· / S) 1
  else S ^ inv

/-- the loop of `try_conversion` (UnitConverter.hpp:288-348) and the error after it (351-353) -/
noncomputable def tryList (value : ℝ) (src dst : Unit) : List Conversion → Except Failure ℝ
  | [] => .error .error
  | c :: rest =>
    match siUnit c.a, siUnit c.b with
    | .ok a, .ok b =>
      if src.sameQuantity a && dst.sameQuantity b then
        let fval := src.times 1
        let tval := dst.times 1
        .ok (forward (value * fval) c.pow * c.fac / tval)
      else if src.sameQuantity b && dst.sameQuantity a then
        let fval := src.times 1
        let tval := dst.times 1
        .ok (backward (value * fval / c.fac) c.pow / tval)
      else tryList value src dst rest
    | .error e, _ => .error e
    | _, .error e => .error e

/-- `try_conversion` (UnitConverter.hpp:265-355) -/
noncomputable def tryConversion (value : ℝ) (src dst : Unit) : Except Failure ℝ := tryList value src dst conversions

/-- `to_SI` (UnitConverter.hpp:448-455) -/
noncomputable def toSI (q : Quantity) (value : ℝ) (unit : List Char) : Except Failure ℝ :=
  match siUnit q, getUnit unit with
  | .ok si, .ok strange => if !si.sameQuantity strange then tryConversion value strange si else .ok (strange.times value)
  | .error e, _ => .error e
  | _, .error e => .error e

/-- `to_unit` (UnitConverter.hpp:466-473) -/
noncomputable def toUnit (q : Quantity) (value : ℝ) (unit : List Char) : Except Failure ℝ :=
  match siUnit q, getUnit unit with
  | .ok si, .ok strange => if !si.sameQuantity strange then tryConversion value si strange else .ok (strange.over value)
  | .error e, _ => .error e
  | _, .error e => .error e

/-- `convert` (UnitConverter.hpp:505-518) -/
noncomputable def convert (value : ℝ) (src dst : List Char) : Except Failure ℝ :=
  match getUnit src, getUnit dst with
  | .ok f, .ok t => if !t.sameQuantity f then tryConversion value f t else .ok ((f.div t).times value)
  | .error e, _ => .error e
  | _, .error e => .error e

end Verif.Units
