import Verif.Model.Interp
import Mathlib.Analysis.SpecialFunctions.Trigonometric.Inverse
import Mathlib.Analysis.Complex.Basic
import Mathlib.Analysis.SpecialFunctions.Sqrt

/-!
# Refractive indices and refraction

`DraineDustProperties.hpp`, `RefractionEvent.hpp`, in exact real arithmetic. Assertions are off by default and not
modelled.
-/
namespace Verif.Optics

open Verif.Matrix (loop)
open Verif.Interp (getRow Lookup)

/-- `eps_to_mr` (DraineDustProperties.hpp:135-142) -/
noncomputable def epsToMr (eps : ℂ) : ℂ :=
  let epsr := eps.re
  let epsi := eps.im
  let epsabs := Real.sqrt (epsr * epsr + epsi * epsi)
  ⟨Real.sqrt (1 / 2 * (epsabs + epsr)), Real.sqrt (1 / 2 * (epsabs - epsr))⟩

/-- the constants of Draine & Lee (DraineDustProperties.hpp:73-90): `omega_p`, `tau_bulk`, `TF`, `vF` -/
noncomputable def drude (T : ℝ) (parallel : Bool) : ℝ × ℝ × ℝ × ℝ :=
  if parallel then (153 * 10 ^ 12, 14 / 10 ^ 15, 255, 37000)
  else
    let T2 := T * T
    (433 * 10 ^ 12 * Real.sqrt (1 - 624 / 10 ^ 5 * T + 366 / 10 ^ 7 * T2), 42 / 10 ^ 12 / (1 + 322 / 1000 * T + 13 / 10 ^ 4 * T2),
      255, 450000)

/-- `get_C_epsilon_free` (DraineDustProperties.hpp:70-106) -/
noncomputable def freeTerm (T wavelength grain : ℝ) (parallel : Bool) : ℂ :=
  let (omegaP, tauBulk, TF, vF) := drude T parallel
  let veff := vF * Real.sqrt (1 + T / TF)
  let tau := 1 / (1 / tauBulk + veff / grain)
  let omega := 2 * Real.pi * 299792458 / wavelength
  let omegaTau := omega * tau
  let omegaPTau := omegaP * tau
  (⟨-omegaPTau * omegaPTau, 0⟩ : ℂ) / ⟨omegaTau * omegaTau, omegaTau⟩

/-- a table of five columns -/
abbrev Rows := Nat → Nat → ℝ

/-- one element of a table is replaced -/
def setCell (r : Rows) (i c : Nat) (v : ℝ) : Rows := fun j d => if j = i ∧ d = c then v else r j d

/-- `multiply_column` (Table.hpp:158-162) -/
noncomputable def multiplyColumn (size c : Nat) (f : ℝ) (r : Rows) : Rows :=
  loop 0 size (fun i r => setCell r i c (r i c * f)) r

/-- `add_column` (Table.hpp:171-175) -/
noncomputable def addColumn (size c : Nat) (t : ℝ) (r : Rows) : Rows :=
  loop 0 size (fun i r => setCell r i c (r i c + t)) r

/-- what the constructor does with every table after it was read (DraineDustProperties.hpp:153-158, 160-165,
182-187): micron to m, and one is added to the real parts -/
noncomputable def convertTable (size : Nat) (r : Rows) : Rows :=
  addColumn size 3 1 (addColumn size 1 1 (multiplyColumn size 0 (1 / 10 ^ 6) r))

/-- removal of the free electron term (DraineDustProperties.hpp:171-177, 193-199) -/
noncomputable def subtractFree (size : Nat) (parallel : Bool) (r : Rows) : Rows :=
  loop 0 size (fun i r =>
    let corr := freeTerm 20 (r i 0) (1 / 10 ^ 7) parallel
    let r := setCell r i 1 (r i 1 - corr.re)
    setCell r i 2 (r i 2 - corr.im)) r

/-- members of `DraineDustProperties`, each table with its size -/
structure Dust where
  temperature : ℝ
  silicon : Nat × Rows
  parallel : Nat × Rows
  perpendicular : Nat × Rows

/-- constructor (DraineDustProperties.hpp:150-200); the arguments are the tables as read from the files (reading a
table is modelled with C35) -/
noncomputable def dust (T : ℝ) (sil par per : Nat × Rows) : Dust :=
  ⟨T, (sil.1, convertTable sil.1 sil.2), (par.1, subtractFree par.1 true (convertTable par.1 par.2)),
    (per.1, subtractFree per.1 false (convertTable per.1 per.2))⟩

/-- what `get_refractive_index` can do -/
inductive Outcome where
  | index (m : ℂ)
  /-- fatal error, or the table is empty or degenerate -/
  | fail

/-- `get_refractive_index` (DraineDustProperties.hpp:211-242); grain types 0, 1, 2 (DustProperties.hpp:36-47) -/
noncomputable def refractiveIndex (d : Dust) (wavelength grain : ℝ) (type : Int) : Outcome :=
  if type = 0 then
    match getRow d.parallel.2 d.parallel.1 0 false wavelength with
    | .row r => .index (epsToMr ((⟨r 1, r 2⟩ : ℂ) + freeTerm d.temperature wavelength grain true))
    | _ => .fail
  else if type = 1 then
    match getRow d.perpendicular.2 d.perpendicular.1 0 false wavelength with
    | .row r => .index (epsToMr ((⟨r 1, r 2⟩ : ℂ) + freeTerm d.temperature wavelength grain false))
    | _ => .fail
  else if type = 2 then
    match getRow d.silicon.2 d.silicon.1 0 false wavelength with
    | .row r => .index ⟨r 3, r 4⟩
    | _ => .fail
  else .fail

/-- members of `RefractionEvent` (RefractionEvent.hpp:55-65); `false`: s-polarised, `true`: p-polarised -/
structure Refraction where
  reflectionAngle : ℝ
  refractionAngle : ℝ
  R : Bool → ℝ
  T : Bool → ℝ

/-- constructor (RefractionEvent.hpp:76-116) -/
noncomputable def refraction (theta n1 n2 : ℝ) : Refraction :=
  let sini := Real.sin theta
  let sint := n1 * sini / n2
  if sint ≤ 1 then
    let t := Real.arcsin sint
    let ci := Real.cos theta
    let ct := Real.cos t
    let rs := (n1 * ci - n2 * ct) / (n1 * ci + n2 * ct)
    let rp := (n1 * ct - n2 * ci) / (n1 * ct + n2 * ci)
    let R := fun p => if p then rp * rp else rs * rs
    ⟨theta, t, R, fun p => 1 - R p⟩
  else ⟨theta, -1, fun _ => 1, fun _ => 0⟩

end Verif.Optics
