import Verif.Model.GetTable
import Verif.Spec.Table
import Verif.Spec.Content
import Verif.Spec.Numpy

/-!
# What a user expects from `get_table`
-/
namespace Verif.GetTable.Spec

open Verif.Graph
open Verif.Content
open Verif.GetTable
open Verif.Table (Arr Ret columns sq)

set_option autoImplicit false

/-- `H` is the calculation that was asked for, with the sizes and wavelengths in the given order -/
structure Describes (j : Job) (sizes wls : List ℝ) (H : Problem) : Prop where
  ncompositions : H.P.nc = j.types.length
  nsizes : H.P.ns = sizes.length
  nwavelengths : H.P.nl = wls.length
  shapes : H.P.nshape = j.shapes.number
  want : H.P.want = j.want
  maxOrder : H.P.maxOrder = j.maxOrder
  orders : H.P.nq = j.maxOrder - j.minOrder
  minOrder : H.minOrder = j.minOrder
  factor : H.factor = j.factor
  tolerance : H.tol = j.tol
  radius : ∀ p : Par, ∀ a ∈ sizes[p.is]?, H.radius p = a
  wavelength : ∀ p : Par, ∀ w ∈ wls[p.il]?, H.wavelength p = w
  index : ∀ p : Par, ∀ t ∈ j.types[p.ic]?, ∀ a ∈ sizes[p.is]?, ∀ w ∈ wls[p.il]?, H.mr p = j.dust w a t
  ratio : ∀ s < j.shapes.number, H.axisRatio s = j.shapes.ratio s
  weight : ∀ s < j.shapes.number, H.weight s = j.shapes.weight s
  aligned : ∀ c : Cell, ∀ a ∈ sizes[c.par.is]?, c.ish < j.shapes.number → H.aligned c = j.alignment.aligned a (j.shapes.ratio c.ish)
    ∧ H.coeff c = j.alignment.coeff a (j.shapes.ratio c.ish)
  angles : H.ntheta = j.thetas.length
  theta : ∀ i, ∀ x ∈ j.thetas[i]?, H.theta i = x
  grid : H.ngrid = j.ngrid
  account : H.accountForScattering = j.account

/-- `v` is the coefficient in a column of the first table, for angle number `i` -/
def IsCoefficient (H : Problem) (p : Par) (g : Nat → Nat) (T : Nat → Nat → Nat → Int → Nat → Nat → ℂ) (i : Nat) (v : ℝ) : Qty × Nat → Prop
  | (.abs, 0) => ∃ A, IsAbsorption H p g T A ∧ v = A.Qabs i
  | (.abs, 1) => ∃ A, IsAbsorption H p g T A ∧ v = A.Qabspol i
  | (.ext, 0) => ∃ E, IsExtinction H p g T E ∧ v = E.Qext i
  | (.ext, 1) => ∃ E, IsExtinction H p g T E ∧ v = E.Qextpol i
  | (.ext, 2) => ∃ E, IsExtinction H p g T E ∧ v = E.Qextcpol i
  | _ => False

/-- the first table: shape without axes of length 1; the coefficients of the grains of composition number `it`, size number `is`, wavelength number `il` -/
def Coefficients (j : Job) (H : Problem) (Good : Qty → Par → Prop) (Grn : Par → (Nat → Nat) → (Nat → Nat → Nat → Int → Nat → Nat → ℂ) → Prop)
    (a : Arr (Option ℝ)) : Prop :=
  let D := [j.types.length, j.sizes.length, j.wavelengths.length, j.thetas.length, (columns j.want).length]
  a.dims = D.filter (· ≠ 1) ∧
  ∀ it < j.types.length, ∀ is < j.sizes.length, ∀ il < j.wavelengths.length, ∀ k, ∀ c ∈ (columns j.want)[k]?, Good c.1 ⟨it, is, il⟩ →
    ∃ g T, Grn ⟨it, is, il⟩ g T ∧ ∀ ith < j.thetas.length, ∃ v, a.get (sq D [it, is, il, ith, k]) = some (some v)
      ∧ IsCoefficient H ⟨it, is, il⟩ g T ith v c

/-- the second table: zenith angles and azimuths of the grid, 4 by 4 matrices -/
def Matrices (j : Job) (H : Problem) (Good : Qty → Par → Prop) (Grn : Par → (Nat → Nat) → (Nat → Nat → Nat → Int → Nat → Nat → ℂ) → Prop)
    (a : Arr (Option ℝ)) : Prop :=
  let D := [j.types.length, j.sizes.length, j.wavelengths.length, j.thetas.length, 2 * j.thetas.length, 4, 4]
  a.dims = D.filter (· ≠ 1) ∧
  ∀ it < j.types.length, ∀ is < j.sizes.length, ∀ il < j.wavelengths.length, Good .scat ⟨it, is, il⟩ →
    ∃ g T Z, Grn ⟨it, is, il⟩ g T ∧ IsScattering H ⟨it, is, il⟩ g T Z ∧ ∀ ith < j.thetas.length, ∀ ip < 2 * j.thetas.length, ∀ r < 4, ∀ c < 4,
      a.get (sq D [it, is, il, ith, ip, r, c]) = some (some (Z (ith * (2 * j.thetas.length) + ip) r c))

/-- the returned value: the tables that were asked for -/
def Answer (j : Job) (H : Problem) (Good : Qty → Par → Prop) (Grn : Par → (Nat → Nat) → (Nat → Nat → Nat → Int → Nat → Nat → ℂ) → Prop) :
    Ret (Option ℝ) → Prop
  | .both a b => (j.want .abs ∨ j.want .ext) ∧ j.want .scat ∧ Coefficients j H Good Grn a ∧ Matrices j H Good Grn b
  | .one a => ((j.want .abs ∨ j.want .ext) ∧ j.want .scat = false ∧ Coefficients j H Good Grn a) ∨
      (j.want .abs = false ∧ j.want .ext = false ∧ j.want .scat ∧ Matrices j H Good Grn a)
  | .null => j.want .abs = false ∧ j.want .ext = false ∧ j.want .scat = false

/-! ## arguments -/

/-- `a` is an array with at most one axis and elements `l` of type `t` -/
def IsArray (a : Numpy.NdArray) (t : Numpy.DType) (l : List Numpy.Num) : Prop := a.Ok ∧ a.shape.length ≤ 1 ∧ a.dtype = t ∧ a.Shows l

/-- an array of finite floating point numbers -/
def IsReals (a : Numpy.NdArray) (l : List ℝ) : Prop := ∃ q : List Rat, IsArray a .f8 (q.map .fin) ∧ l = q.map fun x : Rat => (x : ℝ)

/-- `j` is what a call asks for: arrays, objects, and the values of the options or their defaults -/
structure Asks (a : Arguments) (j : Job) : Prop where
  types : IsArray a.types .i8 (j.types.map fun t : Int => .fin t)
  sizes : IsReals a.sizes j.sizes
  wavelengths : IsReals a.wavelengths j.wavelengths
  thetas : IsReals a.thetas j.thetas
  shapes : a.shapes = .shapes (some j.shapes)
  alignment : a.alignment = .alignment (some j.alignment)
  dust : a.dust = .dust (some j.dust)
  minOrder : (j.minOrder : Int) = a.minimumOrder.getD 10
  maxOrder : (j.maxOrder : Int) = a.maximumOrder.getD 100
  factor : (j.factor : Int) = a.factor.getD 2
  tolerance : j.tol = a.tolerance.getD 0.0001
  angles : (j.ngrid : Int) = a.angles.getD 20
  memory : (j.memory : Int) = a.memory.getD 10000000000
  threads : j.threads = a.threads.getD 4
  absorption : j.want .abs = a.absorption.getD true
  extinction : j.want .ext = a.extinction.getD false
  scattering : j.want .scat = a.scattering.getD false
  account : j.account = a.account.getD false

/-- the numbers fit in the types of the variables -/
structure Fits (j : Job) : Prop where
  minOrder : j.minOrder < 2 ^ 32
  maxOrder : j.maxOrder < 2 ^ 32
  factor : j.factor < 2 ^ 32
  angles : j.ngrid < 2 ^ 32
  memory : j.memory < 2 ^ 64
  threads : -2 ^ 31 ≤ j.threads ∧ j.threads < 2 ^ 31

end Verif.GetTable.Spec
