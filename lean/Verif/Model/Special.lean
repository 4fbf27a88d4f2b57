import Verif.Model.Matrix
import Mathlib.Algebra.Order.Group.Abs
import Mathlib.Algebra.Order.Ring.Abs

/-!
# `SpecialFunctions` (src/SpecialFunctions.hpp)

Exact arithmetic in a field `K`; the elementary functions are parameters. Arrays are functions of the index, so a
write beyond the caller's array is visible as a change of an element the caller did not provide.
-/
namespace Verif.Special

open Verif.Matrix (loop loopDown)

/-- the elementary functions the code calls -/
structure Ops (K : Type) where
  sqrt : K → K
  cbrt : K → K
  sin : K → K
  cos : K → K
  pi : K

section

variable {K : Type} [Field K] (o : Ops K)

/-! ## Spherical Bessel functions -/

/-- `spherical_y_ydy_array` (SpecialFunctions.hpp:106-140) -/
def sphericalY (nmax : Nat) (z : K) (s : (Nat → K) × (Nat → K)) : (Nat → K) × (Nat → K) :=
  let cosz := o.cos z
  let sinz := o.sin z
  let zinv := 1 / z
  let zinv2 := zinv * zinv
  let zinv3 := zinv2 * zinv
  let y0 := -cosz * zinv2 - sinz * zinv
  let y1 := (-3 * zinv3 + zinv) * cosz - 3 * zinv2 * sinz
  let y := Function.update (Function.update s.1 0 y0) 1 y1
  let dy := Function.update (Function.update s.2 0 (-zinv * (cosz + y0))) 1 (y0 - 2 * zinv * y1)
  -- `for (i = 2; i < nmax; ++i)`
  loop 2 nmax (fun i s =>
    let yi := (2 * (i : K) + 1) * zinv * s.1 (i - 1) - s.1 (i - 2)
    (Function.update s.1 i yi, Function.update s.2 i (s.1 (i - 1) - ((i : K) + 1) * zinv * yi))) (y, dy)

/-- `SPECIALFUNCTIONS_BESSEL_NMAX` (SpecialFunctions.hpp:40) -/
def besselNmax : Nat := 800

/-- the ratios `rho` (SpecialFunctions.hpp:208-220) -/
def besselRho (top : Nat) (z : K) (rho : Nat → K) : Nat → K :=
  loop 1 top (fun i rho => Function.update rho (top - i - 1) (1 / ((2 * ((top - i : Nat) : K) + 1) * (1 / z) - rho (top - i))))
    (Function.update rho (top - 1) (z / (2 * (top : K) + 1)))

/-- `spherical_j_jdj_array` (SpecialFunctions.hpp:201-240); `rho0` is the uninitialised contents of the local array -/
def sphericalJ (nmax : Nat) (z : K) (rho0 : Nat → K) (s : (Nat → K) × (Nat → K)) : (Nat → K) × (Nat → K) :=
  let zinv := 1 / z
  let rho := besselRho besselNmax z rho0
  let j0 := o.sin z * zinv
  let j1 := rho 0 * j0
  loop 1 nmax (fun i s =>
    let ji := rho i * s.1 (i - 1)
    (Function.update s.1 i ji, Function.update s.2 i (s.1 (i - 1) - ((i : K) + 1) * zinv * ji)))
    (Function.update s.1 0 j1, Function.update s.2 0 (j0 - j1 * zinv))

/-! ## Wigner functions -/

/-- state of the recursion: `d1`, `d2` and the two output arrays -/
structure WState (K : Type) where
  d1 : K
  d2 : K
  y : Nat → K
  dy : Nat → K

/-- body of the recursion for `m = 0` (SpecialFunctions.hpp:323-335); `ysc` is the factor of `y`: 1 in
`wigner_dn_0m`, `sinx_inv` in `wigner_dn_0m_sinx` -/
def wignerBody0 (cosx sinxinv ysc : K) (n : Nat) (s : WState K) : WState K :=
  let np1 : K := (n : K) + 1
  let np2 : K := (n : K) + 2
  let np12p1 := 2 * np1 + 1
  let dnp1 := (np12p1 * cosx * s.d2 - np1 * s.d1) / np2
  let ddn := sinxinv * np1 * np2 * (dnp1 - s.d1) / np12p1
  ⟨s.d2, dnp1, Function.update s.y n (s.d2 * ysc), Function.update s.dy n ddn⟩

/-- body of the recursion for `m > 0` (SpecialFunctions.hpp:352-369) -/
def wignerBody (m : Nat) (cosx sinxinv ysc : K) (n : Nat) (s : WState K) : WState K :=
  let np1 : K := (n : K) + 1
  let np2 : K := (n : K) + 2
  let np12p1 := 2 * np1 + 1
  let sqrtnp12mm2 := o.sqrt (np1 * np1 - (m : K) * m)
  let sqrtnp22mm2 := o.sqrt (np2 * np2 - (m : K) * m)
  let dnp1 := (np12p1 * cosx * s.d2 - sqrtnp12mm2 * s.d1) / sqrtnp22mm2
  let ddn := sinxinv * (np1 * sqrtnp22mm2 * dnp1 - np2 * sqrtnp12mm2 * s.d1) / np12p1
  ⟨s.d2, dnp1, Function.update s.y n (s.d2 * ysc), Function.update s.dy n ddn⟩

/-- both branches (SpecialFunctions.hpp:316-370, 439-490) -/
def wignerArrays (cosx sinx sinxinv ysc : K) (nmax m : Nat) (s : (Nat → K) × (Nat → K)) : (Nat → K) × (Nat → K) :=
  if m = 0 then
    let r := loop 0 nmax (wignerBody0 cosx sinxinv ysc) ⟨1, cosx, s.1, s.2⟩
    (r.y, r.dy)
  else
    let d2 := loop 0 m (fun i d => d * (o.sqrt ((2 * ((i : K) + 1) - 1) / (2 * ((i : K) + 1))) * sinx)) 1
    let z := loop 0 (m - 1) (fun n (s : (Nat → K) × (Nat → K)) => (Function.update s.1 n 0, Function.update s.2 n 0)) s
    let r := loop (m - 1) nmax (wignerBody o m cosx sinxinv ysc) ⟨0, d2, z.1, z.2⟩
    (r.y, r.dy)

/-- `wigner_dn_0m` (SpecialFunctions.hpp:302-371) -/
def wignerD (cosx : K) (nmax m : Nat) (s : (Nat → K) × (Nat → K)) : (Nat → K) × (Nat → K) :=
  let sinx := o.sqrt ((1 - cosx) * (1 + cosx))
  wignerArrays o cosx sinx (1 / sinx) 1 nmax m s

end

section

variable {K : Type} [Field K] [LinearOrder K] (o : Ops K)

/-- `wigner_dn_0m_sinx` (SpecialFunctions.hpp:397-490) -/
def wignerDsinx (cosx sinx sinxinv : K) (nmax m : Nat) (s : (Nat → K) × (Nat → K)) : (Nat → K) × (Nat → K) :=
  if abs (1 - abs cosx) ≤ 1 / 10 ^ 10 then
    if m = 1 then
      let r := loop 1 (nmax + 1) (fun n (t : K × (Nat → K) × (Nat → K)) =>
        let dn := 1 / 2 * o.sqrt ((n : K) * ((n : K) + 1))
        let dn := if cosx < 0 then dn * t.1 else dn
        let dn' := if cosx < 0 then -dn else dn
        (-t.1, Function.update t.2.1 (n - 1) dn, Function.update t.2.2 (n - 1) dn')) (1, s.1, s.2)
      r.2
    else
      loop 0 nmax (fun i (s : (Nat → K) × (Nat → K)) => (Function.update s.1 i 0, Function.update s.2 i 0)) s
  else
    wignerArrays o cosx sinx sinxinv sinxinv nmax m s

/-! ## Gauss-Legendre quadrature -/

/-- the recursion that evaluates the Legendre polynomials of order `order - 1` and `order`
(SpecialFunctions.hpp:682-690) -/
def legendrePair (order : Nat) (x : K) : K × K :=
  loop 1 order (fun j s => (s.2, x * s.2 + (x * s.2 - s.1) * (j : K) / ((j : K) + 1))) (1, x)

/-- one Newton-Raphson step (SpecialFunctions.hpp:681-696): `pa`, the correction `pb` and the new `x` -/
def newtonStep (order : Nat) (x : K) : K × K × K :=
  let l := legendrePair order x
  let pa := 1 / ((l.1 - x * l.2) * (order : K))
  let pb := pa * l.2 * (1 - x * x)
  (pa, pb, x - pb)

/-- the `do ... while` loop (SpecialFunctions.hpp:675-702); `none`: not finished after `fuel` iterations -/
def newton (order : Nat) : Nat → Nat → K → K → Option (K × K)
  | 0, _, _, _ => none
  | fuel + 1, niter, check, x =>
    let check := if 100 < niter + 1 then check * 10 else check
    let r := newtonStep order x
    if |r.2.1| > check * |r.2.2| then newton order fuel (niter + 1) check r.2.2 else some (r.1, r.2.2)

/-- initial guess (SpecialFunctions.hpp:658-666) -/
def guess (order i : Nat) : K :=
  let theta := o.pi * ((i : K) + 3 / 4) / ((order : K) + 1 / 2)
  let oi := 1 / (order : K)
  let oi2 := oi * oi
  (1 - 1 / 8 * oi2 + (5 / 38) * oi * oi2 - (2 / 25) * oi2 * oi2 * (1 - (14 / 39) / (theta * theta))) * o.cos theta

/-- one root and its mirror image (SpecialFunctions.hpp:656-714) -/
def glBody (fuel order i : Nat) (s : (Nat → K) × (Nat → K)) : Option ((Nat → K) × (Nat → K)) :=
  match newton order fuel 0 (1 / 10 ^ 16) (guess o order i) with
  | none => none
  | some (pa, x) =>
    let ind := order % 2
    let k := order / 2 + ind
    let m := order - i - 1
    let p := Function.update s.1 m x
    let w := Function.update s.2 m (2 * pa * pa * (1 - x * x))
    if i ≠ k - 1 ∨ ind ≠ 1 then some (Function.update p i (-(p m)), Function.update w i (w m)) else some (p, w)

/-- `for` loop whose body may not terminate -/
def loopM {σ : Type} (hi : Nat) (body : Nat → σ → Option σ) (s : σ) : Option σ :=
  (List.range hi).foldlM (fun s k => body k s) s

/-- `get_gauss_legendre_points_and_weights` (SpecialFunctions.hpp:646-715) -/
def gaussLegendre (fuel order : Nat) (s : (Nat → K) × (Nat → K)) : Option ((Nat → K) × (Nat → K)) :=
  loopM (order / 2 + order % 2) (glBody o fuel order) s

/-- `get_gauss_legendre_points_and_weights_ab` (SpecialFunctions.hpp:737-753) -/
def gaussLegendreAB (fuel order : Nat) (a b : K) (s : (Nat → K) × (Nat → K)) : Option ((Nat → K) × (Nat → K)) :=
  (gaussLegendre o fuel order s).map fun s =>
    let wfac := 1 / 2 * (b - a)
    let xterm := 1 / 2 * (a + b)
    loop 0 order (fun i s => (Function.update s.1 i (wfac * s.1 i + xterm), Function.update s.2 i (s.2 i * wfac))) s

end

section

variable {K : Type} [Field K] (o : Ops K)

/-! ## Spheroid -/

/-- `get_r_dr_spheroid` (SpecialFunctions.hpp:872-893) -/
def rDrSpheroid (costheta : Nat → K) (size : Nat) (d : K) (s : (Nat → K) × (Nat → K)) : (Nat → K) × (Nat → K) :=
  let a := o.cbrt d
  loop 0 (size / 2) (fun i s =>
    let c2 := costheta i * costheta i
    let s2 := (1 - costheta i) * (1 + costheta i)
    let sintheta := o.sqrt s2
    let r2a2 := 1 / (s2 + d * d * c2)
    let r2 := Function.update s.1 i (a * a * r2a2)
    let r2 := Function.update r2 (size - i - 1) (r2 i)
    let dr := Function.update s.2 i (r2a2 * costheta i * sintheta * (d * d - 1))
    let dr := Function.update dr (size - i - 1) (-(dr i))
    (r2, dr)) s

end

end Verif.Special
