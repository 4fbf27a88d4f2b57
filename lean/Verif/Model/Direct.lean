import Verif.Model.TMatrix
import Verif.Model.Special
import Verif.Model.WignerTable
import Verif.Model.Scatter
import Mathlib.Algebra.Ring.Hom.Defs
import Mathlib.Analysis.SpecialFunctions.Trigonometric.Inverse

/-!
# The stand-alone `TMatrix` class (src/TMatrix.hpp)

Exact arithmetic: `R` is the type of the real values, `K` that of the complex values, `ι : R → K` the embedding (a product of
real values the code computes before it multiplies a complex number is computed in `K`). Sizes are natural numbers without
wrap-around. Arrays created by the code are zero (`std::vector` and `Matrix` initialise their elements).
-/
namespace Verif.Direct

open Verif.Matrix
open Verif.TMatrix (Points Consts TRes)
open Verif.Special (Ops gaussLegendre gaussLegendreAB rDrSpheroid wignerD wignerDsinx)
open Verif.WignerTable (sineLoop)

/-- members of the class (TMatrix.hpp:429-519); the local matrices of the constructor are not members; the tables of Bessel
functions are indexed by quadrature point and column -/
structure Obj (R K : Type) where
  nmax : Nat
  ngauss : Nat
  dd : Nat → R
  ann : Mat R
  costheta : Nat → R
  sinv : Nat → R
  s2inv : Nat → R
  weights : Nat → R
  r2 : Nat → R
  drr : Nat → R
  kr : Nat → R
  krinv : Nat → R
  krmr : Nat → K
  krmrinv : Nat → K
  k : R
  k2 : R
  k2mr : K
  j : Nat → Nat → R
  y : Nat → Nat → R
  dj : Nat → Nat → R
  dy : Nat → Nat → R
  jm : Nat → Nat → K
  djm : Nat → Nat → K
  T : Nat → Mat K

/-- the part of the object `operator()`, `set_element` (TMatrix.hpp:1028-1090) use; the index computation is the same as in
`TMatrixResource`, so `TRes.get` and `TRes.setElement` are the model of these functions -/
def Obj.res {R K : Type} [Zero R] (o : Obj R K) : TRes K R := ⟨o.nmax, o.ngauss, o.T, 0, 0, 0, 0⟩

section

variable {R K : Type} [Field R] [LinearOrder R] [Field K] (ops : Ops R) (ι : R →+* K)

/-- member initialisers and the loop over `_T` (TMatrix.hpp:532-553) -/
def blank (wavelength : R) (mr : K) (nmax ngauss : Nat) : Obj R K where
  nmax := nmax
  ngauss := ngauss
  dd := fun _ => 0
  ann := Mat.new nmax nmax
  costheta := fun _ => 0
  sinv := fun _ => 0
  s2inv := fun _ => 0
  weights := fun _ => 0
  r2 := fun _ => 0
  drr := fun _ => 0
  kr := fun _ => 0
  krinv := fun _ => 0
  krmr := fun _ => 0
  krmrinv := fun _ => 0
  k := 2 * ops.pi / wavelength
  k2 := 2 * ops.pi / wavelength * (2 * ops.pi / wavelength)
  k2mr := mr * ι (2 * ops.pi / wavelength * (2 * ops.pi / wavelength))
  j := fun _ _ => 0
  y := fun _ _ => 0
  dj := fun _ _ => 0
  dy := fun _ _ => 0
  jm := fun _ _ => 0
  djm := fun _ _ => 0
  T := fun m => Mat.new (2 * (nmax + 1 - m)) (2 * (nmax + 1 - m))

/-- the factors `_dd` and `_ann` (TMatrix.hpp:555-564) -/
def annLoop (nmax : Nat) (s : (Nat → R) × Mat R) : (Nat → R) × Mat R :=
  loop 0 nmax (fun ni s =>
    let nn : R := ((ni : R) + 2) * ((ni : R) + 1)
    let d := ops.sqrt ((2 * ((ni : R) + 1) + 1) / nn)
    let dd := Function.update s.1 ni d
    (dd, loop 0 (ni + 1) (fun nj ann =>
      let ddd := 1 / 2 * d * dd nj
      (ann.set ni nj ddd).set nj ni ddd) s.2)) s

/-- the loop over the quadrature points that computes the radii (TMatrix.hpp:578-586) -/
def radiusLoop (RV : R) (mr : K) (ngauss : Nat) (o : Obj R K) : Obj R K :=
  let mrinv : K := 1 / mr
  loop 0 (2 * ngauss) (fun i o =>
    let o := { o with r2 := Function.update o.r2 i (o.r2 i * (RV * RV)) }
    let r := ops.sqrt (o.r2 i)
    let o := { o with kr := Function.update o.kr i (o.k * r) }
    let o := { o with krmr := Function.update o.krmr i (mr * ι (o.kr i)) }
    let o := { o with krinv := Function.update o.krinv i (1 / o.kr i) }
    { o with krmrinv := Function.update o.krmrinv i (mrinv * ι (o.krinv i)) }) o

/-- type of the routines that fill two arrays with the functions of orders `1, ..., nmax` -/
abbrev Routine (F : Type) := Nat → F → (Nat → F) × (Nat → F) → (Nat → F) × (Nat → F)

/-- the loop that computes the Bessel functions (TMatrix.hpp:587-594); the routines are parameters -/
def besselLoop (jdj ydy : Routine R) (jdjm : Routine K) (nmax ngauss : Nat) (o : Obj R K) : Obj R K :=
  loop 0 (2 * ngauss) (fun ig o =>
    let p := jdj nmax (o.kr ig) (o.j ig, o.dj ig)
    let o := { o with
      j := TMatrix.setRow o.j ig p.1
      dj := TMatrix.setRow o.dj ig p.2 }
    let p := ydy nmax (o.kr ig) (o.y ig, o.dy ig)
    let o := { o with
      y := TMatrix.setRow o.y ig p.1
      dy := TMatrix.setRow o.dy ig p.2 }
    let p := jdjm nmax (o.krmr ig) (o.jm ig, o.djm ig)
    { o with
      jm := TMatrix.setRow o.jm ig p.1
      djm := TMatrix.setRow o.djm ig p.2 }) o

/-- first part of the constructor: the tables (TMatrix.hpp:532-594); `none`: the Newton iteration of the quadrature routine does
not end within `fuel` steps -/
def tables (jdj ydy : Routine R) (jdjm : Routine K) (fuel : Nat) (wavelength : R) (mr : K) (RV axisRatio : R) (nmax ngauss : Nat) :
    Option (Obj R K) :=
  let o := blank ops ι wavelength mr nmax ngauss
  let a := annLoop ops nmax (o.dd, o.ann)
  let o := { o with
    dd := a.1
    ann := a.2 }
  match gaussLegendre ops fuel (2 * ngauss) (o.costheta, o.weights) with
  | none => none
  | some g =>
    let o := { o with
      costheta := g.1
      weights := g.2 }
    let s := sineLoop ops o.costheta ngauss (o.s2inv, o.sinv)
    let o := { o with
      s2inv := s.1
      sinv := s.2 }
    let r := rDrSpheroid ops o.costheta (2 * ngauss) axisRatio (o.r2, o.drr)
    let o := { o with
      r2 := r.1
      drr := r.2 }
    some (besselLoop jdj ydy jdjm nmax ngauss (radiusLoop ops ι RV mr ngauss o))

/-- the local tables of Wigner functions for one degree, by row and column (TMatrix.hpp:608-622, 787-801) -/
def wignerTables (ct : Nat → R) (nmax ngauss m : Nat) : (Nat → Nat → R) × (Nat → Nat → R) :=
  loop 1 (ngauss + 1) (fun ig s =>
    let i1 := ngauss + ig
    let i2 := ngauss + 1 - ig
    let dv := wignerD ops (ct (i1 - 1)) nmax m (fun _ => 0, fun _ => 0)
    (loop 0 nmax (fun n (q : R × (Nat → Nat → R) × (Nat → Nat → R)) =>
      let si := -q.1
      let w := Function.update q.2.1 (i1 - 1) (Function.update (q.2.1 (i1 - 1)) n (dv.1 n))
      let w := Function.update w (i2 - 1) (Function.update (w (i2 - 1)) n (si * dv.1 n))
      let dw := Function.update q.2.2 (i1 - 1) (Function.update (q.2.2 (i1 - 1)) n (dv.2 n))
      let dw := Function.update dw (i2 - 1) (Function.update (dw (i2 - 1)) n (-si * dv.2 n))
      (si, w, dw)) (1, s)).2) (fun _ _ => 0, fun _ _ => 0)

/-- the tables the integrals read, as complex numbers; the Wigner functions are those of the local tables of degree `m` -/
def Obj.points (o : Obj R K) (m : Nat) : Points K :=
  let t := wignerTables ops o.costheta o.nmax o.ngauss m
  { weight := fun ig => ι (o.weights ig)
    sinv := fun ig => ι (o.sinv ig)
    s2inv := fun ig => ι (o.s2inv ig)
    r := fun _ => 0
    r2 := fun ig => ι (o.r2 ig)
    drr := fun ig => ι (o.drr ig)
    w := fun _ ig n => ι (t.1 ig n)
    dw := fun _ ig n => ι (t.2 ig n) }

/-- the radial tables as complex numbers -/
def Obj.inter (o : Obj R K) : TMatrix.Inter K where
  kr ig := ι (o.kr ig)
  krmr := o.krmr
  krinv ig := ι (o.krinv ig)
  krmrinv := o.krmrinv
  j ig n := ι (o.j ig n)
  dj ig n := ι (o.dj ig n)
  y ig n := ι (o.y ig n)
  dy ig n := ι (o.dy ig n)
  jm := o.jm
  djm := o.djm

end

/-- the matrices `J11`, ..., `RgJ22` (TMatrix.hpp:601-604, 774-781), as one matrix of eight values; also the sums `this_J11`, ... -/
structure Js (K : Type) where
  J11 : K
  J12 : K
  J21 : K
  J22 : K
  R11 : K
  R12 : K
  R21 : K
  R22 : K

instance {K : Type} [Zero K] : Zero (Js K) := ⟨⟨0, 0, 0, 0, 0, 0, 0, 0⟩⟩

section

variable {K : Type} [Field K] (im : K) (it : TMatrix.Inter K) (pt : Points K)

/-- contribution of one quadrature point for `m = 0` (TMatrix.hpp:637-699); `ig - 1` already subtracted. `J11`, `J22` do not exist for `m = 0` -/
def point0 (n1 n2 ig : Nat) (s : Js K) : Js K :=
  let n1n1p1 : K := (n1 : K) * ((n1 : K) + 1)
  let n2n2p1 : K := (n2 : K) * ((n2 : K) + 1)
  let wigner_n1 := pt.w 0 ig (n1 - 1)
  let dwigner_n1 := pt.dw 0 ig (n1 - 1)
  let wigner_n2 := pt.w 0 ig (n2 - 1)
  let dwigner_n2 := pt.dw 0 ig (n2 - 1)
  let wn1dwn2 := wigner_n1 * dwigner_n2
  let dwn1wn2 := dwigner_n1 * wigner_n2
  let dwn1dwn2 := dwigner_n1 * dwigner_n2
  let jkrn1 := it.j ig (n1 - 1)
  let hkrn1 := it.j ig (n1 - 1) + im * it.y ig (n1 - 1)
  let djkrn1 := it.dj ig (n1 - 1)
  let dhkrn1 := it.dj ig (n1 - 1) + im * it.dy ig (n1 - 1)
  let jkrmrn2 := it.jm ig (n2 - 1)
  let djkrmrn2 := it.djm ig (n2 - 1)
  let c1 := jkrmrn2 * jkrn1
  let b1 := jkrmrn2 * hkrn1
  let c2 := jkrmrn2 * djkrn1
  let b2 := jkrmrn2 * dhkrn1
  let krinvi := it.krinv ig
  let c3 := krinvi * c1
  let b3 := krinvi * b1
  let c4 := jkrn1 * djkrmrn2
  let b4 := hkrn1 * djkrmrn2
  let krmrinvi := it.krmrinv ig
  let c5 := c1 * krmrinvi
  let b5 := b1 * krmrinvi
  let wr2i := pt.weight ig * pt.r2 ig
  let dr_over_ri := pt.drr ig
  let f1 := wr2i * dwn1dwn2
  let f2 := wr2i * dr_over_ri * n1n1p1 * wn1dwn2
  let f3 := wr2i * dr_over_ri * n2n2p1 * dwn1wn2
  { s with
    J12 := s.J12 + (f1 * b2 + f2 * b3)
    R12 := s.R12 + (f1 * c2 + f2 * c3)
    J21 := s.J21 + (f1 * b4 + f3 * b5)
    R21 := s.R21 + (f1 * c4 + f3 * c5) }

/-- the integrals for `m = 0` (TMatrix.hpp:623-709); `an` is `_ann` -/
def js0 (an : Nat → Nat → K) (nmax ngauss : Nat) (M : Mat (Js K)) : Mat (Js K) :=
  loop 1 (nmax + 1) (fun n1 M => loop 1 (nmax + 1) (fun n2 M =>
    if (n1 + n2) % 2 = 0 then
      let s := loop 1 (ngauss + 1) (fun ig s => point0 im it pt n1 n2 (ig - 1) s) (0 : Js K)
      let an12 := 2 * an (n1 - 1) (n2 - 1)
      M.set (n1 - 1) (n2 - 1) { M.get (n1 - 1) (n2 - 1) with
        J12 := an12 * s.J12
        J21 := an12 * s.J21
        R12 := an12 * s.R12
        R21 := an12 * s.R21 }
    else M) M) M

/-- `Q` and `RgQ` for `m = 0` (TMatrix.hpp:710-735) -/
def q0 (k2mr k2 : K) (nmax : Nat) (M : Mat (Js K)) (s : Mat K × Mat K) : Mat K × Mat K :=
  loop 1 (nmax + 1) (fun n1 s =>
    let k1 := n1
    let kk1 := k1 + nmax
    loop 1 (nmax + 1) (fun n2 (s : Mat K × Mat K) =>
      let k2' := n2
      let kk2 := k2' + nmax
      let e := M.get (n1 - 1) (n2 - 1)
      let this_J12 := -im * e.J12
      let this_RgJ12 := -im * e.R12
      let this_J21 := im * e.J21
      let this_RgJ21 := im * e.R21
      let Q := s.1.set (k1 - 1) (k2' - 1) (k2mr * this_J21 + k2 * this_J12)
      let RgQ := s.2.set (k1 - 1) (k2' - 1) (k2mr * this_RgJ21 + k2 * this_RgJ12)
      let Q := Q.set (kk1 - 1) (kk2 - 1) (k2mr * this_J12 + k2 * this_J21)
      let RgQ := RgQ.set (kk1 - 1) (kk2 - 1) (k2mr * this_RgJ12 + k2 * this_RgJ21)
      (Q, RgQ)) s) s

/-- contribution of one quadrature point for `m > 0` (TMatrix.hpp:818-925) -/
def pointM (m n1 n2 ig : Nat) (s : Js K) : Js K :=
  let m2 : K := ((m * m : Nat) : K)
  let n1n1p1 : K := (n1 : K) * ((n1 : K) + 1)
  let n2n2p1 : K := (n2 : K) * ((n2 : K) + 1)
  -- wr2, ds, dss (TMatrix.hpp:802-807)
  let wr2i := pt.weight ig * pt.r2 ig
  let dsi := pt.sinv ig * (m : K) * wr2i
  let dssi := pt.s2inv ig * m2
  let wigner_n1 := pt.w m ig (n1 - 1)
  let dwigner_n1 := pt.dw m ig (n1 - 1)
  let wigner_n2 := pt.w m ig (n2 - 1)
  let dwigner_n2 := pt.dw m ig (n2 - 1)
  let wn1wn2 := wigner_n1 * wigner_n2
  let wn1dwn2 := wigner_n1 * dwigner_n2
  let dwn1wn2 := dwigner_n1 * wigner_n2
  let jkrn1 := it.j ig (n1 - 1)
  let hkrn1 := it.j ig (n1 - 1) + im * it.y ig (n1 - 1)
  let djkrn1 := it.dj ig (n1 - 1)
  let dhkrn1 := it.dj ig (n1 - 1) + im * it.dy ig (n1 - 1)
  let jkrmrn2 := it.jm ig (n2 - 1)
  let djkrmrn2 := it.djm ig (n2 - 1)
  let c1 := jkrmrn2 * jkrn1
  let b1 := jkrmrn2 * hkrn1
  let c2 := jkrmrn2 * djkrn1
  let b2 := jkrmrn2 * dhkrn1
  let krinvi := it.krinv ig
  let c4 := djkrmrn2 * jkrn1
  let b4 := djkrmrn2 * hkrn1
  let krmrinvi := it.krmrinv ig
  let dr_over_ri := pt.drr ig
  if (n1 + n2) % 2 ≠ 0 then
    let c6 := djkrmrn2 * djkrn1
    let b6 := djkrmrn2 * dhkrn1
    let c7 := c4 * krinvi
    let b7 := b4 * krinvi
    let c8 := c2 * krmrinvi
    let b8 := b2 * krmrinvi
    let e1 := dsi * (wn1dwn2 + dwn1wn2)
    let factor := dsi * dr_over_ri * wn1wn2
    let e2 := factor * n1n1p1
    let e3 := factor * n2n2p1
    { s with
      J11 := s.J11 + e1 * b1
      R11 := s.R11 + e1 * c1
      J22 := s.J22 + (e1 * b6 + e2 * b7 + e3 * b8)
      R22 := s.R22 + (e1 * c6 + e2 * c7 + e3 * c8) }
  else
    let c3 := krinvi * c1
    let b3 := krinvi * b1
    let c5 := c1 * krmrinvi
    let b5 := b1 * krmrinvi
    let f1 := wr2i * (wn1wn2 * dssi + dwigner_n1 * dwigner_n2)
    let f2 := wr2i * dr_over_ri * n1n1p1 * wn1dwn2
    let f3 := wr2i * dr_over_ri * n2n2p1 * dwn1wn2
    { s with
      J12 := s.J12 + (f1 * b2 + f2 * b3)
      R12 := s.R12 + (f1 * c2 + f2 * c3)
      J21 := s.J21 + (f1 * b4 + f3 * b5)
      R21 := s.R21 + (f1 * c4 + f3 * c5) }

/-- the integrals for `m > 0` (TMatrix.hpp:808-939) -/
def jsM (an : Nat → Nat → K) (m nmax ngauss : Nat) (M : Mat (Js K)) : Mat (Js K) :=
  loop m (nmax + 1) (fun n1 M => loop m (nmax + 1) (fun n2 M =>
    let s := loop 0 ngauss (fun ig s => pointM im it pt m n1 n2 ig s) (0 : Js K)
    let an12 := 2 * an (n1 - 1) (n2 - 1)
    M.set (n1 - 1) (n2 - 1) ⟨s.J11 * an12, s.J12 * an12, s.J21 * an12, s.J22 * an12, s.R11 * an12, s.R12 * an12, s.R21 * an12,
      s.R22 * an12⟩) M) M

/-- `Q` and `RgQ` for `m > 0` (TMatrix.hpp:940-977) -/
def qM (k2mr k2 : K) (m nmax : Nat) (M : Mat (Js K)) (s : Mat K × Mat K) : Mat K × Mat K :=
  let nm := nmax + 1 - m
  loop m (nmax + 1) (fun n1 s =>
    let k1 := n1 + 1 - m
    let kk1 := k1 + nm
    loop m (nmax + 1) (fun n2 (s : Mat K × Mat K) =>
      let k2' := n2 + 1 - m
      let kk2 := k2' + nm
      let e := M.get (n1 - 1) (n2 - 1)
      let this_J11 := -e.J11
      let this_RgJ11 := -e.R11
      let this_J12 := -im * e.J12
      let this_RgJ12 := -im * e.R12
      let this_J21 := im * e.J21
      let this_RgJ21 := im * e.R21
      let this_J22 := -e.J22
      let this_RgJ22 := -e.R22
      let Q := s.1.set (k1 - 1) (k2' - 1) (k2mr * this_J21 + k2 * this_J12)
      let RgQ := s.2.set (k1 - 1) (k2' - 1) (k2mr * this_RgJ21 + k2 * this_RgJ12)
      let Q := Q.set (k1 - 1) (kk2 - 1) (k2mr * this_J11 + k2 * this_J22)
      let RgQ := RgQ.set (k1 - 1) (kk2 - 1) (k2mr * this_RgJ11 + k2 * this_RgJ22)
      let Q := Q.set (kk1 - 1) (k2' - 1) (k2mr * this_J22 + k2 * this_J11)
      let RgQ := RgQ.set (kk1 - 1) (k2' - 1) (k2mr * this_RgJ22 + k2 * this_RgJ11)
      let Q := Q.set (kk1 - 1) (kk2 - 1) (k2mr * this_J12 + k2 * this_J21)
      let RgQ := RgQ.set (kk1 - 1) (kk2 - 1) (k2mr * this_RgJ12 + k2 * this_RgJ21)
      (Q, RgQ)) s) s

/-- the multiplication (TMatrix.hpp:740-750, 981-990): `_T[m]` is not set to zero first -/
def multAcc (nm : Nat) (RgQ Q : Mat K) (T : Mat K) : Mat K :=
  loop 0 nm (fun i T => loop 0 nm (fun j T => loop 0 (2 * nm) (fun k (T : Mat K) =>
    let T := T.set i j (T.get i j - RgQ.get i k * Q.get k j)
    let T := T.set (nm + i) j (T.get (nm + i) j - RgQ.get (nm + i) k * Q.get k j)
    let T := T.set i (nm + j) (T.get i (nm + j) - RgQ.get i k * Q.get k (nm + j))
    T.set (nm + i) (nm + j) (T.get (nm + i) (nm + j) - RgQ.get (nm + i) k * Q.get k (nm + j))) T) T) T

end

section

variable {R K Γ : Type} [Field R] [LinearOrder R] [Field K] [LinearOrder Γ] (ops : Ops R) (ι : R →+* K) (absv : K → Γ) (im : K)

/-- second part of the constructor: the elements for `m = 0` (TMatrix.hpp:596-750); `plu_inverse(n)` works on arrays of its own
(Matrix.hpp:393-399) -/
def degree0 (o : Obj R K) : Obj R K :=
  let nmax := o.nmax
  let it := o.inter ι
  let pt := o.points ops ι 0
  let M := js0 im it pt (fun a b => ι (o.ann.get a b)) nmax o.ngauss (Mat.new nmax nmax)
  let q := q0 im o.k2mr (ι o.k2) nmax M (Mat.new (2 * nmax) (2 * nmax), Mat.new (2 * nmax) (2 * nmax))
  let Q := pluInverse absv (2 * nmax) q.1 (fun _ => 0) (fun _ => 0)
  { o with T := Function.update o.T 0 (multAcc nmax q.2 Q (o.T 0)) }

/-- the constructor (TMatrix.hpp:532-751) -/
def construct (jdj ydy : Routine R) (jdjm : Routine K) (fuel : Nat) (wavelength : R) (mr : K) (RV axisRatio : R) (nmax ngauss : Nat) :
    Option (Obj R K) :=
  (tables ops ι jdj ydy jdjm fuel wavelength mr RV axisRatio nmax ngauss).map (degree0 ops ι absv im)

/-- one pass of the loop of `compute_additional_elements` (TMatrix.hpp:765-991) -/
def degreeM (m : Nat) (o : Obj R K) : Obj R K :=
  let nmax := o.nmax
  let nm := nmax + 1 - m
  let it := o.inter ι
  let pt := o.points ops ι m
  let M := jsM im it pt (fun a b => ι (o.ann.get a b)) m nmax o.ngauss (Mat.new nmax nmax)
  let q := qM im o.k2mr (ι o.k2) m nmax M (Mat.new (2 * nm) (2 * nm), Mat.new (2 * nm) (2 * nm))
  let Q := pluInverse absv (2 * nm) q.1 (fun _ => 0) (fun _ => 0)
  { o with T := Function.update o.T m (multAcc nm q.2 Q (o.T m)) }

/-- `compute_additional_elements` (TMatrix.hpp:763-992) -/
def additional (o : Obj R K) : Obj R K := loop 1 (o.nmax + 1) (fun m o => degreeM ops ι absv im m o) o

end

end Verif.Direct
