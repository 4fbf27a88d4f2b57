import Verif.Model.Matrix
import Mathlib.Algebra.Order.Field.Basic
import Mathlib.Algebra.Order.AbsoluteValue.Basic

/-!
# T-matrix tasks (src/TMatrixResource.hpp, src/InteractionResource.hpp, src/ConvergedSizeResources.hpp,
src/NBasedResources.hpp)

`K` is the type of the elements (exact arithmetic in a field; real values of the code are elements of `K`), `im` the
imaginary unit `std::complex(0., 1.)`. Sizes are natural numbers, without the wrap-around at `2^64`.
-/
namespace Verif.TMatrix

open Verif.Matrix

/-- what the tasks read from `GaussBasedResources` (weights, `1/sin`, `1/sin²`), `ParticleGeometryResource` (`r`, `r²`,
`dr/(r dθ)`) and `WignerDResources` (`get_wigner_functions`: element `n - 1` of the arrays for `m` and `ig`);
`ConvergedSizeResources` holds pointers to these three (ConvergedSizeResources.hpp:65-72) -/
structure Points (K : Type) where
  weight : Nat → K
  sinv : Nat → K
  s2inv : Nat → K
  r : Nat → K
  r2 : Nat → K
  drr : Nat → K
  w : Nat → Nat → Nat → K
  dw : Nat → Nat → Nat → K

/-- `InteractionResource` (InteractionResource.hpp:146-190): quadrature point, and column `n - 1` (`get_jkr(ig, n)` etc.
subtract 1, InteractionResource.hpp:247-353) -/
structure Inter (K : Type) where
  kr : Nat → K
  krmr : Nat → K
  krinv : Nat → K
  krmrinv : Nat → K
  j : Nat → Nat → K
  dj : Nat → Nat → K
  y : Nat → Nat → K
  dy : Nat → Nat → K
  jm : Nat → Nat → K
  djm : Nat → Nat → K

/-- `InteractionVariables` (InteractionResource.hpp:47-85) and `NBasedResources::get_ann` (NBasedResources.hpp:148-155) -/
structure Consts (K : Type) where
  k : K
  kmr : K
  k2 : K
  k2mr : K
  RV : K
  ann : Nat → Nat → K

/-- constructor of `InteractionVariables` (InteractionResource.hpp:79-82); `k` is `2π/λ` -/
def interactionVariables {K} [Field K] (RV k mr : K) (ann : Nat → Nat → K) : Consts K :=
  ⟨k, mr * k, k * k, mr * (k * k), RV, ann⟩

/-- `TMatrixAuxiliarySpace` (TMatrixResource.hpp:275-295), the arrays that matter -/
structure Aux (K : Type) where
  Q : Mat K
  RgQ : Mat K
  piv : Nat → Nat
  work : Nat → K

/-- constructor (TMatrixResource.hpp:304-311) -/
def Aux.new {K} [Zero K] (maxOrder : Nat) : Aux K :=
  ⟨Mat.new (2 * maxOrder) (2 * maxOrder), Mat.new (2 * maxOrder) (2 * maxOrder), fun _ => 0, fun _ => 0⟩

/-- `reset` (TMatrixResource.hpp:356-370); `_pivot_array` and `_work` have as many elements as `_Q` has rows; the
Wigner and Clebsch-Gordan arrays are not part of `Aux` -/
def Aux.reset {K} [Zero K] (a : Aux K) : Aux K :=
  let p := loop 0 a.Q.rows (fun i (s : (Nat → Nat) × (Nat → K)) => (Function.update s.1 i 0, Function.update s.2 i 0))
    (a.piv, a.work)
  ⟨a.Q.reset, a.RgQ.reset, p.1, p.2⟩

/-- `TMatrixResource` (TMatrixResource.hpp:77-106); the type `R` of the cross sections is real -/
structure TRes (K R : Type) where
  nmax : Nat
  ngauss : Nat
  T : Nat → Mat K
  Qs : R
  Qe : R
  dQs : R
  dQe : R

/-- constructor (TMatrixResource.hpp:122-132) -/
def TRes.new {K R} [Zero K] [Field R] (maxOrder : Nat) : TRes K R :=
  ⟨0, 0, fun m => Mat.new (2 * (maxOrder + 1 - m)) (2 * (maxOrder + 1 - m)), 0, 0, -2, -2⟩

/-- row and column of an element in `_T[m]` (TMatrixResource.hpp:203-208, 241-246); `m1 = m2 = m` -/
def TRes.index (nmax m i n : Nat) : Nat := if m > 0 then i * (nmax + 1 - m) + n - m else i * nmax + n - m - 1

/-- `operator()` (TMatrixResource.hpp:189-209) -/
def TRes.get {K R} (t : TRes K R) (i1 n1 m i2 n2 : Nat) : K :=
  (t.T m).get (TRes.index t.nmax m i1 n1) (TRes.index t.nmax m i2 n2)

/-- `set_element` (TMatrixResource.hpp:227-247) -/
def TRes.setElement {K R} (t : TRes K R) (i1 n1 m i2 n2 : Nat) (v : K) : TRes K R :=
  { t with
    T := Function.update t.T m ((t.T m).set (TRes.index t.nmax m i1 n1) (TRes.index t.nmax m i2 n2) v) }

/-- `ConvergedSizeResources` (ConvergedSizeResources.hpp:56-82) -/
structure Conv (K R : Type) where
  iteration : Nat
  nmax : Nat
  ngauss : Nat
  points : Option (Points K)
  converged : Bool
  dQs : R
  dQe : R

/-- constructor (ConvergedSizeResources.hpp:88-91) -/
def Conv.new {K R} [Field R] : Conv K R := ⟨0, 0, 0, none, false, -1, -1⟩

section

variable {K : Type} [Field K]

/-- `m(i, j) += v` -/
def incr (m : Mat K) (i j : Nat) (v : K) : Mat K := m.set i j (m.get i j + v)

/-- the pair `(_Q, _RgQ)` while it is accumulated -/
abbrev Pair (K : Type) := Mat K × Mat K

variable (im : K) (cs : Consts K) (it : Inter K) (pt : Points K)

/-- innermost body of the `m = 0` task (TMatrixResource.hpp:596-711), with `ig - 1` already subtracted -/
def m0Body (nmax ig n1 n2 : Nat) (s : Pair K) : Pair K :=
  let n1n1p1 : K := (n1 : K) * ((n1 : K) + 1)
  let i1 := n1
  let ii1 := i1 + nmax
  let n2n2p1 : K := (n2 : K) * ((n2 : K) + 1)
  let i2 := n2
  let ii2 := i2 + nmax
  if (n1 + n2) % 2 = 0 then
    let wigner_n1 := pt.w 0 ig (n1 - 1)
    let dwigner_n1 := pt.dw 0 ig (n1 - 1)
    let wigner_n2 := pt.w 0 ig (n2 - 1)
    let dwigner_n2 := pt.dw 0 ig (n2 - 1)
    let wn1dwn2 := wigner_n1 * dwigner_n2
    let dwn1wn2 := dwigner_n1 * wigner_n2
    let dwn1dwn2 := dwigner_n1 * dwigner_n2
    let jkrn1 := it.j ig (n1 - 1)
    let hkrn1 := it.j ig (n1 - 1) + im * it.y ig (n1 - 1)
    let djkrn1 := it.dj ig (n1 - 1)
    let dhkrn1 := it.dj ig (n1 - 1) + im * it.dy ig (n1 - 1)
    let jkrmrn2 := it.jm ig (n2 - 1)
    let djkrmrn2 := it.djm ig (n2 - 1)
    let c1 := jkrmrn2 * jkrn1
    let b1 := jkrmrn2 * hkrn1
    let c2 := jkrmrn2 * djkrn1
    let b2 := jkrmrn2 * dhkrn1
    let krinvi := it.krinv ig
    let c3 := krinvi * c1
    let b3 := krinvi * b1
    let c4 := jkrn1 * djkrmrn2
    let b4 := hkrn1 * djkrmrn2
    let krmrinvi := it.krmrinv ig
    let c5 := c1 * krmrinvi
    let b5 := b1 * krmrinvi
    let wr2i := pt.weight ig * pt.r2 ig
    let dr_over_ri := pt.drr ig
    let an12 := cs.ann n1 n2
    let f1 := wr2i * dwn1dwn2
    let f2 := wr2i * dr_over_ri * n1n1p1 * wn1dwn2
    let J12 := -an12 * (f1 * b2 + f2 * b3)
    let RgJ12 := -an12 * (f1 * c2 + f2 * c3)
    let f3 := wr2i * dr_over_ri * n2n2p1 * dwn1wn2
    let J21 := an12 * (f1 * b4 + f3 * b5)
    let RgJ21 := an12 * (f1 * c4 + f3 * c5)
    let Q := incr s.1 (i1 - 1) (i2 - 1) (cs.k2mr * J21 + cs.k2 * J12)
    let RgQ := incr s.2 (i1 - 1) (i2 - 1) (cs.k2mr * RgJ21 + cs.k2 * RgJ12)
    let Q := incr Q (ii1 - 1) (ii2 - 1) (cs.k2mr * J12 + cs.k2 * J21)
    let RgQ := incr RgQ (ii1 - 1) (ii2 - 1) (cs.k2mr * RgJ12 + cs.k2 * RgJ21)
    (Q, RgQ)
  else s

/-- the three loops of the `m = 0` task (TMatrixResource.hpp:596-712) -/
def m0Assemble (nmax ngauss : Nat) (s : Pair K) : Pair K :=
  loop 1 (ngauss + 1) (fun ig s => loop 1 (nmax + 1) (fun n1 s => loop 1 (nmax + 1) (fun n2 s =>
    m0Body im cs it pt nmax (ig - 1) n1 n2 s) s) s) s

/-- innermost body of the `m > 0` task (TMatrixResource.hpp:939-1094) -/
def mAllBody (m nm ig n1 n2 : Nat) (s : Pair K) : Pair K :=
  let m2 : K := ((m * m : Nat) : K)
  let n1n1p1 : K := (n1 : K) * ((n1 : K) + 1)
  let i1 := n1 + 1 - m
  let ii1 := i1 + nm
  let n2n2p1 : K := (n2 : K) * ((n2 : K) + 1)
  let i2 := n2 + 1 - m
  let ii2 := i2 + nm
  let wigner_n1 := pt.w m ig (n1 - 1)
  let dwigner_n1 := pt.dw m ig (n1 - 1)
  let wigner_n2 := pt.w m ig (n2 - 1)
  let dwigner_n2 := pt.dw m ig (n2 - 1)
  let wn1wn2 := wigner_n1 * wigner_n2
  let wn1dwn2 := wigner_n1 * dwigner_n2
  let dwn1wn2 := dwigner_n1 * wigner_n2
  let jkrn1 := it.j ig (n1 - 1)
  let hkrn1 := it.j ig (n1 - 1) + im * it.y ig (n1 - 1)
  let djkrn1 := it.dj ig (n1 - 1)
  let dhkrn1 := it.dj ig (n1 - 1) + im * it.dy ig (n1 - 1)
  let jkrmrn2 := it.jm ig (n2 - 1)
  let djkrmrn2 := it.djm ig (n2 - 1)
  let c1 := jkrmrn2 * jkrn1
  let b1 := jkrmrn2 * hkrn1
  let c2 := jkrmrn2 * djkrn1
  let b2 := jkrmrn2 * dhkrn1
  let krinvi := it.krinv ig
  let c4 := djkrmrn2 * jkrn1
  let b4 := djkrmrn2 * hkrn1
  let krmrinvi := it.krmrinv ig
  let dr_over_ri := pt.drr ig
  let an12 := cs.ann n1 n2
  if (n1 + n2) % 2 ≠ 0 then
    let dsi := pt.sinv ig * (m : K) * pt.weight ig * pt.r2 ig
    let c6 := djkrmrn2 * djkrn1
    let b6 := djkrmrn2 * dhkrn1
    let c7 := c4 * krinvi
    let b7 := b4 * krinvi
    let c8 := c2 * krmrinvi
    let b8 := b2 * krmrinvi
    let e1 := dsi * (wn1dwn2 + dwn1wn2)
    let J11 := im * an12 * (e1 * b1)
    let RgJ11 := im * an12 * (e1 * c1)
    let factor := dsi * dr_over_ri * wn1wn2
    let e2 := factor * n1n1p1
    let e3 := factor * n2n2p1
    let J22 := im * an12 * (e1 * b6 + e2 * b7 + e3 * b8)
    let RgJ22 := im * an12 * (e1 * c6 + e2 * c7 + e3 * c8)
    let Q := incr s.1 (i1 - 1) (ii2 - 1) (cs.k2mr * J11 + cs.k2 * J22)
    let RgQ := incr s.2 (i1 - 1) (ii2 - 1) (cs.k2mr * RgJ11 + cs.k2 * RgJ22)
    let Q := incr Q (ii1 - 1) (i2 - 1) (cs.k2mr * J22 + cs.k2 * J11)
    let RgQ := incr RgQ (ii1 - 1) (i2 - 1) (cs.k2mr * RgJ22 + cs.k2 * RgJ11)
    (Q, RgQ)
  else
    let wr2i := pt.weight ig * pt.r2 ig
    let dssi := pt.s2inv ig * m2
    let c3 := krinvi * c1
    let b3 := krinvi * b1
    let c5 := c1 * krmrinvi
    let b5 := b1 * krmrinvi
    let f1 := wr2i * (wn1wn2 * dssi + dwigner_n1 * dwigner_n2)
    let f2 := wr2i * dr_over_ri * n1n1p1 * wn1dwn2
    let J12 := -an12 * (f1 * b2 + f2 * b3)
    let RgJ12 := -an12 * (f1 * c2 + f2 * c3)
    let f3 := wr2i * dr_over_ri * n2n2p1 * dwn1wn2
    let J21 := an12 * (f1 * b4 + f3 * b5)
    let RgJ21 := an12 * (f1 * c4 + f3 * c5)
    let Q := incr s.1 (i1 - 1) (i2 - 1) (cs.k2mr * J21 + cs.k2 * J12)
    let RgQ := incr s.2 (i1 - 1) (i2 - 1) (cs.k2mr * RgJ21 + cs.k2 * RgJ12)
    let Q := incr Q (ii1 - 1) (ii2 - 1) (cs.k2mr * J12 + cs.k2 * J21)
    let RgQ := incr RgQ (ii1 - 1) (ii2 - 1) (cs.k2mr * RgJ12 + cs.k2 * RgJ21)
    (Q, RgQ)

/-- the three loops of the `m > 0` task (TMatrixResource.hpp:937-1095) -/
def mAllAssemble (m nmax ngauss : Nat) (s : Pair K) : Pair K :=
  loop 0 ngauss (fun ig s => loop m (nmax + 1) (fun n1 s => loop m (nmax + 1) (fun n2 s =>
    mAllBody im cs it pt m (nmax + 1 - m) ig n1 n2 s) s) s) s

end

section

variable {K R Γ : Type} [Field K] [LinearOrder Γ] (absv : K → Γ)

/-- body of the multiplication (TMatrixResource.hpp:721-732, 1102-1113) -/
def multBody (nm : Nat) (RgQ Q : Mat K) (i j : Nat) (T : Mat K) : Mat K :=
  let T := T.set i j 0
  let T := T.set (nm + i) j 0
  let T := T.set i (nm + j) 0
  let T := T.set (nm + i) (nm + j) 0
  loop 0 (2 * nm) (fun k T =>
    let T := T.set i j (T.get i j - RgQ.get i k * Q.get k j)
    let T := T.set (nm + i) j (T.get (nm + i) j - RgQ.get (nm + i) k * Q.get k j)
    let T := T.set i (nm + j) (T.get i (nm + j) - RgQ.get i k * Q.get k (nm + j))
    T.set (nm + i) (nm + j) (T.get (nm + i) (nm + j) - RgQ.get (nm + i) k * Q.get k (nm + j))) T

/-- the multiplication (TMatrixResource.hpp:719-734 with `nm = _nmax`, 1100-1115) -/
def mult (nm : Nat) (RgQ Q : Mat K) (T : Mat K) : Mat K :=
  loop 0 nm (fun i T => loop 0 nm (fun j T => multBody nm RgQ Q i j T) T) T

end

section

variable {K R Γ : Type} [Field K] [Field R] [LinearOrder R] [LinearOrder Γ] (absv : K → Γ) (im : K)
  (norm re : K → R)

/-- the loop that computes the cross sections (TMatrixResource.hpp:751-760) -/
def crossSections (nmax : Nat) (T : Mat K) : R × R :=
  loop 1 (nmax + 1) (fun n s =>
    let dn1 : R := 2 * (n : R) + 1
    (s.1 + dn1 * (norm (T.get (n - 1) (n - 1)) + norm (T.get (nmax + n - 1) (nmax + n - 1))),
      s.2 + dn1 * (re (T.get (n - 1) (n - 1)) + re (T.get (nmax + n - 1) (nmax + n - 1))))) (0, 0)

/-- the bookkeeping at the end of the `m = 0` task (TMatrixResource.hpp:736-781) -/
def bookkeeping (pt : Points K) (nmax ngauss : Nat) (tolerance : R) (t : TRes K R) (c : Conv K R) : TRes K R × Conv K R :=
  let t := { t with
    nmax := nmax
    ngauss := ngauss }
  let c := { c with
    nmax := nmax
    ngauss := ngauss
    points := some pt
    iteration := c.iteration + 1 }
  let oldQs := t.Qs
  let oldQe := t.Qe
  let q := crossSections norm re nmax (t.T 0)
  let t := { t with
    Qs := q.1
    Qe := q.2 }
  let t :=
    if t.dQs = -2 then
      { t with
        dQs := -1
        dQe := -1 }
    else
      { t with
        dQs := |(oldQs - t.Qs) / t.Qs|
        dQe := |(oldQe - t.Qe) / t.Qe| }
  if t.dQs > 0 then
    let c := { c with
      dQs := t.dQs
      dQe := t.dQe }
    if t.dQs ≤ tolerance ∧ t.dQe ≤ tolerance then (t, { c with converged := true }) else (t, c)
  else (t, c)

/-- `TMatrixM0Task::execute` (TMatrixResource.hpp:579-782): reads the interaction resource, writes the auxiliary space,
the T-matrix and the converged size -/
def executeM0 (cs : Consts K) (it : Inter K) (pt : Points K) (nmax ngauss : Nat) (tolerance : R)
    (s : Aux K × TRes K R × Conv K R) : Aux K × TRes K R × Conv K R :=
  let (a, t, c) := s
  if c.converged then s
  else
    let a := a.reset
    let p := m0Assemble im cs it pt nmax ngauss (a.Q, a.RgQ)
    let Q := pluInverse absv (2 * nmax) p.1 a.piv a.work
    let st := step1 absv (2 * nmax) p.1 a.piv
    let a : Aux K := ⟨Q, p.2, st.2, (step3 (2 * nmax) (step2 (2 * nmax) st.1) a.work).2⟩
    let t := { t with
      T := Function.update t.T 0 (mult nmax a.RgQ a.Q (t.T 0)) }
    let b := bookkeeping norm re pt nmax ngauss tolerance t c
    (a, b.1, b.2)

/-- `TMatrixMAllTask::execute` (TMatrixResource.hpp:893-1116); the pointers are followed only when `_m <= nmax`;
`none`: a null pointer is followed -/
def executeMAll (m : Nat) (cs : Consts K) (it : Inter K) (c : Conv K R) (s : Aux K × TRes K R) :
    Option (Aux K × TRes K R) :=
  let (a, t) := s
  let nmax := c.nmax
  if m > nmax then some s
  else
    match c.points with
    | none => none
    | some pt =>
      let a := a.reset
      let ngauss := c.ngauss
      let nm := nmax + 1 - m
      let p := mAllAssemble im cs it pt m nmax ngauss (a.Q, a.RgQ)
      let Q := pluInverse absv (2 * nm) p.1 a.piv a.work
      let st := step1 absv (2 * nm) p.1 a.piv
      let a : Aux K := ⟨Q, p.2, st.2, (step3 (2 * nm) (step2 (2 * nm) st.1) a.work).2⟩
      some (a, { t with
        T := Function.update t.T m (mult nm a.RgQ a.Q (t.T m)) })

end

/-- `ResetTMatrixResourceTask::execute` (TMatrixResource.hpp:1305-1316); `maxOrder + 1` is the size of `_m_resources` -/
def resetT {K R} [Zero K] [Field R] (maxOrder : Nat) (t : TRes K R) : TRes K R :=
  { nmax := 0
    ngauss := 0
    Qs := 0
    Qe := 0
    dQs := -2
    dQe := -2
    T := loop 0 (maxOrder + 1) (fun m T => Function.update T m ((T m).reset)) t.T }

section

variable {K R : Type} [Field K]

/-- `get_row` of a matrix is replaced by what `f` makes of it -/
def setRow (t : Nat → Nat → K) (ig : Nat) (row : Nat → K) : Nat → Nat → K := fun g => if g = ig then row else t g

/-- `InteractionTask::execute` (InteractionResource.hpp:478-527). `jdj nmax z (j, dj)`, `ydy nmax z (y, dy)` are
`spherical_j_jdj_array` (real argument), `spherical_y_ydy_array`, `jdjm` is `spherical_j_jdj_array` (complex argument) -/
def executeInteraction (jdj ydy jdjm : Nat → K → (Nat → K) × (Nat → K) → (Nat → K) × (Nat → K)) (cs : Consts K)
    (pt : Points K) (nmax ngauss : Nat) (c : Conv K R) (it : Inter K) : Inter K :=
  if c.converged then it
  else
    let it := loop 0 (2 * ngauss) (fun ig it =>
      let it := { it with kr := Function.update it.kr ig (cs.k * pt.r ig * cs.RV) }
      let it := { it with krmr := Function.update it.krmr ig (cs.kmr * pt.r ig * cs.RV) }
      let it := { it with krinv := Function.update it.krinv ig (1 / it.kr ig) }
      { it with krmrinv := Function.update it.krmrinv ig (1 / it.krmr ig) }) it
    loop 0 (2 * ngauss) (fun ig it =>
      let p := jdj nmax (it.kr ig) (it.j ig, it.dj ig)
      let it := { it with
        j := setRow it.j ig p.1
        dj := setRow it.dj ig p.2 }
      let p := ydy nmax (it.kr ig) (it.y ig, it.dy ig)
      let it := { it with
        y := setRow it.y ig p.1
        dy := setRow it.dy ig p.2 }
      let p := jdjm nmax (it.krmr ig) (it.jm ig, it.djm ig)
      { it with
        jm := setRow it.jm ig p.1
        djm := setRow it.djm ig p.2 }) it

/-- `ResetInteractionResourceTask::execute` (InteractionResource.hpp:589-606): `size` points, `cols` columns -/
def resetInteraction (size cols : Nat) (it : Inter K) : Inter K :=
  let z := fun (f : Nat → K) (ig : Nat) => Function.update f ig 0
  let z2 := fun (f : Nat → Nat → K) (ig i : Nat) => setRow f ig (Function.update (f ig) i 0)
  loop 0 size (fun ig it =>
    let it := { it with
      kr := z it.kr ig
      krmr := z it.krmr ig
      krinv := z it.krinv ig
      krmrinv := z it.krmrinv ig }
    loop 0 cols (fun i it =>
      { it with
        j := z2 it.j ig i
        y := z2 it.y ig i
        dj := z2 it.dj ig i
        dy := z2 it.dy ig i
        jm := z2 it.jm ig i
        djm := z2 it.djm ig i }) it) it

end

/-! ## `NBasedResources` -/

section

variable {K : Type} [Field K] (sqrt : K → K) (im : K)

/-- state of the two loops: the matrices `_ann` and `_cnn` and the running power -/
structure NFac (K : Type) where
  ann : Mat K
  cnn : Mat K

/-- `NBasedResources::execute` (NBasedResources.hpp:115-137) -/
def nbased (s : NFac K) : NFac K :=
  let nmax := s.ann.rows
  (loop 0 nmax (fun ni (p : K × NFac K) =>
    let nni : K := ((ni : K) + 2) * ((ni : K) + 1)
    let sqrtni := sqrt ((2 * ((ni : K) + 1) + 1) / nni)
    let r := loop 0 nmax (fun nj (q : K × NFac K) =>
      let nnj : K := ((nj : K) + 2) * ((nj : K) + 1)
      let sqrtnj := sqrt ((2 * ((nj : K) + 1) + 1) / nnj)
      let ann := q.2.ann.set ni nj (sqrtni * sqrtnj)
      let cnn := q.2.cnn.set ni nj (q.1 * p.1 * ann.get ni nj)
      (q.1 / im, ⟨ann, cnn⟩)) (-1, p.2)
    (p.1 * im, r.2)) (im, s)).2

/-- `get_ann` (NBasedResources.hpp:148-155) -/
def getAnn (s : NFac K) (n1 n2 : Nat) : K := s.ann.get (n1 - 1) (n2 - 1)

/-- `get_cnn` (NBasedResources.hpp:166-173) -/
def getCnn (s : NFac K) (n1 n2 : Nat) : K := s.cnn.get (n1 - 1) (n2 - 1)

end

end Verif.TMatrix
