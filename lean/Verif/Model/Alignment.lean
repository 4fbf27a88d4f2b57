import Verif.Model.Clebsch
import Verif.Model.TMatrix

/-!
# Averaging a T-matrix over orientations (src/AlignmentAverageTask.hpp:115-218)

Exact arithmetic; `ι` is the conversion from real to complex numbers. The vector of expansion coefficients and the
Clebsch-Gordan workspace are `Vec`s, which record accesses outside their bounds. (`ctm_assert` is inactive.)
-/
namespace Verif.Alignment

open Verif.Matrix (loop)
open Verif.Clebsch
open Verif.TMatrix

/-- `TMatrixAuxiliarySpace::_clebsch_gordan` (TMatrixResource.hpp:312, 326) -/
def workspace {R : Type} [Zero R] (maxOrder : Nat) : Vec R := ⟨(maxOrder + 1) * (2 * maxOrder + 1), fun _ => 0, true⟩

/-- `std::complex<float_type> Tn1n2[2][2]` -/
structure Block (K : Type) where
  t00 : K
  t01 : K
  t10 : K
  t11 : K

/-- everything the task changes: workspace, expansion coefficients (only accessed), output T-matrix -/
structure State (K R : Type) where
  C : Vec R
  p : Vec R
  out : TRes K R

section

variable {K R : Type} [Field K] [Field R] (sqrt : R → R) (ι : R → K)

/-- body of the loop over `m1` (AlignmentAverageTask.hpp:167-193) -/
def addTerm (inp : TRes K R) (m n1 n2 N m1 : Nat) (pN : R) (s : Vec R × Block K) : Vec R × Block K :=
  let M : Int := min n1 n2
  let factor : R := if m1 = 0 then 1 else 2
  let msign : R := if m % 2 = 0 then 1 else -1
  let m1sign : R := if m1 % 2 = 0 then 1 else -1
  let C := (s.1.touch (M + m)).touch (M + m1)
  let CGfac := m1sign * msign * factor * pN * C.v (M + m) * C.v (M + m1)
  let b := s.2
  if (N + (n1 + n2)) % 2 = 0 then
    (C, { b with
          t00 := b.t00 + ι CGfac * inp.get 0 n1 m1 0 n2
          t11 := b.t11 + ι CGfac * inp.get 1 n1 m1 1 n2 })
  else
    (C, { b with
          t01 := b.t01 + ι CGfac * inp.get 0 n1 m1 1 n2
          t10 := b.t10 + ι CGfac * inp.get 1 n1 m1 0 n2 })

/-- body of the loop over `N` (AlignmentAverageTask.hpp:153-194); the state is workspace, expansion coefficients, block -/
def addOrder (inp : TRes K R) (m n1 n2 N : Nat) (s : Vec R × Vec R × Block K) : Vec R × Vec R × Block K :=
  let C := coefficients sqrt n1 n2 N s.1
  let p := s.2.1.touch N
  let r := loop 0 (min n1 n2 + 1) (fun m1 => addTerm ι inp m n1 n2 N m1 (p.v N)) (C, s.2.2)
  (r.1, p, r.2)

/-- body of the loop over `n2` (AlignmentAverageTask.hpp:143-200) -/
def average (inp : TRes K R) (m n1 n2 : Nat) (s : State K R) : State K R :=
  let n12min := if n1 > n2 then n1 - n2 else n2 - n1
  let r := loop n12min (n1 + n2 + 1) (fun N => addOrder sqrt ι inp m n1 n2 N) (s.C, s.p, (⟨0, 0, 0, 0⟩ : Block K))
  let b := r.2.2
  { C := r.1
    p := r.2.1
    out := (((s.out.setElement 0 n1 m 0 n2 b.t00).setElement 0 n1 m 1 n2 b.t01).setElement 1 n1 m 0 n2 b.t10).setElement
      1 n1 m 1 n2 b.t11 }

/-- body of the copy loop (AlignmentAverageTask.hpp:211-219) -/
def copy (inp : TRes K R) (m n1 n2 : Nat) (s : State K R) : State K R :=
  { s with
    out := (((s.out.setElement 0 n1 m 0 n2 (inp.get 0 n1 m 0 n2)).setElement 0 n1 m 1 n2 (inp.get 0 n1 m 1 n2)).setElement
      1 n1 m 0 n2 (inp.get 1 n1 m 0 n2)).setElement 1 n1 m 1 n2 (inp.get 1 n1 m 1 n2) }

/-- the loops over the elements (AlignmentAverageTask.hpp:134-142, 204-210) -/
def elements (nmax : Nat) (f : Nat → Nat → Nat → State K R → State K R) (s : State K R) : State K R :=
  loop 0 (nmax + 1) (fun m s =>
    loop (max m 1) (nmax + 1) (fun n1 s =>
      loop (max m 1) (nmax + 1) (fun n2 s => f m n1 n2 s) s) s) s

/-- `execute` (AlignmentAverageTask.hpp:115-224) -/
def execute (computeAlignment : Bool) (inp : TRes K R) (s : State K R) : State K R :=
  let nmax := inp.nmax
  let s := { s with out := { s.out with nmax := nmax } }
  if computeAlignment then elements nmax (average sqrt ι inp) s else elements nmax (copy inp) s

end

end Verif.Alignment
