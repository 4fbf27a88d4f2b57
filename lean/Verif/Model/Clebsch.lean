import Verif.Model.Matrix
import Mathlib.Algebra.Field.Basic

/-!
# Clebsch-Gordan coefficients (src/SpecialFunctions.hpp:972-1244)

Exact arithmetic in a field `K` with a square root function. Indices are integers (the code uses `int_fast32_t`), without
overflow.
-/
namespace Verif.Clebsch

open Verif.Matrix (loop)

/-- a `std::vector` with `size` elements. Every access is recorded: `ok` stays true as long as all indices were inside the
vector. (An access outside is undefined behaviour; the model then goes on as if the memory belonged to the vector, and the
contents are meaningless.) -/
structure Vec (K : Type) where
  size : Int
  v : Int → K
  ok : Bool

/-- an access to element `i` -/
def Vec.touch {K} (w : Vec K) (i : Int) : Vec K := { w with ok := w.ok && decide (0 ≤ i ∧ i < w.size) }

/-- `w[i] = x` -/
def Vec.set {K} (w : Vec K) (i : Int) (x : K) : Vec K :=
  { w.touch i with v := Function.update w.v i x }

/-- `for (i = hi; i >= lo; --i)` -/
def forDown {σ : Type} (hi lo : Int) (body : Int → σ → σ) (s : σ) : σ :=
  loop 0 (hi - lo + 1).toNat (fun k s => body (hi - (k : Int)) s) s

/-- `for (i = lo; i <= hi; ++i)` -/
def forUp {σ : Type} (lo hi : Int) (body : Int → σ → σ) (s : σ) : σ :=
  loop 0 (hi - lo + 1).toNat (fun k s => body (lo + (k : Int)) s) s

section

variable {K : Type} [Field K] (sqrt : K → K)

/-- the upper row recursion, one step (SpecialFunctions.hpp:1016-1033, 1163-1180): the state is the vector and `norm` -/
def topStep (n1 n2 N m : Int) (s : Vec K × K) : Vec K × K :=
  let nsize := 2 * n1 + 1
  let Cplusn2m2 := sqrt (((n2 : K) - N + m + 1) * ((n2 : K) + N - m))
  let Cplusn1m1m1 := sqrt (((n1 : K) - m) * ((n1 : K) + m + 1))
  let C := s.1.touch (N * nsize + m + 1 + n1)
  let Cn1m1p1 := C.v (N * nsize + m + 1 + n1)
  let Cnext := -Cplusn2m2 * Cn1m1p1 / Cplusn1m1m1
  (C.set (N * nsize + m + n1) Cnext, s.2 + Cnext * Cnext)

/-- the coefficients for `M = N` (SpecialFunctions.hpp:1002-1043, 1150-1190) -/
def topRow (n1 n2 N : Int) (C : Vec K) : Vec K :=
  let nsize := 2 * n1 + 1
  let s := forDown (n1 - 1) (max (-n1) (N - n2 - 1)) (topStep sqrt n1 n2 N) (C.set (N * nsize + n1 + n1) 1, 1)
  let inverse_norm := 1 / sqrt s.2
  forDown n1 (max (-n1) (N - n2 - 1)) (fun m C =>
    C.set (N * nsize + m + n1) (C.v (N * nsize + m + n1) * inverse_norm)) s.1

/-- one element with `M = Mtemp` (SpecialFunctions.hpp:1051, 1060-1085, 1198, 1207-1232) -/
def lowerStep (n1 n2 N Mt m1 : Int) (C : Vec K) : Vec K :=
  let nsize := 2 * n1 + 1
  let Cmin_inverse := 1 / sqrt (((N : K) + Mt + 1) * ((N : K) - Mt))
  let m2 := Mt - m1
  let i1 := (Mt + 1) * nsize + m1 + 1 + n1
  let (term1, C) := if m1 + 1 ≤ n1 then
      (sqrt (((n1 : K) + m1 + 1) * ((n1 : K) - m1)) * C.v i1, C.touch i1) else (0, C)
  let i2 := (Mt + 1) * nsize + m1 + n1
  let (term2, C) := if m2 + 1 ≤ n2 then
      (sqrt (((n2 : K) + m2 + 1) * ((n2 : K) - m2)) * C.v i2, C.touch i2) else (0, C)
  C.set (Mt * nsize + m1 + n1) (Cmin_inverse * (term1 + term2))

/-- the recursion in `M` (SpecialFunctions.hpp:1045-1087, 1192-1234) -/
def lowerRows (n1 n2 N : Int) (C : Vec K) : Vec K :=
  forDown (N - 1) 0 (fun Mt C =>
    forUp (max (-n1) (Mt - n2)) (min n1 (Mt + n2)) (fun m1 C => lowerStep sqrt n1 n2 N Mt m1 C) C) C

/-- the two recursions -/
def rows (n1 n2 N : Int) (C : Vec K) : Vec K := lowerRows sqrt n1 n2 N (topRow sqrt n1 n2 N C)

/-- `get_clebsch_gordan_coefficients` (SpecialFunctions.hpp:1131-1244); the return value `2 nmin + 1` is left out (it is not
used) -/
def coefficients (n1 n2 N : Int) (C : Vec K) : Vec K :=
  let C := rows sqrt n1 n2 N C
  let nmin := min n1 n2
  forUp 0 (2 * nmin) (fun i C =>
    let m1 := i - nmin
    (C.touch (m1 + n1)).set i (C.v (m1 + n1))) C

/-- `get_clebsch_gordan_coefficient` (SpecialFunctions.hpp:972-1109): value, and whether all accesses were inside the vector -/
def coefficient (n1 m1 n2 m2 N M : Int) : K × Bool :=
  if m1 + m2 ≠ M then (0, true)
  else
    let nsize := 2 * n1 + 1
    let C := rows sqrt n1 n2 N ⟨(N + 1) * nsize, fun _ => 0, true⟩
    if M ≥ 0 then
      let C := C.touch (M * nsize + m1 + n1)
      (C.v (M * nsize + m1 + n1), C.ok)
    else
      let Nmn1mn2 := N - n1 - n2
      let sign : K := if Nmn1mn2.tmod 2 = 0 then 1 else -1
      let C := C.touch (-M * nsize + n1 - m1)
      (sign * C.v (-M * nsize + n1 - m1), C.ok)

end

end Verif.Clebsch
