import Verif.Spec.TMatrix

/-!
# Specification: the transition matrix for negative degrees

The same surface integrals as in `Verif.TMatrix.Spec`, for the degree `-m`: the signs of the degrees of both wave functions are
swapped. (The factors `(-1)^m` of both functions cancel.)
-/
namespace Verif.TMatrix.Spec

open Finset

variable {K : Type} [Field K] (im : K) (S : Surface K)

/-- surface integral of `n · (X_{m n} × Y_{-m n'})` -/
def JNeg (npts : Nat) (γ : Nat → Nat → K) (Z Z' : Radial K) (κ κ' m n n' : Nat) : K :=
  ∑ ig ∈ range npts, S.weight ig * γ n n'
    * dot (normal S ig) (cross (wave im S κ 1 Z m ig n) (wave im S κ' (-1) Z' m ig n'))

/-- element of `Q` for the degree `-m` -/
def QNeg (npts : Nat) (γ : Nat → Nat → K) (a b : K) (Z Z' : Radial K) (m i n i' n' : Nat) : K :=
  let J := fun κ κ' => JNeg im S npts γ Z Z' κ κ' m n n'
  if i = 0 ∧ i' = 0 then a * J 0 1 + b * J 1 0
  else if i = 0 then a * J 0 0 + b * J 1 1
  else if i' = 0 then a * J 1 1 + b * J 0 0
  else a * J 1 0 + b * J 0 1

/-- `T` is the transition matrix for degree `-m` -/
def IsTransitionNeg (npts : Nat) (γ : Nat → Nat → K) (a b : K) (h j j' : Radial K) (m nmax : Nat)
    (T : Nat → Nat → Nat → Nat → K) : Prop :=
  ∀ i n i' n', i < 2 → i' < 2 → max 1 m ≤ n → n ≤ nmax → max 1 m ≤ n' → n' ≤ nmax →
    ∑ i'' ∈ range 2, ∑ n'' ∈ Ico (max 1 m) (nmax + 1),
      T i n i'' n'' * QNeg im S npts γ a b h j' m i'' n'' i' n' = -QNeg im S npts γ a b j j' m i n i' n'

end Verif.TMatrix.Spec
