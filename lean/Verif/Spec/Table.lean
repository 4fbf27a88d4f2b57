import Verif.Model.Table

/-!
# What the table must contain
-/
namespace Verif.Table

open Verif.Graph

/-- The last axis of the first table: absorption (`Qabs`, `Qabspol`), then extinction (`Qext`, `Qextpol`, `Qextcpol`). -/
def columns (want : Qty → Bool) : List (Qty × Nat) :=
  (if want .abs then [(.abs, 0), (.abs, 1)] else []) ++ (if want .ext then [(.ext, 0), (.ext, 1), (.ext, 2)] else [])

/-- `idx` is a valid index of an array of shape `dims` -/
def InB (dims idx : List Nat) : Prop := List.Forall₂ (fun i d => i < d) idx dims

/-- The index of the same element after the axes of length 1 have been dropped. -/
def sq (dims idx : List Nat) : List Nat := ((dims.zip idx).filter fun di => di.1 ≠ 1).map Prod.snd

/-- `a` is the table of coefficients for these (ordered) sizes and wavelengths. -/
def CoefTable {α β} (R : Request α) (sizes wls : List α) (C : Calc α β) (a : Arr β) : Prop :=
  let D := [R.types.length, sizes.length, wls.length, R.nth, (columns R.want).length]
  a.dims = D.filter (· ≠ 1) ∧
  ∀ it is il ith k, ∀ t ∈ R.types[it]?, ∀ s ∈ sizes[is]?, ∀ w ∈ wls[il]?, ith < R.nth →
    ∀ c ∈ (columns R.want)[k]?, a.get (sq D [it, is, il, ith, k]) = some (C.coef ⟨c.1, t, s, w⟩ ith c.2)

/-- `a` is the table of scattering matrices for these sizes and wavelengths: zenith angle number `ith` and azimuth angle
number `ip` of the grid of `nth` by `2 nth` angles.  The task stores the matrix of these angles at
`ith * (2 nth) + ip` (ScatteringMatrixTask.hpp:719). -/
def MatTable {α β} (R : Request α) (sizes wls : List α) (C : Calc α β) (a : Arr β) : Prop :=
  let D := [R.types.length, sizes.length, wls.length, R.nth, 2 * R.nth, 4, 4]
  a.dims = D.filter (· ≠ 1) ∧
  ∀ it is il ith ip r c, ∀ t ∈ R.types[it]?, ∀ s ∈ sizes[is]?, ∀ w ∈ wls[il]?, ith < R.nth → ip < 2 * R.nth →
    r < 4 → c < 4 →
    a.get (sq D [it, is, il, ith, ip, r, c]) = some (C.mat ⟨.scat, t, s, w⟩ (ith * (2 * R.nth) + ip) r c)

/-- `ret` consists of the tables that were asked for. -/
def Correct {α β} (R : Request α) (sizes wls : List α) (C : Calc α β) : Ret β → Prop
  | .both a b => (R.want .abs ∨ R.want .ext) ∧ R.want .scat ∧ CoefTable R sizes wls C a ∧ MatTable R sizes wls C b
  | .one a => ((R.want .abs ∨ R.want .ext) ∧ R.want .scat = false ∧ CoefTable R sizes wls C a) ∨
      (R.want .abs = false ∧ R.want .ext = false ∧ R.want .scat ∧ MatTable R sizes wls C a)
  | .null => R.want .abs = false ∧ R.want .ext = false ∧ R.want .scat = false

end Verif.Table
