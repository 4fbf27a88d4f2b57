import Verif.Model.Special

/-!
# `WignerDResources` and `GaussBasedResources`
-/
namespace Verif.WignerTable

open Verif.Matrix (loop)
open Verif.Special (Ops wignerD)

section

variable {K : Type} [Field K] (o : Ops K)

/-- `_wigner_d` and `_dwigner_d` (WignerDResources.hpp:57-61): indexed by `m`, row (quadrature point) and column -/
structure Tab (K : Type) where
  w : Nat → Nat → Nat → K
  dw : Nat → Nat → Nat → K

/-- write a whole row -/
def setRow (t : Nat → Nat → Nat → K) (m r : Nat) (row : Nat → K) : Nat → Nat → Nat → K :=
  fun m' r' => if m' = m ∧ r' = r then row else t m' r'

/-- write one element -/
def setElem (t : Nat → Nat → Nat → K) (m r c : Nat) (v : K) : Nat → Nat → Nat → K :=
  fun m' r' c' => if m' = m ∧ r' = r ∧ c' = c then v else t m' r' c'

/-- the sign flipping loop over the orders (WignerDResources.hpp:157-168) -/
def mirrorRow (nmax m i1 i2 : Nat) (t : Tab K) : Tab K :=
  (loop 0 nmax (fun n (s : K × Tab K) =>
    let sign := -s.1
    (sign, ⟨setElem s.2.w m (i2 - 1) n (sign * s.2.w m (i1 - 1) n),
      setElem s.2.dw m (i2 - 1) n (-sign * s.2.dw m (i1 - 1) n)⟩)) (1, t)).2

/-- one quadrature point and its mirror image (WignerDResources.hpp:149-169) -/
def pointStep (ct : Nat → K) (nmax ngauss m ig : Nat) (t : Tab K) : Tab K :=
  let i1 := ngauss + ig
  let i2 := ngauss - ig + 1
  let r := wignerD o (ct (i1 - 1)) nmax m (t.w m (i1 - 1), t.dw m (i1 - 1))
  mirrorRow nmax m i1 i2 ⟨setRow t.w m (i1 - 1) r.1, setRow t.dw m (i1 - 1) r.2⟩

/-- `execute` with precomputation (WignerDResources.hpp:144-173) -/
def execute (ct : Nat → K) (nmax ngauss : Nat) (t : Tab K) : Tab K :=
  loop 0 (nmax + 1) (fun m t => loop 1 (ngauss + 1) (pointStep o ct nmax ngauss m) t) t

/-- `get_wigner_functions` (WignerDResources.hpp:234-252): copies the row, or computes the functions now -/
def getWignerFunctions (pre : Option (Tab K)) (ct : Nat → K) (nmax m ig : Nat) (s : (Nat → K) × (Nat → K)) :
    (Nat → K) × (Nat → K) :=
  match pre with
  | some t => loop 0 nmax (fun i s => (Function.update s.1 i (t.w m ig i), Function.update s.2 i (t.dw m ig i))) s
  | none => wignerD o (ct ig) nmax m s

/-- the loop of `GaussBasedResources::execute` (GaussBasedResources.hpp:132-141): `1/sin²` and `1/sin` -/
def sineLoop (ct : Nat → K) (ngauss : Nat) (s : (Nat → K) × (Nat → K)) : (Nat → K) × (Nat → K) :=
  loop 0 ngauss (fun ig s =>
    let v := 1 / ((1 - ct ig) * (1 + ct ig))
    (Function.update (Function.update s.1 ig v) (2 * ngauss - ig - 1) v,
      Function.update (Function.update s.2 ig (o.sqrt v)) (2 * ngauss - ig - 1) (o.sqrt v))) s

end

end Verif.WignerTable
