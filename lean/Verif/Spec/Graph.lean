import Verif.Model.Graph
import Mathlib.Logic.Relation

/-!
# Vocabulary for the task graph: order, data, and who reads and writes what
-/
namespace Verif.Graph

/-- `b` can only run after `a` finished, because of a chain of `link_tasks` calls in `l`. -/
def Before (l : List Call) (a b : Tk) : Prop := Relation.TransGen (fun a b => Call.link a b ∈ l) a b

/-- Position of a T-matrix in the order of creation. -/
def pos (P : Params) (c : Cell) : Nat := (cells P).idxOf c

/-- The slot (interaction resource and pair of T-matrices) that the calculation uses: the slots are used in turn. -/
def slot (P : Params) (c : Cell) : Nat := pos P c % P.nt

/-- The parameters make sense: at least one slot, at least one order, and `nq = maximum - minimum order`. -/
structure Sensible (P : Params) : Prop where
  slots : 0 < P.nt
  orders : 0 < P.nq
  le : P.nq ≤ P.maxOrder

/-- the T-matrix calculation that a task belongs to -/
def cellOf : Tk → Option Cell
  | .inter c _ | .m0 c _ | .mall c _ | .align c | .meas _ c | .reset1 c | .reset2 c | .reset3 c => some c
  | _ => none

/-- Pieces of data that tasks read and write. -/
inductive Loc
  | nbased
  | gauss (i : Nat)
  | grid (q : Qty)
  | swig (q : Qty)
  | wigner (i : Nat)
  | geom (is ig : Nat)
  /-- Bessel functions in the interaction resource of slot `s` -/
  | inter (s : Nat)
  /-- order and coefficients of T-matrix object `i` -/
  | head (i : Nat)
  /-- the elements with a given `m` of T-matrix object `i` -/
  | block (i m : Nat)
  | conv (c : Cell)
  | unav (q : Qty) (c : Cell)
  | result (q : Qty) (p : Par)
  deriving DecidableEq

/-- everything in T-matrix object `i` -/
def whole (P : Params) (i : Nat) : List Loc := .head i :: (List.range (P.maxOrder + 1)).map (.block i)

/-- What the `execute` function of a task writes: NBasedResources.hpp, GaussBasedResources.hpp,
ExtinctionCoefficientTask.hpp (grid, Wigner functions, coefficients), the same for absorption and scattering,
WignerDResources.hpp, ParticleGeometryResource.hpp, InteractionResource.hpp:480-545, 590 (`InteractionTask`,
`ResetInteractionResourceTask`), TMatrixResource.hpp:579-790, 893-1122, 1271-1283, AlignmentAverageTask.hpp:115-215,
ShapeAveragingTask.hpp. -/
def writes (P : Params) : Tk → List Loc
  | .nbased => [.nbased]
  | .gauss i => [.gauss i]
  | .grid q => [.grid q]
  | .swig q => [.swig q]
  | .wigner i => [.wigner i]
  | .geom is ig => [.geom is ig]
  | .inter c _ => [.inter (slot P c)]
  | .m0 c _ => [.head (2 * slot P c), .block (2 * slot P c) 0, .conv c]
  | .mall c m => [.block (2 * slot P c) m]
  | .align c => whole P (2 * slot P c + 1)
  | .meas q c => [.unav q c]
  | .reset1 c => whole P (2 * slot P c)
  | .reset2 c => whole P (2 * slot P c + 1)
  | .reset3 c => [.inter (slot P c)]
  | .avg q p => [.result q p]

/-- What the `execute` function of a task reads (same places).  `TMatrixMAllTask` reads the quadrature points,
geometry and Wigner functions of the order that converged, through pointers stored by the m = 0 task: any of them. -/
def reads (P : Params) : Tk → List Loc
  | .nbased | .gauss _ | .grid _ => []
  | .swig q => [.grid q]
  | .wigner i => [.gauss i]
  | .geom _ ig => [.gauss ig]
  | .inter c ig => [.geom c.ish ig, .conv c]
  | .m0 c ig => [.nbased, .gauss ig, .geom c.ish ig, .wigner ig, .inter (slot P c), .conv c,
      .head (2 * slot P c), .block (2 * slot P c) 0]
  | .mall c _ => [.nbased, .conv c, .inter (slot P c)]
      ++ (List.range P.nq).flatMap fun ig => [.gauss ig, .geom c.ish ig, .wigner ig]
  | .align c => whole P (2 * slot P c)
  | .meas q c => [.nbased, .grid q, .swig q] ++ whole P (2 * slot P c + 1)
  | .avg q p => (List.range P.nshape).map fun ish => .unav q ⟨p, ish⟩
  | .reset1 _ | .reset2 _ | .reset3 _ => []

/-- The task whose output a reader is meant to see; `none` is the initial content (set by the constructor). -/
def source (P : Params) (b : Tk) (x : Loc) : Option Tk :=
  match x with
  | .nbased => some .nbased
  | .gauss i => some (.gauss i)
  | .grid q => some (.grid q)
  | .swig q => some (.swig q)
  | .wigner i => some (.wigner i)
  | .geom is ig => some (.geom is ig)
  | .unav q c => some (.meas q c)
  | .result q p => some (.avg q p)
  | .conv c =>
    match b with
    | .inter _ ig | .m0 _ ig => if ig = 0 then none else some (.m0 c (ig - 1))
    | _ => some (.m0 c (P.nq - 1))
  | .inter _ =>
    match b with
    | .m0 c ig => some (.inter c ig)
    | .mall c _ => some (.inter c (P.nq - 1))
    | _ => none
  | .head _ =>
    match b with
    | .m0 c ig =>
      if ig = 0 then (if P.nt ≤ pos P c then ((cells P)[pos P c - P.nt]?).map .reset1 else none)
      else some (.m0 c (ig - 1))
    | .align c => some (.m0 c (P.nq - 1))
    | .meas _ c => some (.align c)
    | _ => none
  | .block _ m =>
    match b with
    | .m0 c ig =>
      if ig = 0 then (if P.nt ≤ pos P c then ((cells P)[pos P c - P.nt]?).map .reset1 else none)
      else some (.m0 c (ig - 1))
    | .align c => if m = 0 then some (.m0 c (P.nq - 1)) else some (.mall c m)
    | .meas _ c => some (.align c)
    | _ => none

/-- Everything that task `b` reads from `x` was written by the intended task, and cannot have been overwritten: the
source ends before `b` starts, and every other task that writes `x` ends before the source starts or starts after `b`
ended.  Without a source, all (other) writers start after `b` ended. -/
def Sees (P : Params) (l : List Call) (b : Tk) (x : Loc) : Prop :=
  match source P b x with
  | some a => Call.task a ∈ l ∧ x ∈ writes P a ∧ Before l a b ∧
      ∀ w, Call.task w ∈ l → x ∈ writes P w → w = a ∨ w = b ∨ Before l w a ∨ Before l b w
  | none => ∀ w, Call.task w ∈ l → x ∈ writes P w → w = b ∨ Before l b w

/-- The id that the scheduler gives to a task. -/
def tid (l : List Call) (t : Tk) : Nat := (tasksIn l).idxOf t

/-- The id that the scheduler gives to a resource. -/
def rid (l : List Call) (r : Rs) : Nat := (resIn l).idxOf r

end Verif.Graph
