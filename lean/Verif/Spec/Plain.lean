import Verif.Spec.Slots

/-!
# A table calculation as a plain program: nested loops on one thread, with one set of objects
-/
namespace Verif.Graph

/-- the data shared by all calculations -/
def fixedTasks (P : Params) : List Tk :=
  .nbased :: ((List.range P.nq).map .gauss ++ (qtys P).map .grid ++ (qtys P).map .swig ++ (List.range P.nq).map .wigner
    ++ (List.range P.nshape).flatMap fun is => (List.range P.nq).map fun ig => .geom is ig)

/-- one T-matrix: try one order after the other, then do the other degrees, average over orientations, compute the wanted quantities, clear the objects -/
def cellTasks (P : Params) (c : Cell) : List Tk :=
  ((List.range P.nq).flatMap fun ig => [.inter c ig, .m0 c ig]) ++ (List.range P.maxOrder).map (fun i => .mall c (i + 1)) ++ [.align c]
    ++ (qtys P).map (fun q => .meas q c) ++ [.reset1 c, .reset2 c, .reset3 c]

/-- all T-matrices, one after the other, then the averages over the shapes -/
def plain (P : Params) : List Tk :=
  fixedTasks P ++ (cells P).flatMap (cellTasks P) ++ (pars P).flatMap fun p => (qtys P).map fun q => .avg q p

/-- only quantity `q` is asked for -/
def only (P : Params) (q : Qty) : Params := { P with want := fun q' => decide (q' = q) }

/-- the calculation of a single entry of the table: one quantity for one composition, size and wavelength -/
def alone (P : Params) (q : Qty) (p : Par) : List Tk :=
  fixedTasks (only P q) ++ ((List.range P.nshape).flatMap fun ish => cellTasks (only P q) ⟨p, ish⟩) ++ [.avg q p]

end Verif.Graph
