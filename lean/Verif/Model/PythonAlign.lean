import Verif.Model.Alignment
import Verif.Model.Python

/-!
# The average over orientations for a grain of a table

`TaskManager::generate_tasks` gives every averaging task the orientation distribution that the alignment distribution of the user has for the size and shape
(TaskManager.hpp:1111-1120); the alignment distribution is created from Python (PyAlignmentDistribution.hpp:104-171).
-/
namespace Verif.Python

open Verif.TMatrix (TRes)
open Verif.Clebsch (Vec)
open Verif.Orientation (Fail SizeBased sizeBased getDistribution)

noncomputable section

/-- arguments of `SizeBasedAlignmentDistribution` in Python (PyAlignmentDistribution.hpp:108-156) -/
structure AlignArgs where
  minimumSize : ℝ
  type : Int
  maximumOrder : Nat := 100
  oblate : Option (Orientation.Dist ℝ) := none
  prolate : Option (Orientation.Dist ℝ) := none

/-- `__init__` (PyAlignmentDistribution.hpp:158-168); `o` are the elementary functions -/
def alignInit (o : Special.Ops ℝ) (fuel : Nat) (A : AlignArgs) : Except Fail (SizeBased ℝ) :=
  sizeBased o fuel A.minimumSize A.type A.maximumOrder A.oblate A.prolate

/-- the averaging task of a grain (TaskManager.hpp:1111-1120, AlignmentAverageTask.hpp:115-224): `C` is the work space, `out` the T-matrix that is overwritten -/
def alignTask (s : SizeBased ℝ) (radius axisRatio : ℝ) (inp : TRes ℂ ℝ) (C : Vec ℝ) (out : TRes ℂ ℝ) : Alignment.State ℂ ℝ :=
  let d := getDistribution s radius axisRatio
  Alignment.execute Real.sqrt (fun x : ℝ => (x : ℂ)) d.align inp ⟨C, ⟨d.size, fun i => d.coef i.toNat, true⟩, out⟩

end

end Verif.Python
