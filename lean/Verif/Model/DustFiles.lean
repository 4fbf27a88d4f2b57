import Verif.Model.TableFile
import Verif.Model.Optics

/-!
# Dust properties from the data files: `DraineDustProperties::DraineDustProperties` (DraineDustProperties.hpp:150-200)
-/
namespace Verif.DustFiles

open Verif.Text Verif.TableFile Verif.Optics

set_option autoImplicit false

/-- the rows of a table with their number (Table.hpp:95, 103-118, 152) -/
noncomputable def asTable (rows : List (List ℝ)) : Nat × Rows := (rows.length, fun i j => (rows.getD i []).getD j 0)

/-- constructor with the files it reads (DraineDustProperties.hpp:150-200); the conversions after reading are those of `dust` -/
noncomputable def dustOfFiles (T : ℝ) (sil par per : Option (List Char)) : Except Failure Dust :=
  match fromAscii 5 [] sil, fromAscii 5 [] par, fromAscii 5 [] per with
  | .ok s, .ok p, .ok q => .ok (dust T (asTable s) (asTable p) (asTable q))
  | _, _, _ => .error .error

end Verif.DustFiles
