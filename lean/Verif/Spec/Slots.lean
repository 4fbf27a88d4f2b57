import Verif.Model.Slots
import Verif.Spec.Exec

/-!
# Vocabulary: objects that are used again and again, and tasks that clear them
-/
namespace Verif.Graph
open Verif.Exec

/-- the locations in objects that several T-matrix calculations use in turn -/
def Loc.shared : Loc → Bool
  | .inter _ | .head _ | .block _ _ => true
  | _ => false

/-- The three clearing tasks leave the object they clear with a fixed content `clean`, whatever was in it before.  (`clean` speaks about "my
objects", those of slot 0: `TMatrixResource.hpp:1271-1283`, `InteractionResource.hpp:590-606`.) -/
def Clears {V : Type} (P : Params) (code : Tk → Nat → Prog (Place Loc) V) (clean : Loc → V) : Prop :=
  ∀ t c, t = Tk.reset1 c ∨ t = Tk.reset2 c ∨ t = Tk.reset3 c → ∀ id m, ∀ x ∈ writes (one P) t, (code t id).run m (.inl x) = clean x

/-- The objects of all slots start with that content (constructors, TMatrixResource.hpp:122-131, InteractionResource.hpp:194-200). -/
def AllClean {V : Type} (P : Params) (clean : Loc → V) (m : Place Loc → V) : Prop :=
  ∀ s < P.nt, (m (.inl (.inter s)) = clean (.inter 0)) ∧
    ∀ j < 2, m (.inl (.head (j + 2 * s))) = clean (.head j) ∧ ∀ k ≤ P.maxOrder, m (.inl (.block (j + 2 * s) k)) = clean (.block j k)

end Verif.Graph
