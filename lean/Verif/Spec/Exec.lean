import Verif.Model.Exec

/-!
# Vocabulary: what tasks may touch, and in which orders they may run
-/
namespace Verif.Exec

variable {L V : Type}

/-- The program reads only locations in `R` and `W` and the auxiliary space number `id`, and writes only locations in `W` and that
auxiliary space. -/
def Within (R W : L → Prop) (id : Nat) : Prog (Place L) V → Prop
  | .done => True
  | .read (.inl x) k => (R x ∨ W x) ∧ ∀ v, Within R W id (k v)
  | .read (.inr i) k => i = id ∧ ∀ v, Within R W id (k v)
  | .write (.inl x) _ k => W x ∧ Within R W id k
  | .write (.inr i) _ k => i = id ∧ Within R W id k

/-- Tasks that keep to what they declare, and whose results depend neither on the number of the thread nor on what is left in the
auxiliary space. -/
structure WellBehaved {T : Type} [DecidableEq L] (R W : T → L → Prop) (body : T → Nat → Prog (Place L) V) : Prop where
  within : ∀ t id, Within (R t) (W t) id (body t id)
  results : ∀ t id id' m m', (∀ x, R t x ∨ W t x → m (.inl x) = m' (.inl x)) →
    ∀ x, W t x → (body t id).run m (.inl x) = (body t id').run m' (.inl x)

/-- an order in which all of the given tasks can be run one by one without violating a dependency -/
def Order {T : Type} (tasks : List T) (dep : T → T → Prop) (l : List T) : Prop :=
  l.Perm tasks ∧ l.Pairwise fun a b => ¬ dep b a

end Verif.Exec
