import Verif.Spec.Content

/-!
# Specification: absorption is at most extinction
-/
namespace Verif.Content

/-- The difference of the extinction and the absorption efficiencies is not negative, and neither is that for light which is polarised along one of the two directions. -/
def BelowExtinction (H : Problem) : Val → Val → Prop
  | .ext E, .abs A => ∀ it < H.ntheta, |E.Qextpol it - A.Qabspol it| ≤ E.Qext it - A.Qabs it
  | _, _ => False

/-- The same when scattering is not accounted for: there is no difference. -/
def IsExtinguished (H : Problem) : Val → Val → Prop
  | .ext E, .abs A => ∀ it < H.ntheta, A.Qabs it = E.Qext it ∧ A.Qabspol it = E.Qextpol it
  | _, _ => False

end Verif.Content
