import Verif.Spec.Content

/-!
# Specification: a calculation with all lengths scaled
-/
namespace Verif.Content

open Verif.Graph

/-- grains that are `u` times larger, in light of which the wavelengths are `u` times larger; everything else is the same -/
def scaled (u : ℝ) (H : Problem) : Problem := { H with radius := fun p => u * H.radius p, wavelength := fun p => u * H.wavelength p }

/-- how entries of the two tables are related: efficiencies are the same, scattering matrices are areas -/
def Rescaled (u : ℝ) (H : Problem) : Val → Val → Prop
  | .ext E, .ext E' => ∀ it < H.ntheta, E'.Qext it = E.Qext it ∧ E'.Qextpol it = E.Qextpol it ∧ E'.Qextcpol it = E.Qextcpol it
  | .abs A, .abs A' => ∀ it < H.ntheta, A'.Qabs it = A.Qabs it ∧ A'.Qabspol it = A.Qabspol it
  | .scat Z, .scat Z' => ∀ it < H.ntheta, ∀ ip < 2 * H.ntheta, ∀ r k : Fin 4, Z' (it * (2 * H.ntheta) + ip) r k = u ^ 2 * Z (it * (2 * H.ntheta) + ip) r k
  | _, _ => False

end Verif.Content
