import Verif.Spec.MirrorTable

/-!
# Specification: scattering matrices left and right of the plane of the incoming light
-/
namespace Verif.Content

/-- scattering matrices for directions that are mirrored in the plane of the axis and the incoming light (azimuths that add up to a full turn): they are the same when the last
two Stokes parameters are reversed before and after -/
def LeftRight (H : Problem) : Val → Prop
  | .scat Z => ∀ it < H.ntheta, ∀ ip < 2 * H.ntheta, ∀ jp < 2 * H.ntheta, gridφ H (2 * H.ntheta) jp = 2 * Real.pi - gridφ H (2 * H.ntheta) ip →
      ∀ r k : Fin 4, Z (it * (2 * H.ntheta) + jp) r k = stokesSign r * stokesSign k * Z (it * (2 * H.ntheta) + ip) r k
  | _ => False

end Verif.Content
