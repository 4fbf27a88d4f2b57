import Verif.Spec.Content

/-!
# Specification: light along the axis
-/
namespace Verif.Content

/-- Light along the axis, from either side: the extinction is the same for all polarisations, and so is the absorption when it is what is extinguished. -/
def AlongAxis (H : Problem) : Val → Prop
  | .ext E => ∀ it < H.ntheta, H.theta it = 0 ∨ H.theta it = Real.pi → E.Qextpol it = 0 ∧ E.Qextcpol it = 0
  | .abs A => H.accountForScattering = false → ∀ it < H.ntheta, H.theta it = 0 ∨ H.theta it = Real.pi → A.Qabspol it = 0
  | _ => False

end Verif.Content
