import Verif.Spec.Content

/-!
# Specification: tables of particles that look the same upside down
-/
namespace Verif.Content

/-- signs of the Stokes parameters when the plane that is perpendicular to the axis is a mirror -/
def stokesSign : Fin 4 → ℝ := ![1, 1, -1, -1]

/-- entries for mirrored directions: efficiencies are the same, and scattering matrices when the last two Stokes parameters are reversed before and after -/
def MirrorTable (H : Problem) : Val → Prop
  | .ext E => ∀ it < H.ntheta, ∀ jt < H.ntheta, H.theta jt = Real.pi - H.theta it → E.Qext jt = E.Qext it ∧ E.Qextpol jt = E.Qextpol it ∧ E.Qextcpol jt = E.Qextcpol it
  | .abs A => ∀ it < H.ntheta, ∀ jt < H.ntheta, H.theta jt = Real.pi - H.theta it → A.Qabs jt = A.Qabs it ∧ A.Qabspol jt = A.Qabspol it
  | .scat Z => ∀ it < H.ntheta, ∀ ip < 2 * H.ntheta, ∀ r k : Fin 4,
      Z ((H.ntheta - 1 - it) * (2 * H.ntheta) + ip) r k = stokesSign r * stokesSign k * Z (it * (2 * H.ntheta) + ip) r k
  | _ => False

/-- the points and weights of the rule with `n` points are symmetric (C32) -/
def SymmetricRule (H : Problem) (n : Nat) : Prop := ∀ i < n, (H.gl n).1 (n - 1 - i) = -(H.gl n).1 i ∧ (H.gl n).2 (n - 1 - i) = (H.gl n).2 i

end Verif.Content
