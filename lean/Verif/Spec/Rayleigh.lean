import Verif.Spec.MieScatter

/-!
# Specification: grains that are small compared with the wavelength

Bohren & Huffman (1983), section 5.2 (Rayleigh scattering): the grain is an electric dipole.
-/
namespace Verif.Mie

noncomputable section

/-- the Clausius-Mossotti factor: the polarisability divided by `4 π r³` -/
def clausius (m : ℂ) : ℂ := (m ^ 2 - 1) / (m ^ 2 + 2)

/-- The refractive index `m` is not zero, and the dielectric function `m²` is not a negative number less than -1 (in which a small sphere has resonances). -/
def Solid (m : ℂ) : Prop := m ≠ 0 ∧ ((m ^ 2).im ≠ 0 ∨ -1 ≤ (m ^ 2).re)

end

end Verif.Mie
