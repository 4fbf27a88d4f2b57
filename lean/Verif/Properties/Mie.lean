import Verif.Proofs.MieMatrix
import Verif.Proofs.MieBessel
import Verif.Properties.Random

/-!
# C101: spheres

For grains with axis ratio 1 the whole machinery reduces to Mie theory.
-/
namespace Verif.Mie

open Finset Filter Topology Verif.Scatter Verif.Refine Verif.Rotation Verif.TMatrix.Spec Verif.Content
open Verif.Direct (theory alphaF)

/-! ## one coefficient -/

section coefficient

variable {p q : ℂ} {u u' v v' : ℝ} (hW : u * v' - u' * v = 1)
include hW

theorem denominator_normSq :
    Complex.normSq (p * (u' + Complex.I * v') - q * (u + Complex.I * v))
      = Complex.normSq (p * u' - q * u) + Complex.normSq (p * v' - q * v) + 2 * (p * (starRingEnd ℂ) q).im := by
  simp only [Complex.normSq_apply, Complex.sub_re, Complex.sub_im, Complex.mul_re, Complex.mul_im, Complex.add_re, Complex.add_im, Complex.I_re, Complex.I_im,
    Complex.ofReal_re, Complex.ofReal_im, Complex.conj_re, Complex.conj_im]
  linear_combination (2 * (p.im * q.re - p.re * q.im)) * hW

theorem denominator_ne (hF : 0 ≤ (p * (starRingEnd ℂ) q).im) (hne : ¬ (p = 0 ∧ q = 0)) : p * (u' + Complex.I * v') - q * (u + Complex.I * v) ≠ 0 := by
  intro h
  have e := denominator_normSq (p := p) (q := q) hW
  rw [h, map_zero] at e
  have h1 := Complex.normSq_nonneg (p * u' - q * u)
  have h2 := Complex.normSq_nonneg (p * v' - q * v)
  have e1 : p * u' - q * u = 0 := Complex.normSq_eq_zero.1 (by linarith)
  have e2 : p * v' - q * v = 0 := Complex.normSq_eq_zero.1 (by linarith)
  have hW' : (u : ℂ) * v' - u' * v = 1 := by exact_mod_cast congrArg (fun z : ℝ => (z : ℂ)) hW
  refine hne ⟨?_, ?_⟩
  · linear_combination (-p) * hW' + u * e2 - v * e1
  · linear_combination (-q) * hW' + u' * e2 - v' * e1

/-- what is extinguished and not scattered -/
theorem coefficient_energy (hF : 0 ≤ (p * (starRingEnd ℂ) q).im) (hne : ¬ (p = 0 ∧ q = 0)) :
    ((p * u' - q * u) / (p * (u' + Complex.I * v') - q * (u + Complex.I * v))).re
      = Complex.normSq ((p * u' - q * u) / (p * (u' + Complex.I * v') - q * (u + Complex.I * v)))
        + (p * (starRingEnd ℂ) q).im / Complex.normSq (p * (u' + Complex.I * v') - q * (u + Complex.I * v)) := by
  have h0 : Complex.normSq (p * (u' + Complex.I * v') - q * (u + Complex.I * v)) ≠ 0 := (Complex.normSq_pos.2 (denominator_ne hW hF hne)).ne'
  rw [Complex.normSq_div, ← add_div, Complex.div_re, ← add_div]
  congr 1
  simp only [Complex.normSq_apply, Complex.sub_re, Complex.sub_im, Complex.mul_re, Complex.mul_im, Complex.add_re, Complex.add_im, Complex.I_re, Complex.I_im,
    Complex.ofReal_re, Complex.ofReal_im, Complex.conj_re, Complex.conj_im]
  linear_combination (p.im * q.re - p.re * q.im) * hW

end coefficient

/-- the two pairs of functions inside the sphere, and those outside -/
theorem pairs {m : ℂ} (hm : m ≠ 0) (him : 0 ≤ (m ^ 2).im) {x : ℝ} (hx : 0 < x) (n : Nat) :
    ∃ u u' v v' : ℝ, u * v' - u' * v = 1 ∧ ψ (n + 1) x = u ∧ deriv (ψ (n + 1)) x = u' ∧ χ (n + 1) x = v ∧ deriv (χ (n + 1)) x = v'
      ∧ ξ (n + 1) x = u + Complex.I * v ∧ deriv (ξ (n + 1)) x = u' + Complex.I * v'
      ∧ 0 ≤ (m * ψ (n + 1) (m * x) * (starRingEnd ℂ) (deriv (ψ (n + 1)) (m * x))).im
      ∧ 0 ≤ (ψ (n + 1) (m * x) * (starRingEnd ℂ) (m * deriv (ψ (n + 1)) (m * x))).im
      ∧ ¬ (m * ψ (n + 1) (m * x) = 0 ∧ deriv (ψ (n + 1)) (m * x) = 0) ∧ ¬ (ψ (n + 1) (m * x) = 0 ∧ m * deriv (ψ (n + 1)) (m * x) = 0) := by
  have hxc : (x : ℂ) ≠ 0 := Complex.ofReal_ne_zero.2 hx.ne'
  obtain ⟨u, hu⟩ := ψ_real hx.ne' (n + 1)
  obtain ⟨u', hu'⟩ := dψ_real hx.ne' n
  obtain ⟨v, hv⟩ := χ_real hx.ne' (n + 1)
  obtain ⟨v', hv'⟩ := dχ_real hx.ne' n
  have hw := wronskian n hxc
  rw [hu, hu', hv, hv'] at hw
  have hw2 := wronskian n (mul_ne_zero hm hxc)
  obtain ⟨h1, h2⟩ := inwards n hm him hx
  refine ⟨u, u', v, v', by exact_mod_cast hw, hu, hu', hv, hv', ?_, ?_, h1, h2, ?_, ?_⟩
  · unfold ξ
    rw [hu, hv]
  · rw [ξ_deriv n hxc, hu', hv']
  · rintro ⟨e1, e2⟩
    rw [e2, (mul_eq_zero.1 e1).resolve_left hm] at hw2
    simp at hw2
  · rintro ⟨e1, e2⟩
    rw [e1, (mul_eq_zero.1 e2).resolve_left hm] at hw2
    simp at hw2

/-- the coefficients of a sphere: the denominators are not zero, no more light is scattered than is extinguished, and the same amount if the refractive index is real -/
theorem c101_coefficients {m : ℂ} (hm : m ≠ 0) (him : 0 ≤ (m ^ 2).im) {x : ℝ} (hx : 0 < x) {n : Nat} (hn : 1 ≤ n) :
    (m * ψ n (m * x) * deriv (ξ n) x - ξ n x * deriv (ψ n) (m * x) ≠ 0 ∧ ψ n (m * x) * deriv (ξ n) x - m * ξ n x * deriv (ψ n) (m * x) ≠ 0)
    ∧ (Complex.normSq (a m x n) ≤ (a m x n).re ∧ Complex.normSq (b m x n) ≤ (b m x n).re)
    ∧ (m.im = 0 → Complex.normSq (a m x n) = (a m x n).re ∧ Complex.normSq (b m x n) = (b m x n).re) := by
  obtain ⟨n, rfl⟩ : ∃ k, n = k + 1 := ⟨n - 1, by omega⟩
  obtain ⟨u, u', v, v', hW, h1, h2, h3, h4, h5, h6, f1, f2, n1, n2⟩ := pairs hm him hx n
  have hA : a m x (n + 1) = (m * ψ (n + 1) (m * x) * u' - deriv (ψ (n + 1)) (m * x) * u)
      / (m * ψ (n + 1) (m * x) * (u' + Complex.I * v') - deriv (ψ (n + 1)) (m * x) * (u + Complex.I * v)) := by
    unfold a
    rw [h6, h5, h1, h2]
    ring
  have hB : b m x (n + 1) = (ψ (n + 1) (m * x) * u' - m * deriv (ψ (n + 1)) (m * x) * u)
      / (ψ (n + 1) (m * x) * (u' + Complex.I * v') - m * deriv (ψ (n + 1)) (m * x) * (u + Complex.I * v)) := by
    unfold b
    rw [h6, h5, h1, h2]
    ring
  have d1 := denominator_ne hW f1 n1
  have d2 := denominator_ne hW f2 n2
  have e1 := coefficient_energy hW f1 n1
  have e2 := coefficient_energy hW f2 n2
  rw [← hA] at e1
  rw [← hB] at e2
  refine ⟨⟨?_, ?_⟩, ⟨?_, ?_⟩, fun hr => ?_⟩
  · rw [h6, h5]
    convert d1 using 1
    ring
  · rw [h6, h5]
    convert d2 using 1
    ring
  · rw [e1]
    have := div_nonneg f1 (Complex.normSq_nonneg (m * ψ (n + 1) (m * x) * (u' + Complex.I * v') - deriv (ψ (n + 1)) (m * x) * (u + Complex.I * v)))
    linarith
  · rw [e2]
    have := div_nonneg f2 (Complex.normSq_nonneg (ψ (n + 1) (m * x) * (u' + Complex.I * v') - m * deriv (ψ (n + 1)) (m * x) * (u + Complex.I * v)))
    linarith
  · obtain ⟨r, rfl⟩ : ∃ r : ℝ, m = r := ⟨m.re, Complex.ext rfl (by simpa using hr)⟩
    have hr0 : r ≠ 0 := Complex.ofReal_ne_zero.1 hm
    obtain ⟨w, hw⟩ := ψ_real (mul_ne_zero hr0 hx.ne') (n + 1)
    obtain ⟨w', hw'⟩ := dψ_real (mul_ne_zero hr0 hx.ne') n
    rw [Complex.ofReal_mul] at hw hw'
    have z1 : ((r : ℂ) * ψ (n + 1) (r * x) * (starRingEnd ℂ) (deriv (ψ (n + 1)) (r * x))).im = 0 := by
      rw [hw, hw', Complex.conj_ofReal, ← Complex.ofReal_mul, ← Complex.ofReal_mul, Complex.ofReal_im]
    have z2 : (ψ (n + 1) (r * x) * (starRingEnd ℂ) ((r : ℂ) * deriv (ψ (n + 1)) (r * x))).im = 0 := by
      rw [hw, hw', ← Complex.ofReal_mul, Complex.conj_ofReal, ← Complex.ofReal_mul, Complex.ofReal_im]
    rw [e1, e2, z1, z2]
    simp

/-! ## the T-matrix -/

section matrix

variable {H : Problem} {B : Nat → Content.Bessel} {p : Graph.Par} (hS : Spheres H B p) {s g : Nat} (hs : s < H.P.nshape) (hg : g < H.P.nq)
include hS

theorem size_pos : 0 < size H p := by
  unfold size waveK
  have := hS.wavelength
  have := hS.radius
  positivity

include hg

theorem degree_ok {n n' : Nat} (h1 : n ≤ orderAt H g) (h2 : n' ≤ orderAt H g) : n + n' < 2 * (2 * halfPts H g) := by
  have h : orderAt H g ≤ halfPts H g := by
    unfold orderAt halfPts
    exact Nat.le_mul_of_pos_right _ hS.factor
  have : 1 ≤ orderAt H g := le_trans hS.order (Nat.le_add_right _ _)
  omega

include hs

theorem const_out : Const (outAt H B ⟨p, s⟩ g) (fun n => ξ n (size H p) / (size H p : ℂ)) (fun n => (deriv (ψ n) (size H p) + Complex.I * deriv (χ n) (size H p)) / (size H p : ℂ)) := by
  have hx : (size H p : ℂ) ≠ 0 := Complex.ofReal_ne_zero.2 (size_pos hS).ne'
  constructor
  · intro i n
    change (B g).j n (xAt H ⟨p, s⟩ g i) + Complex.I * (B g).y n (xAt H ⟨p, s⟩ g i) = _
    rw [xAt_size (hS.round s hs), hS.bessel g hg]
    simp only [exact, ξ, ψ, χ]
    field_simp
  · intro i n
    change (B g).dj n (xAt H ⟨p, s⟩ g i) + Complex.I * (B g).dy n (xAt H ⟨p, s⟩ g i) = _
    rw [xAt_size (hS.round s hs), hS.bessel g hg]
    simp only [exact]
    ring

theorem const_reg : Const (regAt H B ⟨p, s⟩ g) (fun n => ψ n (size H p) / (size H p : ℂ)) (fun n => deriv (ψ n) (size H p) / (size H p : ℂ)) := by
  have hx : (size H p : ℂ) ≠ 0 := Complex.ofReal_ne_zero.2 (size_pos hS).ne'
  constructor
  · intro i n
    change (B g).j n (xAt H ⟨p, s⟩ g i) = _
    rw [xAt_size (hS.round s hs), hS.bessel g hg]
    simp only [exact, ψ]
    field_simp
  · intro i n
    change (B g).dj n (xAt H ⟨p, s⟩ g i) = _
    rw [xAt_size (hS.round s hs), hS.bessel g hg]
    rfl

theorem const_inside : Const (insideAt H B ⟨p, s⟩ g) (fun n => ψ n (H.mr p * size H p) / (H.mr p * size H p)) (fun n => deriv (ψ n) (H.mr p * size H p) / (H.mr p * size H p)) := by
  have hx : (size H p : ℂ) ≠ 0 := Complex.ofReal_ne_zero.2 (size_pos hS).ne'
  have hm := hS.index
  constructor
  · intro i n
    change (B g).jm n (H.mr p * xAt H ⟨p, s⟩ g i) = _
    rw [xAt_size (hS.round s hs), hS.bessel g hg]
    simp only [exact, ψ]
    field_simp
  · intro i n
    change (B g).djm n (H.mr p * xAt H ⟨p, s⟩ g i) = _
    rw [xAt_size (hS.round s hs), hS.bessel g hg]
    rfl

/-- common factor of all elements -/
noncomputable def common (H : Problem) (p : Graph.Par) : ℂ := 2 * (waveK H p : ℂ) ^ 2 / (size H p * (H.mr p * size H p))

omit hs hg in
theorem common_ne : common H p ≠ 0 := by
  have hx : (size H p : ℂ) ≠ 0 := Complex.ofReal_ne_zero.2 (size_pos hS).ne'
  have hk : (waveK H p : ℂ) ≠ 0 := by
    refine Complex.ofReal_ne_zero.2 ?_
    unfold waveK
    have := hS.wavelength
    positivity
  have := hS.index
  unfold common
  exact div_ne_zero (mul_ne_zero two_ne_zero (pow_ne_zero _ hk)) (mul_ne_zero hx (mul_ne_zero this hx))

/-- denominators and numerators of the coefficients -/
noncomputable def den (m : ℂ) (x : ℝ) (i n : Nat) : ℂ :=
  if i = 0 then ψ n (m * x) * deriv (ξ n) x - m * ξ n x * deriv (ψ n) (m * x) else m * ψ n (m * x) * deriv (ξ n) x - ξ n x * deriv (ψ n) (m * x)

noncomputable def nom (m : ℂ) (x : ℝ) (i n : Nat) : ℂ :=
  if i = 0 then ψ n (m * x) * deriv (ψ n) x - m * ψ n x * deriv (ψ n) (m * x) else m * ψ n (m * x) * deriv (ψ n) x - ψ n x * deriv (ψ n) (m * x)

omit hs hg in
theorem den_ne {i n : Nat} (hn : 1 ≤ n) : den (H.mr p) (size H p) i n ≠ 0 := by
  obtain ⟨⟨h1, h2⟩, -⟩ := c101_coefficients hS.index hS.passive (size_pos hS) hn
  unfold den
  split_ifs
  · exact h2
  · exact h1

theorem Q_out {m n n' i i' : Nat} (hn : 1 ≤ n) (hn' : 1 ≤ n') (hm : m ≤ n) (hm' : m ≤ n') (hnN : n ≤ orderAt H g) (hnN' : n' ≤ orderAt H g) (hi : i < 2) (hi' : i' < 2) :
    Q Complex.I (surfaceAt H ⟨p, s⟩ g) (2 * halfPts H g) γ (factorA H p) (factorB H p) (outAt H B ⟨p, s⟩ g) (insideAt H B ⟨p, s⟩ g) m i n i' n'
      = if i = i' ∧ n = n' then -(common H p * den (H.mr p) (size H p) i n) else 0 := by
  rw [Q_sphere (hS.round s hs) (hS.gauss g hg) hn hn' hm hm' (degree_ok hS hg hnN hnN') (const_out hS hs hg) (const_inside hS hs hg) _ _ hi hi']
  have hx : (size H p : ℂ) ≠ 0 := Complex.ofReal_ne_zero.2 (size_pos hS).ne'
  have hmr := hS.index
  obtain ⟨n, rfl⟩ : ∃ k, n = k + 1 := ⟨n - 1, by omega⟩
  have e := ξ_deriv n hx
  unfold diag common den factorA factorB
  beta_reduce
  rw [← e]
  split_ifs
  · field_simp
    ring
  · field_simp
    ring
  · rfl

theorem Q_reg {m n n' i i' : Nat} (hn : 1 ≤ n) (hn' : 1 ≤ n') (hm : m ≤ n) (hm' : m ≤ n') (hnN : n ≤ orderAt H g) (hnN' : n' ≤ orderAt H g) (hi : i < 2) (hi' : i' < 2) :
    Q Complex.I (surfaceAt H ⟨p, s⟩ g) (2 * halfPts H g) γ (factorA H p) (factorB H p) (regAt H B ⟨p, s⟩ g) (insideAt H B ⟨p, s⟩ g) m i n i' n'
      = if i = i' ∧ n = n' then -(common H p * nom (H.mr p) (size H p) i n) else 0 := by
  rw [Q_sphere (hS.round s hs) (hS.gauss g hg) hn hn' hm hm' (degree_ok hS hg hnN hnN') (const_reg hS hs hg) (const_inside hS hs hg) _ _ hi hi']
  have hx : (size H p : ℂ) ≠ 0 := Complex.ofReal_ne_zero.2 (size_pos hS).ne'
  have hmr := hS.index
  unfold diag common nom factorA factorB
  split_ifs
  · field_simp
    ring
  · field_simp
    ring
  · rfl

/-- the equations for the T-matrix of a sphere always have exactly one solution -/
theorem c101_solvable {m : Nat} (hm : m ≤ orderAt H g) : Solvable H B ⟨p, s⟩ g m := by
  unfold Solvable
  have : QMatrix Complex.I (surfaceAt H ⟨p, s⟩ g) (2 * halfPts H g) γ (factorA H p) (factorB H p) (outAt H B ⟨p, s⟩ g) (insideAt H B ⟨p, s⟩ g) m (orderAt H g)
      = _root_.Matrix.diagonal fun x => -(common H p * den (H.mr p) (size H p) x.1 (max 1 m + x.2)) := by
    ext x y
    have h1 := x.2.2
    have h2 := y.2.2
    unfold QMatrix
    rw [Q_out hS hs hg (by omega) (by omega) (by omega) (by omega) (by omega) (by omega) x.1.2 y.1.2, _root_.Matrix.diagonal_apply]
    refine if_congr ?_ rfl rfl
    constructor
    · rintro ⟨e1, e2⟩
      exact Prod.ext (Fin.ext e1) (Fin.ext (by omega))
    · rintro rfl
      exact ⟨rfl, rfl⟩
  rw [this, _root_.Matrix.det_diagonal]
  refine prod_ne_zero_iff.2 fun x _ => neg_ne_zero.2 (mul_ne_zero (common_ne hS) (den_ne hS (by omega)))

theorem isT_mie {m : Nat} {T : Nat → Nat → Nat → Nat → ℂ} (hT : IsT H B ⟨p, s⟩ g m T) {i n i' n' : Nat} (hi : i < 2) (hi' : i' < 2) (h1 : max 1 m ≤ n) (h2 : n ≤ orderAt H g)
    (h3 : max 1 m ≤ n') (h4 : n' ≤ orderAt H g) : T i n i' n' = if i = i' ∧ n = n' then -(if i = 0 then b (H.mr p) (size H p) n else a (H.mr p) (size H p) n) else 0 := by
  have key := hT i n i' n' hi hi' h1 h2 h3 h4
  rw [Q_reg hS hs hg (by omega) (by omega) (by omega) (by omega) h2 h4 hi hi', sum_eq_single_of_mem i' (mem_range.2 hi'), sum_eq_single_of_mem n' (mem_Ico.2 ⟨h3, by omega⟩),
    Q_out hS hs hg (by omega) (by omega) (by omega) (by omega) h4 h4 hi' hi', if_pos ⟨rfl, rfl⟩] at key
  · have hd := den_ne hS (i := i') (n := n') (by omega)
    have hc := common_ne hS
    have e : T i n i' n' = -(if i = i' ∧ n = n' then nom (H.mr p) (size H p) i n else 0) / den (H.mr p) (size H p) i' n' := by
      rw [eq_div_iff hd]
      refine mul_left_cancel₀ hc ?_
      split_ifs at key ⊢ with hq
      · linear_combination -key
      · linear_combination -key
    rw [e]
    split_ifs with hq h0
    · obtain ⟨rfl, rfl⟩ := hq
      unfold b nom den
      rw [if_pos h0, if_pos h0, neg_div]
    · obtain ⟨rfl, rfl⟩ := hq
      unfold a nom den
      rw [if_neg h0, if_neg h0, neg_div]
    · rw [neg_zero, zero_div]
  · intro k hk hne
    have hk := mem_Ico.1 hk
    rw [Q_out hS hs hg (by omega) (by omega) (by omega) (by omega) (by omega) h4 hi' hi', if_neg (fun h => hne h.2), mul_zero]
  · intro k hk hne
    refine sum_eq_zero fun l hl => ?_
    have hl := mem_Ico.1 hl
    rw [Q_out hS hs hg (by omega) (by omega) (by omega) (by omega) (by omega) h4 (mem_range.1 hk) hi', if_neg (fun h => hne h.1), mul_zero]

omit hg in
/-- the T-matrix of the grains is that of Mie theory -/
theorem c101_mie {T : Nat → Nat → Int → Nat → Nat → ℂ} (hT : IsGrain H B ⟨p, s⟩ g T) : IsMie T (H.mr p) (size H p) (orderAt H g) := by
  have hg := hT.order.1
  intro i n k i' n' hi hi' h1 h2 h3 h4 h5 h6
  obtain ⟨m, rfl | rfl⟩ : ∃ m : Nat, k = m ∨ k = -(m : Int) := ⟨k.natAbs, by omega⟩
  · have e5 : m ≤ n := by simpa using h5
    have e6 : m ≤ n' := by simpa using h6
    exact isT_mie hS hs hg (hT.pos m (by omega)) hi hi' (by omega) h2 (by omega) h4
  · have e5 : m ≤ n := by simpa using h5
    have e6 : m ≤ n' := by simpa using h6
    have := isT_mie hS hs hg (Content.neg_pos (hT.neg m (by omega))) hi hi' (by omega) h2 (by omega) h4
    have hsg : ((-1 : ℂ) ^ (i + i')) * (-1) ^ (i + i') = 1 := by rw [← pow_add, ← two_mul, pow_mul]; norm_num
    rw [show T i n (-(m : Int)) i' n' = (-1) ^ (i + i') * ((-1) ^ (i + i') * T i n (-(m : Int)) i' n') by rw [← mul_assoc, hsg, one_mul], this]
    split_ifs with hq h0
    · rw [hq.1, ← two_mul, pow_mul]
      norm_num
    · rw [hq.1, ← two_mul, pow_mul]
      norm_num
    · rw [mul_zero]

end matrix

/-! ## consequences for the cross sections -/

section mie

variable {T : Nat → Nat → Int → Nat → Nat → ℂ} {m : ℂ} {x : ℝ} {N : Nat} (hT : IsMie T m x N)
include hT

theorem mie_reciprocal : Reciprocal T N := by
  intro i n k i' n' hi hi' h1 h2 h3 h4 h5 h6
  rw [hT i n k i' n' hi hi' h1 h2 h3 h4 h5 h6, hT i' n' (-k) i n hi' hi h3 h4 h1 h2 (by rwa [abs_neg]) (by rwa [abs_neg])]
  by_cases h : i = i' ∧ n = n'
  · obtain ⟨rfl, rfl⟩ := h
    simp
  · rw [if_neg h, if_neg (fun h' => h ⟨h'.1.symm, h'.2.symm⟩)]

theorem mie_mirror : Refine.Mirror T N := by
  intro i n k i' n' hi hi' h1 h2 h3 h4 h5 h6 hodd
  rw [hT i n k i' n' hi hi' h1 h2 h3 h4 h5 h6, if_neg]
  rintro ⟨rfl, rfl⟩
  omega

theorem mie_apply (v : Nat → Nat → ℂ) {k : Int} {i n : Nat} (hi : i < 2) (hn : n ∈ Icc (max k.natAbs 1) N) :
    ∑ i' ∈ range 2, ∑ n' ∈ Icc (max k.natAbs 1) N, T i n k i' n' * v i' n' = -(if i = 0 then b m x n else a m x n) * v i n := by
  have h := mem_Icc.1 hn
  rw [sum_eq_single_of_mem i (mem_range.2 hi), sum_eq_single_of_mem n hn]
  · rw [hT i n k i n hi hi (by omega) h.2 (by omega) h.2 (by rw [Int.abs_eq_natAbs]; omega) (by rw [Int.abs_eq_natAbs]; omega), if_pos ⟨rfl, rfl⟩]
  · intro n' hn' hne
    have h' := mem_Icc.1 hn'
    rw [hT i n k i n' hi hi (by omega) h.2 (by omega) h'.2 (by rw [Int.abs_eq_natAbs]; omega) (by rw [Int.abs_eq_natAbs]; omega), if_neg (fun e => hne e.2.symm), zero_mul]
  · intro i' hi' hne
    refine sum_eq_zero fun n' hn' => ?_
    have h' := mem_Icc.1 hn'
    rw [hT i n k i' n' hi (mem_range.1 hi') (by omega) h.2 (by omega) h'.2 (by rw [Int.abs_eq_natAbs]; omega) (by rw [Int.abs_eq_natAbs]; omega), if_neg (fun e => hne e.1.symm), zero_mul]

theorem energy_term (v : Nat → Nat → ℂ) (k : Int) :
    ∑ i ∈ range 2, ∑ n ∈ Icc (max k.natAbs 1) N, Complex.normSq (∑ i' ∈ range 2, ∑ n' ∈ Icc (max k.natAbs 1) N, T i n k i' n' * v i' n')
      = ∑ i ∈ range 2, ∑ n ∈ Icc (max k.natAbs 1) N, Complex.normSq (if i = 0 then b m x n else a m x n) * Complex.normSq (v i n)
    ∧ -(∑ i ∈ range 2, ∑ n ∈ Icc (max k.natAbs 1) N, (starRingEnd ℂ) (v i n) * ∑ i' ∈ range 2, ∑ n' ∈ Icc (max k.natAbs 1) N, T i n k i' n' * v i' n').re
      = ∑ i ∈ range 2, ∑ n ∈ Icc (max k.natAbs 1) N, (if i = 0 then b m x n else a m x n).re * Complex.normSq (v i n) := by
  constructor
  · refine sum_congr rfl fun i hi => sum_congr rfl fun n hn => ?_
    rw [mie_apply hT v (mem_range.1 hi) hn, Complex.normSq_mul, Complex.normSq_neg]
  · rw [Complex.re_sum, ← sum_neg_distrib]
    refine sum_congr rfl fun i hi => ?_
    rw [Complex.re_sum, ← sum_neg_distrib]
    refine sum_congr rfl fun n hn => ?_
    rw [mie_apply hT v (mem_range.1 hi) hn]
    rw [show (starRingEnd ℂ) (v i n) * (-(if i = 0 then b m x n else a m x n) * v i n) = -((if i = 0 then b m x n else a m x n) * (Complex.normSq (v i n) : ℝ)) by
      rw [← Complex.mul_conj]
      ring, Complex.neg_re, Complex.re_mul_ofReal, neg_neg]

variable (hm : m ≠ 0) (him : 0 ≤ (m ^ 2).im) (hx : 0 < x)
include hm him hx

theorem mie_passive : Passive T N := by
  intro k v
  obtain ⟨e1, e2⟩ := energy_term hT v k
  rw [e1, e2]
  refine sum_le_sum fun i _ => sum_le_sum fun n hn => mul_le_mul_of_nonneg_right ?_ (Complex.normSq_nonneg _)
  obtain ⟨-, ⟨h1, h2⟩, -⟩ := c101_coefficients hm him hx (n := n) (by have := mem_Icc.1 hn; omega)
  split_ifs
  · exact h2
  · exact h1

theorem mie_lossless (hr : m.im = 0) : Lossless T N := by
  intro k v
  obtain ⟨e1, e2⟩ := energy_term hT v k
  rw [e1, e2]
  refine sum_congr rfl fun i _ => sum_congr rfl fun n hn => ?_
  obtain ⟨-, -, h⟩ := c101_coefficients hm him hx (n := n) (by have := mem_Icc.1 hn; omega)
  obtain ⟨h1, h2⟩ := h hr
  split_ifs
  · rw [h2]
  · rw [h1]

end mie

/-! ## averages over the orientations -/

open Verif.Alignment Verif.Clebsch in
/-- turning spheres changes nothing, whatever the distribution of the orientations -/
theorem averaged_mie {T : Nat → Nat → Int → Nat → Nat → ℂ} {m : ℂ} {x : ℝ} {N : Nat} (hT : IsMie T m x N) {p : Int → ℝ} (hp : p 0 = 1) :
    IsMie (averaged (fun x : ℝ => (x : ℂ)) p T) m x N := by
  intro i n k i' n' hi hi' h1 h2 h3 h4 h5 h6
  unfold averaged
  have hz : ∀ m1 ∈ Icc (-(min n n' : Int)) (min n n'), T i n m1 i' n' = if i = i' ∧ n = n' then -(if i = 0 then b m x n else a m x n) else 0 := by
    intro m1 hm1
    have := mem_Icc.1 hm1
    exact hT i n m1 i' n' hi hi' h1 h2 h3 h4 (abs_le.2 (by omega)) (abs_le.2 (by omega))
  by_cases hq : i = i' ∧ n = n'
  · obtain ⟨rfl, rfl⟩ := hq
    simp only [and_self, if_true] at hz ⊢
    rw [min_self, sub_self, abs_zero] at *
    generalize -(if i = 0 then b m x n else a m x n) = t at hz ⊢
    have inner : ∀ M ∈ Icc (0 : Int) (n + n), ∑ m1 ∈ Icc (-(n : Int)) n, (fun x : ℝ => (x : ℂ)) ((-1) ^ (k + m1).natAbs * p M * cg n n M 0 k * cg n n M 0 m1) * T i n m1 i n
        = if M = 0 then t else 0 := by
      intro M hM
      have hM := mem_Icc.1 hM
      have hs : Real.sqrt (2 * n + 1) ≠ 0 := by positivity
      have e : ∀ m1 ∈ Icc (-(n : Int)) n, (fun x : ℝ => (x : ℂ)) ((-1) ^ (k + m1).natAbs * p M * cg n n M 0 k * cg n n M 0 m1) * T i n m1 i n
          = (((-1) ^ ((n : Int) - k).natAbs * p M * cg n n M 0 k * Real.sqrt (2 * n + 1) : ℝ) : ℂ) * t * ((cg n n M 0 m1 * cg n n 0 0 m1 : ℝ) : ℂ) := by
        intro m1 hm1
        have hb := mem_Icc.1 hm1
        rw [hz m1 hm1, cg_scalar (abs_le.2 hb)]
        have hsg : (-1 : ℝ) ^ (k + m1).natAbs = (-1) ^ ((n : Int) - k).natAbs * (-1) ^ ((n : Int) - m1).natAbs := by
          rw [← pow_add, neg_one_pow_eq_pow_mod_two, neg_one_pow_eq_pow_mod_two (n := ((n : Int) - k).natAbs + _)]
          congr 1
          omega
        simp only []
        rw [hsg, show ((((-1 : ℝ) ^ ((n : Int) - k).natAbs * (-1) ^ ((n : Int) - m1).natAbs * p M * cg n n M 0 k * cg n n M 0 m1 : ℝ)) : ℂ)
          = (((-1) ^ ((n : Int) - k).natAbs * p M * cg n n M 0 k * Real.sqrt (2 * n + 1) : ℝ) : ℂ) * ((cg n n M 0 m1 * ((-1) ^ ((n : Int) - m1).natAbs / Real.sqrt (2 * n + 1)) : ℝ) : ℂ) by
            rw [← Complex.ofReal_mul]
            congr 1
            field_simp]
        ring
      have hd : ∑ m1 ∈ Icc (-(n : Int)) n, cg n n M 0 m1 * cg n n 0 0 m1 = if M = 0 then 1 else 0 :=
        dot_eq ⟨by omega, by omega, by omega, by omega, by omega⟩ ⟨by omega, by omega, by omega, by omega, by omega⟩ (by omega) (by omega) (by omega) (by omega)
      rw [sum_congr rfl e, ← mul_sum, ← Complex.ofReal_sum, hd]
      split_ifs with h0
      · subst h0
        rw [hp, cg_scalar h5]
        have hsq : (-1 : ℝ) ^ ((n : Int) - k).natAbs * (-1) ^ ((n : Int) - k).natAbs = 1 := by rw [← pow_add, ← two_mul, pow_mul]; norm_num
        rw [show (-1 : ℝ) ^ ((n : Int) - k).natAbs * 1 * ((-1) ^ ((n : Int) - k).natAbs / Real.sqrt (2 * n + 1)) * Real.sqrt (2 * n + 1) = 1 by
          field_simp
          rw [pow_two, hsq]]
        simp
      · simp
    rw [sum_congr rfl inner, sum_ite_eq' , if_pos (mem_Icc.2 ⟨le_rfl, by omega⟩)]
  · rw [if_neg hq] at *
    refine sum_eq_zero fun M _ => sum_eq_zero fun m1 hm1 => ?_
    rw [hz m1 hm1, mul_zero]

theorem ensemble_mie {H : Problem} {c : Graph.Cell} {T : Nat → Nat → Int → Nat → Nat → ℂ} {m : ℂ} {x : ℝ} {N : Nat} (hT : IsMie T m x N)
    (hp : H.aligned c = true → (H.coeff c).v 0 = 1) : IsMie (ensemble H c T) m x N := by
  unfold ensemble
  split_ifs with h
  · exact averaged_mie hT (hp h)
  · exact hT

/-! ## cross sections -/

theorem theory_valid {T T' : Nat → Nat → Int → Nat → Nat → ℂ} {N : Nat}
    (h : ∀ (a n : Nat) (m : Int) (b n' : Nat), a < 2 → b < 2 → 1 ≤ n → n ≤ N → 1 ≤ n' → n' ≤ N → |m| ≤ n → |m| ≤ n' → T a n m b n' = T' a n m b n')
    (k : ℝ) (i s : Angular) (φ : ℝ) : theory T k N i s φ = theory T' k N i s φ := by
  unfold theory S11 S12 S21 S22
  have e : ∀ (m : Int) (n n' : Nat), 1 ≤ n → n ≤ N → |m| ≤ n → 1 ≤ n' → n' ≤ N → |m| ≤ n' → ∀ a < 2, ∀ b < 2, T a n m b n' = T' a n m b n' :=
    fun m n n' a1 a2 a3 a4 a5 a6 a ha b hb => h a n m b n' ha hb a1 a2 a4 a5 a3 a6
  congr 1 <;> refine congrArg _ (ampSum_valid fun m n n' a1 a2 a3 a4 a5 a6 => ?_) <;>
    rw [e m n n' a1 a2 a3 a4 a5 a6 0 (by omega) 0 (by omega), e m n n' a1 a2 a3 a4 a5 a6 1 (by omega) 0 (by omega), e m n n' a1 a2 a3 a4 a5 a6 0 (by omega) 1 (by omega),
      e m n n' a1 a2 a3 a4 a5 a6 1 (by omega) 1 (by omega)]

/-- the elements of the T-matrix of a sphere -/
noncomputable def element (m : ℂ) (x : ℝ) (i i' n : Nat) : ℂ := if i = i' then -(if i = 0 then b m x n else a m x n) else 0

/-- the same amplitude for all directions and both polarisations -/
theorem mie_forward {T : Nat → Nat → Int → Nat → Nat → ℂ} {m : ℂ} {x : ℝ} {N : Nat} (hT : IsMie T m x N) (k : ℝ) {o : Angular} {θ : ℝ} (ho : o.IsOf θ) :
    theory T k N o o 0 = ⟨Complex.I / (2 * k) * ∑ n ∈ Icc 1 N, (2 * n + 1) * (a m x n + b m x n), 0, 0, Complex.I / (2 * k) * ∑ n ∈ Icc 1 N, (2 * n + 1) * (a m x n + b m x n)⟩ := by
  rw [theory_valid (T' := fun i n _ i' n' => if n = n' then element m x i i' n else 0) (fun i n k i' n' h1 h2 h3 h4 h5 h6 h7 h8 => by
    rw [hT i n k i' n' h1 h2 h3 h4 h5 h6 h7 h8]
    unfold element
    by_cases hn : n = n' <;> by_cases hi : i = i' <;> simp [hn, hi])]
  have hsc : Scalar N (fun i i' n => element m x i i' n) (fun i n _ i' n' => if n = n' then element m x i i' n else 0) := fun _ _ _ _ _ _ _ _ _ _ => rfl
  rw [scalar_forward hsc k ho]
  have e1 : ∑ n ∈ Icc 1 N, (2 * (n : ℂ) + 1) * (element m x 0 0 n + element m x 1 1 n) = -∑ n ∈ Icc 1 N, (2 * (n : ℂ) + 1) * (a m x n + b m x n) := by
    rw [← sum_neg_distrib]
    refine sum_congr rfl fun n _ => ?_
    simp only [element, if_true, if_neg one_ne_zero]
    ring
  have e2 : ∑ n ∈ Icc 1 N, (2 * (n : ℂ) + 1) * (element m x 1 0 n + element m x 0 1 n) = 0 := by
    refine sum_eq_zero fun n _ => ?_
    simp [element]
  rw [e1, e2]
  simp
  ring

theorem incoming_sum {o : Angular} {θ : ℝ} (ho : o.IsOf θ) {n : Nat} (hn : 1 ≤ n) {i : Nat} (hi : i < 2) (q : Fin 2) :
    ∑ k ∈ Icc (-(n : Int)) n, Complex.normSq (incoming o 0 q i n k) = (2 * n + 1) / 2 := by
  obtain ⟨h1, h2, -⟩ := projections ho hn
  have hn0 : (n : ℝ) ≠ 0 := by positivity
  have hg : Real.sqrt ((2 * n + 1) / (n * (n + 1))) * Real.sqrt ((2 * n + 1) / (n * (n + 1))) = (2 * (n : ℝ) + 1) / (n * (n + 1)) := Real.mul_self_sqrt (by positivity)
  have e : ∀ k : Int, Complex.normSq (incoming o 0 q i n k) = (2 * (n : ℝ) + 1) / (n * (n + 1)) * Complex.normSq (Rotation.wave o 0 i n k q) := by
    intro k
    unfold incoming
    rw [Complex.normSq_mul, Complex.normSq_mul, Complex.normSq_mul, Complex.normSq_conj, map_pow, map_pow, Complex.normSq_neg, map_one, Complex.normSq_I, Complex.normSq_ofReal, hg]
    simp
  have e2 : ∀ k : Int, Complex.normSq (Rotation.wave o 0 i n k q) = if (i = 0 ∧ q = 0) ∨ (i = 1 ∧ q = 1) then o.pi k n ^ 2 else o.tau k n ^ 2 := by
    intro k
    unfold Rotation.wave
    have hE : Complex.exp (Complex.I * (k * (0 : ℝ))) = 1 := by simp
    rw [hE, one_mul]
    interval_cases i <;> fin_cases q <;> simp [Complex.normSq_mul, Complex.normSq_ofReal, pow_two]
  rw [sum_congr rfl fun k _ => e k, ← mul_sum, sum_congr rfl fun k _ => e2 k]
  split_ifs
  · rw [h1]
    field_simp
  · rw [h2]
    field_simp

theorem reorder_sum (N : Nat) (f : Nat → Nat → Int → ℝ) :
    ∑ k ∈ Icc (-(N : Int)) N, ∑ i ∈ range 2, ∑ n ∈ Icc (max k.natAbs 1) N, f i n k = ∑ i ∈ range 2, ∑ n ∈ Icc 1 N, ∑ k ∈ Icc (-(n : Int)) n, f i n k := by
  rw [sum_comm]
  refine sum_congr rfl fun i _ => ?_
  refine sum_comm' fun k n => ?_
  simp only [mem_Icc]
  omega

section table

variable {H : Problem} {c : Graph.Cell} {g : Nat} {T : Nat → Nat → Int → Nat → Nat → ℂ} {m : ℂ}
  (hT : IsMie T m (size H c.par) (orderAt H g)) (hp : H.aligned c = true → (H.coeff c).v 0 = 1) (hk : 0 < waveK H c.par) (hr : 0 < H.radius c.par)
include hT hp hk hr

/-- extinction: no dependence on the direction, no polarisation -/
theorem mie_extinction {o : Angular} {θ : ℝ} (ho : o.IsOf θ) :
    extI H c g T o = Qext m (size H c.par) (orderAt H g) ∧ extQ H c g T o = 0 ∧ extV H c g T o = 0 := by
  have hf := mie_forward (ensemble_mie hT hp) (waveK H c.par) ho
  have h11 : amp11 H c g T o o 0 = Complex.I / (2 * waveK H c.par) * ∑ n ∈ Icc 1 (orderAt H g), (2 * (n : ℂ) + 1) * (a m (size H c.par) n + b m (size H c.par) n) :=
    congrArg (fun A => entry A 0 0) hf
  have h22 : amp22 H c g T o o 0 = Complex.I / (2 * waveK H c.par) * ∑ n ∈ Icc 1 (orderAt H g), (2 * (n : ℂ) + 1) * (a m (size H c.par) n + b m (size H c.par) n) :=
    congrArg (fun A => entry A 1 1) hf
  refine ⟨?_, ?_, ?_⟩
  · unfold extI
    rw [h11, h22, ← two_mul]
    have hre : (∑ n ∈ Icc 1 (orderAt H g), (2 * (n : ℂ) + 1) * (a m (size H c.par) n + b m (size H c.par) n)).re
        = ∑ n ∈ Icc 1 (orderAt H g), (2 * (n : ℝ) + 1) * (a m (size H c.par) n + b m (size H c.par) n).re := by
      rw [Complex.re_sum]
      refine sum_congr rfl fun n _ => ?_
      rw [show (2 * (n : ℂ) + 1) = ((2 * (n : ℝ) + 1 : ℝ) : ℂ) by push_cast; rfl, Complex.re_ofReal_mul]
    rw [show 2 * (Complex.I / (2 * (waveK H c.par : ℂ)) * ∑ n ∈ Icc 1 (orderAt H g), (2 * (n : ℂ) + 1) * (a m (size H c.par) n + b m (size H c.par) n))
      = ((1 / waveK H c.par : ℝ) : ℂ) * (Complex.I * ∑ n ∈ Icc 1 (orderAt H g), (2 * (n : ℂ) + 1) * (a m (size H c.par) n + b m (size H c.par) n)) by
        push_cast
        ring, Complex.im_ofReal_mul, Complex.I_mul_im, hre]
    unfold Qext disc size
    field_simp
  · unfold extQ
    rw [h11, h22, sub_self]
    simp
  · unfold extV
    rw [h11, h22, sub_self]
    simp

/-- scattering into all directions, and absorption -/
theorem mie_dispersed {A : ℝ → Angular} (hA : ∀ θ, (A θ).IsOf θ) {o : Angular} {θ : ℝ} (ho : o.IsOf θ) (pol : Fin 2) :
    dispersed H c g T A o pol = disc H c.par * Qsca m (size H c.par) (orderAt H g)
    ∧ extinguished H c g T o pol = disc H c.par * Qext m (size H c.par) (orderAt H g)
    ∧ absorbed H c g T A o pol = Qext m (size H c.par) (orderAt H g) - Qsca m (size H c.par) (orderAt H g) := by
  obtain ⟨e1, e2⟩ := power_incoming hA (ensemble H c T) (waveK H c.par) (orderAt H g) o pol
  have hE := ensemble_mie hT hp
  have total : ∀ w : Nat → Nat → ℝ, ∑ k ∈ Icc (-(orderAt H g : Int)) (orderAt H g), ∑ i ∈ range 2, ∑ n ∈ Icc (max k.natAbs 1) (orderAt H g),
      w i n * Complex.normSq (incoming o 0 pol i n k) = ∑ n ∈ Icc 1 (orderAt H g), (2 * (n : ℝ) + 1) / 2 * (w 0 n + w 1 n) := by
    intro w
    rw [reorder_sum _ fun i n k => w i n * Complex.normSq (incoming o 0 pol i n k)]
    rw [sum_congr rfl fun i hi => sum_congr rfl fun n hn => ((mul_sum _ _ _).symm.trans (congrArg (w i n * ·) (incoming_sum ho (mem_Icc.1 hn).1 (mem_range.1 hi) pol)))]
    rw [sum_range_succ, sum_range_one, ← sum_add_distrib]
    refine sum_congr rfl fun n _ => ?_
    ring
  have d1 : dispersed H c g T A o pol = disc H c.par * Qsca m (size H c.par) (orderAt H g) := by
    rw [dispersed_eq, e1, sum_congr rfl fun k _ => (energy_term hE (fun i n => incoming o 0 pol i n k) k).1,
      total fun i n => Complex.normSq (if i = 0 then b m (size H c.par) n else a m (size H c.par) n)]
    unfold Qsca disc size
    rw [mul_sum, mul_sum, mul_sum]
    refine sum_congr rfl fun n _ => ?_
    simp only [if_true, if_neg one_ne_zero]
    field_simp
    ring
  have d2 : extinguished H c g T o pol = disc H c.par * Qext m (size H c.par) (orderAt H g) := by
    rw [extinguished_eq, e2, sum_congr rfl fun k _ => (energy_term hE (fun i n => incoming o 0 pol i n k) k).2,
      total fun i n => (if i = 0 then b m (size H c.par) n else a m (size H c.par) n).re]
    unfold Qext disc size
    rw [mul_sum, mul_sum, mul_sum]
    refine sum_congr rfl fun n _ => ?_
    simp only [if_true, if_neg one_ne_zero, Complex.add_re]
    field_simp
    ring
  refine ⟨d1, d2, ?_⟩
  unfold absorbed
  rw [d1, d2]
  have : disc H c.par ≠ 0 := by unfold disc; positivity
  field_simp

end table

/-! ## the table -/

section spheres

variable {H : Problem} {B : Nat → Content.Bessel} {p : Graph.Par} (hS : Spheres H B p)
include hS

/-- the inputs make sense: nothing has to be known about the equations for the T-matrix -/
theorem c101_proper (h1 : H.minOrder + H.P.nq ≤ H.P.maxOrder + 1)
    (h2 : ∀ g < H.P.nq, ∀ i < 2 * halfPts H g, (H.gl (2 * halfPts H g)).1 (2 * halfPts H g - 1 - i) = -(H.gl (2 * halfPts H g)).1 i)
    (h3 : ∀ g < H.P.nq, ∀ i < 2 * halfPts H g, (H.gl (2 * halfPts H g)).2 (2 * halfPts H g - 1 - i) = (H.gl (2 * halfPts H g)).2 i)
    (h4 : ∑ s ∈ range H.P.nshape, H.weight s ≠ 0)
    (h5 : ∀ g < H.P.nq, Returns H.jdj (orderAt H g) (B g).j (B g).dj ∧ Returns H.ydy (orderAt H g) (B g).y (B g).dy ∧ Returns H.jdjm (orderAt H g) (B g).jm (B g).djm)
    (h6 : ∀ s < H.P.nshape, H.aligned ⟨p, s⟩ = true → ∀ g, IsOrder H B ⟨p, s⟩ g →
      (2 * orderAt H g + 1) * (2 * orderAt H g + 1) ≤ (H.P.maxOrder + 1) * (2 * H.P.maxOrder + 1) ∧ ((2 * orderAt H g : Nat) : Int) < (H.coeff ⟨p, s⟩).size) :
    Proper H B p where
  first := hS.order
  orders := h1
  inside g hg i hi := (hS.gauss g hg).interior hi
  points := h2
  weights := h3
  ratio s hs := by rw [hS.round s hs]; exact one_pos
  shapes := h4
  bessel := h5
  workspace := h6
  solvable s hs g hg m hm := c101_solvable hS hs hg hm

theorem close_iff {s i j : Nat} (hs : s < H.P.nshape) (hi : i < H.P.nq) (hj : j < H.P.nq) {t t' : Nat → Nat → Nat → Nat → ℂ} (ht : IsT H B ⟨p, s⟩ i 0 t) (ht' : IsT H B ⟨p, s⟩ j 0 t') :
    Close H.tol (orderAt H i) t (orderAt H j) t' ↔ Converged H.tol (H.mr p) (size H p) (orderAt H i) (orderAt H j) := by
  have hx := size_pos hS
  have hc : 2 / size H p ^ 2 ≠ 0 := by positivity
  have es : ∀ {i : Nat} {t : Nat → Nat → Nat → Nat → ℂ}, i < H.P.nq → IsT H B ⟨p, s⟩ i 0 t → Qsca (H.mr p) (size H p) (orderAt H i) = 2 / size H p ^ 2 * scatSum (orderAt H i) t := by
    intro i t hi ht
    unfold Qsca scatSum
    congr 1
    refine sum_congr rfl fun n hn => ?_
    have hn := mem_Icc.1 hn
    rw [isT_mie hS hs hi ht (i := 0) (i' := 0) (by omega) (by omega) (by omega) hn.2 (by omega) hn.2, isT_mie hS hs hi ht (i := 1) (i' := 1) (by omega) (by omega) (by omega) hn.2 (by omega) hn.2]
    simp only [and_self, if_true, if_neg one_ne_zero, Complex.normSq_neg]
    ring
  have ee : ∀ {i : Nat} {t : Nat → Nat → Nat → Nat → ℂ}, i < H.P.nq → IsT H B ⟨p, s⟩ i 0 t → Qext (H.mr p) (size H p) (orderAt H i) = -(2 / size H p ^ 2) * extSum (orderAt H i) t := by
    intro i t hi ht
    unfold Qext extSum
    rw [neg_mul, ← mul_neg, ← sum_neg_distrib]
    congr 1
    refine sum_congr rfl fun n hn => ?_
    have hn := mem_Icc.1 hn
    rw [isT_mie hS hs hi ht (i := 0) (i' := 0) (by omega) (by omega) (by omega) hn.2 (by omega) hn.2, isT_mie hS hs hi ht (i := 1) (i' := 1) (by omega) (by omega) (by omega) hn.2 (by omega) hn.2]
    simp only [and_self, if_true, if_neg one_ne_zero, Complex.neg_re, Complex.add_re]
    ring
  unfold Close Converged
  rw [es hi ht, es hj ht', ee hi ht, ee hj ht', ← mul_sub, ← mul_sub, mul_div_mul_left _ _ hc, mul_div_mul_left _ _ (neg_ne_zero.2 hc)]

/-- the order that is used -/
theorem order_cutoff {s g : Nat} (hs : s < H.P.nshape) (h : IsOrder H B ⟨p, s⟩ g) : IsCutOff H p g := by
  obtain ⟨hg, t, ht, h1, h2⟩ := h
  refine ⟨hg, fun i a1 a2 hc => h1 i a1 a2 ((close_iff hS hs (by omega) (by omega) (ht (i - 1) (by omega)) (ht i (by omega))).2 hc), ?_⟩
  rcases h2 with h2 | ⟨h2, h3⟩
  · exact Or.inl h2
  · exact Or.inr ⟨h2, (close_iff hS hs (by omega) hg (ht (g - 1) (by omega)) (ht g le_rfl)).1 h3⟩

omit hS in
theorem cutoff_unique {g g' : Nat} (h : IsCutOff H p g) (h' : IsCutOff H p g') : g = g' := by
  rcases lt_trichotomy g g' with hl | hl | hl
  · rcases h.2.2 with e | ⟨e, e2⟩
    · have := h'.1
      omega
    · exact absurd e2 (h'.2.1 g e hl)
  · exact hl
  · rcases h'.2.2 with e | ⟨e, e2⟩
    · have := h.1
      omega
    · exact absurd e2 (h.2.1 g' e hl)

variable {g : Nat → Nat} {T : Nat → Nat → Nat → Int → Nat → Nat → ℂ} (hG : Grains H B p g T) (hw : ∑ s ∈ range H.P.nshape, H.weight s ≠ 0)
  (hc : ∀ s < H.P.nshape, H.aligned ⟨p, s⟩ = true → (H.coeff ⟨p, s⟩).v 0 = 1)
include hG hw hc

omit hc in
/-- the order is the same for all shapes -/
theorem same_order : ∃ g0, IsCutOff H p g0 ∧ ∀ s < H.P.nshape, g s = g0 := by
  have hn : 0 < H.P.nshape := by
    by_contra h
    rw [Nat.eq_zero_of_not_pos h] at hw
    simp at hw
  refine ⟨g 0, order_cutoff hS hn (hG 0 hn).order, fun s hs => cutoff_unique (order_cutoff hS hs (hG s hs).order) (order_cutoff hS hn (hG 0 hn).order)⟩

omit hS hG hc in
theorem shapeMean_const {f : Nat → ℝ} {v : ℝ} (h : ∀ s < H.P.nshape, f s = v) : shapeMean H f = v := by
  unfold shapeMean
  rw [sum_congr rfl fun s hs => by rw [h s (mem_range.1 hs)], ← sum_mul, mul_comm, mul_div_assoc, div_self hw, mul_one]

/-- **C101** The extinction coefficients of spheres are those of Mie theory; there is no polarisation. -/
theorem c101_extinction {E : Interp.ExtRes ℝ} (hE : IsExtinction H p g T E) :
    ∃ g0, IsCutOff H p g0 ∧ ∀ it < H.ntheta, E.Qext it = Qext (H.mr p) (size H p) (orderAt H g0) ∧ E.Qextpol it = 0 ∧ E.Qextcpol it = 0 := by
  obtain ⟨g0, h0, hg⟩ := same_order hS hG hw
  have hk : 0 < waveK H p := by
    unfold waveK
    have := hS.wavelength
    positivity
  refine ⟨g0, h0, fun it hit => ?_⟩
  obtain ⟨o, ho⟩ := angular_all (H.theta it)
  obtain ⟨e1, e2, e3⟩ := hE it hit o ho
  have key : ∀ s < H.P.nshape, extI H ⟨p, s⟩ (g s) (T s) o = Qext (H.mr p) (size H p) (orderAt H g0) ∧ extQ H ⟨p, s⟩ (g s) (T s) o = 0 ∧ extV H ⟨p, s⟩ (g s) (T s) o = 0 := by
    intro s hs
    have := mie_extinction (c := ⟨p, s⟩) (g := g s) (c101_mie hS hs (hG s hs)) (hc s hs) hk hS.radius ho
    rwa [hg s hs] at this ⊢
  exact ⟨by rw [e1, shapeMean_const hw fun s hs => (key s hs).1], by rw [e2, shapeMean_const hw fun s hs => (key s hs).2.1], by rw [e3, shapeMean_const hw fun s hs => (key s hs).2.2]⟩

/-- **C101** The absorption coefficients of spheres, when the grid of directions is refined: extinction minus scattering, as in Mie theory. They are not negative, and they
vanish if the refractive index is real. -/
theorem c101_absorption (hgl : ∀ n, 0 < n → Gauss n (H.gl n)) (hacc : H.accountForScattering = true) {R : Nat → Interp.AbsRes ℝ}
    (hR : ∀ n, IsAbsorption { H with ngrid := n } p g T (R n)) :
    ∃ g0, IsCutOff H p g0 ∧ 0 ≤ Qext (H.mr p) (size H p) (orderAt H g0) - Qsca (H.mr p) (size H p) (orderAt H g0)
      ∧ ((H.mr p).im = 0 → Qext (H.mr p) (size H p) (orderAt H g0) - Qsca (H.mr p) (size H p) (orderAt H g0) = 0)
      ∧ ∀ it < H.ntheta, Tendsto (fun n => (R n).Qabs it) atTop (𝓝 (Qext (H.mr p) (size H p) (orderAt H g0) - Qsca (H.mr p) (size H p) (orderAt H g0)))
        ∧ Tendsto (fun n => (R n).Qabspol it) atTop (𝓝 0) := by
  obtain ⟨g0, h0, hg⟩ := same_order hS hG hw
  have hk : 0 < waveK H p := by
    unfold waveK
    have := hS.wavelength
    positivity
  have hx := size_pos hS
  refine ⟨g0, h0, ?_, ?_, fun it hit => ?_⟩
  · unfold Qext Qsca
    rw [← mul_sub, ← sum_sub_distrib]
    refine mul_nonneg (by positivity) (sum_nonneg fun n hn => ?_)
    have := (c101_coefficients hS.index hS.passive hx (mem_Icc.1 hn).1).2.1
    rw [← mul_sub, Complex.add_re]
    exact mul_nonneg (by positivity) (by linarith [this.1, this.2])
  · intro hr
    unfold Qext Qsca
    rw [sub_eq_zero]
    congr 1
    refine sum_congr rfl fun n hn => ?_
    have := (c101_coefficients hS.index hS.passive hx (mem_Icc.1 hn).1).2.2 hr
    rw [this.1, this.2, Complex.add_re]
  · choose A hA using angular_all
    -- the ensembles are those of grains with fixed orientations
    have hM : ∀ s < H.P.nshape, IsMie (ensemble H ⟨p, s⟩ (T s)) (H.mr p) (size H p) (orderAt H (g s)) :=
      fun s hs => ensemble_mie (c101_mie hS hs (hG s hs)) (hc s hs)
    obtain ⟨t0, t1⟩ := c100_absorption (H := { H with aligned := fun _ => false }) (p := p) (g := g) (T := fun s => ensemble H ⟨p, s⟩ (T s)) (R := R) (A := A) hgl hacc
      (fun n => hR n) hA (fun s hs => ⟨fun h => absurd h Bool.false_ne_true, mie_reciprocal (hM s hs), mie_mirror (hM s hs)⟩) hit
    have key : ∀ pol, shapeMean { H with aligned := fun _ => false } (fun s => absorbed { H with aligned := fun _ => false } ⟨p, s⟩ (g s) (ensemble H ⟨p, s⟩ (T s)) A (A (H.theta it)) pol)
        = Qext (H.mr p) (size H p) (orderAt H g0) - Qsca (H.mr p) (size H p) (orderAt H g0) := by
      intro pol
      refine shapeMean_const (H := { H with aligned := fun _ => false }) hw fun s hs => ?_
      have := (mie_dispersed (H := { H with aligned := fun _ => false }) (c := ⟨p, s⟩) (g := g s) (hM s hs) (fun h => absurd h Bool.false_ne_true) hk hS.radius hA (hA (H.theta it)) pol).2.2
      rw [hg s hs] at this ⊢
      exact this
    rw [key 0] at t0
    rw [key 1] at t1
    constructor
    · have := (t0.add t1).div_const 2
      refine (cast (congrArg (fun z => Tendsto _ atTop (𝓝 z)) ?_) this : Tendsto _ atTop (𝓝 _)).congr fun n => by ring
      ring
    · have := (t0.sub t1).div_const 2
      simp only [sub_self, zero_div] at this
      exact this.congr fun n => by ring

end spheres

/-! ## the run -/

section run
open Verif.Exec Verif.Store Verif.Api Verif.Graph
open Verif.Special (realOps)

/-- **C101** For every schedule, every number of threads and every memory limit: when a thread has returned, the entries of the table for spheres hold the extinction
efficiencies of Mie theory. -/
theorem c101_run {H : Problem} (hP : Sensible H.P) {l : List Call} (h : generate H.P = some l) (m0 : Place Loc → Val) (hcl : AllClean H.P (clean H) m0)
    (hv : ∀ c, m0 (.inl (.conv c)) = .ctl Ctl.new) (ty : Tk → Nat) (pl : Tk → List Nat) (hpl : ∀ t, (pl t).length ≤ 8000) (J Jp : Junk)
    (hist : List (Op × Junk)) (hh : hist.map Prod.fst = toOps ty pl l) (nq nth : Nat) (hq : 0 < nq) (hth : nth ≤ nq) (weight0 : Nat → Int) :
    ∃ s r, exec (hist ++ [(.prepare, Jp)]) (init J) = some s ∧ prepareOf s nq weight0 = some r ∧
      ∀ pr x, XReach _ (bodyOf l (placed H.P (code realOps H))) ⟨startOf s nq nth r, m0, pr⟩ x →
        (∃ th, x.st.pc th = .exited) → ∀ p, H.P.want .ext = true → p ∈ pars H.P → ∀ B, Spheres H B p → Proper H B p → Directions H .ext →
          (∀ s < H.P.nshape, H.aligned ⟨p, s⟩ = true → (H.coeff ⟨p, s⟩).v 0 = 1) →
          ∃ g0 E, IsCutOff H p g0 ∧ x.mem (.inl (.result .ext p)) = .ext E ∧
            ∀ it < H.ntheta, E.Qext it = Qext (H.mr p) (size H p) (orderAt H g0) ∧ E.Qextpol it = 0 ∧ E.Qextcpol it = 0 := by
  obtain ⟨s, r, e1, e2, e3⟩ := c84_values hP h m0 hcl hv ty pl hpl J Jp hist hh nq nth hq hth weight0
  refine ⟨s, r, e1, e2, fun pr x hx hex p hw hp B hS hpr hd hc => ?_⟩
  obtain ⟨g, T, hG, E, hE, hI⟩ := (e3 pr x hx).1 hex .ext p hw hp B hpr hd
  obtain ⟨g0, h0, hval⟩ := c101_extinction hS hG hpr.shapes hc hI
  exact ⟨g0, E, h0, hE, hval⟩

end run

/-! ## an example -/

/-- two shapes (both spheres), the grains of one of them are aligned; the rule with two points and the exact Bessel functions -/
noncomputable def exS (m : ℂ) : Problem :=
  { exH with
    mr := fun _ => m
    gl := fun _ => (fun i => if i = 0 then -(1 / Real.sqrt 3) else 1 / Real.sqrt 3, fun _ => 1)
    jdj := fun _ z _ => (fun l => exact.j (l + 1) z, fun l => exact.dj (l + 1) z)
    ydy := fun _ z _ => (fun l => exact.y (l + 1) z, fun l => exact.dy (l + 1) z)
    jdjm := fun _ z _ => (fun l => exact.jm (l + 1) z, fun l => exact.djm (l + 1) z) }

theorem exS_gauss (m : ℂ) : Gauss 2 ((exS m).gl 2) := by
  have h3 : (0 : ℝ) < Real.sqrt 3 := Real.sqrt_pos.2 (by norm_num)
  have hs : Real.sqrt 3 ^ 2 = 3 := Real.sq_sqrt (by norm_num)
  have hv : ∀ i, ((exS m).gl 2).1 i = if i = 0 then -(1 / Real.sqrt 3) else 1 / Real.sqrt 3 := fun _ => rfl
  have hsq : ∀ i, ((exS m).gl 2).1 i ^ 2 = 1 / 3 := by
    intro i
    rw [hv]
    split_ifs <;> simp [hs]
  have h2 : Legendre.P 2 = Polynomial.C (1 / 2) * (Polynomial.C 3 * Polynomial.X ^ 2 - 1) := by
    have h := Legendre.P_succ_der 1
    rw [show 1 + 1 = 2 from rfl, Legendre.P_one, Polynomial.derivative_X, mul_one] at h
    have hc : Polynomial.C (((1 : Nat) : ℝ) + 1) = 2 := by
      norm_num
      rfl
    rw [hc] at h
    have hh : Polynomial.C (1 / 2 : ℝ) * 2 = 1 := by
      rw [show (2 : Polynomial ℝ) = Polynomial.C 2 from rfl, ← Polynomial.C_mul]
      norm_num
    have h3 : (Polynomial.C 3 : Polynomial ℝ) = 3 := rfl
    rw [h3]
    linear_combination Polynomial.C (1 / 2 : ℝ) * h - Legendre.P 2 * hh
  have hP : ∀ x : ℝ, (Legendre.P 2).eval x = (3 * x ^ 2 - 1) / 2 := by
    intro x
    rw [h2]
    simp
    ring
  have hD : ∀ x : ℝ, (Polynomial.derivative (Legendre.P 2)).eval x = 3 * x := by
    intro x
    rw [h2]
    simp
    ring
  refine ⟨fun i _ => ?_, fun i hi j hj e => ?_, fun i _ => ?_⟩
  · rw [hP, hsq]
    norm_num
  · rw [hv, hv] at e
    have := one_div_pos.2 h3
    interval_cases i <;> interval_cases j <;> simp only [if_true, one_ne_zero, if_false] at e <;> first | rfl | (exfalso; linarith)
  · rw [hD, mul_pow, hsq]
    change (1 : ℝ) = _
    norm_num

theorem exS_spheres {m : ℂ} (hm : m ≠ 0) (him : 0 ≤ (m ^ 2).im) (p : Graph.Par) : Spheres (exS m) (fun _ => exact) p where
  round _ _ := rfl
  wavelength := show (0 : ℝ) < 2 by norm_num
  radius := show (0 : ℝ) < 1 / 10 by norm_num
  index := hm
  passive := him
  factor := show 1 ≤ 1 from le_rfl
  order := show 1 ≤ 1 from le_rfl
  gauss g hg := by
    obtain rfl : g = 0 := Nat.lt_one_iff.1 hg
    exact exS_gauss m
  bessel _ _ := rfl

theorem exS_proper {m : ℂ} (hm : m ≠ 0) (him : 0 ≤ (m ^ 2).im) (p : Graph.Par) : Proper (exS m) (fun _ => exact) p := by
  refine c101_proper (exS_spheres hm him p) (show 1 + 1 ≤ 2 + 1 by decide) (fun g hg i hi => ?_) (fun _ _ _ _ => rfl) ?_
    (fun g _ => ⟨?_, ?_, ?_⟩) fun s _ _ g hg => ?_
  · obtain rfl : g = 0 := Nat.lt_one_iff.1 hg
    have hi : i < 2 := hi
    change (if 2 - 1 - i = 0 then (-(1 / Real.sqrt 3) : ℝ) else 1 / Real.sqrt 3) = -(if i = 0 then -(1 / Real.sqrt 3) else 1 / Real.sqrt 3)
    interval_cases i <;> norm_num
  · exact (ex_proper p).shapes
  · intro x _ l h1 _
    change exact.j (l - 1 + 1) x = _ ∧ exact.dj (l - 1 + 1) x = _
    rw [Nat.sub_add_cancel h1]
    exact ⟨rfl, rfl⟩
  · intro x _ l h1 _
    change exact.y (l - 1 + 1) x = _ ∧ exact.dy (l - 1 + 1) x = _
    rw [Nat.sub_add_cancel h1]
    exact ⟨rfl, rfl⟩
  · intro x _ l h1 _
    change exact.jm (l - 1 + 1) x = _ ∧ exact.djm (l - 1 + 1) x = _
    rw [Nat.sub_add_cancel h1]
    exact ⟨rfl, rfl⟩
  · obtain rfl : g = 0 := Nat.lt_one_iff.1 hg.1
    exact ⟨show (2 * 1 + 1) * (2 * 1 + 1) ≤ (2 + 1) * (2 * 2 + 1) by decide, show (2 : Int) < 3 by decide⟩

/-- a lossless and an absorbing material meet the hypotheses of the theorems -/
example : (∀ p, Spheres (exS 2) (fun _ => exact) p ∧ Proper (exS 2) (fun _ => exact) p) ∧ (∀ p, Spheres (exS (2 + Complex.I)) (fun _ => exact) p ∧ Proper (exS (2 + Complex.I)) (fun _ => exact) p)
    ∧ (∀ m, Directions (exS m) .ext) ∧ Graph.Sensible (exS 2).P ∧ (∃ l, Graph.generate (exS 2).P = some l) ∧ (exS 2).P.want .ext = true ∧ (⟨0, 0, 0⟩ : Graph.Par) ∈ Graph.pars (exS 2).P
    ∧ (∀ c, (exS 2).aligned c = true → ((exS 2).coeff c).v 0 = 1) ∧ (exS 2).aligned ⟨⟨0, 0, 0⟩, 1⟩ = true := by
  have h2 : (2 : ℂ) ≠ 0 ∧ 0 ≤ ((2 : ℂ) ^ 2).im := by norm_num [pow_two]
  have hi : (2 + Complex.I : ℂ) ≠ 0 ∧ 0 ≤ ((2 + Complex.I : ℂ) ^ 2).im := by
    refine ⟨fun h => ?_, by norm_num [pow_two]⟩
    have := congrArg Complex.im h
    norm_num at this
  exact ⟨fun p => ⟨exS_spheres h2.1 h2.2 p, exS_proper h2.1 h2.2 p⟩, fun p => ⟨exS_spheres hi.1 hi.2 p, exS_proper hi.1 hi.2 p⟩, fun _ => ex_directions .ext,
    ⟨by decide, by decide, by decide⟩, Graph.c19_total (by decide), rfl, by decide, fun _ _ => rfl, rfl⟩

end Verif.Mie
