import Verif.Properties.TMatrixRun
import Verif.Properties.WignerTable
import Mathlib.Analysis.Complex.Basic

/-!
# C60: the tables the other tasks compute for a spheroid are what the T-matrix tasks need
-/
namespace Verif.TMatrix

open Spec Verif.Special Verif.WignerTable Verif.Legendre

/-- the tables as `GaussBasedResources`, `ParticleGeometryResource` (`_r[ig] = sqrt(_r2[ig])`,
ParticleGeometryResource.hpp:133-138) and `WignerDResources` leave them, with arbitrary previous contents `g`, `v`, `t`;
the real values are used as complex numbers -/
noncomputable def spheroidPoints (θ wgt : Nat → ℝ) (nmax ngauss : Nat) (d : ℝ) (g v : (Nat → ℝ) × (Nat → ℝ)) (t : Tab ℝ) :
    Points ℂ :=
  let ct := fun i => Real.cos (θ i)
  let a := sineLoop realOps ct ngauss g
  let b := rDrSpheroid realOps ct (2 * ngauss) d v
  let u := WignerTable.execute realOps ct nmax ngauss t
  { weight := fun i => (wgt i : ℂ)
    sinv := fun i => (a.2 i : ℂ)
    s2inv := fun i => (a.1 i : ℂ)
    r := fun i => (Real.sqrt (b.1 i) : ℂ)
    r2 := fun i => (b.1 i : ℂ)
    drr := fun i => (b.2 i : ℂ)
    w := fun m i n => (u.w m i n : ℂ)
    dw := fun m i n => (u.dw m i n : ℂ) }

/-- the surface `r(θ)` with quadrature points `θ` and weights `wgt` -/
noncomputable def surface (θ wgt : Nat → ℝ) (r : ℝ → ℝ) : Surface ℂ where
  weight i := (wgt i : ℂ)
  sinInv i := ((1 / Real.sin (θ i) : ℝ) : ℂ)
  r2 i := ((r (θ i) ^ 2 : ℝ) : ℂ)
  slope i := ((deriv r (θ i) / r (θ i) : ℝ) : ℂ)
  d m i n := ((wigner m n (θ i) : ℝ) : ℂ)
  τ m i n := ((deriv (wigner m n) (θ i) : ℝ) : ℂ)

/-- **C60** (tables) For every axis ratio `d > 0`, every symmetric quadrature and all previous contents of the tables:
the tables describe the spheroid of axis ratio `d` and the volume of the unit sphere, and that spheroid has the mirror
plane the T-matrix tasks rely on. These are the hypotheses `hS`, `hr` and `hreads` of `c60_run`. -/
theorem c60_tables (θ wgt : Nat → ℝ) (nmax ngauss : Nat) (d : ℝ) (hd : 0 < d)
    (hθ : ∀ r, r < 2 * ngauss → 0 < θ r ∧ θ r < Real.pi)
    (hsym : ∀ r, r < 2 * ngauss → θ (2 * ngauss - 1 - r) = Real.pi - θ r)
    (hw : ∀ r, r < 2 * ngauss → wgt (2 * ngauss - 1 - r) = wgt r)
    (g v : (Nat → ℝ) × (Nat → ℝ)) (t : Tab ℝ) :
    ∃ (a b : ℝ) (r : ℝ → ℝ), 0 < a ∧ 0 < b ∧ a / b = d ∧ a ^ 2 * b = 1 ∧ (∀ x, 0 < r x ∧ OnSpheroid a b (r x) x)
      ∧ Mirror (surface θ wgt r) (2 * ngauss) []
      ∧ (∀ i < 2 * ngauss, (spheroidPoints θ wgt nmax ngauss d g v t).r i = (r (θ i) : ℂ))
      ∧ (∀ i < 2 * ngauss, (spheroidPoints θ wgt nmax ngauss d g v t).r (2 * ngauss - 1 - i)
          = (spheroidPoints θ wgt nmax ngauss d g v t).r i)
      ∧ ∀ m ≤ nmax, Reads (spheroidPoints θ wgt nmax ngauss d g v t) (surface θ wgt r) m nmax ngauss := by
  obtain ⟨a, b, r, ha, hb, hab, hv, hr, ht, hm, _⟩ := c33_spheroid ngauss d hd θ hθ hsym v
  obtain ⟨hs, _⟩ := c31_sines θ ngauss hθ hsym g
  obtain ⟨hwig, _⟩ := c31_tables_partial θ nmax ngauss hθ hsym t
  refine ⟨a, b, r, ha, hb, hab, hv, hr, ?_, ?_, ?_, ?_⟩
  · have hslope : ∀ i, i < 2 * ngauss → deriv r (θ i) / r (θ i) = (rDrSpheroid realOps (fun i => Real.cos (θ i)) (2 * ngauss) d v).2 i := by
      intro i hi
      rw [(ht i hi).2.deriv]
      have := (hr (θ i)).1
      field_simp
    refine ⟨?_, ?_, ?_, ?_, ?_, ?_, ?_, ?_, ?_⟩
    · intro i hi
      simp only [surface, hw i hi]
    · intro i hi
      simp only [surface, hsym i hi, Real.sin_pi_sub]
    · intro i hi
      simp only [surface]
      rw [← (ht i hi).1, ← (ht (2 * ngauss - 1 - i) (by omega)).1, (hm i hi).1]
    · intro i hi
      simp only [surface]
      rw [hslope i hi, hslope (2 * ngauss - 1 - i) (by omega), (hm i hi).2]
      push_cast
      ring
    · intro i hi m n _ _
      simp only [surface, hsym i hi, wigner_reflect]
      push_cast
      ring
    · intro i hi m n hmn _
      simp only [surface, hsym i hi]
      have h1 := wigner_hasDeriv m n hmn (Real.pi - θ i)
      have hc : HasDerivAt (fun x => wigner m n (Real.pi - x)) (deriv (wigner m n) (Real.pi - θ i) * -1) (θ i) :=
        h1.differentiableAt.hasDerivAt.comp (θ i) ((hasDerivAt_id (θ i)).const_sub Real.pi)
      have h2 := (wigner_hasDeriv m n hmn (θ i)).differentiableAt.hasDerivAt.const_mul ((-1 : ℝ) ^ (n + m))
      have hf : (fun x => wigner m n (Real.pi - x)) = fun x => (-1) ^ (n + m) * wigner m n x := by
        funext x
        exact wigner_reflect m n x
      rw [hf] at hc
      have := hc.unique h2
      have e : deriv (wigner m n) (Real.pi - θ i) = -((-1) ^ (n + m) * deriv (wigner m n) (θ i)) := by linarith
      rw [e]
      push_cast
      ring
    all_goals intro Y hY; simp at hY
  · intro i hi
    simp only [spheroidPoints]
    rw [(ht i hi).1, Real.sqrt_sq (hr _).1.le]
  · intro i hi
    simp only [spheroidPoints]
    rw [(hm i hi).1]
  · intro m hmn
    refine ⟨?_, ?_, ?_, ?_, ?_, ?_⟩
    · intro i hi; rfl
    · intro i hi
      simp only [spheroidPoints, surface]
      rw [(hs i (by omega)).2]
    · intro i hi
      simp only [spheroidPoints, surface]
      rw [(hs i (by omega)).1]
      push_cast
      rw [sq, one_div_mul_one_div]
    · intro i hi
      simp only [spheroidPoints, surface]
      rw [(ht i (by omega)).1]
    · intro i hi
      simp only [spheroidPoints, surface]
      rw [(ht i (by omega)).2.deriv]
      have := (hr (θ i)).1
      congr 1
      field_simp
    · intro i hi
      obtain ⟨ε, he, _, _, h⟩ := hwig m i hmn (by omega)
      refine ⟨(ε : ℂ), by exact_mod_cast he, ?_⟩
      intro n h1 h2 h3
      obtain ⟨d', hd', e1, e2⟩ := h n h1 h3
      simp only [spheroidPoints, surface]
      rw [e1, e2, hd'.deriv]
      push_cast
      exact ⟨rfl, rfl⟩

/-- the hypotheses are met: two quadrature points -/
example : ∃ (θ wgt : Nat → ℝ), (∀ r, r < 2 * 1 → 0 < θ r ∧ θ r < Real.pi)
    ∧ (∀ r, r < 2 * 1 → θ (2 * 1 - 1 - r) = Real.pi - θ r) ∧ (∀ r, r < 2 * 1 → wgt (2 * 1 - 1 - r) = wgt r) := by
  have hpi := Real.pi_pos
  refine ⟨fun i => if i = 0 then Real.pi - Real.pi / 4 else Real.pi / 4, fun _ => 1, ?_, ?_, fun _ _ => rfl⟩
  · intro i hi
    rcases (by omega : i = 0 ∨ i = 1) with rfl | rfl
    · simp only [if_true]; constructor <;> linarith
    · simp only [one_ne_zero, if_false]; constructor <;> linarith
  · intro i hi
    rcases (by omega : i = 0 ∨ i = 1) with rfl | rfl <;> simp

end Verif.TMatrix
