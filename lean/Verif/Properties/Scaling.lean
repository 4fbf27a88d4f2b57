import Verif.Spec.Scaling
import Verif.Properties.Content
import Verif.Properties.Oriented

/-!
# C117: only the ratio of size and wavelength matters
-/
namespace Verif.Content

open Finset Verif.Graph Verif.TMatrix.Spec

section
variable {K : Type} [Field K]

theorem Q_scaled (im : K) (S : Surface K) (npts : Nat) (γ : Nat → Nat → K) (w a b : K) (Z Z' : Radial K) (m i n i' n' : Nat) :
    Q im S npts γ (w * a) (w * b) Z Z' m i n i' n' = w * Q im S npts γ a b Z Z' m i n i' n' := by
  unfold Q
  dsimp only
  split_ifs <;> ring

theorem QNeg_scaled (im : K) (S : Surface K) (npts : Nat) (γ : Nat → Nat → K) (w a b : K) (Z Z' : Radial K) (m i n i' n' : Nat) :
    QNeg im S npts γ (w * a) (w * b) Z Z' m i n i' n' = w * QNeg im S npts γ a b Z Z' m i n i' n' := by
  unfold QNeg
  dsimp only
  split_ifs <;> ring

theorem transition_scaled {im : K} {S : Surface K} {npts : Nat} {γ : Nat → Nat → K} {w a b : K} (hw : w ≠ 0) {h j j' : Radial K} {m nmax : Nat} {T : Nat → Nat → Nat → Nat → K} :
    IsTransition im S npts γ (w * a) (w * b) h j j' m nmax T ↔ IsTransition im S npts γ a b h j j' m nmax T := by
  unfold IsTransition
  simp only [Q_scaled, mul_left_comm _ w, ← mul_sum, ← mul_neg, mul_right_inj' hw]

theorem transitionNeg_scaled {im : K} {S : Surface K} {npts : Nat} {γ : Nat → Nat → K} {w a b : K} (hw : w ≠ 0) {h j j' : Radial K} {m nmax : Nat} {T : Nat → Nat → Nat → Nat → K} :
    IsTransitionNeg im S npts γ (w * a) (w * b) h j j' m nmax T ↔ IsTransitionNeg im S npts γ a b h j j' m nmax T := by
  unfold IsTransitionNeg
  simp only [QNeg_scaled, mul_left_comm _ w, ← mul_sum, ← mul_neg, mul_right_inj' hw]

theorem det_scaled {im : K} {S : Surface K} {npts : Nat} {γ : Nat → Nat → K} {w a b : K} (hw : w ≠ 0) {Z Z' : Radial K} {m nmax : Nat} :
    (QMatrix im S npts γ (w * a) (w * b) Z Z' m nmax).det ≠ 0 ↔ (QMatrix im S npts γ a b Z Z' m nmax).det ≠ 0 := by
  have e : QMatrix im S npts γ (w * a) (w * b) Z Z' m nmax = w • QMatrix im S npts γ a b Z Z' m nmax := by
    funext x y
    exact Q_scaled _ _ _ _ _ _ _ _ _ _ _ _ _ _
  rw [e, Matrix.det_smul]
  exact ⟨fun h => (mul_ne_zero_iff.1 h).2, fun h => mul_ne_zero (pow_ne_zero _ hw) h⟩

end

theorem stokes_scaled (u : ℝ) (a b : ℂ) (r : Fin 4) : Scatter.stokes (u * a) (u * b) r = u ^ 2 * Scatter.stokes a b r := by
  unfold Scatter.stokes
  fin_cases r <;> simp [Complex.normSq_apply] <;> ring

/-- Stokes vectors span all vectors -/
theorem stokes_zero {z : Fin 4 → ℝ} (h : ∀ Ev Eh : ℂ, ∑ k : Fin 4, z k * Scatter.stokes Ev Eh k = 0) : z = 0 := by
  have h1 := h 1 0
  have h2 := h 0 1
  have h3 := h 1 1
  have h4 := h 1 Complex.I
  simp [Fin.sum_univ_four, Scatter.stokes, Complex.normSq_apply] at h1 h2 h3 h4
  funext k
  fin_cases k <;> simp <;> linarith

section
variable {H : Problem} {B : Nat → Bessel} {p : Par} {u : ℝ} (hu : 0 < u)

theorem waveK_scaled : waveK (scaled u H) p = waveK H p / u := div_mul_eq_div_div_swap _ _ _

include hu

theorem xAt_scaled (c : Cell) (g i : Nat) : xAt (scaled u H) c g i = xAt H c g i := by
  unfold xAt
  rw [waveK_scaled]
  congr 1
  change waveK H c.par / u * (u * H.radius c.par * _) = _
  rw [div_mul_eq_mul_div, div_eq_iff hu.ne']
  change waveK H c.par * (u * H.radius c.par * spheroid (H.axisRatio c.ish) (polar H g i)) = _
  ring

theorem radial_scaled (c : Cell) (g : Nat) : outAt (scaled u H) B c g = outAt H B c g ∧ regAt (scaled u H) B c g = regAt H B c g ∧ insideAt (scaled u H) B c g = insideAt H B c g := by
  have e : (fun i => xAt (scaled u H) c g i) = fun i => xAt H c g i := funext fun i => xAt_scaled hu c g i
  unfold outAt regAt insideAt
  simp only [xAt_scaled hu]
  refine ⟨?_, ?_, ?_⟩ <;> first | trivial | rfl

theorem factor_scaled (p : Par) : factorA (scaled u H) p = ((u : ℂ) ^ 2)⁻¹ * factorA H p ∧ factorB (scaled u H) p = ((u : ℂ) ^ 2)⁻¹ * factorB H p := by
  have : (u : ℂ) ≠ 0 := by exact_mod_cast hu.ne'
  unfold factorA factorB
  rw [waveK_scaled]
  change _ * (H.mr p * _) = _ ∧ _
  push_cast
  constructor
  · field_simp
  · field_simp

theorem isT_scaled {c : Cell} {g m : Nat} {T : Nat → Nat → Nat → Nat → ℂ} : IsT (scaled u H) B c g m T ↔ IsT H B c g m T := by
  have hw : ((u : ℂ) ^ 2)⁻¹ ≠ 0 := inv_ne_zero (pow_ne_zero _ (by exact_mod_cast hu.ne'))
  obtain ⟨r1, r2, r3⟩ := radial_scaled (B := B) (H := H) hu c g
  unfold IsT
  rw [(factor_scaled hu c.par).1, (factor_scaled hu c.par).2, r1, r2, r3]
  exact transition_scaled hw

theorem isTNeg_scaled {c : Cell} {g m : Nat} {T : Nat → Nat → Nat → Nat → ℂ} : IsTNeg (scaled u H) B c g m T ↔ IsTNeg H B c g m T := by
  have hw : ((u : ℂ) ^ 2)⁻¹ ≠ 0 := inv_ne_zero (pow_ne_zero _ (by exact_mod_cast hu.ne'))
  obtain ⟨r1, r2, r3⟩ := radial_scaled (B := B) (H := H) hu c g
  unfold IsTNeg
  rw [(factor_scaled hu c.par).1, (factor_scaled hu c.par).2, r1, r2, r3]
  exact transitionNeg_scaled hw

theorem solvable_scaled {c : Cell} {g m : Nat} : Solvable (scaled u H) B c g m ↔ Solvable H B c g m := by
  have hw : ((u : ℂ) ^ 2)⁻¹ ≠ 0 := inv_ne_zero (pow_ne_zero _ (by exact_mod_cast hu.ne'))
  obtain ⟨r1, r2, r3⟩ := radial_scaled (B := B) (H := H) hu c g
  unfold Solvable
  rw [(factor_scaled hu c.par).1, (factor_scaled hu c.par).2, r1, r3]
  exact det_scaled hw

theorem isOrder_scaled {c : Cell} {g : Nat} : IsOrder (scaled u H) B c g ↔ IsOrder H B c g := by
  unfold IsOrder
  simp only [isT_scaled hu]
  exact Iff.rfl

/-- **C117** The T-matrices of the grains are the same, and so is the order that is used. -/
theorem c117_grain {c : Cell} {g : Nat} {T : Nat → Nat → Int → Nat → Nat → ℂ} : IsGrain (scaled u H) B c g T ↔ IsGrain H B c g T :=
  ⟨fun h => ⟨(isOrder_scaled hu).1 h.order, fun m hm => (isT_scaled hu).1 (h.pos m hm), fun m hm => (isTNeg_scaled hu).1 (h.neg m hm)⟩,
    fun h => ⟨(isOrder_scaled hu).2 h.order, fun m hm => (isT_scaled hu).2 (h.pos m hm), fun m hm => (isTNeg_scaled hu).2 (h.neg m hm)⟩⟩

theorem proper_scaled (hp : Proper H B p) : Proper (scaled u H) B p where
  first := hp.first
  orders := hp.orders
  inside := hp.inside
  points := hp.points
  weights := hp.weights
  ratio := hp.ratio
  shapes := hp.shapes
  bessel := hp.bessel
  workspace s hs ha g hg := hp.workspace s hs ha g ((isOrder_scaled hu).1 hg)
  solvable s hs g hg m hm := (solvable_scaled hu).2 (hp.solvable s hs g hg m hm)

/-- amplitudes are lengths -/
theorem amp_scaled (c : Cell) (g : Nat) (T : Nat → Nat → Int → Nat → Nat → ℂ) (o i : Scatter.Angular) (φ : ℝ) :
    amp11 (scaled u H) c g T o i φ = u * amp11 H c g T o i φ ∧ amp12 (scaled u H) c g T o i φ = u * amp12 H c g T o i φ
      ∧ amp21 (scaled u H) c g T o i φ = u * amp21 H c g T o i φ ∧ amp22 (scaled u H) c g T o i φ = u * amp22 H c g T o i φ := by
  have h0 : (u : ℂ) ≠ 0 := by exact_mod_cast hu.ne'
  have e1 : ∀ z w : ℂ, z / (((waveK H c.par / u : ℝ) : ℂ)) * w = u * (z / (waveK H c.par : ℂ) * w) := by
    intro z w
    push_cast
    rw [div_div_eq_mul_div]
    ring
  have e2 : ∀ w : ℂ, 1 / (Complex.I * ((waveK H c.par / u : ℝ) : ℂ)) * w = u * (1 / (Complex.I * (waveK H c.par : ℂ)) * w) := by
    intro w
    push_cast
    rw [← mul_div_assoc, one_div_div]
    ring
  unfold amp11 amp12 amp21 amp22 Scatter.S11 Scatter.S12 Scatter.S21 Scatter.S22
  rw [waveK_scaled]
  exact ⟨e1 _ _, e2 _, e1 _ _, e1 _ _⟩

theorem scattered_scaled (c : Cell) (g : Nat) (T : Nat → Nat → Int → Nat → Nat → ℂ) (o i : Scatter.Angular) (φ : ℝ) (r : Fin 4) :
    scattered (scaled u H) c g T o i φ r = u ^ 2 * scattered H c g T o i φ r := by
  obtain ⟨a1, a2, a3, a4⟩ := amp_scaled (H := H) hu c g T o i φ
  unfold scattered
  rw [a1, a2, a3, a4, stokes_scaled, stokes_scaled]
  ring

theorem lost_scaled (c : Cell) (g : Nat) (T : Nat → Nat → Int → Nat → Nat → ℂ) (o : Scatter.Angular) (i : Nat → Scatter.Angular) (r : Fin 4) :
    lost (scaled u H) c g T o i r / disc (scaled u H) c.par = lost H c g T o i r / disc H c.par := by
  have hd : disc (scaled u H) c.par = u ^ 2 * disc H c.par := by
    change Real.pi * (u * H.radius c.par) ^ 2 = u ^ 2 * (Real.pi * H.radius c.par ^ 2)
    ring
  have hl : lost (scaled u H) c g T o i r = u ^ 2 * lost H c g T o i r := by
    unfold lost
    simp only [scattered_scaled hu, mul_sum]
    refine sum_congr rfl fun j _ => sum_congr rfl fun l _ => ?_
    change (H.gl H.ngrid).2 j * gridW H H.ngrid l * (u ^ 2 * scattered H c g T o (i j) (-gridφ H H.ngrid l) r) = _
    ring
  rw [hl, hd, mul_div_mul_left _ _ (pow_ne_zero 2 hu.ne')]

theorem ext_scaled (c : Cell) (g : Nat) (T : Nat → Nat → Int → Nat → Nat → ℂ) (o : Scatter.Angular) :
    extI (scaled u H) c g T o = extI H c g T o ∧ extQ (scaled u H) c g T o = extQ H c g T o ∧ extV (scaled u H) c g T o = extV H c g T o := by
  obtain ⟨a1, _, _, a4⟩ := amp_scaled (H := H) hu c g T o o 0
  have hd : disc (scaled u H) c.par = u ^ 2 * disc H c.par := by
    change Real.pi * (u * H.radius c.par) ^ 2 = u ^ 2 * (Real.pi * H.radius c.par ^ 2)
    ring
  have key : ∀ v : ℝ, 2 * Real.pi / (waveK H c.par / u) * (u * v) / (u ^ 2 * disc H c.par) = 2 * Real.pi / waveK H c.par * v / disc H c.par := by
    intro v
    rw [div_div_eq_mul_div, ← mul_div_mul_left (2 * Real.pi / waveK H c.par * v) _ (pow_ne_zero 2 hu.ne')]
    congr 1
    ring
  unfold extI extQ extV
  rw [waveK_scaled, hd, a1, a4, ← mul_add, ← mul_sub, ← mul_sub]
  simp only [Complex.im_ofReal_mul, Complex.re_ofReal_mul]
  exact ⟨key _, key _, key _⟩

/-- **C117** Entries of the two tables: efficiencies are the same, scattering matrices are proportional to the square of the lengths. -/
theorem c117_entry (hp : Proper H B p) {g g' : Nat → Nat} {T T' : Nat → Nat → Nat → Int → Nat → Nat → ℂ} (hG : Grains H B p g T) (hG' : Grains (scaled u H) B p g' T') {q : Qty} {v v' : Val}
    (hv : IsEntry H p g T q v) (hv' : IsEntry (scaled u H) p g' T' q v') : Rescaled u H v v' := by
  have hG1 : Grains (scaled u H) B p g T := fun s hs => (c117_grain hu).2 (hG s hs)
  have hv1 := c84_unique (proper_scaled hu hp) hG' hG1 q v' hv'
  choose A hA using Rotation.angular_all
  cases q with
  | ext =>
    obtain ⟨E, rfl, h⟩ := hv
    obtain ⟨E', rfl, h'⟩ := hv1
    intro it hit
    obtain ⟨k1, k2, k3⟩ := h it hit _ (hA _)
    obtain ⟨l1, l2, l3⟩ := h' it hit _ (hA _)
    refine ⟨l1.trans (Eq.trans ?_ k1.symm), l2.trans (Eq.trans ?_ k2.symm), l3.trans (Eq.trans ?_ k3.symm)⟩
    · exact mean_congr (H := H) fun s _ => (ext_scaled hu _ _ _ _).1
    · exact mean_congr (H := H) fun s _ => (ext_scaled hu _ _ _ _).2.1
    · exact mean_congr (H := H) fun s _ => (ext_scaled hu _ _ _ _).2.2
  | abs =>
    obtain ⟨E, rfl, h⟩ := hv
    obtain ⟨E', rfl, h'⟩ := hv1
    intro it hit
    obtain ⟨k1, k2⟩ := h it hit _ (hA _) _ fun j _ => hA _
    obtain ⟨l1, l2⟩ := h' it hit _ (hA _) _ fun j _ => hA _
    refine ⟨l1.trans (Eq.trans ?_ k1.symm), l2.trans (Eq.trans ?_ k2.symm)⟩
    · refine mean_congr (H := H) fun s _ => ?_
      rw [(ext_scaled hu _ _ _ _).1]
      have := lost_scaled (H := H) hu ⟨p, s⟩ (g s) (T s) (A (H.theta it)) (fun j => A (gridθ H H.ngrid j)) 0
      exact congrArg (fun w => _ - if H.accountForScattering then w else 0) this
    · refine mean_congr (H := H) fun s _ => ?_
      rw [(ext_scaled hu _ _ _ _).2.1]
      have := lost_scaled (H := H) hu ⟨p, s⟩ (g s) (T s) (A (H.theta it)) (fun j => A (gridθ H H.ngrid j)) 1
      exact congrArg (fun w => _ - if H.accountForScattering then w else 0) this
  | scat =>
    obtain ⟨E, rfl, h⟩ := hv
    obtain ⟨E', rfl, h'⟩ := hv1
    intro it hit ip hip r k
    have hz : (fun k : Fin 4 => E' (it * (2 * H.ntheta) + ip) r k - u ^ 2 * E (it * (2 * H.ntheta) + ip) r k) = 0 := by
      refine stokes_zero fun Ev Eh => ?_
      have k1 := h it hit ip hip _ _ (hA _) (hA _) Ev Eh r
      have k2 := h' it hit ip hip _ _ (hA _) (hA _) Ev Eh r
      simp only [sub_mul, sum_sub_distrib, mul_assoc, ← mul_sum]
      rw [sub_eq_zero]
      refine k2.trans (Eq.trans ?_ (congrArg (u ^ 2 * ·) k1.symm))
      change shapeMean H _ = u ^ 2 * shapeMean H _
      unfold shapeMean
      rw [← mul_div_assoc, mul_sum]
      congr 1
      refine sum_congr rfl fun s _ => ?_
      obtain ⟨a1, a2, a3, a4⟩ := amp_scaled (H := H) hu ⟨p, s⟩ (g s) (T s) (A (gridθ H H.ntheta it)) (A (Real.pi / 2)) (gridφ H (2 * H.ntheta) ip)
      have key : ∀ φ θ, φ = gridφ H (2 * H.ntheta) ip → θ = gridθ H H.ntheta it →
          (scaled u H).weight s * Scatter.stokes (amp11 (scaled u H) ⟨p, s⟩ (g s) (T s) (A θ) (A (Real.pi / 2)) φ * Ev + amp12 (scaled u H) ⟨p, s⟩ (g s) (T s) (A θ) (A (Real.pi / 2)) φ * Eh)
            (amp21 (scaled u H) ⟨p, s⟩ (g s) (T s) (A θ) (A (Real.pi / 2)) φ * Ev + amp22 (scaled u H) ⟨p, s⟩ (g s) (T s) (A θ) (A (Real.pi / 2)) φ * Eh) r
          = u ^ 2 * (H.weight s * Scatter.stokes (amp11 H ⟨p, s⟩ (g s) (T s) (A θ) (A (Real.pi / 2)) φ * Ev + amp12 H ⟨p, s⟩ (g s) (T s) (A θ) (A (Real.pi / 2)) φ * Eh)
            (amp21 H ⟨p, s⟩ (g s) (T s) (A θ) (A (Real.pi / 2)) φ * Ev + amp22 H ⟨p, s⟩ (g s) (T s) (A θ) (A (Real.pi / 2)) φ * Eh) r) := by
        rintro φ θ rfl rfl
        rw [a1, a2, a3, a4, mul_assoc, mul_assoc, mul_assoc, mul_assoc, ← mul_add, ← mul_add, stokes_scaled]
        change H.weight s * _ = _
        ring
      exact key _ _ rfl rfl
    exact sub_eq_zero.1 (congrFun hz k)

end

/-! ## tables -/

section run
open Verif.Exec Verif.Store Verif.Api
open Verif.Special (realOps)

/-- **C117** For all calculations with two sets of sizes and wavelengths that differ by a common factor, and the same alignment of the grains: whatever the schedules, the numbers of
threads and queues and the reserved memory of the two runs, when a thread of each has returned the efficiencies in the two tables are the same, and the scattering matrices
are proportional to the square of the lengths. -/
theorem c117_run {H : Problem} {u : ℝ} (hu : 0 < u) (hP : Sensible H.P) {l : List Call} (h : generate H.P = some l)
    (m0 m0' : Place Loc → Val) (hc : AllClean H.P (clean H) m0) (hc' : AllClean H.P (clean H) m0') (hv : ∀ c, m0 (.inl (.conv c)) = .ctl Ctl.new) (hv' : ∀ c, m0' (.inl (.conv c)) = .ctl Ctl.new)
    (ty : Tk → Nat) (pl : Tk → List Nat) (hpl : ∀ t, (pl t).length ≤ 8000) (J Jp J' Jp' : Junk)
    (hist hist' : List (Op × Junk)) (hh : hist.map Prod.fst = toOps ty pl l) (hh' : hist'.map Prod.fst = toOps ty pl l)
    (nq nth nq' nth' : Nat) (hq : 0 < nq) (hth : nth ≤ nq) (hq' : 0 < nq') (hth' : nth' ≤ nq') (weight0 weight0' : Nat → Int) :
    ∃ s r s' r', exec (hist ++ [(.prepare, Jp)]) (init J) = some s ∧ prepareOf s nq weight0 = some r
      ∧ exec (hist' ++ [(.prepare, Jp')]) (init J') = some s' ∧ prepareOf s' nq' weight0' = some r' ∧
      ∀ pr x pr' x', XReach _ (bodyOf l (placed H.P (code realOps H))) ⟨startOf s nq nth r, m0, pr⟩ x →
        XReach _ (bodyOf l (placed H.P (code realOps (scaled u H)))) ⟨startOf s' nq' nth' r', m0', pr'⟩ x' →
        (∃ th, x.st.pc th = .exited) → (∃ th, x'.st.pc th = .exited) → ∀ q p, H.P.want q = true → p ∈ pars H.P → ∀ B, Proper H B p → Directions H q →
          Rescaled u H (x.mem (.inl (.result q p))) (x'.mem (.inl (.result q p))) := by
  obtain ⟨s, r, e1, e2, e3⟩ := c84_values hP h m0 hc hv ty pl hpl J Jp hist hh nq nth hq hth weight0
  obtain ⟨s', r', f1, f2, f3⟩ := c84_values (H := scaled u H) hP h m0' hc' hv' ty pl hpl J' Jp' hist' hh' nq' nth' hq' hth' weight0'
  refine ⟨s, r, s', r', e1, e2, f1, f2, fun pr x pr' x' hx hx' hex hex' q p hw hp B hB hd => ?_⟩
  obtain ⟨g, T, hG, hE⟩ := (e3 pr x hx).1 hex q p hw hp B hB hd
  obtain ⟨g', T', hG', hE'⟩ := (f3 pr' x' hx').1 hex' q p hw hp B (proper_scaled hu hB) hd
  exact c117_entry hu hB hG hG' hE hE'

end run

/-- the problem of C84 and the same with all lengths doubled meet the hypotheses -/
example : Sensible exH.P ∧ (∃ l, generate exH.P = some l) ∧ (∀ p, Proper exH exB p ∧ Proper (scaled 2 exH) exB p) ∧ (∀ q, Directions exH q) ∧ (∀ q, exH.P.want q = true)
    ∧ (⟨0, 0, 0⟩ : Par) ∈ pars exH.P ∧ (scaled 2 exH).radius ⟨0, 0, 0⟩ ≠ exH.radius ⟨0, 0, 0⟩ :=
  ⟨⟨by decide, by decide, by decide⟩, c19_total (by decide), fun p => ⟨ex_proper p, proper_scaled two_pos (ex_proper p)⟩, ex_directions, fun _ => rfl, by decide,
    show (2 : ℝ) * (1 / 10) ≠ 1 / 10 by norm_num⟩

end Verif.Content
