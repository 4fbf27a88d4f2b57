import Verif.Properties.MieSeries
import Verif.Proofs.LegendreBound
import Mathlib.Analysis.NormedSpace.FunctionSeries

/-!
# C116: the scattered light tends to that of Mie theory for all orders
-/
namespace Verif.Mie

open Filter Topology Finset

section
variable {m : ℂ} (hm : m ≠ 0) (h1 : m ^ 2 + 1 ≠ 0) {x : ℝ} (hx : 0 < x)

/-- one order of an amplitude -/
theorem order_le (u v : ℂ) {p t : ℝ} {n : Nat} (hp : |p| ≤ ((n + 1 : ℕ) : ℝ) * (((n + 1 : ℕ) : ℝ) + 1) * (3 / 2)) (ht : |t| ≤ ((n + 1 : ℕ) : ℝ) * (((n + 1 : ℕ) : ℝ) + 1) * (3 / 2)) :
    ‖(2 * ((n + 1 : ℕ) : ℂ) + 1) / (((n + 1 : ℕ) : ℂ) * (((n + 1 : ℕ) : ℂ) + 1)) * (u * p + v * t)‖ ≤ 3 / 2 * ((2 * ((n + 1 : ℕ) : ℝ) + 1) * ‖u‖ + (2 * ((n + 1 : ℕ) : ℝ) + 1) * ‖v‖) := by
  have e : (2 * ((n + 1 : ℕ) : ℂ) + 1) / (((n + 1 : ℕ) : ℂ) * (((n + 1 : ℕ) : ℂ) + 1)) = (((2 * ((n + 1 : ℕ) : ℝ) + 1) / (((n + 1 : ℕ) : ℝ) * (((n + 1 : ℕ) : ℝ) + 1)) : ℝ) : ℂ) := by
    push_cast
    rfl
  generalize hk : ((n + 1 : ℕ) : ℝ) = k at *
  have k0 : 0 < k := by
    rw [← hk]
    exact_mod_cast Nat.succ_pos n
  rw [e, norm_mul, Complex.norm_real, Real.norm_of_nonneg (by positivity)]
  have hb : ‖u * p + v * t‖ ≤ k * (k + 1) * (3 / 2) * (‖u‖ + ‖v‖) := by
    refine (norm_add_le _ _).trans ?_
    rw [norm_mul, norm_mul, Complex.norm_real, Complex.norm_real, Real.norm_eq_abs, Real.norm_eq_abs]
    have := mul_le_mul_of_nonneg_left hp (norm_nonneg u)
    have := mul_le_mul_of_nonneg_left ht (norm_nonneg v)
    linarith
  refine (mul_le_mul_of_nonneg_left hb (by positivity)).trans_eq ?_
  field_simp

theorem angular_le {μ : ℝ} (h : μ ∈ Set.Icc (-1 : ℝ) 1) (n : Nat) :
    |πn n μ| ≤ (n : ℝ) * ((n : ℝ) + 1) * (3 / 2) ∧ |τn n μ| ≤ (n : ℝ) * ((n : ℝ) + 1) * (3 / 2) := by
  have h0 : (0 : ℝ) ≤ (n : ℝ) * ((n : ℝ) + 1) := by positivity
  have h1 := πn_le h n
  have h2 := τn_le h n
  constructor <;> linarith

theorem sum_range_ordersC (f : Nat → ℂ) (N : Nat) : ∑ n ∈ Icc 1 N, f n = ∑ n ∈ range N, f (n + 1) := by
  induction N with
  | zero => simp
  | succ N ih => rw [Finset.sum_Icc_succ_top (by omega), Finset.sum_range_succ, ih]

include hm h1 hx

theorem amplitude_summable : Summable fun n : Nat => 3 / 2 * ((2 * ((n + 1 : ℕ) : ℝ) + 1) * ‖a m x (n + 1)‖ + (2 * ((n + 1 : ℕ) : ℝ) + 1) * ‖b m x (n + 1)‖) := by
  obtain ⟨sa, sb⟩ := norm_summable hm h1 hx
  exact (sa.add sb).mul_left _

/-- **C116**: the amplitudes of the scattered light tend to those of Mie theory, for all directions alike -/
theorem c116_amplitudes : TendstoUniformlyOn (fun N μ => S1 m x N μ) (S1All m x) atTop (Set.Icc (-1) 1)
    ∧ TendstoUniformlyOn (fun N μ => S2 m x N μ) (S2All m x) atTop (Set.Icc (-1) 1) := by
  have hs := amplitude_summable hm h1 hx
  constructor
  · refine (tendstoUniformlyOn_tsum_nat hs fun n μ hμ => order_le (a m x (n + 1)) (b m x (n + 1)) (angular_le hμ (n + 1)).1 (angular_le hμ (n + 1)).2).congr ?_
    refine Eventually.of_forall fun N μ _ => ?_
    unfold S1
    exact (sum_range_ordersC (fun n : Nat => (2 * (n : ℂ) + 1) / ((n : ℂ) * ((n : ℂ) + 1)) * (a m x n * πn n μ + b m x n * τn n μ)) N).symm
  · refine (tendstoUniformlyOn_tsum_nat hs fun n μ hμ => order_le (a m x (n + 1)) (b m x (n + 1)) (angular_le hμ (n + 1)).2 (angular_le hμ (n + 1)).1).congr ?_
    refine Eventually.of_forall fun N μ _ => ?_
    unfold S2
    exact (sum_range_ordersC (fun n : Nat => (2 * (n : ℂ) + 1) / ((n : ℂ) * ((n : ℂ) + 1)) * (a m x n * τn n μ + b m x n * πn n μ)) N).symm

theorem amplitudes_bounded : ∃ K : ℝ, ∀ μ ∈ Set.Icc (-1 : ℝ) 1, ‖S1All m x μ‖ ≤ K ∧ ‖S2All m x μ‖ ≤ K := by
  have hs := amplitude_summable hm h1 hx
  exact ⟨_, fun μ hμ => ⟨tsum_of_norm_bounded hs.hasSum fun n => order_le (a m x (n + 1)) (b m x (n + 1)) (angular_le hμ (n + 1)).1 (angular_le hμ (n + 1)).2,
    tsum_of_norm_bounded hs.hasSum fun n => order_le (a m x (n + 1)) (b m x (n + 1)) (angular_le hμ (n + 1)).2 (angular_le hμ (n + 1)).1⟩⟩

/-- **C116**: and so does the intensity -/
theorem c116_intensity {ε : ℝ} (hε : 0 < ε) : ∃ N0, ∀ N ≥ N0, ∀ k : ℝ, 0 < k → ∀ μ ∈ Set.Icc (-1 : ℝ) 1, |phase m x N k μ - phaseAll m x k μ| ≤ ε / k ^ 2 := by
  obtain ⟨K, hK⟩ := amplitudes_bounded hm h1 hx
  obtain ⟨t1, t2⟩ := c116_amplitudes hm h1 hx
  have K0 : 0 ≤ K := (norm_nonneg _).trans (hK 0 (by norm_num)).1
  obtain ⟨e, he, hb⟩ : ∃ e > 0, e * (e + 2 * K) ≤ ε := by
    refine ⟨min 1 (ε / (1 + 2 * K)), lt_min one_pos (by positivity), ?_⟩
    have h1 := min_le_left 1 (ε / (1 + 2 * K))
    have h2 := min_le_right 1 (ε / (1 + 2 * K))
    have h0 : 0 < min 1 (ε / (1 + 2 * K)) := lt_min one_pos (by positivity)
    calc _ ≤ ε / (1 + 2 * K) * (1 + 2 * K) := mul_le_mul h2 (by linarith) (by linarith) (by positivity)
      _ = ε := by field_simp
  obtain ⟨N0, hN⟩ := eventually_atTop.1 ((Metric.tendstoUniformlyOn_iff.1 t1 e he).and (Metric.tendstoUniformlyOn_iff.1 t2 e he))
  refine ⟨N0, fun N hN0 k hk μ hμ => ?_⟩
  obtain ⟨d1, d2⟩ := hN N hN0
  have d1 := d1 μ hμ
  have d2 := d2 μ hμ
  rw [dist_comm, dist_eq_norm] at d1 d2
  have q1 := normSq_close _ _ (hK μ hμ).1 d1.le
  have q2 := normSq_close _ _ (hK μ hμ).2 d2.le
  unfold phase phaseAll
  rw [← sub_div, abs_div, abs_of_pos (by positivity : 0 < 2 * k ^ 2), div_le_div_iff₀ (by positivity) (by positivity)]
  have q3 : |Complex.normSq (S1 m x N μ) + Complex.normSq (S2 m x N μ) - (Complex.normSq (S1All m x μ) + Complex.normSq (S2All m x μ))| ≤ 2 * ε := by
    rw [abs_le] at q1 q2 ⊢
    constructor <;> linarith [q1.1, q1.2, q2.1, q2.2]
  have := mul_le_mul_of_nonneg_right q3 (by positivity : 0 ≤ k ^ 2)
  linarith

/-- **C116**: grains that do not amplify do not scatter more than they take out of the beam, and those that do not absorb scatter all of it -/
theorem c116_absorption (him : 0 ≤ (m ^ 2).im) : 0 ≤ QscaAll m x ∧ QscaAll m x ≤ QextAll m x ∧ (m.im = 0 → QscaAll m x = QextAll m x) := by
  have te := c115_extinction hm h1 hx
  have ts := c115_scattering hm h1 hx him
  refine ⟨ge_of_tendsto' ts fun N => ?_, le_of_tendsto_of_tendsto' ts te fun N => Qsca_le_Qext hm hx him N, fun hr => ?_⟩
  · unfold Qsca
    exact mul_nonneg (by positivity) (sum_nonneg fun n _ => mul_nonneg (by positivity) (add_nonneg (Complex.normSq_nonneg _) (Complex.normSq_nonneg _)))
  · refine tendsto_nhds_unique ts (te.congr fun N => ?_)
    unfold Qsca Qext
    congr 1
    refine sum_congr rfl fun n hn => ?_
    obtain ⟨_, _, h⟩ := c101_coefficients hm him hx (mem_Icc.1 hn).1
    rw [Complex.add_re, (h hr).1, (h hr).2]

/-- **C116** The absorption coefficients of the table tend to a limit when the grid of directions is refined (C101), and for every required accuracy there are a tolerance and a largest
order so that, in every calculation with a smaller tolerance and a larger largest order, this limit is the absorption efficiency of Mie theory up to the required accuracy. -/
theorem c116_table_absorption (him : 0 ≤ (m ^ 2).im) {ε : ℝ} (hε : 0 < ε) : ∃ tol0 > 0, ∃ N0 : Nat, ∀ {H : Content.Problem} {B : Nat → Content.Bessel} {p : Graph.Par} (_ : Spheres H B p)
    {g : Nat → Nat} {T : Nat → Nat → Nat → Int → Nat → Nat → ℂ} (_ : Content.Grains H B p g T) (_ : ∑ s ∈ range H.P.nshape, H.weight s ≠ 0)
    (_ : ∀ s < H.P.nshape, H.aligned ⟨p, s⟩ = true → (H.coeff ⟨p, s⟩).v 0 = 1) (_ : ∀ n, 0 < n → Refine.Gauss n (H.gl n)) (_ : H.accountForScattering = true)
    {R : Nat → Interp.AbsRes ℝ} (_ : ∀ n, Content.IsAbsorption { H with ngrid := n } p g T (R n)),
    H.mr p = m → size H p = x → H.tol < tol0 → N0 < H.minOrder + H.P.nq →
    ∃ q : ℝ, |q - (QextAll m x - QscaAll m x)| ≤ ε ∧ ∀ it < H.ntheta, Tendsto (fun n => (R n).Qabs it) atTop (𝓝 q) ∧ Tendsto (fun n => (R n).Qabspol it) atTop (𝓝 0) := by
  obtain ⟨N1, hN1⟩ := eventually_atTop.1 (((c115_extinction hm h1 hx).sub (c115_scattering hm h1 hx him)).eventually (Metric.closedBall_mem_nhds _ hε))
  obtain ⟨tol0, ht, hb⟩ := order_large hm hx N1
  refine ⟨tol0, ht, N1, fun {H B p} hS {g T} hG hw hc hgl hacc {R} hR hmr hsz htol hN => ?_⟩
  obtain ⟨g0, hg0, _, _, hl⟩ := c101_absorption hS hG hw hc hgl hacc hR
  rw [hmr, hsz] at hl
  have h := hN1 _ (hb hmr hsz htol hN hg0)
  simp only [Metric.mem_closedBall, Real.dist_eq] at h
  exact ⟨_, h, hl⟩

end

/-! ## tables -/

section run
open Verif.Exec Verif.Store Verif.Api Verif.Graph Verif.Content
open Verif.Special (realOps)

/-- **C116** For every refractive index, size parameter and required accuracy there are a tolerance and a largest order so that, for every calculation with a smaller tolerance and
a larger largest order, every schedule, number of threads and memory limit, the first elements of the scattering matrices of the table are the intensities of Mie theory up to the
required accuracy, for all directions. -/
theorem c116_run {m : ℂ} (h1 : m ^ 2 + 1 ≠ 0) {x : ℝ} (hx : 0 < x) (hm : m ≠ 0) {ε : ℝ} (hε : 0 < ε) : ∃ tol0 > 0, ∃ N0 : Nat, ∀ {H : Problem} (_ : Sensible H.P) {l : List Call} (_ : generate H.P = some l)
    (m0 : Place Loc → Val) (_ : AllClean H.P (clean H) m0) (_ : ∀ c, m0 (.inl (.conv c)) = .ctl Ctl.new) (ty : Tk → Nat) (pl : Tk → List Nat) (_ : ∀ t, (pl t).length ≤ 8000) (J Jp : Junk)
    (hist : List (Op × Junk)) (_ : hist.map Prod.fst = toOps ty pl l) (nq nth : Nat) (_ : 0 < nq) (_ : nth ≤ nq) (weight0 : Nat → Int),
    ∃ s r, exec (hist ++ [(.prepare, Jp)]) (init J) = some s ∧ prepareOf s nq weight0 = some r ∧
      ∀ pr y, XReach _ (bodyOf l (placed H.P (code realOps H))) ⟨startOf s nq nth r, m0, pr⟩ y →
        (∃ th, y.st.pc th = .exited) → ∀ p, H.P.want .scat = true → p ∈ pars H.P → ∀ B, Spheres H B p → Proper H B p → Directions H .scat →
          (∀ s < H.P.nshape, H.aligned ⟨p, s⟩ = true → (H.coeff ⟨p, s⟩).v 0 = 1) →
          H.mr p = m → size H p = x → H.tol < tol0 → N0 < H.minOrder + H.P.nq →
          ∃ Z, y.mem (.inl (.result .scat p)) = .scat Z ∧
            ∀ it < H.ntheta, ∀ ip < 2 * H.ntheta,
              |Z (it * (2 * H.ntheta) + ip) 0 0 - phaseAll m x (waveK H p) (Real.sin (gridθ H H.ntheta it) * Real.cos (gridφ H (2 * H.ntheta) ip))| ≤ ε / waveK H p ^ 2 := by
  obtain ⟨N1, hN1⟩ := c116_intensity hm h1 hx hε
  obtain ⟨tol0, ht, hb⟩ := order_large hm hx N1
  refine ⟨tol0, ht, N1, fun {H} hP {l} h m0 hcl hv ty pl hpl J Jp hist hh nq nth hq hth weight0 => ?_⟩
  obtain ⟨s, r, e1, e2, e3⟩ := c113_run hP h m0 hcl hv ty pl hpl J Jp hist hh nq nth hq hth weight0
  refine ⟨s, r, e1, e2, fun pr y hy hex p hw hp B hS hpr hd hc hmr hsz htol hN => ?_⟩
  obtain ⟨g0, Z, hg0, hZ, hval⟩ := e3 pr y hy hex p hw hp B hS hpr hd hc
  refine ⟨Z, hZ, fun it hit ip hip => ?_⟩
  rw [(hval it hit ip hip).2, hmr, hsz]
  have hk : 0 < waveK H p := by
    unfold waveK
    have := hS.wavelength
    have := Real.pi_pos
    positivity
  refine hN1 _ (hb hmr hsz htol hN hg0) _ hk _ ⟨?_, ?_⟩
  · have h1 := Real.sin_sq_le_one (gridθ H H.ntheta it)
    have h2 := Real.cos_sq_le_one (gridφ H (2 * H.ntheta) ip)
    nlinarith [Real.neg_one_le_sin (gridθ H H.ntheta it), sq_nonneg (Real.sin (gridθ H H.ntheta it) + Real.cos (gridφ H (2 * H.ntheta) ip))]
  · have h1 := Real.sin_sq_le_one (gridθ H H.ntheta it)
    have h2 := Real.cos_sq_le_one (gridφ H (2 * H.ntheta) ip)
    nlinarith [sq_nonneg (Real.sin (gridθ H H.ntheta it) - Real.cos (gridφ H (2 * H.ntheta) ip))]

end run

/-! ## examples -/

/-- for every index, tolerance and largest order there are calculations, with a shape of which the grains are aligned, that meet the hypotheses of `c116_run` -/
example {m : ℂ} (hm : m ≠ 0) (h1 : m ^ 2 + 1 ≠ 0) (h2 : m ^ 2 ≠ 1) (him : 0 ≤ (m ^ 2).im) {tol0 : ℝ} (ht : 0 < tol0) (N0 : Nat) :
    ∃ H : Content.Problem, Graph.Sensible H.P ∧ (∃ l, Graph.generate H.P = some l) ∧ H.P.want .scat = true
    ∧ (∀ p, Spheres H (fun _ => exact) p ∧ Content.Proper H (fun _ => exact) p ∧ H.mr p = m ∧ size H p = Real.pi / 10 ∧ ∀ s, H.aligned ⟨p, s⟩ = true → (H.coeff ⟨p, s⟩).v 0 = 1)
    ∧ Content.Directions H .scat ∧ (⟨0, 0, 0⟩ : Graph.Par) ∈ Graph.pars H.P ∧ H.aligned ⟨⟨0, 0, 0⟩, 1⟩ = true ∧ 1 < H.P.nshape ∧ 0 < H.tol ∧ H.tol < tol0 ∧ N0 < H.minOrder + H.P.nq
    ∧ 0 < H.ntheta := by
  obtain ⟨N, s, g, w, p, a, b, c, d, e⟩ := exL_meets hm h1 h2 him ht N0
  exact ⟨exL m N (tol0 / 2), s, g, rfl, p, exS_directions m, a, rfl, b, c, d, e, show 0 < 2 by decide⟩

/-- and those of `c116_table_absorption` -/
example {m : ℂ} (hm : m ≠ 0) (h1 : m ^ 2 + 1 ≠ 0) (h2 : m ^ 2 ≠ 1) (him : 0 ≤ (m ^ 2).im) {tol0 : ℝ} (ht : 0 < tol0) (N0 : Nat) (p : Graph.Par) :
    ∃ (H : Content.Problem) (g : Nat → Nat) (T : Nat → Nat → Nat → Int → Nat → Nat → ℂ) (R : Nat → Interp.AbsRes ℝ), Spheres H (fun _ => exact) p ∧ Content.Grains H (fun _ => exact) p g T
    ∧ ∑ s ∈ range H.P.nshape, H.weight s ≠ 0 ∧ (∀ s < H.P.nshape, H.aligned ⟨p, s⟩ = true → (H.coeff ⟨p, s⟩).v 0 = 1) ∧ (∀ n, 0 < n → Refine.Gauss n (H.gl n)) ∧ H.accountForScattering = true
    ∧ (∀ n, Content.IsAbsorption { H with ngrid := n } p g T (R n)) ∧ H.mr p = m ∧ size H p = Real.pi / 10 ∧ H.tol < tol0 ∧ N0 < H.minOrder + H.P.nq := by
  obtain ⟨N, hs, _, _, hp, _, _, _, d, e⟩ := exL_meets hm h1 h2 him ht N0
  obtain ⟨q1, q2, q3, q4, q5⟩ := hp p
  obtain ⟨g, T, h, _⟩ := Content.alone_value q2 hs.orders (Content.ex_directions .ext) (q := .ext) (m := fun x => match x with
    | .inl (.conv _) => .ctl Content.Ctl.new
    | .inl x => Content.clean (exL m N (tol0 / 2)) x
    | _ => .unused) (fun x hx => by
      cases x <;> first | rfl | (exfalso; revert hx; simp [Graph.Mine, Graph.whole])) fun _ _ => rfl
  choose R hR using fun n => Refine.coefficients_exist { exL m N (tol0 / 2) with ngrid := n } p g T
  exact ⟨_, g, T, R, q1, h, q2.shapes, fun s _ => q5 s, fun n _ => (exL_gauss _ _ _ n).1, rfl, hR, q3, q4, d, e⟩

/-- in the forward direction the bound for the first angular function is attained -/
example : πn (1 + 1) 1 = 3 ∧ ((1 + 1 : ℕ) : ℝ) * ((1 + 1 : ℕ) + 1) / 2 = 3 := by
  refine ⟨?_, by norm_num⟩
  unfold πn
  rw [Legendre.der_P_succ, Legendre.P_one]
  norm_num

end Verif.Mie
