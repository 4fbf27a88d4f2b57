import Verif.Proofs.Refine
import Verif.Properties.Cross
import Verif.Properties.Content

/-!
# C100: absorption by grains when the grid of directions is refined
-/
namespace Verif.Refine

open Finset MeasureTheory Filter Topology Verif.Scatter Verif.Rotation
open Verif.Direct (theory alphaF)
open Verif.Alignment (Axisymmetric averaged)
open Verif.Python (AngleDist)

/-! ### angular functions -/

theorem pi_same {a b : Angular} {θ : ℝ} (ha : a.IsOf θ) (hb : b.IsOf θ) {n : Nat} (hn : 1 ≤ n) {m : Int} (hm : |m| ≤ n) : a.pi m n = b.pi m n := by
  have hnat : ∀ m : Nat, m ≤ n → a.pi m n = b.pi m n := fun m hm => by rw [pi_eq ha hn hm, pi_eq hb hn hm]
  rcases Int.eq_nat_or_neg m with ⟨j, rfl | rfl⟩
  · exact hnat j (by simpa using hm)
  · rw [Angular.pi_neg, Angular.pi_neg, hnat j (by simpa using hm)]

theorem tau_same {a b : Angular} {θ : ℝ} (ha : a.IsOf θ) (hb : b.IsOf θ) {n : Nat} (hn : 1 ≤ n) {m : Int} (hm : |m| ≤ n) : a.tau m n = b.tau m n := by
  have hnat : ∀ m : Nat, m ≤ n → a.tau m n = b.tau m n := fun m hm => by rw [tau_eq ha hn hm, tau_eq hb hn hm]
  rcases Int.eq_nat_or_neg m with ⟨j, rfl | rfl⟩
  · exact hnat j (by simpa using hm)
  · rw [Angular.tau_neg, Angular.tau_neg, hnat j (by simpa using hm)]

theorem ampSum_valid {nmax : Nat} {φ : ℝ} {f g : Int → Nat → Nat → ℂ}
    (h : ∀ (m : Int) (n n' : Nat), 1 ≤ n → n ≤ nmax → |m| ≤ n → 1 ≤ n' → n' ≤ nmax → |m| ≤ n' → f m n n' = g m n n') : ampSum nmax φ f = ampSum nmax φ g := by
  unfold ampSum
  refine Finset.sum_congr rfl fun m _ => Finset.sum_congr rfl fun n' hn' => Finset.sum_congr rfl fun n hn => ?_
  rw [mem_Icc] at hn hn'
  rw [h m n n' (by omega) hn.2 (abs_le.2 (by omega)) (by omega) hn'.2 (abs_le.2 (by omega))]

/-- the amplitude matrix depends on the direction of the incoming light only through its angle -/
theorem theory_same {a b : Angular} {θ : ℝ} (ha : a.IsOf θ) (hb : b.IsOf θ) (T : Nat → Nat → Int → Nat → Nat → ℂ) (k : ℝ) (nmax : Nat) (o : Angular) (φ : ℝ) :
    theory T k nmax a o φ = theory T k nmax b o φ := by
  unfold theory S11 S12 S21 S22
  congr 2 <;>
  exact ampSum_valid fun m n n' _ _ _ h1 _ h2 => by rw [pi_same ha hb h1 h2, tau_same ha hb h1 h2]

/-! ### the amplitude matrix is a sum of products -/

theorem ampSum_sep {nmax : Nat} {F : Int → Nat → Nat → ℝ → ℂ}
    (h : ∀ (m : Int) (n n' : Nat), 1 ≤ n' → |m| ≤ n' → Continuous (F m n n')) : Sep fun θ φ => ampSum nmax (-φ) fun m n n' => F m n n' θ := by
  unfold ampSum
  refine Sep.sum _ fun m _ => Sep.sum _ fun n' hn' => Sep.sum _ fun n _ => ?_
  rw [mem_Icc] at hn'
  exact Sep.prod (v := fun φ => Complex.exp (Complex.I * (m * ((-φ : ℝ) : ℂ)))) (h m n n' (by omega) (abs_le.2 (by omega))) (by fun_prop)

theorem theory_sep {A : ℝ → Angular} (hA : ∀ θ, (A θ).IsOf θ) (T : Nat → Nat → Int → Nat → Nat → ℂ) (k : ℝ) (nmax : Nat) (o : Angular) (p q : Fin 2) :
    Sep fun θ φ => entry (theory T k nmax (A θ) o (-φ)) p q := by
  have c : ∀ {F : Int → Nat → Nat → ℝ → ℂ} (z : ℂ), (∀ (m : Int) (n n' : Nat), 1 ≤ n' → |m| ≤ n' → Continuous (F m n n')) →
      Sep fun θ φ => z * ampSum nmax (-φ) fun m n n' => F m n n' θ := fun z h => (Sep.const z).mul (ampSum_sep h)
  fin_cases p <;> fin_cases q
  · exact c (1 / (k : ℂ)) (F := fun m n n' θ => alphaF n n' * (T 0 n m 0 n' * o.pi m n * (A θ).pi m n' + T 1 n m 0 n' * o.tau m n * (A θ).pi m n'
      + T 0 n m 1 n' * o.pi m n * (A θ).tau m n' + T 1 n m 1 n' * o.tau m n * (A θ).tau m n')) fun m n n' h1 h2 => by
        have := pi_continuous hA h1 h2
        have := tau_continuous hA h1 h2
        fun_prop
  · exact c (1 / (Complex.I * k)) (F := fun m n n' θ => alphaF n n' * (T 0 n m 0 n' * o.pi m n * (A θ).tau m n'
      + T 1 n m 0 n' * o.tau m n * (A θ).tau m n' + T 0 n m 1 n' * o.pi m n * (A θ).pi m n' + T 1 n m 1 n' * o.tau m n * (A θ).pi m n')) fun m n n' h1 h2 => by
        have := pi_continuous hA h1 h2
        have := tau_continuous hA h1 h2
        fun_prop
  · exact c (Complex.I / k) (F := fun m n n' θ => alphaF n n' * (T 0 n m 0 n' * o.tau m n * (A θ).pi m n'
      + T 1 n m 0 n' * o.pi m n * (A θ).pi m n' + T 0 n m 1 n' * o.tau m n * (A θ).tau m n' + T 1 n m 1 n' * o.pi m n * (A θ).tau m n')) fun m n n' h1 h2 => by
        have := pi_continuous hA h1 h2
        have := tau_continuous hA h1 h2
        fun_prop
  · exact c (1 / (k : ℂ)) (F := fun m n n' θ => alphaF n n' * (T 0 n m 0 n' * o.tau m n * (A θ).tau m n'
      + T 1 n m 0 n' * o.pi m n * (A θ).tau m n' + T 0 n m 1 n' * o.tau m n * (A θ).pi m n' + T 1 n m 1 n' * o.pi m n * (A θ).pi m n')) fun m n n' h1 h2 => by
        have := pi_continuous hA h1 h2
        have := tau_continuous hA h1 h2
        fun_prop

theorem stokes_sep {u v : ℝ → ℝ → ℂ} (hu : Sep u) (hv : Sep v) (r : Fin 4) : Sep fun θ φ => ((stokes (u θ φ) (v θ φ) r : ℝ) : ℂ) := by
  have huu := hu.mul hu.conj
  have hvv := hv.mul hv.conj
  have huv := hu.mul hv.conj
  have hvu := hv.mul hu.conj
  fin_cases r
  · refine cast (congrArg Sep ?_) (huu.add hvv)
    funext θ φ
    simp [stokes, Complex.mul_conj]
  · refine cast (congrArg Sep ?_) (huu.add ((Sep.const (-1)).mul hvv))
    funext θ φ
    simp [stokes, Complex.mul_conj]
    ring
  · refine cast (congrArg Sep ?_) (((Sep.const (-1)).mul huv).add ((Sep.const (-1)).mul hvu))
    funext θ φ
    apply Complex.ext <;> simp [stokes] <;> ring
  · refine cast (congrArg Sep ?_) (((Sep.const (-Complex.I)).mul huv).add ((Sep.const Complex.I).mul hvu))
    funext θ φ
    apply Complex.ext <;> simp [stokes] <;> ring

/-! ### refinement -/

/-- **C100** When the grid is refined, what is scattered from the grid of directions tends to what is scattered from all directions. -/
theorem c100_refined (H : Content.Problem) (hgl : ∀ n, 0 < n → Gauss n (H.gl n)) (c : Graph.Cell) (g : Nat) (T : Nat → Nat → Int → Nat → Nat → ℂ) (o : Angular)
    {i : Nat → Nat → Angular} (hi : ∀ n, ∀ j < n, (i n j).IsOf (Content.gridθ H n j)) {A : ℝ → Angular} (hA : ∀ θ, (A θ).IsOf θ) (r : Fin 4) :
    Tendsto (fun n => Content.lost { H with ngrid := n } c g T o (i n) r) atTop (𝓝 (sphere fun θ φ => Content.scattered H c g T o (A θ) (-φ) r)) := by
  have hS : Sep fun θ φ => ((Content.scattered H c g T o (A θ) (-φ) r : ℝ) : ℂ) := by
    have e := theory_sep hA (Content.ensemble H c T) (Content.waveK H c.par) (Content.orderAt H g) o
    refine cast (congrArg Sep ?_) ((Sep.const (1 / 2)).mul ((stokes_sep (e 0 0) (e 1 0) r).add (stokes_sep (e 0 1) (e 1 1) r)))
    funext θ φ
    rw [show Content.scattered H c g T o (A θ) (-φ) r = (stokes (entry (theory (Content.ensemble H c T) (Content.waveK H c.par) (Content.orderAt H g) (A θ) o (-φ)) 0 0)
      (entry (theory (Content.ensemble H c T) (Content.waveK H c.par) (Content.orderAt H g) (A θ) o (-φ)) 1 0) r
      + stokes (entry (theory (Content.ensemble H c T) (Content.waveK H c.par) (Content.orderAt H g) (A θ) o (-φ)) 0 1)
      (entry (theory (Content.ensemble H c T) (Content.waveK H c.par) (Content.orderAt H g) (A θ) o (-φ)) 1 1) r) / 2 from rfl]
    push_cast
    ring
  have hlim := hS.converge hgl
  rw [← sphere_ofReal] at hlim
  have := (Complex.continuous_re.tendsto _).comp hlim
  rw [Complex.ofReal_re] at this
  refine this.congr fun n => ?_
  simp only [Function.comp_apply, Complex.re_sum]
  unfold Content.lost
  refine Finset.sum_congr rfl fun j hj => Finset.sum_congr rfl fun l _ => ?_
  rw [mem_range] at hj
  have e : ∀ φ, Content.scattered { H with ngrid := n } c g T o (i n j) φ r = Content.scattered H c g T o (A (Content.gridθ H n j)) φ r := by
    intro φ
    have t := theory_same (hi n j hj) (hA (Content.gridθ H n j)) (Content.ensemble H c T) (Content.waveK H c.par) (Content.orderAt H g) o φ
    have t0 := congrArg Amp.s0 t
    have t1 := congrArg Amp.s1 t
    have t2 := congrArg Amp.s2 t
    have t3 := congrArg Amp.s3 t
    change Content.amp11 H c g T o (i n j) φ = Content.amp11 H c g T o (A (Content.gridθ H n j)) φ at t0
    change Content.amp12 H c g T o (i n j) φ = Content.amp12 H c g T o (A (Content.gridθ H n j)) φ at t1
    change Content.amp21 H c g T o (i n j) φ = Content.amp21 H c g T o (A (Content.gridθ H n j)) φ at t2
    change Content.amp22 H c g T o (i n j) φ = Content.amp22 H c g T o (A (Content.gridθ H n j)) φ at t3
    change Content.scattered H c g T o (i n j) φ r = _
    unfold Content.scattered
    rw [t0, t1, t2, t3]
  rw [e, ← Complex.ofReal_mul, ← Complex.ofReal_mul, Complex.ofReal_re]
  rfl

/-! ### reciprocity -/

theorem ampSum_swap {nmax : Nat} {φ : ℝ} {f g : Int → Nat → Nat → ℂ}
    (h : ∀ (m : Int) (n n' : Nat), 1 ≤ n → n ≤ nmax → |m| ≤ n → 1 ≤ n' → n' ≤ nmax → |m| ≤ n' → f m n n' = g (-m) n' n) : ampSum nmax φ f = ampSum nmax (-φ) g := by
  rw [reorder, reorder, Finset.sum_comm]
  refine Finset.sum_congr rfl fun n' hn' => Finset.sum_congr rfl fun n hn => ?_
  rw [mem_Icc] at hn hn'
  refine Finset.sum_nbij' (fun m => -m) (fun m => -m) ?_ ?_ ?_ ?_ ?_
  · intro m hm
    rw [mem_Icc] at hm ⊢
    omega
  · intro m hm
    rw [mem_Icc] at hm ⊢
    omega
  · intro m _
    simp
  · intro m _
    simp
  · intro m hm
    rw [mem_Icc] at hm
    rw [h m n n' hn.1 hn.2 (abs_le.2 (by omega)) hn'.1 hn'.2 (abs_le.2 (by omega))]
    congr 2
    push_cast
    ring

theorem alpha_swap (n n' : Nat) : alphaF n n' = (-1) ^ (n + n') * alphaF n' n := by
  unfold alphaF
  have h1 : Complex.I ^ ((n' : Int) - n - 1) = (-1) ^ (n + n') * Complex.I ^ ((n : Int) - n' - 1) := by
    rw [show ((n' : Int) - n - 1) = ((2 * (n' - n : Int)) + ((n : Int) - n' - 1)) by ring, zpow_add₀ Complex.I_ne_zero, zpow_mul]
    congr 1
    rw [show Complex.I ^ (2 : Int) = -1 from by rw [show (2 : Int) = ((2 : Nat) : Int) from rfl, zpow_natCast, Complex.I_sq],
      zpow_sub₀ (by norm_num), zpow_natCast, zpow_natCast, pow_add, mul_comm, div_eq_mul_inv, ← inv_pow]
    norm_num
  rw [h1, show TMatrix.prefactor n n' = TMatrix.prefactor n' n from by rw [prefactor_mul, prefactor_mul, mul_comm]]
  ring

/-- how the products of an element and two angular functions change when source and detector are exchanged -/
theorem coupled {T : Nat → Nat → Int → Nat → Nat → ℂ} {nmax : Nat} (hR : Reciprocal T nmax) (hM : Mirror T nmax) {a n b n' : Nat} {m : Int} (ha : a < 2) (hb : b < 2)
    (h1 : 1 ≤ n) (h2 : n ≤ nmax) (h3 : |m| ≤ n) (h4 : 1 ≤ n') (h5 : n' ≤ nmax) (h6 : |m| ≤ n') :
    alphaF n n' * T a n m b n' = (-1) ^ (a + b) * (alphaF n' n * T b n' (-m) a n) := by
  by_cases hp : (a + n + b + n') % 2 = 1
  · rw [hM a n m b n' ha hb h1 h2 h4 h5 h3 h6 hp, hM b n' (-m) a n hb ha h4 h5 h1 h2 (by rwa [abs_neg]) (by rwa [abs_neg]) (by omega)]
    simp
  · rw [hR a n m b n' ha hb h1 h2 h4 h5 h3 h6, alpha_swap n n']
    rw [show ((-1 : ℂ)) ^ (n + n') = (-1) ^ (a + b) from ?_]
    · ring
    · rcases Nat.even_or_odd (a + b) with h | h
      · rw [h.neg_one_pow, Even.neg_one_pow (by rw [Nat.even_iff] at h ⊢; omega)]
      · rw [h.neg_one_pow, Odd.neg_one_pow (by rw [Nat.odd_iff] at h ⊢; omega)]

/-- exchange of source and detector -/
theorem exchange {T : Nat → Nat → Int → Nat → Nat → ℂ} {nmax : Nat} (hR : Reciprocal T nmax) (hM : Mirror T nmax) (k : ℝ) (i o : Angular) (φ : ℝ) (p q : Fin 2) :
    entry (theory T k nmax i o φ) p q = entry (theory T k nmax o i (-φ)) q p := by
  have key : ∀ (m : Int) (n n' : Nat), 1 ≤ n → n ≤ nmax → |m| ≤ n → 1 ≤ n' → n' ≤ nmax → |m| ≤ n' →
      alphaF n n' * T 0 n m 0 n' = alphaF n' n * T 0 n' (-m) 0 n ∧ alphaF n n' * T 0 n m 1 n' = -(alphaF n' n * T 1 n' (-m) 0 n)
      ∧ alphaF n n' * T 1 n m 0 n' = -(alphaF n' n * T 0 n' (-m) 1 n) ∧ alphaF n n' * T 1 n m 1 n' = alphaF n' n * T 1 n' (-m) 1 n := by
    intro m n n' h1 h2 h3 h4 h5 h6
    refine ⟨?_, ?_, ?_, ?_⟩
    · have := coupled hR hM (a := 0) (b := 0) (by norm_num) (by norm_num) h1 h2 h3 h4 h5 h6
      simpa using this
    · have := coupled hR hM (a := 0) (b := 1) (by norm_num) (by norm_num) h1 h2 h3 h4 h5 h6
      simpa using this
    · have := coupled hR hM (a := 1) (b := 0) (by norm_num) (by norm_num) h1 h2 h3 h4 h5 h6
      simpa using this
    · have := coupled hR hM (a := 1) (b := 1) (by norm_num) (by norm_num) h1 h2 h3 h4 h5 h6
      simpa using this
  have sq1 : ∀ m : Int, ((-1 : ℂ) ^ m.natAbs) * (-1) ^ m.natAbs = 1 := fun m => by rw [← mul_pow]; simp
  have e11 : ∀ i o : Angular, S11 T alphaF o i k nmax φ = S11 T alphaF i o k nmax (-φ) := by
    intro i o
    unfold S11
    refine congrArg (fun z => 1 / (k : ℂ) * z) (ampSum_swap fun m n n' h1 h2 h3 h4 h5 h6 => ?_)
    obtain ⟨k1, k2, k3, k4⟩ := key m n n' h1 h2 h3 h4 h5 h6
    simp only [Angular.pi_neg, Angular.tau_neg, Complex.ofReal_neg, Complex.ofReal_mul, Complex.ofReal_pow, Complex.ofReal_one]
    have s := sq1 m
    generalize (-1 : ℂ) ^ m.natAbs = e at s
    linear_combination (o.pi m n * i.pi m n' : ℂ) * k1 + (o.pi m n * i.tau m n' : ℂ) * k2 + (o.tau m n * i.pi m n' : ℂ) * k3 + (o.tau m n * i.tau m n' : ℂ) * k4
      - alphaF n' n * (T 0 n' (-m) 0 n * o.pi m n * i.pi m n' - T 1 n' (-m) 0 n * o.pi m n * i.tau m n' - T 0 n' (-m) 1 n * o.tau m n * i.pi m n'
        + T 1 n' (-m) 1 n * o.tau m n * i.tau m n') * s
  have e22 : ∀ i o : Angular, S22 T alphaF o i k nmax φ = S22 T alphaF i o k nmax (-φ) := by
    intro i o
    unfold S22
    refine congrArg (fun z => 1 / (k : ℂ) * z) (ampSum_swap fun m n n' h1 h2 h3 h4 h5 h6 => ?_)
    obtain ⟨k1, k2, k3, k4⟩ := key m n n' h1 h2 h3 h4 h5 h6
    simp only [Angular.pi_neg, Angular.tau_neg, Complex.ofReal_neg, Complex.ofReal_mul, Complex.ofReal_pow, Complex.ofReal_one]
    have s := sq1 m
    generalize (-1 : ℂ) ^ m.natAbs = e at s
    linear_combination (o.tau m n * i.tau m n' : ℂ) * k1 + (o.tau m n * i.pi m n' : ℂ) * k2 + (o.pi m n * i.tau m n' : ℂ) * k3 + (o.pi m n * i.pi m n' : ℂ) * k4
      - alphaF n' n * (T 0 n' (-m) 0 n * o.tau m n * i.tau m n' - T 1 n' (-m) 0 n * o.tau m n * i.pi m n' - T 0 n' (-m) 1 n * o.pi m n * i.tau m n'
        + T 1 n' (-m) 1 n * o.pi m n * i.pi m n') * s
  have e12 : ∀ (i o : Angular), S12 T alphaF o i k nmax φ = S21 T alphaF i o k nmax (-φ) := by
    intro i o
    unfold S12 S21
    rw [ampSum_swap (g := fun m n n' => -(alphaF n n' * (T 0 n m 0 n' * i.tau m n * o.pi m n'
      + T 1 n m 0 n' * i.pi m n * o.pi m n' + T 0 n m 1 n' * i.tau m n * o.tau m n' + T 1 n m 1 n' * i.pi m n * o.tau m n')))]
    · unfold ampSum
      simp only [neg_mul, Finset.sum_neg_distrib]
      rw [show 1 / (Complex.I * k) = -(Complex.I / k) from by
        rw [one_div, mul_inv, Complex.inv_I]; ring]
      ring
    · intro m n n' h1 h2 h3 h4 h5 h6
      obtain ⟨k1, k2, k3, k4⟩ := key m n n' h1 h2 h3 h4 h5 h6
      simp only [Angular.pi_neg, Angular.tau_neg, Complex.ofReal_neg, Complex.ofReal_mul, Complex.ofReal_pow, Complex.ofReal_one]
      have s := sq1 m
      generalize (-1 : ℂ) ^ m.natAbs = e at s
      linear_combination (o.pi m n * i.tau m n' : ℂ) * k1 + (o.pi m n * i.pi m n' : ℂ) * k2 + (o.tau m n * i.tau m n' : ℂ) * k3 + (o.tau m n * i.pi m n' : ℂ) * k4
        - alphaF n' n * (T 0 n' (-m) 0 n * o.pi m n * i.tau m n' - T 1 n' (-m) 0 n * o.pi m n * i.pi m n' - T 0 n' (-m) 1 n * o.tau m n * i.tau m n'
          + T 1 n' (-m) 1 n * o.tau m n * i.pi m n') * s
  have e21 : ∀ (i o : Angular), S21 T alphaF o i k nmax φ = S12 T alphaF i o k nmax (-φ) := by
    intro i o
    unfold S12 S21
    rw [ampSum_swap (g := fun m n n' => -(alphaF n n' * (T 0 n m 0 n' * i.pi m n * o.tau m n'
      + T 1 n m 0 n' * i.tau m n * o.tau m n' + T 0 n m 1 n' * i.pi m n * o.pi m n' + T 1 n m 1 n' * i.tau m n * o.pi m n')))]
    · unfold ampSum
      simp only [neg_mul, Finset.sum_neg_distrib]
      rw [show 1 / (Complex.I * k) = -(Complex.I / k) from by
        rw [one_div, mul_inv, Complex.inv_I]; ring]
      ring
    · intro m n n' h1 h2 h3 h4 h5 h6
      obtain ⟨k1, k2, k3, k4⟩ := key m n n' h1 h2 h3 h4 h5 h6
      simp only [Angular.pi_neg, Angular.tau_neg, Complex.ofReal_neg, Complex.ofReal_mul, Complex.ofReal_pow, Complex.ofReal_one]
      have s := sq1 m
      generalize (-1 : ℂ) ^ m.natAbs = e at s
      linear_combination (o.tau m n * i.pi m n' : ℂ) * k1 + (o.tau m n * i.tau m n' : ℂ) * k2 + (o.pi m n * i.pi m n' : ℂ) * k3 + (o.pi m n * i.tau m n' : ℂ) * k4
        - alphaF n' n * (T 0 n' (-m) 0 n * o.tau m n * i.pi m n' - T 1 n' (-m) 0 n * o.tau m n * i.tau m n' - T 0 n' (-m) 1 n * o.pi m n * i.pi m n'
          + T 1 n' (-m) 1 n * o.pi m n * i.tau m n') * s
  fin_cases p <;> fin_cases q
  · exact e11 i o
  · exact e12 i o
  · exact e21 i o
  · exact e22 i o

/-! ### ensembles of particles -/

theorem D_conj (n m l : Int) (hm : |m| ≤ n) (α β : ℝ) : (starRingEnd ℂ) (D n (-m) (-l) α β) = (-1) ^ (m + l).natAbs * D n m l α β := by
  unfold D
  rw [d_neg n m l hm, map_mul, ← Complex.exp_conj, Complex.conj_ofReal]
  simp only [map_neg, map_mul, Complex.conj_I, Complex.conj_ofReal, Complex.ofReal_mul, Complex.ofReal_pow, Complex.ofReal_neg, Complex.ofReal_one, Int.cast_neg, map_intCast]
  rw [show -(-Complex.I * (-(m : ℂ) * α)) = -(Complex.I * (m * α)) by ring]
  ring

/-- reciprocity for a particle with any orientation -/
theorem rotated_reciprocal {T : Nat → Nat → Int → Nat → Nat → ℂ} {nmax : Nat} (hR : Reciprocal T nmax) (α β : ℝ) {a n b n' : Nat} {m : Int} (ha : a < 2) (hb : b < 2)
    (h1 : 1 ≤ n) (h2 : n ≤ nmax) (h3 : |m| ≤ n) (h4 : 1 ≤ n') (h5 : n' ≤ nmax) (h6 : |m| ≤ n') :
    rotated T α β a n m b n' m = rotated T α β b n' (-m) a n (-m) := by
  unfold rotated
  refine Finset.sum_nbij' (fun l => -l) (fun l => -l) ?_ ?_ ?_ ?_ ?_
  · intro l hl
    rw [mem_Icc] at hl ⊢
    omega
  · intro l hl
    rw [mem_Icc] at hl ⊢
    omega
  · intro l _
    simp
  · intro l _
    simp
  · intro l hl
    rw [mem_Icc] at hl
    rw [hR a n l b n' ha hb h1 h2 h4 h5 (abs_le.2 (by omega)) (abs_le.2 (by omega)), D_conj n m l h3]
    have e := congrArg (starRingEnd ℂ) (D_conj n' m l h6 α β)
    rw [Complex.conj_conj, map_mul, map_pow, map_neg, map_one] at e
    rw [e]
    have s : ((-1 : ℂ) ^ (m + l).natAbs) * (-1) ^ (m + l).natAbs = 1 := by rw [← mul_pow]; simp
    linear_combination -(D n m l α β * T b n' (-l) a n * (starRingEnd ℂ) (D n' m l α β)) * s

/-- **C100** the average over the orientations of a reciprocal particle is reciprocal -/
theorem averaged_reciprocal {μ : Measure ℝ} (hμ : AngleDist μ) {T : Nat → Nat → Int → Nat → Nat → ℂ} {nmax : Nat} (hR : Reciprocal T nmax) :
    Reciprocal (averaged (fun x : ℝ => (x : ℂ)) (coefficients μ) T) nmax := by
  intro a n m b n' ha hb h1 h2 h4 h5 h3 h6
  have e1 := c92_average hμ T a n b n' h3 h6
  have e2 := c92_average hμ T b n' a n (m := -m) (m' := -m) (by rwa [abs_neg]) (by rwa [abs_neg])
  rw [if_pos rfl] at e1 e2
  exact e1.symm.trans ((congrArg (average μ) (funext fun α => funext fun β => rotated_reciprocal hR α β ha hb h1 h2 h3 h4 h5 h6)).trans e2)

theorem averaged_mirror {p : Int → ℝ} {T : Nat → Nat → Int → Nat → Nat → ℂ} {nmax : Nat} (hM : Mirror T nmax) :
    Mirror (averaged (fun x : ℝ => (x : ℂ)) p T) nmax := by
  intro a n m b n' ha hb h1 h2 h4 h5 h3 h6 hp
  unfold averaged
  refine Finset.sum_eq_zero fun N _ => Finset.sum_eq_zero fun l hl => ?_
  rw [mem_Icc] at hl
  rw [hM a n l b n' ha hb h1 h2 h4 h5 (abs_le.2 (by omega)) (abs_le.2 (by omega)) hp, mul_zero]

/-- a wave with one projection only -/
noncomputable def single (m : Int) (x : Nat → Nat → ℂ) (b n : Nat) (m' : Int) : ℂ := if m' = m then x b n else 0

theorem sum_single (m : Int) (x : Nat → Nat → ℂ) {nmax : Nat} (hm : |m| ≤ nmax) (f : Nat → Nat → Int → ℂ) :
    ∑ y ∈ idx nmax, f y.1 y.2.1 y.2.2 * single m x y.1 y.2.1 y.2.2 = ∑ b ∈ range 2, ∑ n' ∈ Icc (max m.natAbs 1) nmax, f b n' m * x b n' := by
  rw [sum_idx' nmax fun b n' m' => f b n' m' * single m x b n' m']
  rw [Finset.sum_eq_single m]
  · unfold single
    simp
  · intro l _ hl
    unfold single
    simp [hl]
  · intro h
    exact absurd (mem_Icc.2 (abs_le.1 hm)) h

/-- **C100** an ensemble of particles that do not amplify does not amplify -/
theorem averaged_passive {μ : Measure ℝ} (hμ : AngleDist μ) {T : Nat → Nat → Int → Nat → Nat → ℂ} {nmax : Nat} (hP : Passive T nmax) :
    Passive (averaged (fun x : ℝ => (x : ℂ)) (coefficients μ) T) nmax := by
  intro m x
  by_cases hm : |m| ≤ nmax
  swap
  · have := Int.abs_eq_natAbs m
    rw [Icc_eq_empty (by omega)]
    simp
  set f : Nat → Nat → ℝ → ℝ → ℂ := fun a n α β => ∑ b ∈ range 2, ∑ n' ∈ Icc (max m.natAbs 1) nmax, rotated T α β a n m b n' m * x b n' with hf
  have hfc : ∀ a n, Continuous fun y : ℝ × ℝ => f a n y.1 y.2 := fun a n =>
    continuous_finsetSum _ fun b _ => continuous_finsetSum _ fun n' _ => (rotated_continuous T a n m b n' m).mul continuous_const
  have hav : ∀ a, ∀ n ∈ Icc (max m.natAbs 1) nmax,
      ∑ b ∈ range 2, ∑ n' ∈ Icc (max m.natAbs 1) nmax, averaged (fun x : ℝ => (x : ℂ)) (coefficients μ) T a n m b n' * x b n' = average μ (f a n) := by
    intro a n hn
    rw [hf]
    dsimp only
    rw [average_sum hμ _ fun b _ => continuous_finsetSum _ fun n' _ => (rotated_continuous T a n m b n' m).mul continuous_const]
    refine Finset.sum_congr rfl fun b _ => ?_
    rw [average_sum hμ _ fun n' _ => (rotated_continuous T a n m b n' m).mul continuous_const]
    refine Finset.sum_congr rfl fun n' hn' => ?_
    rw [mem_Icc] at hn hn'
    have e := c92_average hμ T a n b n' (m := m) (m' := m) (abs_le.2 (by omega)) (abs_le.2 (by omega))
    rw [if_pos rfl] at e
    simp only [mul_comm _ (x b n')]
    rw [average_mul, e]
    rfl
  have hfs : ∀ α β a n, ∑ y ∈ idx nmax, rotated T α β a n m y.1 y.2.1 y.2.2 * single m x y.1 y.2.1 y.2.2 = f a n α β := fun α β a n =>
    sum_single m x hm fun b n' m' => rotated T α β a n m b n' m'
  have hpt : ∀ α β, ∑ a ∈ range 2, ∑ n ∈ Icc (max m.natAbs 1) nmax, Complex.normSq (f a n α β)
      ≤ -(∑ a ∈ range 2, ∑ n ∈ Icc (max m.natAbs 1) nmax, (starRingEnd ℂ) (x a n) * f a n α β).re := by
    intro α β
    have e1 := rotated_power T nmax α β (single m x)
    have e2 := rotated_form T nmax α β (single m x)
    have le : ∑ l ∈ Icc (-(nmax : Int)) nmax, ∑ a ∈ range 2, ∑ n ∈ Icc (max l.natAbs 1) nmax, Complex.normSq (response T nmax α β (single m x) l a n)
        ≤ -(∑ l ∈ Icc (-(nmax : Int)) nmax, ∑ a ∈ range 2, ∑ n ∈ Icc (max l.natAbs 1) nmax,
          (starRingEnd ℂ) (inFrame α β (single m x) l a n) * response T nmax α β (single m x) l a n).re := by
      rw [Complex.re_sum, ← Finset.sum_neg_distrib]
      exact Finset.sum_le_sum fun l _ => hP l (inFrame α β (single m x) l)
    rw [← e1, ← e2] at le
    have e3 : ∑ y ∈ idx nmax, (starRingEnd ℂ) (single m x y.1 y.2.1 y.2.2)
          * ∑ z ∈ idx nmax, rotated T α β y.1 y.2.1 y.2.2 z.1 z.2.1 z.2.2 * single m x z.1 z.2.1 z.2.2
        = ∑ a ∈ range 2, ∑ n ∈ Icc (max m.natAbs 1) nmax, (starRingEnd ℂ) (x a n) * f a n α β := by
      rw [sum_idx' nmax fun a n l => (starRingEnd ℂ) (single m x a n l) * ∑ z ∈ idx nmax, rotated T α β a n l z.1 z.2.1 z.2.2 * single m x z.1 z.2.1 z.2.2]
      rw [Finset.sum_eq_single m]
      · refine Finset.sum_congr rfl fun a _ => Finset.sum_congr rfl fun n _ => ?_
        rw [hfs]
        simp [single]
      · intro l _ hl
        simp [single, hl]
      · intro h
        exact absurd (mem_Icc.2 (abs_le.1 hm)) h
    rw [e3] at le
    refine le_trans ?_ le
    rw [sum_idx' nmax fun a n l => Complex.normSq (∑ z ∈ idx nmax, rotated T α β a n l z.1 z.2.1 z.2.2 * single m x z.1 z.2.1 z.2.2)]
    refine le_trans (le_of_eq ?_) (Finset.single_le_sum (f := fun l : Int => ∑ a ∈ range 2, ∑ n ∈ Icc (max l.natAbs 1) nmax,
      Complex.normSq (∑ z ∈ idx nmax, rotated T α β a n l z.1 z.2.1 z.2.2 * single m x z.1 z.2.1 z.2.2)) (fun l _ =>
        Finset.sum_nonneg fun a _ => Finset.sum_nonneg fun n _ => Complex.normSq_nonneg _) (mem_Icc.2 (abs_le.1 hm)))
    refine Finset.sum_congr rfl fun a _ => Finset.sum_congr rfl fun n _ => ?_
    rw [hfs]
  have hre : mean μ (fun α β => -(∑ a ∈ range 2, ∑ n ∈ Icc (max m.natAbs 1) nmax, (starRingEnd ℂ) (x a n) * f a n α β).re)
      = -(∑ a ∈ range 2, ∑ n ∈ Icc (max m.natAbs 1) nmax, (starRingEnd ℂ) (x a n) * average μ (f a n)).re := by
    have hc : ∀ a n, Continuous fun y : ℝ × ℝ => (starRingEnd ℂ) (x a n) * f a n y.1 y.2 := fun a n => continuous_const.mul (hfc a n)
    have hL := average_map hμ ((-Complex.reCLM).smulRight (1 : ℂ)) (f := fun α β => ∑ a ∈ range 2, ∑ n ∈ Icc (max m.natAbs 1) nmax, (starRingEnd ℂ) (x a n) * f a n α β)
      (continuous_finsetSum _ fun a _ => continuous_finsetSum _ fun n _ => hc a n)
    rw [average_sum hμ _ fun a _ => continuous_finsetSum _ fun n _ => hc a n] at hL
    rw [Finset.sum_congr rfl fun a _ => average_sum hμ _ fun n _ => hc a n] at hL
    rw [Finset.sum_congr rfl fun a _ => Finset.sum_congr rfl fun n _ => average_mul _ _] at hL
    refine Complex.ofReal_injective ?_
    rw [← mean_average]
    have hz : ∀ z : ℂ, ((-Complex.reCLM).smulRight (1 : ℂ)) z = ((-z.re : ℝ) : ℂ) := fun z => by simp
    simp only [hz] at hL
    exact hL
  rw [Finset.sum_congr rfl fun a _ => Finset.sum_congr rfl fun n hn => congrArg Complex.normSq (hav a n hn)]
  rw [Finset.sum_congr rfl fun a _ => Finset.sum_congr rfl fun n hn => congrArg (fun z => (starRingEnd ℂ) (x a n) * z) (hav a n hn)]
  rw [← hre]
  refine le_trans ?_ (mean_mono hμ ?_ ?_ hpt)
  · rw [mean_sum hμ _ fun a _ => continuous_finsetSum _ fun n _ => Complex.continuous_normSq.comp (hfc a n)]
    refine Finset.sum_le_sum fun a _ => ?_
    rw [mean_sum hμ _ fun n _ => Complex.continuous_normSq.comp (hfc a n)]
    exact Finset.sum_le_sum fun n _ => jensen hμ (hfc a n)
  · exact continuous_finsetSum _ fun a _ => continuous_finsetSum _ fun n _ => Complex.continuous_normSq.comp (hfc a n)
  · exact (Complex.continuous_re.comp (continuous_finsetSum _ fun a _ => continuous_finsetSum _ fun n _ => continuous_const.mul (hfc a n))).neg

theorem ensemble_avg {H : Content.Problem} {c : Graph.Cell} {g : Nat} {T : Nat → Nat → Int → Nat → Nat → ℂ} (ha : H.aligned c = true)
    {μ : Measure ℝ} (hp : ∀ n : Nat, n ≤ 2 * Content.orderAt H g → (H.coeff c).v n = coefficients μ n) {i n1 : Nat} {m : Int} {j n2 : Nat}
    (h1 : n1 ≤ Content.orderAt H g) (h2 : n2 ≤ Content.orderAt H g) :
    Content.ensemble H c T i n1 m j n2 = averaged (fun x : ℝ => (x : ℂ)) (coefficients μ) T i n1 m j n2 := by
  unfold Content.ensemble
  rw [if_pos ha]
  exact averaged_congr T i n1 m j n2 fun N hN => hp N (by omega)

theorem ensemble_reciprocal {H : Content.Problem} {c : Graph.Cell} {g : Nat} {T : Nat → Nat → Int → Nat → Nat → ℂ} (hd : Distributed H c g)
    (hR : Reciprocal T (Content.orderAt H g)) : Reciprocal (Content.ensemble H c T) (Content.orderAt H g) := by
  by_cases ha : H.aligned c = true
  · obtain ⟨μ, hμ, hp⟩ := hd ha
    intro a n m b n' ha' hb h1 h2 h4 h5 h3 h6
    rw [ensemble_avg ha hp h2 h5, ensemble_avg ha hp h5 h2]
    exact averaged_reciprocal hμ hR a n m b n' ha' hb h1 h2 h4 h5 h3 h6
  · unfold Content.ensemble
    rwa [if_neg ha]

theorem ensemble_mirror {H : Content.Problem} {c : Graph.Cell} {N : Nat} {T : Nat → Nat → Int → Nat → Nat → ℂ} (hM : Mirror T N) :
    Mirror (Content.ensemble H c T) N := by
  unfold Content.ensemble
  split_ifs
  · exact averaged_mirror hM
  · exact hM

theorem ensemble_passive {H : Content.Problem} {c : Graph.Cell} {g : Nat} {T : Nat → Nat → Int → Nat → Nat → ℂ} (hd : Distributed H c g)
    (hP : Passive T (Content.orderAt H g)) : Passive (Content.ensemble H c T) (Content.orderAt H g) := by
  by_cases ha : H.aligned c = true
  · obtain ⟨μ, hμ, hp⟩ := hd ha
    intro m x
    have h := averaged_passive hμ hP m x
    have e : ∀ a, ∀ n ∈ Icc (max m.natAbs 1) (Content.orderAt H g), ∑ b ∈ range 2, ∑ n' ∈ Icc (max m.natAbs 1) (Content.orderAt H g), Content.ensemble H c T a n m b n' * x b n'
        = ∑ b ∈ range 2, ∑ n' ∈ Icc (max m.natAbs 1) (Content.orderAt H g), averaged (fun x : ℝ => (x : ℂ)) (coefficients μ) T a n m b n' * x b n' :=
      fun a n hn => Finset.sum_congr rfl fun b _ => Finset.sum_congr rfl fun n' hn' => by
        rw [ensemble_avg ha hp (mem_Icc.1 hn).2 (mem_Icc.1 hn').2]
    rw [Finset.sum_congr rfl fun a _ => Finset.sum_congr rfl fun n hn => congrArg Complex.normSq (e a n hn)]
    rw [Finset.sum_congr rfl fun a _ => Finset.sum_congr rfl fun n hn => congrArg (fun z => (starRingEnd ℂ) (x a n) * z) (e a n hn)]
    exact h
  · unfold Content.ensemble
    rwa [if_neg ha]

/-! ### energy, for each polarisation -/

theorem scattered_pol {A : ℝ → Angular} (hA : ∀ θ, (A θ).IsOf θ) (T : Nat → Nat → Int → Nat → Nat → Int → ℂ) (k : ℝ) (nmax : Nat) (i : Angular) (φi : ℝ) (q : Fin 2) :
    sphere (fun θ φ => ∑ p : Fin 2, Complex.normSq (general T k nmax (A θ) φ i φi p q))
      = 4 * Real.pi / k ^ 2 * ∑ x ∈ idx nmax, Complex.normSq (∑ y ∈ idx nmax, T x.1 x.2.1 x.2.2 y.1 y.2.1 y.2.2 * incoming i φi q y.1 y.2.1 y.2.2) := by
  have e : ∀ θ φ, ∑ p : Fin 2, Complex.normSq (general T k nmax (A θ) φ i φi p q)
      = 1 / k ^ 2 * ∑ p : Fin 2, Complex.normSq (∑ x ∈ idx nmax, (∑ y ∈ idx nmax, Bm T x y * (starRingEnd ℂ) (Wv i φi y q)) * Wv (A θ) φ x p) := by
    intro θ φ
    rw [Finset.mul_sum]
    refine Finset.sum_congr rfl fun p _ => ?_
    rw [general_eq, Complex.normSq_mul]
    simp [sq]
  rw [sphere_congr e, sphere_mul_real, parseval hA, show 4 * Real.pi / k ^ 2 = 1 / k ^ 2 * (4 * Real.pi) by ring, mul_assoc]
  congr 1
  rw [Finset.mul_sum]
  refine Finset.sum_congr rfl fun x hx => ?_
  rw [scattered_wave, Complex.normSq_mul, Complex.normSq_mul, Complex.normSq_mul, map_pow, Complex.normSq_neg, Complex.normSq_one, one_pow, map_zpow₀, Complex.normSq_I, one_zpow,
    Complex.normSq_ofReal, one_mul, one_mul, ← g_wnorm (mem_idx.1 hx).2.1]
  ring

theorem forward_pol (T : Nat → Nat → Int → Nat → Nat → Int → ℂ) (k : ℝ) (nmax : Nat) (i : Angular) (φi : ℝ) (q : Fin 2) :
    (general T k nmax i φi i φi q q).im
      = -(1 / k * (∑ x ∈ idx nmax, (starRingEnd ℂ) (incoming i φi q x.1 x.2.1 x.2.2)
        * ∑ y ∈ idx nmax, T x.1 x.2.1 x.2.2 y.1 y.2.1 y.2.2 * incoming i φi q y.1 y.2.1 y.2.2).re) := by
  rw [general_eq]
  have e : ∑ x ∈ idx nmax, (∑ y ∈ idx nmax, Bm T x y * (starRingEnd ℂ) (Wv i φi y q)) * Wv i φi x q
      = -Complex.I * ∑ x ∈ idx nmax, (starRingEnd ℂ) (incoming i φi q x.1 x.2.1 x.2.2)
        * ∑ y ∈ idx nmax, T x.1 x.2.1 x.2.2 y.1 y.2.1 y.2.2 * incoming i φi q y.1 y.2.1 y.2.2 := by
    rw [Finset.mul_sum]
    refine Finset.sum_congr rfl fun x hx => ?_
    rw [scattered_wave]
    have hI : Complex.I ^ (-(x.2.1 : Int) - 1) = -Complex.I * (starRingEnd ℂ) (Complex.I ^ x.2.1) := by
      rw [zpow_sub₀ Complex.I_ne_zero, zpow_neg, zpow_natCast, map_pow, Complex.conj_I, zpow_one, ← inv_pow, Complex.inv_I, div_eq_mul_inv, Complex.inv_I]
      ring
    rw [hI]
    generalize (∑ y ∈ idx nmax, T x.1 x.2.1 x.2.2 y.1 y.2.1 y.2.2 * incoming i φi q y.1 y.2.1 y.2.2) = Z
    unfold incoming Wv
    simp only [map_mul, Complex.conj_conj, Complex.conj_ofReal, map_pow, map_neg, map_one]
    ring
  rw [e]
  generalize (∑ x ∈ idx nmax, (starRingEnd ℂ) (incoming i φi q x.1 x.2.1 x.2.2)
        * ∑ y ∈ idx nmax, T x.1 x.2.1 x.2.2 y.1 y.2.1 y.2.2 * incoming i φi q y.1 y.2.1 y.2.2) = Z
  rw [show 1 / (k : ℂ) * (-Complex.I * Z) = ((1 / k : ℝ) : ℂ) * (-Complex.I * Z) by push_cast; ring, Complex.im_ofReal_mul]
  simp

/-- a T-matrix with `m = m'` only, applied to a wave -/
theorem diagonal_apply (T : Nat → Nat → Int → Nat → Nat → ℂ) (v : Nat → Nat → Int → ℂ) {nmax : Nat} {m : Int} (hm : |m| ≤ nmax) (a n : Nat) :
    ∑ y ∈ idx nmax, (if m = y.2.2 then T a n m y.1 y.2.1 else 0) * v y.1 y.2.1 y.2.2 = ∑ b ∈ range 2, ∑ n' ∈ Icc (max m.natAbs 1) nmax, T a n m b n' * v b n' m := by
  rw [sum_idx' nmax fun b n' m' => (if m = m' then T a n m b n' else 0) * v b n' m']
  rw [Finset.sum_eq_single m]
  · simp
  · intro l _ hl
    simp [Ne.symm hl]
  · intro h
    exact absurd (mem_Icc.2 (abs_le.1 hm)) h

theorem power_incoming {A : ℝ → Angular} (hA : ∀ θ, (A θ).IsOf θ) (T : Nat → Nat → Int → Nat → Nat → ℂ) (k : ℝ) (nmax : Nat) (i : Angular) (q : Fin 2) :
    sphere (fun θ φ => ∑ p : Fin 2, Complex.normSq (entry (theory T k nmax i (A θ) φ) p q))
      = 4 * Real.pi / k ^ 2 * ∑ m ∈ Icc (-(nmax : Int)) nmax, ∑ a ∈ range 2, ∑ n ∈ Icc (max m.natAbs 1) nmax,
        Complex.normSq (∑ b ∈ range 2, ∑ n' ∈ Icc (max m.natAbs 1) nmax, T a n m b n' * incoming i 0 q b n' m)
    ∧ 4 * Real.pi / k * (entry (theory T k nmax i i 0) q q).im
      = 4 * Real.pi / k ^ 2 * ∑ m ∈ Icc (-(nmax : Int)) nmax, -(∑ a ∈ range 2, ∑ n ∈ Icc (max m.natAbs 1) nmax,
        (starRingEnd ℂ) (incoming i 0 q a n m) * ∑ b ∈ range 2, ∑ n' ∈ Icc (max m.natAbs 1) nmax, T a n m b n' * incoming i 0 q b n' m).re := by
  constructor
  · have e : ∀ θ φ, ∑ p : Fin 2, Complex.normSq (entry (theory T k nmax i (A θ) φ) p q)
        = ∑ p : Fin 2, Complex.normSq (general (fun a n m b n' m' => if m = m' then T a n m b n' else 0) k nmax (A θ) φ i 0 p q) := by
      intro θ φ
      refine Finset.sum_congr rfl fun p _ => ?_
      rw [general_diagonal, sub_zero]
    rw [sphere_congr e, scattered_pol hA, sum_idx' nmax fun a n m => Complex.normSq (∑ y ∈ idx nmax, (if m = y.2.2 then T a n m y.1 y.2.1 else 0) * incoming i 0 q y.1 y.2.1 y.2.2)]
    refine congrArg _ (Finset.sum_congr rfl fun m hm => Finset.sum_congr rfl fun a _ => Finset.sum_congr rfl fun n _ => ?_)
    rw [diagonal_apply T _ (abs_le.2 (mem_Icc.1 hm))]
  · have e : entry (theory T k nmax i i 0) q q = general (fun a n m b n' m' => if m = m' then T a n m b n' else 0) k nmax i 0 i 0 q q := by
      rw [general_diagonal, sub_zero]
    rw [e, forward_pol, sum_idx' nmax fun a n m => (starRingEnd ℂ) (incoming i 0 q a n m)
      * ∑ y ∈ idx nmax, (if m = y.2.2 then T a n m y.1 y.2.1 else 0) * incoming i 0 q y.1 y.2.1 y.2.2]
    rw [Complex.re_sum, Finset.sum_neg_distrib]
    rw [Finset.sum_congr rfl fun m hm => congrArg Complex.re (Finset.sum_congr rfl fun a _ => Finset.sum_congr rfl fun n _ =>
      congrArg (fun z => (starRingEnd ℂ) (incoming i 0 q a n m) * z) (diagonal_apply T _ (abs_le.2 (mem_Icc.1 hm)) a n))]
    ring

theorem power_pol {A : ℝ → Angular} (hA : ∀ θ, (A θ).IsOf θ) (T : Nat → Nat → Int → Nat → Nat → ℂ) (k : ℝ) (nmax : Nat) (i : Angular) (q : Fin 2) :
    ∃ v : Nat → Nat → Int → ℂ,
      sphere (fun θ φ => ∑ p : Fin 2, Complex.normSq (entry (theory T k nmax i (A θ) φ) p q))
        = 4 * Real.pi / k ^ 2 * ∑ m ∈ Icc (-(nmax : Int)) nmax, ∑ a ∈ range 2, ∑ n ∈ Icc (max m.natAbs 1) nmax,
          Complex.normSq (∑ b ∈ range 2, ∑ n' ∈ Icc (max m.natAbs 1) nmax, T a n m b n' * v b n' m)
      ∧ 4 * Real.pi / k * (entry (theory T k nmax i i 0) q q).im
        = 4 * Real.pi / k ^ 2 * ∑ m ∈ Icc (-(nmax : Int)) nmax, -(∑ a ∈ range 2, ∑ n ∈ Icc (max m.natAbs 1) nmax,
          (starRingEnd ℂ) (v a n m) * ∑ b ∈ range 2, ∑ n' ∈ Icc (max m.natAbs 1) nmax, T a n m b n' * v b n' m).re := by
  exact ⟨incoming i 0 q, power_incoming hA T k nmax i q⟩

section
variable {H : Content.Problem} {c : Graph.Cell} {g : Nat} {T : Nat → Nat → Int → Nat → Nat → ℂ} {A : ℝ → Angular} {o : Angular}

theorem dispersed_eq (pol : Fin 2) : dispersed H c g T A o pol
    = sphere (fun θ φ => ∑ p : Fin 2, Complex.normSq (entry (theory (Content.ensemble H c T) (Content.waveK H c.par) (Content.orderAt H g) o (A θ) φ) p pol)) := by
  unfold dispersed
  refine sphere_congr fun θ φ => ?_
  rw [Fin.sum_univ_two]
  fin_cases pol <;> rfl

theorem extinguished_eq (pol : Fin 2) : extinguished H c g T o pol
    = 4 * Real.pi / Content.waveK H c.par * (entry (theory (Content.ensemble H c T) (Content.waveK H c.par) (Content.orderAt H g) o o 0) pol pol).im := by
  unfold extinguished
  fin_cases pol <;> rfl

/-- **C100** Grains that do not amplify do not emit when they should absorb: the absorption cross section is not negative for either polarisation. -/
theorem c100_nonnegative (hA : ∀ θ, (A θ).IsOf θ) (hd : Distributed H c g) (hP : Passive T (Content.orderAt H g)) (pol : Fin 2) : 0 ≤ absorbed H c g T A o pol := by
  have hE := ensemble_passive hd hP
  unfold absorbed
  obtain ⟨v, e1, e2⟩ := power_pol hA (Content.ensemble H c T) (Content.waveK H c.par) (Content.orderAt H g) o pol
  rw [dispersed_eq, extinguished_eq, e1, e2, ← mul_sub, ← Finset.sum_sub_distrib]
  have hpi := Real.pi_pos
  refine div_nonneg (mul_nonneg (by positivity) (Finset.sum_nonneg fun m _ => sub_nonneg.2 (hE m fun b n' => v b n' m))) ?_
  unfold Content.disc
  positivity

/-- **C100** Grains with fixed orientations that do not absorb: both cross sections are zero. -/
theorem c100_lossless (hA : ∀ θ, (A θ).IsOf θ) (ha : H.aligned c = false) (hP : Lossless T (Content.orderAt H g)) (pol : Fin 2) : absorbed H c g T A o pol = 0 := by
  have hE : Lossless (Content.ensemble H c T) (Content.orderAt H g) := by
    unfold Content.ensemble
    rwa [if_neg (by simp [ha])]
  unfold absorbed
  obtain ⟨v, e1, e2⟩ := power_pol hA (Content.ensemble H c T) (Content.waveK H c.par) (Content.orderAt H g) o pol
  rw [dispersed_eq, extinguished_eq, e1, e2, ← mul_sub, ← Finset.sum_sub_distrib]
  rw [Finset.sum_eq_zero fun m _ => sub_eq_zero.2 (hE m fun b n' => v b n' m).symm]
  simp

/-- **C100** Light from one direction that is scattered to another, and light that takes the same way back: source and detector (with their polarisers) can be exchanged. -/
theorem c100_reciprocity (hd : Distributed H c g) (hR : Reciprocal T (Content.orderAt H g)) (hM : Mirror T (Content.orderAt H g)) (i : Angular) (φ : ℝ) :
    Content.amp11 H c g T o i φ = Content.amp11 H c g T i o (-φ) ∧ Content.amp12 H c g T o i φ = Content.amp21 H c g T i o (-φ)
    ∧ Content.amp21 H c g T o i φ = Content.amp12 H c g T i o (-φ) ∧ Content.amp22 H c g T o i φ = Content.amp22 H c g T i o (-φ) := by
  have e := exchange (ensemble_reciprocal hd hR) (ensemble_mirror (H := H) (c := c) hM) (Content.waveK H c.par) i o φ
  exact ⟨e 0 0, e 0 1, e 1 0, e 1 1⟩

theorem sphere_add {f g : ℝ → ℝ → ℝ} (hf : Continuous fun x : ℝ × ℝ => f x.1 x.2) (hg : Continuous fun x : ℝ × ℝ => g x.1 x.2) :
    sphere (fun θ φ => f θ φ + g θ φ) = sphere f + sphere g := by
  have := sphere_sum (univ : Finset (Fin 2)) (f := fun x : Fin 2 => if x = 0 then f else g) fun x _ => by
    split_ifs
    · exact hf
    · exact hg
  simpa [Fin.sum_univ_two] using this

theorem scattered_continuous (hA : ∀ θ, (A θ).IsOf θ) (r : Fin 4) : Continuous fun x : ℝ × ℝ => Content.scattered H c g T o (A x.1) (-x.2) r := by
  have e : ∀ p q, Continuous fun x : ℝ × ℝ => entry (theory (Content.ensemble H c T) (Content.waveK H c.par) (Content.orderAt H g) (A x.1) o (-x.2)) p q :=
    fun p q => (theory_sep hA _ _ _ o p q).continuous
  have h11 : Continuous fun x : ℝ × ℝ => Content.amp11 H c g T o (A x.1) (-x.2) := e 0 0
  have h12 : Continuous fun x : ℝ × ℝ => Content.amp12 H c g T o (A x.1) (-x.2) := e 0 1
  have h21 : Continuous fun x : ℝ × ℝ => Content.amp21 H c g T o (A x.1) (-x.2) := e 1 0
  have h22 : Continuous fun x : ℝ × ℝ => Content.amp22 H c g T o (A x.1) (-x.2) := e 1 1
  have cn := Complex.continuous_normSq
  unfold Content.scattered
  fin_cases r
  · simp only [stokes, Fin.zero_eta, Matrix.cons_val_zero]
    exact (((cn.comp h11).add (cn.comp h21)).add ((cn.comp h12).add (cn.comp h22))).div_const _
  · simp only [stokes, Fin.mk_one, Matrix.cons_val_one]
    exact (((cn.comp h11).sub (cn.comp h21)).add ((cn.comp h12).sub (cn.comp h22))).div_const _
  · simp only [stokes, Fin.reduceFinMk, Matrix.cons_val]
    have hs := continuous_star (R := ℂ)
    exact ((continuous_const.mul (Complex.continuous_re.comp (h11.mul (hs.comp h21)))).add
      (continuous_const.mul (Complex.continuous_re.comp (h12.mul (hs.comp h22))))).div_const _
  · simp only [stokes, Fin.reduceFinMk, Matrix.cons_val]
    have hs := continuous_star (R := ℂ)
    exact ((continuous_const.mul (Complex.continuous_im.comp (h11.mul (hs.comp h21)))).add
      (continuous_const.mul (Complex.continuous_im.comp (h12.mul (hs.comp h22))))).div_const _

/-- what comes from all directions and leaves in one direction, and what comes from that direction and leaves in all directions -/
theorem backwards (hA : ∀ θ, (A θ).IsOf θ) (hd : Distributed H c g) (hR : Reciprocal T (Content.orderAt H g)) (hM : Mirror T (Content.orderAt H g)) :
    (sphere fun θ φ => Content.scattered H c g T o (A θ) (-φ) 0) + (sphere fun θ φ => Content.scattered H c g T o (A θ) (-φ) 1) = dispersed H c g T A o 0
    ∧ (sphere fun θ φ => Content.scattered H c g T o (A θ) (-φ) 0) - (sphere fun θ φ => Content.scattered H c g T o (A θ) (-φ) 1) = dispersed H c g T A o 1 := by
  have e : ∀ θ φ, Content.scattered H c g T o (A θ) (-φ) 0 = (Complex.normSq (Content.amp11 H c g T (A θ) o φ) + Complex.normSq (Content.amp12 H c g T (A θ) o φ)
        + (Complex.normSq (Content.amp21 H c g T (A θ) o φ) + Complex.normSq (Content.amp22 H c g T (A θ) o φ))) / 2
      ∧ Content.scattered H c g T o (A θ) (-φ) 1 = (Complex.normSq (Content.amp11 H c g T (A θ) o φ) - Complex.normSq (Content.amp12 H c g T (A θ) o φ)
        + (Complex.normSq (Content.amp21 H c g T (A θ) o φ) - Complex.normSq (Content.amp22 H c g T (A θ) o φ))) / 2 := by
    intro θ φ
    obtain ⟨r1, r2, r3, r4⟩ := c100_reciprocity (o := o) hd hR hM (A θ) (-φ)
    rw [neg_neg] at r1 r2 r3 r4
    unfold Content.scattered
    rw [r1, r2, r3, r4]
    exact ⟨rfl, rfl⟩
  have c0 := scattered_continuous (H := H) (c := c) (g := g) (T := T) (o := o) hA 0
  have c1 := scattered_continuous (H := H) (c := c) (g := g) (T := T) (o := o) hA 1
  constructor
  · rw [← sphere_add c0 c1]
    unfold dispersed
    refine sphere_congr fun θ φ => ?_
    rw [(e θ φ).1, (e θ φ).2, if_pos rfl]
    ring
  · have : (sphere fun θ φ => Content.scattered H c g T o (A θ) (-φ) 0)
        = (sphere fun θ φ => Content.scattered H c g T o (A θ) (-φ) 1) + dispersed H c g T A o 1 := by
      rw [dispersed_eq]
      have c2 : Continuous fun x : ℝ × ℝ => ∑ p : Fin 2, Complex.normSq (entry (theory (Content.ensemble H c T) (Content.waveK H c.par) (Content.orderAt H g) o (A x.1) x.2) p 1) := by
        refine continuous_finsetSum _ fun p _ => Complex.continuous_normSq.comp ?_
        have h0 := (theory_sep hA (Content.ensemble H c T) (Content.waveK H c.par) (Content.orderAt H g) o 1 p).continuous
        refine h0.congr fun x => ?_
        rw [exchange (ensemble_reciprocal hd hR) (ensemble_mirror (H := H) (c := c) hM), neg_neg]
      rw [← sphere_add c1 c2]
      refine sphere_congr fun θ φ => ?_
      rw [(e θ φ).1, (e θ φ).2, Fin.sum_univ_two]
      change _ = _ + (Complex.normSq (Content.amp12 H c g T (A θ) o φ) + Complex.normSq (Content.amp22 H c g T (A θ) o φ))
      ring
    rw [this]
    ring

end

/-- the limit of the averages over the shapes -/
theorem shapeMean_tendsto (H : Content.Problem) {f : Nat → Nat → ℝ} {l : Nat → ℝ} (h : ∀ s < H.P.nshape, Tendsto (f s) atTop (𝓝 (l s))) :
    Tendsto (fun n => Content.shapeMean H fun s => f s n) atTop (𝓝 (Content.shapeMean H l)) := by
  unfold Content.shapeMean
  refine Tendsto.div_const (tendsto_finsetSum _ fun s hs => ?_) _
  exact (h s (mem_range.1 hs)).const_mul _

section
variable {H : Content.Problem} {p : Graph.Par} {g : Nat → Nat} {T : Nat → Nat → Nat → Int → Nat → Nat → ℂ} {R : Nat → Interp.AbsRes ℝ} {A : ℝ → Angular}

/-- **C100** The absorption coefficients in the table, when the grid of directions is refined: the sum and the difference of the coefficients for unpolarised light and for
polarisation tend to the absorption cross sections for vertically and horizontally polarised light (averages over the shapes). -/
theorem c100_absorption (hgl : ∀ n, 0 < n → Gauss n (H.gl n)) (hacc : H.accountForScattering = true) (hR : ∀ n, Content.IsAbsorption { H with ngrid := n } p g T (R n))
    (hA : ∀ θ, (A θ).IsOf θ)
    (hT : ∀ s < H.P.nshape, Distributed H ⟨p, s⟩ (g s) ∧ Reciprocal (T s) (Content.orderAt H (g s)) ∧ Mirror (T s) (Content.orderAt H (g s)))
    {it : Nat} (hit : it < H.ntheta) :
    Tendsto (fun n => (R n).Qabs it + (R n).Qabspol it) atTop (𝓝 (Content.shapeMean H fun s => absorbed H ⟨p, s⟩ (g s) (T s) A (A (H.theta it)) 0))
    ∧ Tendsto (fun n => (R n).Qabs it - (R n).Qabspol it) atTop (𝓝 (Content.shapeMean H fun s => absorbed H ⟨p, s⟩ (g s) (T s) A (A (H.theta it)) 1)) := by
  have hv : ∀ n, (R n).Qabs it = Content.shapeMean H (fun s => Content.extI H ⟨p, s⟩ (g s) (T s) (A (H.theta it))
        - Content.lost { H with ngrid := n } ⟨p, s⟩ (g s) (T s) (A (H.theta it)) (fun j => A (Content.gridθ H n j)) 0 / Content.disc H p)
      ∧ (R n).Qabspol it = Content.shapeMean H (fun s => Content.extQ H ⟨p, s⟩ (g s) (T s) (A (H.theta it))
        - Content.lost { H with ngrid := n } ⟨p, s⟩ (g s) (T s) (A (H.theta it)) (fun j => A (Content.gridθ H n j)) 1 / Content.disc H p) := by
    intro n
    have h := hR n it hit (A (H.theta it)) (hA _) (fun j => A (Content.gridθ H n j)) fun j _ => hA _
    simp only [hacc, if_true] at h
    exact h
  have hlim : ∀ s, ∀ r : Fin 4, Tendsto (fun n => Content.lost { H with ngrid := n } ⟨p, s⟩ (g s) (T s) (A (H.theta it)) (fun j => A (Content.gridθ H n j)) r) atTop
      (𝓝 (sphere fun θ φ => Content.scattered H ⟨p, s⟩ (g s) (T s) (A (H.theta it)) (A θ) (-φ) r)) :=
    fun s r => c100_refined H hgl ⟨p, s⟩ (g s) (T s) (A (H.theta it)) (i := fun n j => A (Content.gridθ H n j)) (fun n j _ => hA _) hA r
  have madd : ∀ f f' : Nat → ℝ, Content.shapeMean H f + Content.shapeMean H f' = Content.shapeMean H fun s => f s + f' s := by
    intro f f'
    unfold Content.shapeMean
    rw [← add_div, ← Finset.sum_add_distrib]
    simp only [mul_add]
  have msub : ∀ f f' : Nat → ℝ, Content.shapeMean H f - Content.shapeMean H f' = Content.shapeMean H fun s => f s - f' s := by
    intro f f'
    unfold Content.shapeMean
    rw [← sub_div, ← Finset.sum_sub_distrib]
    simp only [mul_sub]
  constructor
  · have hs := shapeMean_tendsto H (f := fun s n => Content.extI H ⟨p, s⟩ (g s) (T s) (A (H.theta it))
        - Content.lost { H with ngrid := n } ⟨p, s⟩ (g s) (T s) (A (H.theta it)) (fun j => A (Content.gridθ H n j)) 0 / Content.disc H p
        + (Content.extQ H ⟨p, s⟩ (g s) (T s) (A (H.theta it))
        - Content.lost { H with ngrid := n } ⟨p, s⟩ (g s) (T s) (A (H.theta it)) (fun j => A (Content.gridθ H n j)) 1 / Content.disc H p))
        (l := fun s => absorbed H ⟨p, s⟩ (g s) (T s) A (A (H.theta it)) 0) fun s hs => by
      obtain ⟨t1, t2, t3⟩ := hT s hs
      have t := (((hlim s 0).div_const (Content.disc H p)).const_sub (Content.extI H ⟨p, s⟩ (g s) (T s) (A (H.theta it)))).add
        (((hlim s 1).div_const (Content.disc H p)).const_sub (Content.extQ H ⟨p, s⟩ (g s) (T s) (A (H.theta it))))
      refine cast (congrArg (fun z => Tendsto _ atTop (𝓝 z)) ?_) t
      unfold absorbed
      rw [← (backwards hA t1 t2 t3).1]
      unfold extinguished Content.extI Content.extQ
      simp only [if_true, Complex.add_im, Complex.sub_im]
      ring
    refine hs.congr fun n => ?_
    rw [(hv n).1, (hv n).2, madd]
  · have hs := shapeMean_tendsto H (f := fun s n => Content.extI H ⟨p, s⟩ (g s) (T s) (A (H.theta it))
        - Content.lost { H with ngrid := n } ⟨p, s⟩ (g s) (T s) (A (H.theta it)) (fun j => A (Content.gridθ H n j)) 0 / Content.disc H p
        - (Content.extQ H ⟨p, s⟩ (g s) (T s) (A (H.theta it))
        - Content.lost { H with ngrid := n } ⟨p, s⟩ (g s) (T s) (A (H.theta it)) (fun j => A (Content.gridθ H n j)) 1 / Content.disc H p))
        (l := fun s => absorbed H ⟨p, s⟩ (g s) (T s) A (A (H.theta it)) 1) fun s hs => by
      obtain ⟨t1, t2, t3⟩ := hT s hs
      have t := (((hlim s 0).div_const (Content.disc H p)).const_sub (Content.extI H ⟨p, s⟩ (g s) (T s) (A (H.theta it)))).sub
        (((hlim s 1).div_const (Content.disc H p)).const_sub (Content.extQ H ⟨p, s⟩ (g s) (T s) (A (H.theta it))))
      refine cast (congrArg (fun z => Tendsto _ atTop (𝓝 z)) ?_) t
      unfold absorbed
      rw [← (backwards hA t1 t2 t3).2]
      unfold extinguished Content.extI Content.extQ
      simp only [one_ne_zero, if_false, Complex.add_im, Complex.sub_im]
      ring
    refine hs.congr fun n => ?_
    rw [(hv n).1, (hv n).2, msub]

/-- **C100** With a fine grid of directions, grains that do not amplify have (up to any error) no negative absorption, and polarisation does not exceed it. -/
theorem c100_bounds (hgl : ∀ n, 0 < n → Gauss n (H.gl n)) (hacc : H.accountForScattering = true) (hR : ∀ n, Content.IsAbsorption { H with ngrid := n } p g T (R n))
    (hw : ∀ s < H.P.nshape, 0 ≤ H.weight s)
    (hT : ∀ s < H.P.nshape, Distributed H ⟨p, s⟩ (g s) ∧ Reciprocal (T s) (Content.orderAt H (g s)) ∧ Mirror (T s) (Content.orderAt H (g s)) ∧ Passive (T s) (Content.orderAt H (g s)))
    {it : Nat} (hit : it < H.ntheta) {ε : ℝ} (hε : 0 < ε) : ∀ᶠ n in atTop, |(R n).Qabspol it| < (R n).Qabs it + ε := by
  choose A hA using angular_all
  obtain ⟨h0, h1⟩ := c100_absorption hgl hacc hR hA (fun s hs => ⟨(hT s hs).1, (hT s hs).2.1, (hT s hs).2.2.1⟩) hit
  have hn : ∀ pol, 0 ≤ Content.shapeMean H fun s => absorbed H ⟨p, s⟩ (g s) (T s) A (A (H.theta it)) pol := by
    intro pol
    unfold Content.shapeMean
    refine div_nonneg (Finset.sum_nonneg fun s hs => ?_) (Finset.sum_nonneg fun s hs => hw s (mem_range.1 hs))
    rw [mem_range] at hs
    exact mul_nonneg (hw s hs) (c100_nonnegative hA (hT s hs).1 (hT s hs).2.2.2 pol)
  filter_upwards [h0.eventually (lt_mem_nhds (by linarith [hn 0] : -ε < _)), h1.eventually (lt_mem_nhds (by linarith [hn 1] : -ε < _))] with n a b
  rw [abs_lt]
  constructor <;> linarith

/-- **C100** Grains with fixed orientations that do not absorb: the absorption coefficients in the table tend to zero when the grid is refined. -/
theorem c100_transparent (hgl : ∀ n, 0 < n → Gauss n (H.gl n)) (hacc : H.accountForScattering = true) (hR : ∀ n, Content.IsAbsorption { H with ngrid := n } p g T (R n))
    (hT : ∀ s < H.P.nshape, H.aligned ⟨p, s⟩ = false ∧ Reciprocal (T s) (Content.orderAt H (g s)) ∧ Mirror (T s) (Content.orderAt H (g s)) ∧ Lossless (T s) (Content.orderAt H (g s)))
    {it : Nat} (hit : it < H.ntheta) : Tendsto (fun n => (R n).Qabs it) atTop (𝓝 0) ∧ Tendsto (fun n => (R n).Qabspol it) atTop (𝓝 0) := by
  choose A hA using angular_all
  obtain ⟨h0, h1⟩ := c100_absorption hgl hacc hR hA (fun s hs => ⟨fun h => absurd h (by rw [(hT s hs).1]; decide), (hT s hs).2.1, (hT s hs).2.2.1⟩) hit
  have hz : ∀ pol, (Content.shapeMean H fun s => absorbed H ⟨p, s⟩ (g s) (T s) A (A (H.theta it)) pol) = 0 := by
    intro pol
    unfold Content.shapeMean
    rw [Finset.sum_eq_zero fun s hs => ?_, zero_div]
    have := c100_lossless (o := A (H.theta it)) hA (hT s (mem_range.1 hs)).1 (hT s (mem_range.1 hs)).2.2.2 pol
    dsimp only
    rw [this, mul_zero]
  rw [hz] at h0 h1
  constructor
  · have := (h0.add h1).div_const 2
    simp only [add_zero, zero_div] at this
    refine this.congr fun n => by ring
  · have := (h0.sub h1).div_const 2
    simp only [sub_zero, zero_div] at this
    refine this.congr fun n => by ring

end

/-! ### the hypotheses -/

/-- **C100** the T-matrices of the grains (the spheroids of C84) have the symmetry that is needed -/
theorem c100_mirror {H : Content.Problem} {B : Nat → Content.Bessel} {p : Graph.Par} (hp : Content.Proper H B p) {s : Nat} (hs : s < H.P.nshape) {g : Nat}
    {T : Nat → Nat → Int → Nat → Nat → ℂ} (hT : Content.IsGrain H B ⟨p, s⟩ g T) : Mirror T (Content.orderAt H g) := by
  have hg : g < H.P.nq := hT.order.1
  obtain ⟨h1, h2, h3, -⟩ := Content.pts_spec hp hs hg
  have hr : ∀ i < 2 * Content.halfPts H g, Content.spheroid (H.axisRatio s) (Content.polar H g (2 * Content.halfPts H g - 1 - i))
      = Content.spheroid (H.axisRatio s) (Content.polar H g i) := by
    intro i hi
    have := h3 i hi
    rw [h2 i hi, h2 _ (by omega)] at this
    exact Complex.ofReal_injective this
  have hx : ∀ i < 2 * Content.halfPts H g, Content.xAt H ⟨p, s⟩ g (2 * Content.halfPts H g - 1 - i) = Content.xAt H ⟨p, s⟩ g i := by
    intro i hi
    unfold Content.xAt
    rw [hr i hi]
  have hM : TMatrix.Spec.Mirror (Content.surfaceAt H ⟨p, s⟩ g) (2 * Content.halfPts H g)
      [Content.outAt H B ⟨p, s⟩ g, Content.regAt H B ⟨p, s⟩ g, Content.insideAt H B ⟨p, s⟩ g] := by
    refine ⟨h1.weight, h1.sinInv, h1.r2, h1.slope, h1.d, h1.τ, ?_, ?_, ?_⟩
    · intro Y hY i hi n _
      simp only [List.mem_cons, List.not_mem_nil, or_false] at hY
      rcases hY with rfl | rfl | rfl
      · change (B g).j n (Content.xAt H ⟨p, s⟩ g _) + Complex.I * (B g).y n (Content.xAt H ⟨p, s⟩ g _) = _
        rw [hx i hi]
        rfl
      · change (B g).j n (Content.xAt H ⟨p, s⟩ g _) = _
        rw [hx i hi]
        rfl
      · change (B g).jm n (H.mr p * Content.xAt H ⟨p, s⟩ g _) = _
        rw [hx i hi]
        rfl
    · intro Y hY i hi n _
      simp only [List.mem_cons, List.not_mem_nil, or_false] at hY
      rcases hY with rfl | rfl | rfl
      · change (B g).dj n (Content.xAt H ⟨p, s⟩ g _) + Complex.I * (B g).dy n (Content.xAt H ⟨p, s⟩ g _) = _
        rw [hx i hi]
        rfl
      · change (B g).dj n (Content.xAt H ⟨p, s⟩ g _) = _
        rw [hx i hi]
        rfl
      · change (B g).djm n (H.mr p * Content.xAt H ⟨p, s⟩ g _) = _
        rw [hx i hi]
        rfl
    · intro Y hY i hi
      simp only [List.mem_cons, List.not_mem_nil, or_false] at hY
      rcases hY with rfl | rfl | rfl
      · change (Content.xAt H ⟨p, s⟩ g _)⁻¹ = _
        rw [hx i hi]
        rfl
      · change (Content.xAt H ⟨p, s⟩ g _)⁻¹ = _
        rw [hx i hi]
        rfl
      · change (H.mr p * Content.xAt H ⟨p, s⟩ g _)⁻¹ = _
        rw [hx i hi]
        rfl
  intro a n m b n' ha hb b1 b2 b3 b4 b5 b6 hodd
  obtain ⟨k, rfl | rfl⟩ : ∃ k : Nat, m = k ∨ m = -(k : Int) := ⟨m.natAbs, by omega⟩
  · have hk : k ≤ n := by simpa using b5
    have hk' : k ≤ n' := by simpa using b6
    exact TMatrix.c74_parity Complex.I (by norm_num) hM (hp.solvable s hs g hg k (by omega)) (hT.pos k (by omega)) ha hb (by omega) b2 (by omega) b4 hodd
  · have hk : k ≤ n := by simpa using b5
    have hk' : k ≤ n' := by simpa using b6
    have := TMatrix.c74_parity Complex.I (by norm_num) hM (hp.solvable s hs g hg k (by omega)) (Content.neg_pos (hT.neg k (by omega))) ha hb (by omega) b2 (by omega) b4 hodd
    exact (mul_eq_zero.1 this).resolve_left (pow_ne_zero _ (by norm_num))

/-- Gauss-Legendre rules of all orders exist -/
theorem rules_exist : ∃ gl : Nat → (Nat → ℝ) × (Nat → ℝ), ∀ n, 0 < n → Gauss n (gl n) := by
  choose x hinj hx using Legendre.P_roots
  refine ⟨fun n => (fun i => if h : i < n then x n ⟨i, h⟩ else 0,
    fun i => if h : i < n then 2 / ((1 - x n ⟨i, h⟩ ^ 2) * (Polynomial.derivative (Legendre.P n)).eval (x n ⟨i, h⟩) ^ 2) else 0), fun n _ => ⟨?_, ?_, ?_⟩⟩
  · intro i hi
    simp only [dif_pos hi]
    exact hx n _
  · intro i hi j hj hij
    simp only [dif_pos hi, dif_pos hj] at hij
    exact congrArg Fin.val (hinj n hij)
  · intro i hi
    simp only [dif_pos hi]

theorem Tn_reciprocal : Reciprocal Tn 1 := by
  intro a n m b n' _ _ _ _ _ _ _ _
  unfold Tn
  by_cases h : a = 1 ∧ b = 1 ∧ m = 0
  · rw [if_pos h, if_pos ⟨h.2.1, h.1, by simp [h.2.2]⟩]
  · rw [if_neg h, if_neg fun x => h ⟨x.2.1, x.1, by simpa using x.2.2⟩]

theorem Tn_mirror : Mirror Tn 1 := by
  intro a n m b n' _ _ h1 h2 h3 h4 _ _ h
  unfold Tn
  refine if_neg fun x => ?_
  obtain ⟨rfl, rfl, -⟩ := x
  omega

theorem Tn_passive : Passive Tn 1 := fun m x => (Tn_lossless m x).le

/-- coefficients for a grid exist: the definition of the coefficients says what they are -/
theorem coefficients_exist (H : Content.Problem) (p : Graph.Par) (g : Nat → Nat) (T : Nat → Nat → Nat → Int → Nat → Nat → ℂ) : ∃ R : Interp.AbsRes ℝ, Content.IsAbsorption H p g T R := by
  choose A hA using angular_all
  refine ⟨⟨fun it => Content.shapeMean H (fun s => Content.extI H ⟨p, s⟩ (g s) (T s) (A (H.theta it))
        - if H.accountForScattering then Content.lost H ⟨p, s⟩ (g s) (T s) (A (H.theta it)) (fun j => A (Content.gridθ H H.ngrid j)) 0 / Content.disc H p else 0),
      fun it => Content.shapeMean H (fun s => Content.extQ H ⟨p, s⟩ (g s) (T s) (A (H.theta it))
        - if H.accountForScattering then Content.lost H ⟨p, s⟩ (g s) (T s) (A (H.theta it)) (fun j => A (Content.gridθ H H.ngrid j)) 1 / Content.disc H p else 0)⟩, ?_⟩
  intro it hit o ho i hi
  have same : ∀ (c : Graph.Cell) (g : Nat) (T : Nat → Nat → Int → Nat → Nat → ℂ) (i' : Angular) (i : Angular) (θ : ℝ) (φ : ℝ), i'.IsOf θ → i.IsOf θ →
      Content.amp11 H c g T (A (H.theta it)) i' φ = Content.amp11 H c g T o i φ ∧ Content.amp12 H c g T (A (H.theta it)) i' φ = Content.amp12 H c g T o i φ
      ∧ Content.amp21 H c g T (A (H.theta it)) i' φ = Content.amp21 H c g T o i φ ∧ Content.amp22 H c g T (A (H.theta it)) i' φ = Content.amp22 H c g T o i φ := by
    intro c g T i' i θ φ h' h
    have e1 := theory_same h' h (Content.ensemble H c T) (Content.waveK H c.par) (Content.orderAt H g) (A (H.theta it)) φ
    have e2 : theory (Content.ensemble H c T) (Content.waveK H c.par) (Content.orderAt H g) i (A (H.theta it)) φ
        = theory (Content.ensemble H c T) (Content.waveK H c.par) (Content.orderAt H g) i o φ := by
      unfold theory S11 S12 S21 S22
      congr 2 <;>
      exact ampSum_valid fun m n n' h1 _ h2 _ _ _ => by rw [pi_same (hA (H.theta it)) ho h1 h2, tau_same (hA (H.theta it)) ho h1 h2]
    have e := e1.trans e2
    exact ⟨congrArg Amp.s0 e, congrArg Amp.s1 e, congrArg Amp.s2 e, congrArg Amp.s3 e⟩
  have hl : ∀ s r, Content.lost H ⟨p, s⟩ (g s) (T s) (A (H.theta it)) (fun j => A (Content.gridθ H H.ngrid j)) r = Content.lost H ⟨p, s⟩ (g s) (T s) o i r := by
    intro s r
    unfold Content.lost
    refine Finset.sum_congr rfl fun j hj => Finset.sum_congr rfl fun l _ => ?_
    obtain ⟨e1, e2, e3, e4⟩ := same ⟨p, s⟩ (g s) (T s) (A (Content.gridθ H H.ngrid j)) (i j) _ (-Content.gridφ H H.ngrid l) (hA _) (hi j (mem_range.1 hj))
    unfold Content.scattered
    rw [e1, e2, e3, e4]
  have he : ∀ s, Content.extI H ⟨p, s⟩ (g s) (T s) (A (H.theta it)) = Content.extI H ⟨p, s⟩ (g s) (T s) o
      ∧ Content.extQ H ⟨p, s⟩ (g s) (T s) (A (H.theta it)) = Content.extQ H ⟨p, s⟩ (g s) (T s) o := by
    intro s
    obtain ⟨e1, e2, e3, e4⟩ := same ⟨p, s⟩ (g s) (T s) (A (H.theta it)) o _ 0 (hA _) ho
    unfold Content.extI Content.extQ
    rw [e1, e4]
    exact ⟨rfl, rfl⟩
  constructor
  · simp only [hl, (he _).1]
  · simp only [hl, (he _).2]

/-- An example for the theorems: a dipole that does not absorb, with Gauss-Legendre rules of all orders. The grains of one shape have a fixed orientation, those of the other
shape are inclined. -/
noncomputable def exGrains (gl : Nat → (Nat → ℝ) × (Nat → ℝ)) (aligned : Bool) : Content.Problem :=
  { Content.exH with gl := gl, aligned := fun c => aligned && decide (c.ish = 1), coeff := fun _ => ⟨3, fun n => coefficients (Measure.dirac (Real.pi / 3)) n, true⟩ }

theorem exGrains_distributed (gl : Nat → (Nat → ℝ) × (Nat → ℝ)) (aligned : Bool) (c : Graph.Cell) (g : Nat) : Distributed (exGrains gl aligned) c g :=
  fun _ => ⟨Measure.dirac (Real.pi / 3), Python.dirac_dist (by linarith [Real.pi_pos]) (by linarith [Real.pi_pos]), fun _ _ => rfl⟩

example : ∃ (gl : Nat → (Nat → ℝ) × (Nat → ℝ)) (R R' : Nat → Interp.AbsRes ℝ),
    (∀ n, Content.IsAbsorption { exGrains gl true with ngrid := n } ⟨0, 0, 0⟩ (fun _ => 0) (fun _ => Tn) (R n))
    ∧ (∀ it < 2, ∀ ε, 0 < ε → ∀ᶠ n in atTop, |(R n).Qabspol it| < (R n).Qabs it + ε)
    ∧ (∀ n, Content.IsAbsorption { exGrains gl false with ngrid := n } ⟨0, 0, 0⟩ (fun _ => 0) (fun _ => Tn) (R' n))
    ∧ ∀ it < 2, Tendsto (fun n => (R' n).Qabs it) atTop (𝓝 0) ∧ Tendsto (fun n => (R' n).Qabspol it) atTop (𝓝 0) := by
  obtain ⟨gl, hgl⟩ := rules_exist
  choose R hR using fun n => coefficients_exist { exGrains gl true with ngrid := n } ⟨0, 0, 0⟩ (fun _ => 0) (fun _ => Tn)
  choose R' hR' using fun n => coefficients_exist { exGrains gl false with ngrid := n } ⟨0, 0, 0⟩ (fun _ => 0) (fun _ => Tn)
  refine ⟨gl, R, R', hR, fun it hit ε hε => ?_, hR', fun it hit => ?_⟩
  · exact c100_bounds (H := exGrains gl true) hgl rfl hR (fun s _ => (by positivity : (0 : ℝ) ≤ (s : ℝ) + 1))
      (fun s _ => ⟨exGrains_distributed gl true _ _, Tn_reciprocal, Tn_mirror, Tn_passive⟩) hit hε
  · exact c100_transparent (H := exGrains gl false) hgl rfl hR' (fun s _ => ⟨rfl, Tn_reciprocal, Tn_mirror, Tn_lossless⟩) hit

end Verif.Refine
