import Verif.Model.Md5
import Verif.Spec.Md5
import Mathlib.Analysis.Complex.Exponential
import Mathlib.Data.Real.Archimedean
import Mathlib.Tactic.Linarith
import Mathlib.Tactic.Ring
import Mathlib.Tactic.Positivity
import Mathlib.Tactic.NormNum

/-!
# The 64 constants are the integer parts of 4294967296 |sin i|
-/
namespace Verif.Md5

/-- real and imaginary part of the first terms of the series of exp(i) -/
def part : ℕ → ℚ × ℚ
  | 0 => (0, 0)
  | n + 1 =>
    let p := part n
    let t : ℚ := 1 / (n.factorial : ℚ)
    match n % 4 with
    | 0 => (p.1 + t, p.2)
    | 1 => (p.1, p.2 + t)
    | 2 => (p.1 - t, p.2)
    | _ => (p.1, p.2 - t)

theorem I_pow_mod (n : ℕ) : (Complex.I) ^ n = Complex.I ^ (n % 4) := by
  conv_lhs => rw [← Nat.div_add_mod n 4, pow_add, pow_mul, Complex.I_pow_four, one_pow, one_mul]

theorem part_spec (n : ℕ) : (∑ m ∈ Finset.range n, Complex.I ^ m / (m.factorial : ℂ)) = ((part n).1 : ℂ) + ((part n).2 : ℂ) * Complex.I := by
  induction n with
  | zero => simp [part]
  | succ n ih =>
    rw [Finset.sum_range_succ, ih, I_pow_mod n, part]
    have h : n % 4 < 4 := Nat.mod_lt _ (by norm_num)
    rcases (by omega : n % 4 = 0 ∨ n % 4 = 1 ∨ n % 4 = 2 ∨ n % 4 = 3) with h | h | h | h <;> rw [h]
    · push_cast; ring
    · push_cast; ring
    · rw [Complex.I_sq]; push_cast; ring
    · rw [show (Complex.I) ^ 3 = - Complex.I by rw [pow_succ, Complex.I_sq]; ring]; push_cast; ring

theorem exp_near : ‖Complex.exp Complex.I - (((part 60).1 : ℂ) + ((part 60).2 : ℂ) * Complex.I)‖ ≤ 1 / 2 ^ 210 := by
  have h := Complex.exp_bound (x := Complex.I) (by simp) (n := 60) (by norm_num)
  rw [part_spec] at h
  refine h.trans ?_
  rw [Complex.norm_I, one_pow, one_mul]
  norm_num [Nat.factorial]

theorem sin_one_near : |Real.sin 1 - ((part 60).2 : ℝ)| ≤ 1 / 2 ^ 210 := by
  refine le_trans ?_ exp_near
  refine le_trans (le_of_eq ?_) (Complex.abs_im_le_norm _)
  congr 1
  have : Complex.exp Complex.I = Complex.exp (((1 : ℝ) : ℂ) * Complex.I) := by simp
  rw [this, Complex.sub_im, Complex.exp_ofReal_mul_I_im]
  simp

theorem cos_one_near : |Real.cos 1 - ((part 60).1 : ℝ)| ≤ 1 / 2 ^ 210 := by
  refine le_trans ?_ exp_near
  refine le_trans (le_of_eq ?_) (Complex.abs_re_le_norm _)
  congr 1
  have : Complex.exp Complex.I = Complex.exp (((1 : ℝ) : ℂ) * Complex.I) := by simp
  rw [this, Complex.sub_re, Complex.exp_ofReal_mul_I_re]
  simp

/-- cos 1 and sin 1 times 2^200 -/
def c1 : ℤ := ⌊(part 60).1 * 2 ^ 200⌋
def s1 : ℤ := ⌊(part 60).2 * 2 ^ 200⌋

theorem near_floor {x : ℝ} {q : ℚ} (h : |x - (q : ℝ)| ≤ 1 / 2 ^ 210) : |2 ^ 200 * x - (⌊q * 2 ^ 200⌋ : ℤ)| ≤ 2 := by
  have h1 := Int.floor_le (q * 2 ^ 200)
  have h2 := Int.lt_floor_add_one (q * 2 ^ 200)
  have h1' : ((⌊q * 2 ^ 200⌋ : ℤ) : ℝ) ≤ (q : ℝ) * 2 ^ 200 := by exact_mod_cast h1
  have h2' : (q : ℝ) * 2 ^ 200 < ((⌊q * 2 ^ 200⌋ : ℤ) : ℝ) + 1 := by exact_mod_cast h2
  generalize ((⌊q * 2 ^ 200⌋ : ℤ) : ℝ) = f at h1' h2' ⊢
  rw [abs_le] at h ⊢
  have e : (2 : ℝ) ^ 210 = 1024 * 2 ^ 200 := by norm_num
  have hp : (0 : ℝ) < 2 ^ 200 := by positivity
  have k : (1 : ℝ) / 2 ^ 210 * 2 ^ 200 = 1 / 1024 := by rw [e]; field_simp
  have a := mul_le_mul_of_nonneg_right h.1 hp.le
  have b := mul_le_mul_of_nonneg_right h.2 hp.le
  rw [neg_mul, k] at a
  rw [k] at b
  generalize (2 : ℝ) ^ 200 = P at *
  constructor <;> nlinarith

theorem cos_one : |2 ^ 200 * Real.cos 1 - (c1 : ℝ)| ≤ 2 := near_floor cos_one_near
theorem sin_one : |2 ^ 200 * Real.sin 1 - (s1 : ℝ)| ≤ 2 := near_floor sin_one_near

/-- the next cosine and sine, and a bound for their error -/
def step (p : ℤ × ℤ × ℤ) : ℤ × ℤ × ℤ :=
  ((p.1 * c1 - p.2.1 * s1) / 2 ^ 200, (p.2.1 * c1 + p.1 * s1) / 2 ^ 200, 4 * p.2.2 + 16)

/-- cosine, sine, bound -/
def circle : ℕ → ℤ × ℤ × ℤ
  | 0 => (2 ^ 200, 0, 0)
  | n + 1 => step (circle n)

theorem circle_error (n : ℕ) : 0 ≤ (circle n).2.2 := by
  induction n with
  | zero => exact le_refl _
  | succ n ih => rw [circle, step]; dsimp only; omega

/-- products of approximations: `|2^200 x y - a b / 2^200|` -/
theorem product_near {P x y a b e : ℝ} (hP : 2 ≤ P) (hx : |x| ≤ 1) (hy : |y| ≤ 1) (ha : |P * x - a| ≤ e) (hb : |P * y - b| ≤ 2) :
    |P * (P * (x * y)) - a * b| ≤ P * (2 * e + 2) := by
  have key : P * (P * (x * y)) - a * b = (P * x - a) * b + (P * x) * (P * y - b) := by ring
  rw [key]
  have hb' : |b| ≤ 2 * P := by
    have : |b| ≤ |P * y| + |P * y - b| := by
      have := abs_sub_abs_le_abs_sub (b) (P * y)
      rw [abs_sub_comm] at this
      linarith
    rw [abs_mul, abs_of_nonneg (by linarith : (0:ℝ) ≤ P)] at this
    nlinarith
  have he : 0 ≤ e := (abs_nonneg _).trans ha
  calc |(P * x - a) * b + P * x * (P * y - b)| ≤ |(P * x - a) * b| + |P * x * (P * y - b)| := abs_add_le _ _
    _ = |P * x - a| * |b| + |P * x| * |P * y - b| := by rw [abs_mul, abs_mul (P * x)]
    _ ≤ e * (2 * P) + P * 2 := by
      have h1 : |P * x - a| * |b| ≤ e * (2 * P) := mul_le_mul ha hb' (abs_nonneg _) he
      have h2 : |P * x| ≤ P := by rw [abs_mul, abs_of_nonneg (by linarith : (0:ℝ) ≤ P)]; nlinarith
      have h3 : |P * x| * |P * y - b| ≤ P * 2 := mul_le_mul h2 hb (abs_nonneg _) (by linarith)
      linarith
    _ = P * (2 * e + 2) := by ring

theorem div_near (z : ℤ) : |((z / 2 ^ 200 : ℤ) : ℝ) * 2 ^ 200 - (z : ℝ)| ≤ 2 ^ 200 := by
  have h1 := Int.mul_ediv_add_emod z (2 ^ 200)
  have h2 := Int.emod_nonneg z (show (2 : ℤ) ^ 200 ≠ 0 by positivity)
  have h3 := Int.emod_lt_of_pos z (show (0 : ℤ) < 2 ^ 200 by positivity)
  have h1' : ((2 ^ 200 : ℤ) : ℝ) * ((z / 2 ^ 200 : ℤ) : ℝ) + ((z % 2 ^ 200 : ℤ) : ℝ) = (z : ℝ) := by exact_mod_cast h1
  have h2' : (0 : ℝ) ≤ ((z % 2 ^ 200 : ℤ) : ℝ) := by exact_mod_cast h2
  have h3' : ((z % 2 ^ 200 : ℤ) : ℝ) ≤ 2 ^ 200 := by exact_mod_cast h3.le
  have h4 : ((2 ^ 200 : ℤ) : ℝ) = (2 : ℝ) ^ 200 := by rw [Int.cast_pow, Int.cast_ofNat]
  rw [h4] at h1'
  clear h1 h2 h3 h4
  generalize ((z / 2 ^ 200 : ℤ) : ℝ) = a at *
  generalize ((z % 2 ^ 200 : ℤ) : ℝ) = b at *
  generalize (2 : ℝ) ^ 200 = P at *
  rw [mul_comm] at h1'
  rw [abs_le]
  constructor <;> linarith

theorem combine {P X u v d z e : ℝ} (hP : 2 ≤ P) (hX : P * X = u + v) (z1 z2 : ℝ) (hu : |P * u - z1| ≤ P * (2 * e + 2)) (hv : |P * v - z2| ≤ P * (2 * e + 2))
    (hz : z = z1 + z2) (hd : |d * P - z| ≤ P) : |P * X - d| ≤ 4 * e + 16 := by
  have hp : (0 : ℝ) < P := by linarith
  have : |P * (P * X - d)| ≤ P * (4 * e + 16) := by
    have : P * (P * X - d) = (P * u - z1) + (P * v - z2) - (d * P - z) := by rw [hz, hX]; ring
    rw [this]
    refine (abs_sub _ _).trans ?_
    have := abs_add_le (P * u - z1) (P * v - z2)
    nlinarith
  rw [abs_mul, abs_of_pos hp] at this
  exact le_of_mul_le_mul_left this hp

theorem circle_spec (n : ℕ) : |2 ^ 200 * Real.cos n - ((circle n).1 : ℝ)| ≤ ((circle n).2.2 : ℝ) ∧ |2 ^ 200 * Real.sin n - ((circle n).2.1 : ℝ)| ≤ ((circle n).2.2 : ℝ) := by
  induction n with
  | zero =>
    have h : (((circle 0).1 : ℤ) : ℝ) = 2 ^ 200 := by show (((2 : ℤ) ^ 200 : ℤ) : ℝ) = _; rw [Int.cast_pow, Int.cast_ofNat]
    rw [h]
    generalize (2 : ℝ) ^ 200 = P
    simp [circle]
  | succ n ih =>
    obtain ⟨hc, hs⟩ := ih
    have he : (0 : ℝ) ≤ ((circle n).2.2 : ℝ) := by exact_mod_cast circle_error n
    have d1 := div_near ((circle n).1 * c1 - (circle n).2.1 * s1)
    have d2 := div_near ((circle n).2.1 * c1 + (circle n).1 * s1)
    rw [circle, step]
    dsimp only
    generalize ((circle n).1 * c1 - (circle n).2.1 * s1) / 2 ^ 200 = q1 at d1 ⊢
    generalize ((circle n).2.1 * c1 + (circle n).1 * s1) / 2 ^ 200 = q2 at d2 ⊢
    generalize hC : (circle n).1 = C at *
    generalize hS : (circle n).2.1 = S at *
    generalize hE : (circle n).2.2 = e at *
    have k1 := cos_one
    have k2 := sin_one
    generalize c1 = a1 at *
    generalize s1 = b1 at *
    have hP : (2 : ℝ) ≤ 2 ^ 200 := by norm_num
    generalize (2 : ℝ) ^ 200 = P at *
    push_cast at d1 d2 ⊢
    rw [Real.cos_add, Real.sin_add]
    have x1 := Real.abs_cos_le_one n
    have x2 := Real.abs_sin_le_one n
    have y1 := Real.abs_cos_le_one 1
    have y2 := Real.abs_sin_le_one 1
    have p1 := product_near hP x1 y1 hc k1
    have p2 := product_near hP x2 y2 hs k2
    have p3 := product_near hP x2 y1 hs k1
    have p4 := product_near hP x1 y2 hc k2
    refine ⟨combine hP (u := P * (Real.cos n * Real.cos 1)) (v := -(P * (Real.sin n * Real.sin 1))) (by ring) (C * a1) (-(S * b1)) p1 ?_ (z := C * a1 - S * b1) (by ring) d1,
      combine hP (u := P * (Real.sin n * Real.cos 1)) (v := P * (Real.cos n * Real.sin 1)) (by ring) (S * a1) (C * b1) p3 p4 (z := S * a1 + C * b1) rfl d2⟩
    rw [← abs_neg]
    refine le_trans (le_of_eq ?_) p2
    congr 1
    ring

/-- what the integers have to satisfy -/
def Certified (n k : ℕ) : Prop :=
  (k : ℤ) * 2 ^ 168 + (circle n).2.2 ≤ ((circle n).2.1.natAbs : ℤ) ∧ ((circle n).2.1.natAbs : ℤ) + (circle n).2.2 < ((k : ℤ) + 1) * 2 ^ 168

instance (n k : ℕ) : Decidable (Certified n k) := inferInstanceAs (Decidable (_ ∧ _))

theorem certified_sound {n k : ℕ} (h : Certified n k) : Spec.T n = k := by
  have hs := (circle_spec n).2
  obtain ⟨h1, h2⟩ := h
  rw [Int.natCast_natAbs] at h1 h2
  have h1' : (k : ℝ) * 2 ^ 168 + ((circle n).2.2 : ℝ) ≤ |((circle n).2.1 : ℝ)| := by exact_mod_cast h1
  have h2' : |((circle n).2.1 : ℝ)| + ((circle n).2.2 : ℝ) < ((k : ℝ) + 1) * 2 ^ 168 := by exact_mod_cast h2
  have a := abs_sub_abs_le_abs_sub (2 ^ 200 * Real.sin n) ((circle n).2.1 : ℝ)
  have b := abs_sub_abs_le_abs_sub ((circle n).2.1 : ℝ) (2 ^ 200 * Real.sin n)
  rw [abs_sub_comm] at b
  have hp : (0 : ℝ) < 2 ^ 168 := by positivity
  have e : |2 ^ 200 * Real.sin n| = (4294967296 * |Real.sin n|) * 2 ^ 168 := by
    rw [abs_mul, abs_of_pos (by positivity : (0:ℝ) < 2 ^ 200)]
    ring
  rw [e] at a b
  unfold Spec.T
  rw [Nat.floor_eq_iff (by positivity)]
  constructor
  · exact le_of_mul_le_mul_right (by linarith) hp
  · exact lt_of_mul_lt_mul_right (by linarith) hp.le

theorem all_certified : ∀ i < 64, Certified (i + 1) (extraTerms.getD i 0) := by decide +kernel

/-- the constants of the code are those of the RFC -/
theorem extraTerms_spec (i : ℕ) (hi : i < 64) : extraTerms.getD i 0 = Spec.T (i + 1) := (certified_sound (all_certified i hi)).symm

end Verif.Md5
