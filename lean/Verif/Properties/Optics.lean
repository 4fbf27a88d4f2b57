import Verif.Model.Optics
import Verif.Properties.Interp
import Mathlib.Tactic.Linarith
import Mathlib.Tactic.FieldSimp
import Mathlib.Tactic.LinearCombination
import Mathlib.Tactic.Positivity

/-!
# C40, C52, C69: refractive indices and refraction
-/
namespace Verif.Optics

open Verif.Matrix (loop loop_inv)
open Verif.Interp (getRow Lookup interpolated)

/-! ## C40 -/

/-- **C40** For every dielectric function the refractive index has non-negative real and imaginary part, and squares
to it if its imaginary part is not negative, and to its conjugate if its imaginary part is not positive. -/
theorem c40_square (eps : ℂ) : 0 ≤ (epsToMr eps).re ∧ 0 ≤ (epsToMr eps).im
    ∧ (0 ≤ eps.im → epsToMr eps ^ 2 = eps) ∧ (eps.im ≤ 0 → epsToMr eps ^ 2 = (starRingEnd ℂ) eps) := by
  set A := Real.sqrt (eps.re * eps.re + eps.im * eps.im) with hA
  have hA2 : A * A = eps.re * eps.re + eps.im * eps.im := Real.mul_self_sqrt (add_nonneg (mul_self_nonneg _) (mul_self_nonneg _))
  have hA0 : 0 ≤ A := Real.sqrt_nonneg _
  have h1 : |eps.re| ≤ A := by
    apply Real.abs_le_sqrt
    nlinarith [mul_self_nonneg eps.im]
  obtain ⟨hl, hr⟩ := abs_le.mp h1
  have hp : 0 ≤ 1 / 2 * (A + eps.re) := by linarith
  have hm : 0 ≤ 1 / 2 * (A - eps.re) := by linarith
  have hprod : Real.sqrt (1 / 2 * (A + eps.re)) * Real.sqrt (1 / 2 * (A - eps.re)) = |eps.im| / 2 := by
    rw [← Real.sqrt_mul hp, show 1 / 2 * (A + eps.re) * (1 / 2 * (A - eps.re)) = (|eps.im| / 2) ^ 2 by
      rw [div_pow, sq_abs]; nlinarith]
    exact Real.sqrt_sq (by positivity)
  have hre : (epsToMr eps ^ 2).re = eps.re := by
    rw [sq, Complex.mul_re]
    show Real.sqrt (1 / 2 * (A + eps.re)) * Real.sqrt (1 / 2 * (A + eps.re))
      - Real.sqrt (1 / 2 * (A - eps.re)) * Real.sqrt (1 / 2 * (A - eps.re)) = _
    rw [Real.mul_self_sqrt hp, Real.mul_self_sqrt hm]; ring
  have him : (epsToMr eps ^ 2).im = |eps.im| := by
    rw [sq, Complex.mul_im]
    show Real.sqrt (1 / 2 * (A + eps.re)) * Real.sqrt (1 / 2 * (A - eps.re))
      + Real.sqrt (1 / 2 * (A - eps.re)) * Real.sqrt (1 / 2 * (A + eps.re)) = _
    rw [mul_comm (Real.sqrt (1 / 2 * (A - eps.re))), hprod]; ring
  refine ⟨Real.sqrt_nonneg _, Real.sqrt_nonneg _, fun h => ?_, fun h => ?_⟩
  · exact Complex.ext hre (by rw [him, abs_of_nonneg h])
  · refine Complex.ext (by rw [hre, Complex.conj_re]) (by rw [him, abs_of_nonpos h, Complex.conj_im])

example : (0 : ℝ) ≤ (⟨3, 4⟩ : ℂ).im ∧ (⟨3, -4⟩ : ℂ).im ≤ 0 := by norm_num

/-- **C40** the square root with non-negative parts is unique: the index is determined by the dielectric function -/
theorem c40_unique (eps m : ℂ) (h0 : 0 ≤ m.re) (h1 : 0 ≤ m.im) (h : m ^ 2 = eps) : m = epsToMr eps := by
  have him : 0 ≤ eps.im := by
    rw [← h, sq, Complex.mul_im]; positivity
  obtain ⟨a, b, c, -⟩ := c40_square eps
  have h2 : m ^ 2 = epsToMr eps ^ 2 := by rw [h, c him]
  rcases sq_eq_sq_iff_eq_or_eq_neg.mp h2 with e | e
  · exact e
  · have hr : m.re = -(epsToMr eps).re := by rw [e]; rfl
    have hi : m.im = -(epsToMr eps).im := by rw [e]; rfl
    exact Complex.ext (by linarith) (by linarith)

/-! ## C69 -/

theorem setCell_loop (size : Nat) (f : Nat → Rows → Nat → Nat → ℝ) (r : Rows)
    (hf : ∀ i r' j c, (∀ c, r' i c = r i c) → f i r' j c = if j = i then f i r i c else r' j c) :
    ∀ j c, (loop 0 size (fun i r' => f i r') r) j c = if j < size then f j r j c else r j c := by
  have key := loop_inv (σ := Rows) (fun k r' => ∀ j c, r' j c = if j < k then f j r j c else r j c) (Nat.zero_le size)
    (fun i r' => f i r') r (by intro j c; simp)
    (by
      intro k r' _ _ h j c
      have hk : ∀ c, r' k c = r k c := by intro c; rw [h k c, if_neg (lt_irrefl k)]
      rw [hf k r' j c hk]
      by_cases e : j = k
      · subst e; rw [if_pos rfl, if_pos (by omega)]
      · rw [if_neg e, h j c]
        exact if_congr (by omega) rfl rfl)
  exact key

theorem convert_spec (size : Nat) (r : Rows) (j : Nat) (hj : j < size) :
    convertTable size r j 0 = r j 0 / 10 ^ 6 ∧ convertTable size r j 1 = r j 1 + 1 ∧ convertTable size r j 2 = r j 2
    ∧ convertTable size r j 3 = r j 3 + 1 ∧ convertTable size r j 4 = r j 4 := by
  have hmul : ∀ (c : Nat) (t : ℝ) (r : Rows) j d, j < size → multiplyColumn size c t r j d = if d = c then r j d * t else r j d := by
    intro c t r j d hj
    unfold multiplyColumn
    rw [setCell_loop size (fun i r => setCell r i c (r i c * t)) r _ j d, if_pos hj]
    · simp only [setCell, true_and]
      split
      · rename_i e; subst e; rfl
      · rfl
    · intro i r' j' c' h
      simp only [setCell, h c]
      by_cases e : j' = i
      · subst e; simp [h c']
      · simp [e]
  have hadd : ∀ (c : Nat) (t : ℝ) (r : Rows) j d, j < size → addColumn size c t r j d = if d = c then r j d + t else r j d := by
    intro c t r j d hj
    unfold addColumn
    rw [setCell_loop size (fun i r => setCell r i c (r i c + t)) r _ j d, if_pos hj]
    · simp only [setCell, true_and]
      split
      · rename_i e; subst e; rfl
      · rfl
    · intro i r' j' c' h
      simp only [setCell, h c]
      by_cases e : j' = i
      · subst e; simp [h c']
      · simp [e]
  unfold convertTable
  simp only [hadd _ _ _ _ _ hj, hmul _ _ _ _ _ hj]
  norm_num
  ring

theorem subtract_spec (size : Nat) (par : Bool) (r : Rows) (j : Nat) (hj : j < size) :
    subtractFree size par r j 0 = r j 0
    ∧ (⟨subtractFree size par r j 1, subtractFree size par r j 2⟩ : ℂ) = ⟨r j 1, r j 2⟩ - freeTerm 20 (r j 0) (1 / 10 ^ 7) par := by
  have h : ∀ c, subtractFree size par r j c = (if c = 2 then r j 2 - (freeTerm 20 (r j 0) (1 / 10 ^ 7) par).im
      else if c = 1 then r j 1 - (freeTerm 20 (r j 0) (1 / 10 ^ 7) par).re else r j c) := by
    intro c
    unfold subtractFree
    rw [setCell_loop size (fun i r =>
      setCell (setCell r i 1 (r i 1 - (freeTerm 20 (r i 0) (1 / 10 ^ 7) par).re)) i 2
        (setCell r i 1 (r i 1 - (freeTerm 20 (r i 0) (1 / 10 ^ 7) par).re) i 2 - (freeTerm 20 (r i 0) (1 / 10 ^ 7) par).im)) r _ j c, if_pos hj]
    · simp [setCell]
    · intro i r' j' c' h
      simp only [setCell, h 0, h 1, h 2]
      by_cases e : j' = i
      · subst e; simp [h c']
      · simp [e]
  refine ⟨by rw [h]; norm_num, ?_⟩
  rw [h 1, h 2]
  apply Complex.ext <;> simp

/-- a refractive index with non-negative parts that squares to the given dielectric function (to the conjugate if it
has a negative imaginary part) -/
def IndexOf (o : Outcome) (eps : ℂ) : Prop :=
  ∃ m, o = .index m ∧ 0 ≤ m.re ∧ 0 ≤ m.im ∧ (0 ≤ eps.im → m ^ 2 = eps) ∧ (eps.im ≤ 0 → m ^ 2 = (starRingEnd ℂ) eps)

theorem indexOf_eps (eps : ℂ) : IndexOf (.index (epsToMr eps)) eps := by
  obtain ⟨a, b, c, d⟩ := c40_square eps
  exact ⟨_, rfl, a, b, c, d⟩

/-- wavelengths in the table increase or decrease strictly -/
def Monotone (t : Nat × Rows) : Prop :=
  (∀ i j, i < j → j < t.1 → t.2 i 0 < t.2 j 0) ∨ (∀ i j, i < j → j < t.1 → t.2 j 0 < t.2 i 0)

theorem carbon (t : Nat × Rows) (par : Bool) (hs : 2 ≤ t.1) (hm : Monotone t) {k : Nat} (hk : k < t.1) :
    ∃ r : Nat → ℝ, getRow (subtractFree t.1 par (convertTable t.1 t.2)) t.1 0 false (t.2 k 0 / 10 ^ 6) = .row r
      ∧ (⟨r 1, r 2⟩ : ℂ) = ⟨t.2 k 1 + 1, t.2 k 2⟩ - freeTerm 20 (t.2 k 0 / 10 ^ 6) (1 / 10 ^ 7) par := by
  have h0 : ∀ j, j < t.1 → subtractFree t.1 par (convertTable t.1 t.2) j 0 = t.2 j 0 / 10 ^ 6 := by
    intro j hj
    rw [(subtract_spec t.1 par _ j hj).1, (convert_spec t.1 t.2 j hj).1]
  have hmono : (∀ i j, i < j → j < t.1 → subtractFree t.1 par (convertTable t.1 t.2) i 0 < subtractFree t.1 par (convertTable t.1 t.2) j 0)
      ∨ (∀ i j, i < j → j < t.1 → subtractFree t.1 par (convertTable t.1 t.2) j 0 < subtractFree t.1 par (convertTable t.1 t.2) i 0) := by
    rcases hm with h | h
    · left; intro i j hij hj
      rw [h0 i (by omega), h0 j hj]
      exact div_lt_div_of_pos_right (h i j hij hj) (by positivity)
    · right; intro i j hij hj
      rw [h0 i (by omega), h0 j hj]
      exact div_lt_div_of_pos_right (h i j hij hj) (by positivity)
  have := Verif.Interp.c35_exact (subtractFree t.1 par (convertTable t.1 t.2)) hs false hmono hk
  rw [h0 k hk] at this
  refine ⟨_, this, ?_⟩
  obtain ⟨c0, c1, c2, -⟩ := convert_spec t.1 t.2 k hk
  rw [(subtract_spec t.1 par _ k hk).2, c0, c1, c2]

/-- **C69** (tabulated wavelengths) For all tables with strictly monotonic wavelengths, every tabulated wavelength,
temperature and grain size: the index of carbon belongs to the tabulated dielectric function (the first two columns,
with one added) plus the difference between the free electron terms for this temperature and size and for those of
the table; at 20 K and 0.1 micron it belongs to the tabulated dielectric function itself. For silicate the tabulated
index (the last two columns, with one added) is returned; other grain types are an error. -/
theorem c69_tabulated (T : ℝ) (sil par per : Nat × Rows) (grain : ℝ) :
    (2 ≤ par.1 → Monotone par → ∀ k, k < par.1 →
      IndexOf (refractiveIndex (dust T sil par per) (par.2 k 0 / 10 ^ 6) grain 0)
        (⟨par.2 k 1 + 1, par.2 k 2⟩ + (freeTerm T (par.2 k 0 / 10 ^ 6) grain true - freeTerm 20 (par.2 k 0 / 10 ^ 6) (1 / 10 ^ 7) true))
      ∧ IndexOf (refractiveIndex (dust 20 sil par per) (par.2 k 0 / 10 ^ 6) (1 / 10 ^ 7) 0) ⟨par.2 k 1 + 1, par.2 k 2⟩)
    ∧ (2 ≤ per.1 → Monotone per → ∀ k, k < per.1 →
      IndexOf (refractiveIndex (dust T sil par per) (per.2 k 0 / 10 ^ 6) grain 1)
        (⟨per.2 k 1 + 1, per.2 k 2⟩ + (freeTerm T (per.2 k 0 / 10 ^ 6) grain false - freeTerm 20 (per.2 k 0 / 10 ^ 6) (1 / 10 ^ 7) false))
      ∧ IndexOf (refractiveIndex (dust 20 sil par per) (per.2 k 0 / 10 ^ 6) (1 / 10 ^ 7) 1) ⟨per.2 k 1 + 1, per.2 k 2⟩)
    ∧ (2 ≤ sil.1 → Monotone sil → ∀ k, k < sil.1 →
      refractiveIndex (dust T sil par per) (sil.2 k 0 / 10 ^ 6) grain 2 = .index ⟨sil.2 k 3 + 1, sil.2 k 4⟩)
    ∧ ∀ w type, type ≠ 0 → type ≠ 1 → type ≠ 2 → refractiveIndex (dust T sil par per) w grain type = .fail := by
  refine ⟨?_, ?_, ?_, ?_⟩
  · intro hs hm k hk
    obtain ⟨r, hr, he⟩ := carbon par true hs hm hk
    constructor
    · unfold refractiveIndex
      rw [if_pos rfl]
      simp only [dust, hr]
      rw [he]
      convert indexOf_eps _ using 1
      ring
    · unfold refractiveIndex
      rw [if_pos rfl]
      simp only [dust, hr]
      rw [he, sub_add_cancel]
      exact indexOf_eps _
  · intro hs hm k hk
    obtain ⟨r, hr, he⟩ := carbon per false hs hm hk
    constructor
    · unfold refractiveIndex
      rw [if_neg (by decide), if_pos rfl]
      simp only [dust, hr]
      rw [he]
      convert indexOf_eps _ using 1
      ring
    · unfold refractiveIndex
      rw [if_neg (by decide), if_pos rfl]
      simp only [dust, hr]
      rw [he, sub_add_cancel]
      exact indexOf_eps _
  · intro hs hm k hk
    have h0 : ∀ j, j < sil.1 → convertTable sil.1 sil.2 j 0 = sil.2 j 0 / 10 ^ 6 := fun j hj => (convert_spec sil.1 sil.2 j hj).1
    have hmono : (∀ i j, i < j → j < sil.1 → convertTable sil.1 sil.2 i 0 < convertTable sil.1 sil.2 j 0)
        ∨ (∀ i j, i < j → j < sil.1 → convertTable sil.1 sil.2 j 0 < convertTable sil.1 sil.2 i 0) := by
      rcases hm with h | h
      · left; intro i j hij hj
        rw [h0 i (by omega), h0 j hj]
        exact div_lt_div_of_pos_right (h i j hij hj) (by positivity)
      · right; intro i j hij hj
        rw [h0 i (by omega), h0 j hj]
        exact div_lt_div_of_pos_right (h i j hij hj) (by positivity)
    have := Verif.Interp.c35_exact (convertTable sil.1 sil.2) hs false hmono hk
    rw [h0 k hk] at this
    unfold refractiveIndex
    rw [if_neg (by decide), if_neg (by decide), if_pos rfl]
    simp only [dust, this]
    obtain ⟨-, -, -, c3, c4⟩ := convert_spec sil.1 sil.2 k hk
    rw [c3, c4]
  · intro w type h0 h1 h2
    unfold refractiveIndex
    rw [if_neg h0, if_neg h1, if_neg h2]

/-- a table that meets the hypotheses -/
example : 2 ≤ ((3, fun i c => if c = 0 then (i : ℝ) + 1 else 2) : Nat × Rows).1
    ∧ Monotone ((3, fun i c => if c = 0 then (i : ℝ) + 1 else 2) : Nat × Rows) := by
  refine ⟨by norm_num, Or.inl fun i j h _ => ?_⟩
  simp only [if_true]
  have : (i : ℝ) < j := by exact_mod_cast h
  linarith

/-- **C69** (between) For every wavelength inside the range of the table: the index of carbon belongs to the linear
interpolation, between two neighbouring tabulated wavelengths that enclose it, of the dielectric function without the
free electron term, plus the free electron term at that wavelength, temperature and size. -/
theorem c69_between (T : ℝ) (sil par per : Nat × Rows) (w grain : ℝ) (hs : 2 ≤ par.1)
    (h : ((∀ i j, i < j → j < par.1 → par.2 i 0 < par.2 j 0) ∧ par.2 0 0 / 10 ^ 6 ≤ w ∧ w ≤ par.2 (par.1 - 1) 0 / 10 ^ 6)
      ∨ ((∀ i j, i < j → j < par.1 → par.2 j 0 < par.2 i 0) ∧ par.2 (par.1 - 1) 0 / 10 ^ 6 ≤ w ∧ w ≤ par.2 0 0 / 10 ^ 6)) :
    ∃ i t, i + 1 < par.1 ∧ 0 ≤ t ∧ t ≤ 1 ∧ w = (1 - t) * (par.2 i 0 / 10 ^ 6) + t * (par.2 (i + 1) 0 / 10 ^ 6)
      ∧ IndexOf (refractiveIndex (dust T sil par per) w grain 0)
        ((1 - t : ℝ) * ((⟨par.2 i 1 + 1, par.2 i 2⟩ : ℂ) - freeTerm 20 (par.2 i 0 / 10 ^ 6) (1 / 10 ^ 7) true)
          + (t : ℝ) * ((⟨par.2 (i + 1) 1 + 1, par.2 (i + 1) 2⟩ : ℂ) - freeTerm 20 (par.2 (i + 1) 0 / 10 ^ 6) (1 / 10 ^ 7) true)
          + freeTerm T w grain true) := by
  set S := subtractFree par.1 true (convertTable par.1 par.2) with hS
  have h0 : ∀ j, j < par.1 → S j 0 = par.2 j 0 / 10 ^ 6 := by
    intro j hj
    rw [hS, (subtract_spec par.1 true _ j hj).1, (convert_spec par.1 par.2 j hj).1]
  have h12 : ∀ j, j < par.1 → (⟨S j 1, S j 2⟩ : ℂ) = ⟨par.2 j 1 + 1, par.2 j 2⟩ - freeTerm 20 (par.2 j 0 / 10 ^ 6) (1 / 10 ^ 7) true := by
    intro j hj
    obtain ⟨c0, c1, c2, -⟩ := convert_spec par.1 par.2 j hj
    rw [hS, (subtract_spec par.1 true _ j hj).2, c0, c1, c2]
  have hne : ∀ i, i + 1 < par.1 → S i 0 ≠ S (i + 1) 0 := by
    intro i hi
    rw [h0 i (by omega), h0 (i + 1) hi]
    intro e
    have e' : par.2 i 0 = par.2 (i + 1) 0 := by
      have := congrArg (fun x => x * 10 ^ 6) e
      rwa [div_mul_cancel₀ _ (by positivity), div_mul_cancel₀ _ (by positivity)] at this
    rcases h with h | h
    · exact absurd e' (h.1 i (i + 1) (by omega) hi).ne
    · exact absurd e' (h.1 i (i + 1) (by omega) hi).ne'
  have hin := Verif.Interp.c35_inside S hs false w (by
    rcases h with ⟨a, b, c⟩ | ⟨a, b, c⟩
    · left
      refine ⟨fun i j hij hj => ?_, ?_, ?_⟩
      · rw [h0 i (by omega), h0 j hj]
        exact div_lt_div_of_pos_right (a i j hij hj) (by positivity)
      · rw [h0 0 (by omega)]; exact b
      · rw [h0 _ (by omega)]; exact c
    · right
      refine ⟨fun i j hij hj => ?_, ?_, ?_⟩
      · rw [h0 i (by omega), h0 j hj]
        exact div_lt_div_of_pos_right (a i j hij hj) (by positivity)
      · rw [h0 _ (by omega)]; exact b
      · rw [h0 0 (by omega)]; exact c)
  obtain ⟨i, hi, hb, hrow⟩ := hin
  set t := (w - S i 0) / (S (i + 1) 0 - S i 0) with ht
  have hd : S (i + 1) 0 - S i 0 ≠ 0 := sub_ne_zero.mpr (Ne.symm (hne i hi))
  have ht01 : 0 ≤ t ∧ t ≤ 1 := by
    rcases hb with ⟨a, b⟩ | ⟨a, b⟩
    · have pos : 0 < S (i + 1) 0 - S i 0 := sub_pos.mpr (lt_of_le_of_ne (a.trans b) (hne i hi))
      exact ⟨div_nonneg (sub_nonneg.mpr a) pos.le, by rw [ht, div_le_one pos]; linarith⟩
    · have neg : S (i + 1) 0 - S i 0 < 0 := sub_neg.mpr (lt_of_le_of_ne (a.trans b) (Ne.symm (hne i hi)))
      exact ⟨div_nonneg_of_nonpos (by linarith) neg.le, by rw [ht, div_le_one_of_neg neg]; linarith⟩
  refine ⟨i, t, hi, ht01.1, ht01.2, ?_, ?_⟩
  · rw [← h0 i (by omega), ← h0 (i + 1) hi]
    have : t * (S (i + 1) 0 - S i 0) = w - S i 0 := div_mul_cancel₀ _ hd
    linarith
  · unfold refractiveIndex
    rw [if_pos rfl]
    simp only [dust, ← hS, hrow]
    rw [← h12 i (by omega), ← h12 (i + 1) hi]
    convert indexOf_eps _ using 2
    apply Complex.ext
    · simp [interpolated, ← ht]; ring
    · simp [interpolated, ← ht]; ring

/-- **C69** (sign) the free electron term has positive imaginary part (it absorbs) for all non-negative temperatures and
positive wavelengths and sizes -/
theorem c69_absorbs (T w a : ℝ) (par : Bool) (hT : 0 ≤ T) (hw : 0 < w) (ha : 0 < a) : 0 < (freeTerm T w a par).im := by
  have hc : ∃ wp tb tf vf, drude T par = (wp, tb, tf, vf) ∧ 0 < wp ∧ 0 < tb ∧ 0 < tf ∧ 0 < vf := by
    unfold drude
    cases par
    · refine ⟨_, _, _, _, rfl, ?_, ?_, by norm_num, by norm_num⟩
      · have : 0 < 1 - 624 / 10 ^ 5 * T + 366 / 10 ^ 7 * (T * T) := by nlinarith [sq_nonneg (T - 85)]
        positivity
      · positivity
    · exact ⟨_, _, _, _, rfl, by norm_num, by norm_num, by norm_num, by norm_num⟩
  obtain ⟨wp, tb, tf, vf, hd, h1, h2, h3, h4⟩ := hc
  unfold freeTerm
  rw [hd]
  dsimp only
  set tau := 1 / (1 / tb + vf * Real.sqrt (1 + T / tf) / a) with htau
  have htau0 : 0 < tau := by positivity
  set om := 2 * Real.pi * 299792458 / w with hom
  have hom0 : 0 < om := by positivity
  rw [Complex.div_im]
  simp only [zero_mul, zero_div, zero_sub]
  have hn : 0 < Complex.normSq ⟨om * tau * (om * tau), om * tau⟩ := by
    rw [Complex.normSq_pos]
    intro e
    have := congrArg Complex.im e
    simp only [Complex.zero_im] at this
    exact (mul_pos hom0 htau0).ne' this
  rw [← neg_div]
  apply div_pos _ hn
  have : 0 < wp * tau * (wp * tau) * (om * tau) := by positivity
  linarith

example : (0 : ℝ) ≤ 20 ∧ (0 : ℝ) < 1 / 10 ^ 6 ∧ (0 : ℝ) < 1 / 10 ^ 7 := by norm_num

/-! ## C52 -/

/-- **C52** For every angle of incidence in `[0, π/2]` and positive indices (except grazing incidence on a surface
between equal media): reflection at the same angle; the fractions lie in `[0, 1]` and add up to one; if
`n1 sin θ ≤ n2` Snell's law holds, and the fractions are the squares (times the ratio of the fluxes) of the
amplitudes that make the tangential electric and magnetic fields continuous for both polarisations; otherwise
everything is reflected and the angle is negative. -/
theorem c52_refraction (theta n1 n2 : ℝ) (h0 : 0 ≤ theta) (h1 : theta ≤ Real.pi / 2) (hn1 : 0 < n1) (hn2 : 0 < n2)
    (hg : ¬(theta = Real.pi / 2 ∧ n1 = n2)) :
    (refraction theta n1 n2).reflectionAngle = theta
    ∧ (∀ p, 0 ≤ (refraction theta n1 n2).R p ∧ (refraction theta n1 n2).R p ≤ 1
        ∧ 0 ≤ (refraction theta n1 n2).T p ∧ (refraction theta n1 n2).T p ≤ 1
        ∧ (refraction theta n1 n2).R p + (refraction theta n1 n2).T p = 1)
    ∧ (n1 * Real.sin theta ≤ n2 → ∃ t, (refraction theta n1 n2).refractionAngle = t ∧ 0 ≤ t ∧ t ≤ Real.pi / 2
        ∧ n1 * Real.sin theta = n2 * Real.sin t
        ∧ (∀ r e, 1 + r = e → n1 * Real.cos theta * (1 - r) = n2 * Real.cos t * e →
            (refraction theta n1 n2).R false = r ^ 2
            ∧ n1 * Real.cos theta * (refraction theta n1 n2).T false = n2 * Real.cos t * e ^ 2)
        ∧ (∀ r e, n1 * (1 + r) = n2 * e → Real.cos theta * (1 - r) = Real.cos t * e →
            (refraction theta n1 n2).R true = r ^ 2
            ∧ n1 * Real.cos theta * (refraction theta n1 n2).T true = n2 * Real.cos t * e ^ 2))
    ∧ (n2 < n1 * Real.sin theta → (refraction theta n1 n2).refractionAngle = -1 ∧ ∀ p, (refraction theta n1 n2).R p = 1) := by
  have hci : 0 ≤ Real.cos theta := Real.cos_nonneg_of_mem_Icc ⟨by linarith [Real.pi_pos], h1⟩
  have hsi : 0 ≤ Real.sin theta := Real.sin_nonneg_of_nonneg_of_le_pi h0 (by linarith [Real.pi_pos])
  by_cases hs : n1 * Real.sin theta / n2 ≤ 1
  · have hs' : n1 * Real.sin theta ≤ n2 := by rwa [div_le_one hn2] at hs
    set t := Real.arcsin (n1 * Real.sin theta / n2) with ht
    have hq : 0 ≤ n1 * Real.sin theta / n2 := by positivity
    have ht0 : 0 ≤ t := Real.arcsin_nonneg.mpr hq
    have ht1 : t ≤ Real.pi / 2 := Real.arcsin_le_pi_div_two _
    have hct : 0 ≤ Real.cos t := Real.cos_nonneg_of_mem_Icc ⟨by linarith [Real.pi_pos], ht1⟩
    have hsnell : n1 * Real.sin theta = n2 * Real.sin t := by
      rw [ht, Real.sin_arcsin (by linarith) hs]; field_simp
    -- the denominators do not vanish
    have hnot : ¬(Real.cos theta = 0 ∧ Real.cos t = 0) := by
      rintro ⟨a, b⟩
      have e1 : theta = Real.pi / 2 := by
        by_contra hne
        exact (Real.cos_pos_of_mem_Ioo ⟨by linarith [Real.pi_pos], lt_of_le_of_ne h1 hne⟩).ne' a
      have e2 : t = Real.pi / 2 := by
        by_contra hne
        exact (Real.cos_pos_of_mem_Ioo ⟨by linarith [Real.pi_pos], lt_of_le_of_ne ht1 hne⟩).ne' b
      rw [e1, e2, Real.sin_pi_div_two, mul_one, mul_one] at hsnell
      exact hg ⟨e1, hsnell⟩
    have hsum : 0 < Real.cos theta + Real.cos t := by
      rcases hci.lt_or_eq with h | h
      · linarith
      · rcases hct.lt_or_eq with h' | h'
        · linarith
        · exact absurd ⟨h.symm, h'.symm⟩ hnot
    have hds : 0 < n1 * Real.cos theta + n2 * Real.cos t := by
      rcases hci.lt_or_eq with h | h
      · have := mul_pos hn1 h; have := mul_nonneg hn2.le hct; linarith
      · have hc' : 0 < Real.cos t := by linarith
        have := mul_pos hn2 hc'; have := mul_nonneg hn1.le hci; linarith
    have hdp : 0 < n1 * Real.cos t + n2 * Real.cos theta := by
      rcases hci.lt_or_eq with h | h
      · have := mul_pos hn2 h; have := mul_nonneg hn1.le hct; linarith
      · have hc' : 0 < Real.cos t := by linarith
        have := mul_pos hn1 hc'; have := mul_nonneg hn2.le hci; linarith
    set rs := (n1 * Real.cos theta - n2 * Real.cos t) / (n1 * Real.cos theta + n2 * Real.cos t) with hrs
    set rp := (n1 * Real.cos t - n2 * Real.cos theta) / (n1 * Real.cos t + n2 * Real.cos theta) with hrp
    have hev : refraction theta n1 n2 = ⟨theta, t, fun p => if p then rp * rp else rs * rs, fun p => 1 - if p then rp * rp else rs * rs⟩ := by
      unfold refraction
      dsimp only
      rw [if_pos hs]
    have bound : ∀ a b : ℝ, 0 ≤ a → 0 ≤ b → 0 < a + b → (a - b) / (a + b) * ((a - b) / (a + b)) ≤ 1 := by
      intro a b ha hb hab
      rw [div_mul_div_comm, div_le_one (by positivity)]
      nlinarith [mul_nonneg ha hb]
    have brs : rs * rs ≤ 1 := bound _ _ (by positivity) (by positivity) hds
    have brp : rp * rp ≤ 1 := bound _ _ (by positivity) (by positivity) hdp
    rw [hev]
    refine ⟨rfl, ?_, ?_, ?_⟩
    · intro p
      cases p
      · simp only [Bool.false_eq_true, if_false]
        refine ⟨mul_self_nonneg _, brs, by linarith, by linarith [mul_self_nonneg rs], by ring⟩
      · simp only [if_true]
        refine ⟨mul_self_nonneg _, brp, by linarith, by linarith [mul_self_nonneg rp], by ring⟩
    · intro _
      refine ⟨t, rfl, ht0, ht1, hsnell, ?_, ?_⟩
      · intro r e he hb
        have hr : r = rs := by
          rw [hrs, eq_div_iff hds.ne']
          subst he
          linear_combination -hb
        simp only [Bool.false_eq_true, if_false]
        refine ⟨by rw [hr]; ring, ?_⟩
        rw [← hr]
        subst he
        linear_combination (1 + r) * hb
      · intro r e he hb
        have hr : r = -rp := by
          rw [hrp, ← neg_div, eq_div_iff hdp.ne']
          linear_combination n2 * (-hb) + Real.cos t * he
        simp only [if_true]
        refine ⟨by rw [hr]; ring, ?_⟩
        have : rp * rp = r * r := by rw [hr]; ring
        rw [this]
        linear_combination (n2 * e) * hb + (1 - r) * Real.cos theta * he
    · intro h; exact absurd hs' (not_le.mpr h)
  · have hs' : n2 < n1 * Real.sin theta := by
      rw [div_le_one hn2] at hs; exact not_le.mp hs
    have hev : refraction theta n1 n2 = ⟨theta, -1, fun _ => 1, fun _ => 0⟩ := by
      unfold refraction
      dsimp only
      rw [if_neg hs]
    rw [hev]
    refine ⟨rfl, fun p => by norm_num, fun h => absurd hs' (not_lt.mpr h), fun _ => ⟨rfl, fun _ => rfl⟩⟩

example : (0 : ℝ) ≤ 1 / 2 ∧ (1 / 2 : ℝ) ≤ Real.pi / 2 ∧ (0 : ℝ) < 1 ∧ (0 : ℝ) < 3 / 2 ∧ ¬((1 / 2 : ℝ) = Real.pi / 2 ∧ (1 : ℝ) = 3 / 2) := by
  refine ⟨by norm_num, ?_, by norm_num, by norm_num, fun h => by norm_num at h⟩
  have := Real.two_le_pi
  linarith

end Verif.Optics
