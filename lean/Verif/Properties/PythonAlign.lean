import Verif.Model.PythonAlign
import Verif.Properties.PythonInit

/-!
# C91: the average over orientations for the grains of a table
-/
namespace Verif.Python

open Verif.Orientation
open Verif.Legendre (P)
open Verif.TMatrix (TRes Valid)
open Verif.Alignment (Axisymmetric Stores averaged)
open Verif.Clebsch (Vec)
open Real MeasureTheory

theorem mishchenko_dist {c : ℝ} (h1 : 1 / 5 ≤ c) (h2 : c ≤ 3 / 5) :
    ∃ μ, AngleDist μ ∧ meanCos2 μ = c ∧ ∀ n, expansion (fun β => mishchenkoP c β (cos β) (sin β)) n = ∫ β, (P n).eval (cos β) ∂μ := by
  obtain ⟨k1, k2, k3⟩ := c39_mishchenko c
  have hp := k1.mpr ⟨h1, h2⟩
  have hcont : Continuous fun β => mishchenkoP c β (cos β) (sin β) := by
    unfold mishchenkoP
    fun_prop
  refine ⟨withDensity fun β => mishchenkoP c β (cos β) (sin β), density_dist hcont hp k2, ?_, fun n => ?_⟩
  · unfold meanCos2
    rw [integral_density hcont hp, k3]
  · rw [integral_density hcont hp]
    rfl

/-- mean `cos²` of the angle between the axis of a grain and the direction of alignment: perfect alignment (type 0) or the imperfect alignment of Mishchenko
(1991) (type 1), with the short axis along the direction of alignment -/
noncomputable def wanted (type : Int) (axisRatio : ℝ) : ℝ :=
  if type = 0 then (if 1 < axisRatio then 1 else 0) else (if 1 < axisRatio then 3 / 5 else 1 / 5)

/-- **C91** the T-matrix of a grain that is larger than the minimum size is averaged over a probability distribution of angles with the mean `cos²` that belongs to the type of
alignment, with all accesses to the coefficients inside their vector, for orders up to the maximum order of the alignment distribution.
Missing: larger orders (`c91_violated_order`); smaller grains have the coefficients of the adaptive quadrature for a uniform distribution (C39, C70). -/
theorem c91_aligned_partial (o : Special.Ops ℝ) (fuel : Nat) (A : AlignArgs) {s : SizeBased ℝ} (hs : alignInit o fuel A = .ok s) (ht : A.type = 0 ∨ A.type = 1) {radius : ℝ}
    (hr : A.minimumSize < radius) (axisRatio : ℝ) (inp out : TRes ℂ ℝ) (C : Vec ℝ) {maxOrder : Nat} (hn : 1 ≤ inp.nmax) (hA : inp.nmax ≤ A.maximumOrder)
    (hS : out.Shape maxOrder) (ho : inp.nmax ≤ maxOrder) (Tm : Nat → Nat → Int → Nat → Nat → ℂ) (hT : Axisymmetric Tm) (hSt : Stores inp Tm) :
    (alignTask s radius axisRatio inp C out).p.ok = true ∧ (alignTask s radius axisRatio inp C out).out.nmax = inp.nmax
    ∧ ∃ μ, AngleDist μ ∧ meanCos2 μ = wanted A.type axisRatio
      ∧ ∀ {i n1 m j n2 : Nat}, Valid inp.nmax i n1 m → Valid inp.nmax j n2 m →
        (alignTask s radius axisRatio inp C out).out.get i n1 m j n2
          = averaged (fun x : ℝ => (x : ℂ)) (fun N => ∫ β, (P N.toNat).eval (cos β) ∂μ) Tm i n1 m j n2 := by
  obtain ⟨-, hch⟩ := (c39_choice o fuel A.minimumSize A.type A.maximumOrder (by omega) A.oblate A.prolate).1 s hs
  obtain ⟨-, h0, h1, -, -⟩ := hch radius axisRatio
  have key : ∃ μ, AngleDist μ ∧ meanCos2 μ = wanted A.type axisRatio ∧ (getDistribution s radius axisRatio).align = true
      ∧ ∀ n, n ≤ 2 * A.maximumOrder → getCoefficient (getDistribution s radius axisRatio) n = .ok (∫ β, (P n).eval (cos β) ∂μ) := by
    rcases ht with ht | ht
    · obtain ⟨ha, hc⟩ := h0 hr ht
      by_cases hx : 1 < axisRatio
      · refine ⟨Measure.dirac 0, dirac_dist le_rfl pi_pos.le, ?_, ha, fun n hn => ?_⟩
        · unfold meanCos2 wanted
          rw [integral_dirac, cos_zero, if_pos ht, if_pos hx]
          norm_num
        · rw [hc n hn, integral_dirac, cos_zero, if_pos hx]
      · refine ⟨Measure.dirac (π / 2), dirac_dist (by positivity) (by linarith [pi_pos]), ?_, ha, fun n hn => ?_⟩
        · unfold meanCos2 wanted
          rw [integral_dirac, cos_pi_div_two, if_pos ht, if_neg hx]
          norm_num
        · rw [hc n hn, integral_dirac, cos_pi_div_two, if_neg hx]
    · obtain ⟨ha, hc⟩ := h1 hr ht
      have h01 : ¬ A.type = 0 := by omega
      by_cases hx : 1 < axisRatio
      · obtain ⟨μ, m1, m2, m3⟩ := mishchenko_dist (c := 3 / 5) (by norm_num) (by norm_num)
        refine ⟨μ, m1, ?_, ha, fun n hn => ?_⟩
        · rw [m2]; unfold wanted; rw [if_neg h01, if_pos hx]
        · rw [hc n hn, ← m3, if_pos hx]
      · obtain ⟨μ, m1, m2, m3⟩ := mishchenko_dist (c := 1 / 5) (by norm_num) (by norm_num)
        refine ⟨μ, m1, ?_, ha, fun n hn => ?_⟩
        · rw [m2]; unfold wanted; rw [if_neg h01, if_neg hx]
        · rw [hc n hn, ← m3, if_neg hx]
  obtain ⟨μ, m1, m2, m3, m4⟩ := key
  have hsize : 2 * A.maximumOrder < (getDistribution s radius axisRatio).size := by
    by_contra hcon
    have := m4 (2 * A.maximumOrder) le_rfl
    rw [getCoefficient, if_neg hcon] at this
    cases this
  unfold alignTask
  dsimp only
  rw [m3]
  refine ⟨?_, ?_, μ, m1, m2, ?_⟩
  · refine (Alignment.c61_bounds Complex.ofRealHom inp _ hn).2.trans ?_
    simp only [Bool.true_and, decide_eq_true_eq]
    omega
  · exact (Alignment.c57_average Complex.ofRealHom inp _ hS ho Tm hT hSt (i := 0) (n1 := 1) (m := 0) (j := 0) (n2 := 1) ⟨by omega, by omega, by omega, hn⟩
      ⟨by omega, by omega, by omega, hn⟩).1
  · intro i n1 m j n2 hv hv'
    refine (Alignment.c57_average Complex.ofRealHom inp _ hS ho Tm hT hSt hv hv').2.trans ?_
    unfold averaged
    refine Finset.sum_congr rfl fun N hN => Finset.sum_congr rfl fun m1 _ => ?_
    rw [Finset.mem_Icc] at hN
    have b1 := hv.n
    have b2 := hv'.n
    dsimp only
    rw [coef_of (m4 N.toNat (by omega))]
    rfl

/-- **C91** type 2: the T-matrix of a grain that is larger than the minimum size is not averaged -/
theorem c91_disabled (o : Special.Ops ℝ) (fuel : Nat) (A : AlignArgs) {s : SizeBased ℝ} (hs : alignInit o fuel A = .ok s) (ht : A.type = 2) {radius : ℝ}
    (hr : A.minimumSize < radius) (hm : 1 ≤ A.maximumOrder) (axisRatio : ℝ) (inp out : TRes ℂ ℝ) (C : Vec ℝ) {maxOrder : Nat}
    (hS : out.Shape maxOrder) (ho : inp.nmax ≤ maxOrder) {i n1 m j n2 : Nat} (hv : Valid inp.nmax i n1 m) (hv' : Valid inp.nmax j n2 m) :
    (alignTask s radius axisRatio inp C out).out.nmax = inp.nmax ∧ (alignTask s radius axisRatio inp C out).out.get i n1 m j n2 = inp.get i n1 m j n2 := by
  obtain ⟨-, hch⟩ := (c39_choice o fuel A.minimumSize A.type A.maximumOrder hm A.oblate A.prolate).1 s hs
  obtain ⟨-, -, -, h2, -⟩ := hch radius axisRatio
  unfold alignTask
  dsimp only
  rw [h2 hr ht]
  exact Alignment.c57_copy Complex.ofRealHom inp _ hS ho hv hv'

/-- **C91** type 3: the average uses the coefficients of the distribution that the user has provided for flattened or elongated grains; they exist if (and only if) twice the order
of the T-matrix is at most the order of the distribution -/
theorem c91_custom_partial (o : Special.Ops ℝ) (fuel : Nat) (A : AlignArgs) {s : SizeBased ℝ} (hs : alignInit o fuel A = .ok s) (ht : A.type = 3) {radius : ℝ}
    (hr : A.minimumSize < radius) (hm : 1 ≤ A.maximumOrder) (axisRatio : ℝ) (inp out : TRes ℂ ℝ) (C : Vec ℝ) {maxOrder : Nat} (hn : 1 ≤ inp.nmax)
    (hS : out.Shape maxOrder) (ho : inp.nmax ≤ maxOrder) (Tm : Nat → Nat → Int → Nat → Nat → ℂ) (hT : Axisymmetric Tm) (hSt : Stores inp Tm) :
    ∃ d, (if 1 < axisRatio then A.oblate else A.prolate) = some d
      ∧ (1 ≤ d.size → ((alignTask s radius axisRatio inp C out).p.ok = true ↔ 2 * inp.nmax ≤ maximumOrder d))
      ∧ (2 * inp.nmax < d.size → (alignTask s radius axisRatio inp C out).out.nmax = inp.nmax
        ∧ ∀ {i n1 m j n2 : Nat}, Valid inp.nmax i n1 m → Valid inp.nmax j n2 m →
          (alignTask s radius axisRatio inp C out).out.get i n1 m j n2
            = averaged (fun x : ℝ => (x : ℂ)) (fun N => d.coef N.toNat) Tm i n1 m j n2) := by
  unfold alignInit at hs
  have hmain : ∃ a b, A.oblate = some a ∧ A.prolate = some b ∧ s = ⟨A.minimumSize, s.nonAligned, copy a, copy b⟩ := by
    unfold sizeBased at hs
    cases hi : initialise o fuel uniformP (1 / 10 ^ 10) (1 / 10 ^ 5) (base (2 * A.maximumOrder)) with
    | error e => rw [hi] at hs; cases hs
    | ok non =>
      rw [hi] at hs
      change (if A.type = 0 then _ else if A.type = 1 then _ else if A.type = 2 then _ else if A.type = 3 then _ else _) = _ at hs
      rw [if_neg (by omega), if_neg (by omega), if_neg (by omega), if_pos ht] at hs
      cases ha : A.oblate with
      | none => rw [ha] at hs; cases hs
      | some a =>
        cases hb : A.prolate with
        | none => rw [ha, hb] at hs; cases hs
        | some b =>
          rw [ha, hb] at hs
          obtain rfl := Except.ok.inj hs
          exact ⟨a, b, rfl, rfl, rfl⟩
  obtain ⟨a, b, ha, hb, hs'⟩ := hmain
  have hd : getDistribution s radius axisRatio = copy (if 1 < axisRatio then a else b) := by
    rw [hs']
    unfold getDistribution
    dsimp only
    rw [if_pos (by exact hr)]
    by_cases hx : 1 < axisRatio
    · rw [if_pos (show axisRatio > 1 from hx), if_pos hx]
    · rw [if_neg (show ¬ axisRatio > 1 from hx), if_neg hx]
  refine ⟨if 1 < axisRatio then a else b, by rw [ha, hb]; split_ifs <;> rfl, ?_⟩
  generalize (if 1 < axisRatio then a else b) = d at hd
  unfold alignTask
  dsimp only
  rw [hd, show (copy d).align = true from rfl]
  have hcoef : ∀ n, n < d.size → (copy d).coef n = d.coef n := by
    intro n hn
    have := (c39_copy d n).1
    unfold getCoefficient at this
    rw [if_pos hn, if_pos (show n < (copy d).size from hn)] at this
    exact Except.ok.inj this
  refine ⟨fun h1 => ?_, fun h2 => ⟨?_, ?_⟩⟩
  · rw [show ((Alignment.execute Real.sqrt (fun x : ℝ => (x : ℂ)) true inp ⟨C, ⟨(copy d).size, fun i => (copy d).coef i.toNat, true⟩, out⟩).p.ok = true)
        ↔ 2 * (inp.nmax : Int) < ((copy d).size : Int) from by
      have hb := (Alignment.c61_bounds Complex.ofRealHom inp ⟨C, ⟨(copy d).size, fun i => (copy d).coef i.toNat, true⟩, out⟩ hn).2
      simp only [Bool.true_and] at hb
      exact (Bool.eq_iff_iff.1 hb).trans decide_eq_true_eq.to_iff]
    unfold maximumOrder
    rw [show (copy d).size = d.size from rfl]
    omega
  · exact (Alignment.c57_average Complex.ofRealHom inp _ hS ho Tm hT hSt (i := 0) (n1 := 1) (m := 0) (j := 0) (n2 := 1) ⟨by omega, by omega, by omega, hn⟩
      ⟨by omega, by omega, by omega, hn⟩).1
  · intro i n1 m j n2 hv hv'
    refine (Alignment.c57_average Complex.ofRealHom inp _ hS ho Tm hT hSt hv hv').2.trans ?_
    unfold averaged
    refine Finset.sum_congr rfl fun N hN => Finset.sum_congr rfl fun m1 _ => ?_
    rw [Finset.mem_Icc] at hN
    have b1 := hv.n
    have b2 := hv'.n
    dsimp only
    rw [hcoef N.toNat (by omega)]
    rfl

/-- **C91 is violated**: with a distribution of the user of the default order (100), for a grain that needs a T-matrix of an order above 50 (the default limit for tables is 100),
coefficients after the end of the vector are used -/
theorem c91_violated_custom (o : Special.Ops ℝ) (fuel : Nat) (A : AlignArgs) {s : SizeBased ℝ} (hs : alignInit o fuel A = .ok s) (ht : A.type = 3) {radius : ℝ}
    (hr : A.minimumSize < radius) (hm : 1 ≤ A.maximumOrder) (axisRatio : ℝ) (inp out : TRes ℂ ℝ) (C : Vec ℝ) {maxOrder : Nat} (hn : 51 ≤ inp.nmax)
    (hS : out.Shape maxOrder) (ho : inp.nmax ≤ maxOrder) (Tm : Nat → Nat → Int → Nat → Nat → ℂ) (hT : Axisymmetric Tm) (hSt : Stores inp Tm)
    (hd : ∀ d, A.oblate = some d ∨ A.prolate = some d → d.size = 100 + 1) :
    (alignTask s radius axisRatio inp C out).p.ok = false := by
  obtain ⟨d, h1, h2, -⟩ := c91_custom_partial o fuel A hs ht hr hm axisRatio inp out C (by omega) hS ho Tm hT hSt
  have hsz := hd d (by by_cases hx : 1 < axisRatio <;> simp only [hx, if_true, if_false] at h1 <;> simp [h1])
  have := h2 (by omega)
  unfold maximumOrder at this
  rw [Bool.eq_false_iff, Ne, this]
  omega

/-- **C91 is violated**: perfect alignment, if the order of the T-matrix exceeds the maximum order of the alignment distribution (two separate arguments of the user): coefficients after the
end of the vector are used -/
theorem c91_violated_order (o : Special.Ops ℝ) (fuel : Nat) (A : AlignArgs) {s : SizeBased ℝ} (hs : alignInit o fuel A = .ok s) (ht : A.type = 0) {radius : ℝ}
    (hr : A.minimumSize < radius) (axisRatio : ℝ) (inp out : TRes ℂ ℝ) (C : Vec ℝ) (hn : A.maximumOrder < inp.nmax) :
    (alignTask s radius axisRatio inp C out).p.ok = false := by
  unfold alignInit sizeBased at hs
  have hd : ∃ x : ℝ, getDistribution s radius axisRatio = davisGreenstein (2 * A.maximumOrder) x := by
    cases hi : initialise o fuel uniformP (1 / 10 ^ 10) (1 / 10 ^ 5) (base (2 * A.maximumOrder)) with
    | error e => rw [hi] at hs; cases hs
    | ok non =>
      rw [hi] at hs
      change (if A.type = 0 then _ else _) = _ at hs
      rw [if_pos ht] at hs
      obtain rfl := Except.ok.inj hs
      unfold getDistribution
      dsimp only
      rw [if_pos (by exact hr)]
      split_ifs
      · exact ⟨_, rfl⟩
      · exact ⟨_, rfl⟩
  obtain ⟨x, hx⟩ := hd
  obtain ⟨g0, g1, -⟩ := c39_davis_greenstein (2 * A.maximumOrder) x
  unfold alignTask
  dsimp only
  rw [hx, g0]
  refine (Alignment.c61_bounds Complex.ofRealHom inp _ (by omega)).2.trans ?_
  unfold maximumOrder at g1
  simp only [Bool.true_and, decide_eq_false_iff_not]
  omega

/-- **C91 is violated**: type 3 without distributions is accepted by the arguments and leads to undefined behaviour (or to a quadrature that does not end) -/
theorem c91_violated_missing (o : Special.Ops ℝ) (fuel : Nat) (A : AlignArgs) (ht : A.type = 3) (ho : A.oblate = none ∨ A.prolate = none) :
    ∀ s, alignInit o fuel A ≠ .ok s := by
  intro s hs
  unfold alignInit sizeBased at hs
  cases hi : initialise o fuel uniformP (1 / 10 ^ 10) (1 / 10 ^ 5) (base (2 * A.maximumOrder)) with
  | error e => rw [hi] at hs; cases hs
  | ok non =>
    rw [hi] at hs
    change (if A.type = 0 then _ else if A.type = 1 then _ else if A.type = 2 then _ else if A.type = 3 then _ else _) = _ at hs
    rw [if_neg (by omega), if_neg (by omega), if_neg (by omega), if_pos ht] at hs
    rcases ho with h | h
    · rw [h] at hs; cases hs
    · rw [h] at hs
      cases ho : A.oblate <;> rw [ho] at hs <;> cases hs

/-! ### concrete cases -/

theorem flat_coefs (p : ℝ → ℝ → ℝ → ℝ) (norm atol rtol : ℝ) (ha : 0 ≤ atol) : ∀ (left : Nat) (d : Orientation.Dist ℝ), left < d.size →
    ∃ r, initCoefs flatOps 1 p norm atol rtol left d = .ok r := by
  intro left
  induction left with
  | zero => exact fun d _ => ⟨d, rfl⟩
  | succ left ih =>
    intro d hd
    unfold initCoefs
    dsimp only
    rw [flat_quad (d.size - (left + 1) + 1) (100 * (d.size - (left + 1) + 1)) (by omega) (by omega) _ _ _ ha]
    change ∃ r, (do let d ← write d (d.size - (left + 1)) 0; initCoefs flatOps 1 p norm atol rtol left d) = .ok r
    unfold write
    rw [if_pos (by omega)]
    exact ih _ (by show left < d.size; omega)

theorem flat_init (N : Nat) : ∃ r, initialise flatOps 1 uniformP (1 / 10 ^ 10) (1 / 10 ^ 5) (base N) = .ok r := by
  unfold initialise
  rw [flat_quad 50 1000 (by omega) (by omega) _ _ _ (by norm_num)]
  change ∃ r, (do
      let d ← write (⟨1 / 0, N + 1, fun _ => 0, true⟩ : Orientation.Dist ℝ) 0 1
      initCoefs flatOps 1 uniformP d.norm (1 / 10 ^ 10) (1 / 10 ^ 5) (d.size - 1) d) = .ok r
  unfold write
  rw [if_pos (Nat.succ_pos N)]
  exact flat_coefs _ _ _ _ (by norm_num) _ _ (by show N + 1 - 1 < N + 1; omega)

theorem exT_shape : exT.Shape 5 := fun _ _ => ⟨rfl, rfl⟩

/-- all types, with distributions of the user of order 100 (or 0, for the others) -/
theorem alignInit_exists (t : Int) (h0 : 0 ≤ t) (h3 : t ≤ 3) (N : Nat) (hN : 1 ≤ N) :
    ∃ s, alignInit flatOps 1 ⟨1 / 10, t, N, some (davisGreenstein 100 2), some (davisGreenstein 100 (1 / 2))⟩ = .ok s := by
  unfold alignInit sizeBased
  obtain ⟨r, hr⟩ := flat_init (2 * N)
  rw [hr]
  change ∃ s, (if t = 0 then _ else if t = 1 then _ else if t = 2 then _ else if t = 3 then _ else _) = Except.ok s
  by_cases t0 : t = 0
  · rw [if_pos t0]; exact ⟨_, rfl⟩
  rw [if_neg t0]
  by_cases t1 : t = 1
  · rw [if_pos t1]
    obtain ⟨a, ha, -⟩ := (c39_mishchenko_coefficients (2 * N) (3 / 5)).1 (by omega)
    obtain ⟨b, hb, -⟩ := (c39_mishchenko_coefficients (2 * N) (1 / 5)).1 (by omega)
    rw [ha, hb]
    exact ⟨_, rfl⟩
  rw [if_neg t1]
  by_cases t2 : t = 2
  · rw [if_pos t2]; exact ⟨_, rfl⟩
  rw [if_neg t2, if_pos (by omega)]
  exact ⟨_, rfl⟩

/-- `c91_aligned_partial`, `c91_disabled` and `c91_custom_partial` for a grain of size 1 and a T-matrix of order 5 -/
example (C : Vec ℝ) (axisRatio : ℝ) : ∃ s, alignInit flatOps 1 ⟨1 / 10, 1, 100, some (davisGreenstein 100 2), some (davisGreenstein 100 (1 / 2))⟩ = .ok s
    ∧ (alignTask s 1 axisRatio exT C exT).p.ok = true := by
  obtain ⟨s, hs⟩ := alignInit_exists 1 (by omega) (by omega) 100 (by omega)
  exact ⟨s, hs, (c91_aligned_partial flatOps 1 _ hs (.inr rfl) (by norm_num) axisRatio exT exT C (maxOrder := 5) (by decide) (by decide) exT_shape le_rfl exTm
    exT_axisymmetric exT_stores).1⟩

example (C : Vec ℝ) (axisRatio : ℝ) : ∃ s, alignInit flatOps 1 ⟨1 / 10, 3, 100, some (davisGreenstein 100 2), some (davisGreenstein 100 (1 / 2))⟩ = .ok s
    ∧ ∃ d : Orientation.Dist ℝ, (if 1 < axisRatio then some (davisGreenstein 100 2) else some (davisGreenstein 100 (1 / 2))) = some d
      ∧ ((1 ≤ d.size) → ((alignTask s 1 axisRatio exT C exT).p.ok = true ↔ 2 * 5 ≤ maximumOrder d)) := by
  obtain ⟨s, hs⟩ := alignInit_exists 3 (by omega) (by omega) 100 (by omega)
  obtain ⟨d, h1, h2, -⟩ := c91_custom_partial flatOps 1 _ hs rfl (radius := 1) (by norm_num) (by decide) axisRatio exT exT C (maxOrder := 5) (by decide) exT_shape le_rfl exTm
    exT_axisymmetric exT_stores
  exact ⟨s, hs, d, h1, h2⟩

end Verif.Python
