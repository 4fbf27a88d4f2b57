import Verif.Properties.DirectScatter
import Verif.Proofs.Alignment
import Verif.Properties.SymmetryStore

/-!
# The stand-alone `TMatrix` class: coefficients and absorption cross sections: C76 (reduced matrix), C77
-/
namespace Verif.Direct

open Finset Verif.Matrix Verif.TMatrix Verif.Scatter Verif.Frame
open Verif.Alignment (Stores Axisymmetric fold_even)
open Verif.Special (realOps gaussLegendre gaussLegendreAB)

/-- **C76** the reduced extinction matrix: the elements `K11`, `K12`, `K34` of the extinction matrix, and nothing else is written -/
theorem c76_reduced (o : Obj ℝ ℂ) (α β θ φ : ℝ) (output : Nat → ℝ) :
    let K := extinctionMatrix o α β θ φ
    let out := reducedExtinction o α β θ φ output
    out 0 = K.get 0 0 ∧ out 1 = K.get 0 1 ∧ out 2 = K.get 2 3 ∧ ∀ p, 3 ≤ p → out p = output p := by
  intro K out
  obtain ⟨k0, ⟨k1, _⟩, _, _, _, _, k11, _⟩ := extinctionOf_get (forwardOriented o α β θ φ θ φ) o.k
  have hK : K = extinctionOf (forwardOriented o α β θ φ θ φ) o.k := rfl
  rw [hK, k0 0 (by norm_num), k1, k11]
  simp only [out, reducedExtinction]
  refine ⟨?_, ?_, ?_, ?_⟩
  · simp
  · simp
  · simp
  · intro p hp
    rw [Function.update_of_ne (by omega), Function.update_of_ne (by omega), Function.update_of_ne (by omega)]

/-! ## C77: coefficients -/

theorem loop_sum (f : Nat → ℝ) {lo hi : Nat} (h : lo ≤ hi) (body : Nat → ℝ → ℝ) (s : ℝ) (hb : ∀ k s, body k s = s + f k) :
    loop lo hi body s = s + ∑ k ∈ Ico lo hi, f k := loop_proj id f h body s hb

theorem factor_eq (m : Nat) : factor m = if m = 0 then 1 else 2 := by
  unfold factor
  rcases Nat.eq_zero_or_pos m with h | h
  · simp [h]
  · rw [if_pos h, if_neg (by omega)]

/-- **C77** the scattering coefficient: the sum of the squared moduli of the elements for all orders, kinds and degrees of both signs -/
theorem c77_scattering (o : Obj ℝ ℂ) {Tm : Nat → Nat → Int → Nat → Nat → ℂ} (hA : Axisymmetric Tm) (hS : Stores o.res Tm) :
    scatteringCoefficient o = ∑ n ∈ Icc 1 o.nmax, ∑ n' ∈ Icc 1 o.nmax, ∑ m ∈ Icc (-((min n n' : Nat) : Int)) (min n n' : Nat),
      ∑ i ∈ range 2, ∑ i' ∈ range 2, Complex.normSq (Tm i n m i' n') := by
  have even : ∀ n n' (m : Int), ∑ i ∈ range 2, ∑ i' ∈ range 2, Complex.normSq (Tm i n (-m) i' n')
      = ∑ i ∈ range 2, ∑ i' ∈ range 2, Complex.normSq (Tm i n m i' n') := by
    intro n n' m
    refine sum_congr rfl fun i _ => sum_congr rfl fun i' _ => ?_
    rw [hA, Complex.normSq_mul]
    simp
  let g := fun (n n' m : Nat) => ∑ i ∈ range 2, ∑ i' ∈ range 2, Complex.normSq (o.res.get i n m i' n')
  have hl : scatteringCoefficient o = ∑ n ∈ Ico 1 (o.nmax + 1), ∑ n' ∈ Ico 1 (o.nmax + 1), ∑ m ∈ Ico 0 (n + 1), ∑ m' ∈ Ico 0 (n' + 1),
      if m = m' then factor m * g n n' m else 0 := by
    unfold scatteringCoefficient
    dsimp only
    refine (loop_sum (fun n => ∑ n' ∈ Ico 1 (o.nmax + 1), ∑ m ∈ Ico 0 (n + 1), ∑ m' ∈ Ico 0 (n' + 1),
      if m = m' then factor m * g n n' m else 0) (by omega) _ 0 ?_).trans (zero_add _)
    intro n1 s
    refine loop_sum (fun n' => ∑ m ∈ Ico 0 (n1 + 1), ∑ m' ∈ Ico 0 (n' + 1), if m = m' then factor m * g n1 n' m else 0) (by omega) _ s ?_
    intro n2 s
    refine loop_sum (fun m => ∑ m' ∈ Ico 0 (n2 + 1), if m = m' then factor m * g n1 n2 m else 0) (by omega) _ s ?_
    intro m1 s
    refine loop_sum (fun m2 => if m1 = m2 then factor m1 * g n1 n2 m1 else 0) (by omega) _ s ?_
    intro m2 s
    by_cases h : m1 = m2
    · rw [if_pos h, if_pos h]
      simp only [g, sum_range_succ, range_zero, sum_empty, zero_add]
      ring
    · rw [if_neg h, if_neg h, add_zero]
  rw [hl, show Ico 1 (o.nmax + 1) = Icc 1 o.nmax from by ext x; simp only [mem_Ico, mem_Icc]; omega]
  refine sum_congr rfl fun n hn => sum_congr rfl fun n' hn' => ?_
  rw [mem_Icc] at hn hn'
  rw [fold_even _ _ (even n n')]
  have inner : ∀ m, ∑ m' ∈ Ico 0 (n' + 1), (if m = m' then factor m * g n n' m else 0) = if m ≤ n' then factor m * g n n' m else 0 := by
    intro m
    rw [sum_ite_eq]
    simp only [mem_Ico]
    congr 1
    simp only [eq_iff_iff]
    omega
  simp only [inner]
  rw [← sum_filter, show (Ico 0 (n + 1)).filter (fun m => m ≤ n') = range (min n n' + 1) from by
    ext x; simp only [mem_filter, mem_Ico, mem_range]; omega]
  refine sum_congr rfl fun m hm => ?_
  rw [mem_range] at hm
  rw [factor_eq]
  congr 1
  refine sum_congr rfl fun i hi => sum_congr rfl fun i' hi' => ?_
  rw [mem_range] at hi hi'
  rw [hS i n m i' n' ⟨by omega, by omega, by omega, hn.2⟩ ⟨by omega, by omega, by omega, hn'.2⟩]

/-- **C77** the extinction coefficient: the real part of the trace of the T-matrix (over all orders, kinds, and degrees of both signs),
if the off-diagonal blocks vanish on the diagonal (C74: this is the case for particles with a plane of symmetry) -/
theorem c77_extinction (o : Obj ℝ ℂ) {Tm : Nat → Nat → Int → Nat → Nat → ℂ} (hA : Axisymmetric Tm) (hS : Stores o.res Tm)
    (hodd : ∀ i n m i' n', Valid o.nmax i n m → Valid o.nmax i' n' m → (i + n + i' + n') % 2 = 1 → o.res.get i n m i' n' = 0) :
    extinctionCoefficient o = ∑ n ∈ Icc 1 o.nmax, ∑ m ∈ Icc (-(n : Int)) n, ∑ i ∈ range 2, (Tm i n m i n).re := by
  have even : ∀ n (m : Int), ∑ i ∈ range 2, (Tm i n (-m) i n).re = ∑ i ∈ range 2, (Tm i n m i n).re := by
    intro n m
    refine sum_congr rfl fun i _ => ?_
    rw [hA, Even.neg_one_pow ⟨i, rfl⟩, one_mul]
  unfold extinctionCoefficient
  dsimp only
  have hl := loop_sum (fun n1 => ∑ m1 ∈ Ico 0 (n1 + 1), factor m1 * ((o.res.get 0 n1 m1 0 n1).re + (o.res.get 0 n1 m1 1 n1).re
    + (o.res.get 1 n1 m1 0 n1).re + (o.res.get 1 n1 m1 1 n1).re)) (show 1 ≤ o.nmax + 1 by omega) (fun n1 s => loop 0 (n1 + 1) (fun m1 s =>
      s + factor m1 * (o.res.get 0 n1 m1 0 n1).re + factor m1 * (o.res.get 0 n1 m1 1 n1).re + factor m1 * (o.res.get 1 n1 m1 0 n1).re
        + factor m1 * (o.res.get 1 n1 m1 1 n1).re) s) 0
    (fun n1 s => loop_sum (fun m1 => factor m1 * ((o.res.get 0 n1 m1 0 n1).re + (o.res.get 0 n1 m1 1 n1).re
    + (o.res.get 1 n1 m1 0 n1).re + (o.res.get 1 n1 m1 1 n1).re)) (by omega) _ s fun m1 s => by ring)
  refine hl.trans ?_
  rw [zero_add, show Ico 1 (o.nmax + 1) = Icc 1 o.nmax from by ext x; simp only [mem_Ico, mem_Icc]; omega]
  refine sum_congr rfl fun n hn => ?_
  rw [mem_Icc] at hn
  rw [fold_even _ _ (even n), Nat.Ico_zero_eq_range]
  refine sum_congr rfl fun m hm => ?_
  rw [mem_range] at hm
  have v : ∀ i, i < 2 → Valid o.res.nmax i n m := fun i hi => ⟨by omega, by omega, by omega, hn.2⟩
  have v' : ∀ i, i < 2 → Valid o.nmax i n m := fun i hi => ⟨by omega, by omega, by omega, hn.2⟩
  rw [factor_eq, hodd 0 n m 1 n (v' 0 (by norm_num)) (v' 1 (by norm_num)) (by omega), hodd 1 n m 0 n (v' 1 (by norm_num)) (v' 0 (by norm_num)) (by omega),
    hS 0 n m 0 n (v 0 (by norm_num)) (v 0 (by norm_num)), hS 1 n m 1 n (v 1 (by norm_num)) (v 1 (by norm_num))]
  simp [sum_range_succ]

/-! ## C77: absorption -/

/-- the absorption cross section by the optical theorem: extinction minus the scattering (row `r` of the scattering matrix, first column)
from all directions of the rule -/
noncomputable def absorbed (o : Obj ℝ ℂ) (θ : ℝ) (r ngauss : Nat) (θq wt φq wp : Nat → ℝ) : ℝ :=
  (extinctionOf (forwardAngles o θ 0 θ 0) o.k).get r 0
    - ∑ it ∈ range ngauss, ∑ ip ∈ range ngauss, mueller (forwardAngles o (θq it) (φq ip) θ 0) r 0 * (wt it * wp ip)

/-- **C77** `get_absorption_cross_sections` for one angle: the requested elements, and nothing else is written -/
theorem c77_one (o : Obj ℝ ℂ) (θ : ℝ) (ngauss : Nat) (doCabs doCabspol : Bool) (θq wt φq wp : Nat → ℝ) (p : Nat) (result : Nat → ℝ) :
    let out := absorptionOne o θ ngauss doCabs doCabspol θq wt φq wp p result
    out p = (if doCabs then absorbed o θ 0 ngauss θq wt φq wp else result p)
    ∧ out (p + 1) = (if doCabspol then absorbed o θ 1 ngauss θq wt φq wp else result (p + 1))
    ∧ ∀ q, q ≠ p → q ≠ p + 1 → out q = result q := by
  intro out
  obtain ⟨k0, ⟨_, k2⟩, _⟩ := extinctionOf_get (forwardAngles o θ 0 θ 0) o.k
  have d0 := k0 0 (by norm_num)
  unfold absorbed
  rw [d0, k2]
  let Q := fun (u : ℝ) (v : ℝ) (r0 : Nat → ℝ) => r0 p = (if doCabs then 2 * Real.pi / o.k * ((forwardAngles o θ 0 θ 0).s0 + (forwardAngles o θ 0 θ 0).s3).im - u else result p)
    ∧ r0 (p + 1) = (if doCabspol then 2 * Real.pi / o.k * ((forwardAngles o θ 0 θ 0).s0 - (forwardAngles o θ 0 θ 0).s3).im - v else result (p + 1))
    ∧ ∀ q, q ≠ p → q ≠ p + 1 → r0 q = result q
  let Z := fun r it ip => mueller (forwardAngles o (θq it) (φq ip) θ 0) r 0 * (wt it * wp ip)
  have key : Q (∑ it ∈ range ngauss, ∑ ip ∈ range ngauss, Z 0 it ip) (∑ it ∈ range ngauss, ∑ ip ∈ range ngauss, Z 1 it ip) out := by
    simp only [out, absorptionOne]
    refine loop_inv (fun t r0 => Q (∑ it ∈ range t, ∑ ip ∈ range ngauss, Z 0 it ip) (∑ it ∈ range t, ∑ ip ∈ range ngauss, Z 1 it ip) r0)
      (Nat.zero_le _) _ _ ?_ ?_
    · simp only [range_zero, sum_empty, Q]
      refine ⟨?_, ?_, ?_⟩
      · cases doCabs <;> cases doCabspol <;> simp
      · cases doCabs <;> cases doCabspol <;> simp
      · intro q h1 h2
        cases doCabs <;> cases doCabspol <;> simp [Function.update_of_ne, h1, h2]
    · intro t r0 _ ht hr
      have := loop_inv (fun s r1 => Q (∑ it ∈ range t, ∑ ip ∈ range ngauss, Z 0 it ip + ∑ ip ∈ range s, Z 0 t ip)
          (∑ it ∈ range t, ∑ ip ∈ range ngauss, Z 1 it ip + ∑ ip ∈ range s, Z 1 t ip) r1) (Nat.zero_le ngauss) (fun ip result =>
            let P := forwardAngles o (θq t) (φq ip) θ 0
            let weight := wt t * wp ip
            let result := if doCabs then
                let Z00 := (1 / 2 * (P.s0 * star P.s0 + P.s1 * star P.s1 + P.s2 * star P.s2 + P.s3 * star P.s3)).re
                Function.update result p (result p - Z00 * weight)
              else result
            if doCabspol then
                let Z10 := (1 / 2 * (P.s0 * star P.s0 + P.s1 * star P.s1 - P.s2 * star P.s2 - P.s3 * star P.s3)).re
                Function.update result (p + 1) (result (p + 1) - Z10 * weight)
              else result) r0 (by simpa using hr) (by
        rintro s r1 _ hs ⟨e1, e2, e3⟩
        dsimp only
        have z0 : (1 / 2 * ((forwardAngles o (θq t) (φq s) θ 0).s0 * star (forwardAngles o (θq t) (φq s) θ 0).s0
          + (forwardAngles o (θq t) (φq s) θ 0).s1 * star (forwardAngles o (θq t) (φq s) θ 0).s1
          + (forwardAngles o (θq t) (φq s) θ 0).s2 * star (forwardAngles o (θq t) (φq s) θ 0).s2
          + (forwardAngles o (θq t) (φq s) θ 0).s3 * star (forwardAngles o (θq t) (φq s) θ 0).s3)).re * (wt t * wp s) = Z 0 t s := rfl
        have z1 : (1 / 2 * ((forwardAngles o (θq t) (φq s) θ 0).s0 * star (forwardAngles o (θq t) (φq s) θ 0).s0
          + (forwardAngles o (θq t) (φq s) θ 0).s1 * star (forwardAngles o (θq t) (φq s) θ 0).s1
          - (forwardAngles o (θq t) (φq s) θ 0).s2 * star (forwardAngles o (θq t) (φq s) θ 0).s2
          - (forwardAngles o (θq t) (φq s) θ 0).s3 * star (forwardAngles o (θq t) (φq s) θ 0).s3)).re * (wt t * wp s) = Z 1 t s := rfl
        rw [z0, z1, sum_range_succ, sum_range_succ]
        refine ⟨?_, ?_, ?_⟩
        · cases doCabs <;> cases doCabspol <;> simp [e1] <;> ring
        · cases doCabs <;> cases doCabspol <;> simp [e2] <;> ring
        · intro q h1 h2
          cases doCabs <;> cases doCabspol <;> simp [Function.update_of_ne, h1, h2, e3])
      rw [sum_range_succ, sum_range_succ]
      exact this
  exact key

/-- the rules: polar angles from a rule for cosines on `[-1, 1]`, azimuths from a rule on `[0, 2π]` -/
theorem rules_spec {fuel ngauss : Nat} {r : (Nat → ℝ) × (Nat → ℝ) × (Nat → ℝ) × (Nat → ℝ)} (h : rules fuel ngauss = some r) :
    ∃ c p, gaussLegendre realOps fuel ngauss (fun _ => 0, fun _ => 0) = some c
      ∧ gaussLegendreAB realOps fuel ngauss 0 (2 * Real.pi) (fun _ => 0, fun _ => 0) = some p
      ∧ (∀ i < ngauss, r.1 i = Real.arccos (c.1 i)) ∧ r.2.1 = c.2 ∧ r.2.2.1 = p.1 ∧ r.2.2.2 = p.2 := by
  unfold rules at h
  split at h
  · cases h
  rename_i c hc
  split at h
  · cases h
  rename_i p hp
  rw [Option.some.injEq] at h
  refine ⟨c, p, hc, hp, ?_, ?_, ?_, ?_⟩
  · intro i hi
    rw [← h]
    dsimp only
    exact loop_inv (fun q (t : Nat → ℝ) => ∀ i < q, t i = Real.arccos (c.1 i)) (Nat.zero_le ngauss) _ _ (fun i hi => by omega) (by
      intro k t _ _ ht i hi
      by_cases e : i = k
      · subst e
        simp
      · rw [Function.update_of_ne e, ht i (by omega)]) i hi
  all_goals rw [← h]

/-- **C77** the version for an array of angles: pairs of cross sections, in the order of the angles -/
theorem c77_pairs (o : Obj ℝ ℂ) {fuel ngauss : Nat} {r : (Nat → ℝ) × (Nat → ℝ) × (Nat → ℝ) × (Nat → ℝ)} (h : rules fuel ngauss = some r)
    (θ : Nat → ℝ) (nθ : Nat) (Cabs : Nat → ℝ) :
    ∃ out, absorptionPairs o fuel θ nθ ngauss Cabs = some out
      ∧ (∀ it < nθ, out (2 * it) = absorbed o (θ it) 0 ngauss r.1 r.2.1 r.2.2.1 r.2.2.2
          ∧ out (2 * it + 1) = absorbed o (θ it) 1 ngauss r.1 r.2.1 r.2.2.1 r.2.2.2)
      ∧ ∀ q, 2 * nθ ≤ q → out q = Cabs q := by
  refine ⟨_, by unfold absorptionPairs; rw [h]; rfl, ?_⟩
  refine loop_inv (fun t (C : Nat → ℝ) => (∀ it < t, C (2 * it) = absorbed o (θ it) 0 ngauss r.1 r.2.1 r.2.2.1 r.2.2.2
      ∧ C (2 * it + 1) = absorbed o (θ it) 1 ngauss r.1 r.2.1 r.2.2.1 r.2.2.2) ∧ ∀ q, 2 * t ≤ q → C q = Cabs q) (Nat.zero_le nθ) _ Cabs
    ⟨fun it h => by omega, fun _ _ => rfl⟩ ?_
  rintro k C _ _ ⟨h1, h2⟩
  obtain ⟨a, b, c⟩ := c77_one o (θ k) ngauss true true r.1 r.2.1 r.2.2.1 r.2.2.2 (2 * k) C
  refine ⟨fun it hit => ?_, fun q hq => ?_⟩
  · by_cases e : it = k
    · subst e
      exact ⟨a.trans (if_pos rfl), b.trans (if_pos rfl)⟩
    · rw [c (2 * it) (by omega) (by omega), c (2 * it + 1) (by omega) (by omega)]
      exact h1 it (by omega)
  · rw [c q (by omega) (by omega)]
    exact h2 q (by omega)

/-- **C77** the version without the polarised cross section: one number for each angle -/
theorem c77_array (o : Obj ℝ ℂ) {fuel ngauss : Nat} {r : (Nat → ℝ) × (Nat → ℝ) × (Nat → ℝ) × (Nat → ℝ)} (h : rules fuel ngauss = some r)
    (θ : Nat → ℝ) (nθ : Nat) (Cabs : Nat → ℝ) :
    ∃ out, absorptionArray o fuel θ nθ ngauss Cabs = some out
      ∧ (∀ it < nθ, out it = absorbed o (θ it) 0 ngauss r.1 r.2.1 r.2.2.1 r.2.2.2) ∧ ∀ q, nθ ≤ q → out q = Cabs q := by
  refine ⟨_, by unfold absorptionArray; rw [h]; rfl, ?_⟩
  refine loop_inv (fun t (C : Nat → ℝ) => (∀ it < t, C it = absorbed o (θ it) 0 ngauss r.1 r.2.1 r.2.2.1 r.2.2.2)
      ∧ ∀ q, t ≤ q → C q = Cabs q) (Nat.zero_le nθ) _ Cabs ⟨fun it h => by omega, fun _ _ => rfl⟩ ?_
  rintro k C _ _ ⟨h1, h2⟩
  obtain ⟨a, b, c⟩ := c77_one o (θ k) ngauss true false r.1 r.2.1 r.2.2.1 r.2.2.2 k C
  have c' : ∀ q, q ≠ k → absorptionOne o (θ k) ngauss true false r.1 r.2.1 r.2.2.1 r.2.2.2 k C q = C q := by
    intro q hq
    by_cases e : q = k + 1
    · rw [e]
      exact b.trans (if_neg (by decide))
    · exact c q hq e
  refine ⟨fun it hit => ?_, fun q hq => ?_⟩
  · by_cases e : it = k
    · subst e
      exact a.trans (if_pos rfl)
    · rw [c' it e]
      exact h1 it (by omega)
  · rw [c' q (by omega)]
    exact h2 q (by omega)

/-- **C77** the average cross section: half the quadrature over the cosine of the polar angle; the uninitialised variable does not matter -/
theorem c77_average (o : Obj ℝ ℂ) {fuel ngauss : Nat} {r : (Nat → ℝ) × (Nat → ℝ) × (Nat → ℝ) × (Nat → ℝ)} (h : rules fuel ngauss = some r)
    (junk : ℝ) :
    absorptionAverage o fuel ngauss junk
      = some (1 / 2 * ∑ i ∈ range ngauss, absorbed o (r.1 i) 0 ngauss r.1 r.2.1 r.2.2.1 r.2.2.2 * r.2.1 i) := by
  unfold absorptionAverage
  rw [h, Option.map_some]
  congr 2
  rw [loop_sum (fun i => absorbed o (r.1 i) 0 ngauss r.1 r.2.1 r.2.2.1 r.2.2.2 * r.2.1 i) (Nat.zero_le _) _ 0, zero_add, Nat.Ico_zero_eq_range]
  intro i s
  dsimp only
  rw [(c77_one o (r.1 i) ngauss true false r.1 r.2.1 r.2.2.1 r.2.2.2 0 fun _ => junk).1, if_pos rfl]

/-! ## objects made by the class -/

open Verif.TMatrix.Spec
open Verif.Special (OnSpheroid)

/-- **C77** for an object of the class, after the constructor and one call of `compute_additional_elements`: with `T` the transition
matrix for degrees of both signs, the scattering coefficient is the sum of the squared moduli of its elements, and the extinction
coefficient is the real part of its trace. -/
theorem c77_class (absv : ℂ → ℝ) (habs : ∀ x : ℂ, x ≠ 0 → absv 0 < absv x) (jdj ydy : Routine ℝ) (jdjm : Routine ℂ)
    {zj dzj zy dzy : Nat → ℝ → ℝ} {zm dzm : Nat → ℂ → ℂ} {nmax ngauss : Nat} (hn : 1 ≤ nmax) (h1 : Gives jdj nmax zj dzj)
    (h2 : Gives ydy nmax zy dzy) (h3 : Gives jdjm nmax zm dzm) (fuel : Nat) {wavelength RV d : ℝ} {mr : ℂ}
    (hl : 0 < wavelength) (hmr : mr ≠ 0) (hRV : 0 < RV) (hd : 0 < d) (o : Obj ℝ ℂ)
    (ho : construct realOps Complex.ofRealHom absv Complex.I jdj ydy jdjm fuel wavelength mr RV d nmax ngauss = some o)
    (hc : ∀ i < 2 * ngauss, -1 < o.costheta i ∧ o.costheta i < 1) :
    let θ := fun i => Real.arccos (o.costheta i)
    let k := 2 * Real.pi / wavelength
    let γ := fun n n' => (prefactor n n' : ℂ)
    let p := additional realOps Complex.ofRealHom absv Complex.I o
    ∃ (a b : ℝ) (r : ℝ → ℝ), 0 < a ∧ 0 < b ∧ a / b = d ∧ a ^ 2 * b = RV ^ 3 ∧ (∀ x, 0 < r x ∧ OnSpheroid a b (r x) x) ∧
        let S := surface θ o.weights r
        let h := outgoingAt k (fun i => r (θ i)) zj dzj zy dzy
        let j := regularAt k (fun i => r (θ i)) zj dzj
        let j' := insideAt (mr * k) (fun i => r (θ i)) zm dzm
        (∀ m ≤ nmax, (QMatrix Complex.I S (2 * ngauss) γ (k * (mr * k)) (k ^ 2) h j' m nmax).det ≠ 0) →
        ∃ Tm : Nat → Nat → Int → Nat → Nat → ℂ,
          (∀ m ≤ nmax, IsTransition Complex.I S (2 * ngauss) γ (k * (mr * k)) (k ^ 2) h j j' m nmax (fun i n i' n' => Tm i n m i' n')
            ∧ IsTransitionNeg Complex.I S (2 * ngauss) γ (k * (mr * k)) (k ^ 2) h j j' m nmax (fun i n i' n' => Tm i n (-m : Int) i' n'))
          ∧ scatteringCoefficient p = ∑ n ∈ Icc 1 nmax, ∑ n' ∈ Icc 1 nmax, ∑ m ∈ Icc (-((min n n' : Nat) : Int)) (min n n' : Nat),
              ∑ i ∈ range 2, ∑ i' ∈ range 2, Complex.normSq (Tm i n m i' n')
          ∧ extinctionCoefficient p = ∑ n ∈ Icc 1 nmax, ∑ m ∈ Icc (-(n : Int)) n, ∑ i ∈ range 2, (Tm i n m i n).re := by
  intro θ k γ p
  obtain ⟨a, b, r, e1, e2, e3, e4, e5, H⟩ := c74_class absv habs jdj ydy jdjm hn h1 h2 h3 fuel hl hmr hRV hd o ho hc
  refine ⟨a, b, r, e1, e2, e3, e4, e5, ?_⟩
  intro S h j j' hdet
  obtain ⟨g1, Tm, g2, g3, g4⟩ := H.2 hdet
  have hp : p.nmax = nmax := by
    have : p.nmax = o.nmax := by
      simp only [p]
      rw [additional_spec]
    rw [this]
    unfold construct at ho
    rw [Option.map_eq_some_iff] at ho
    obtain ⟨o0, ht, rfl⟩ := ho
    unfold tables at ht
    dsimp only at ht
    split at ht
    · cases ht
    rw [Option.some.injEq] at ht
    rw [← ht]
    exact (congrArg Obj.nmax (besselLoop_frame jdj ydy jdjm nmax ngauss _)).trans
      ((congrArg Obj.nmax (radiusLoop_spec RV mr ngauss _).2).trans rfl)
  have s1 := c77_scattering p g2 g3
  have s2 := c77_extinction p g2 g3 (by rw [hp]; exact g1)
  rw [hp] at s1 s2
  exact ⟨Tm, g4, s1, s2⟩

/-! ## The hypotheses are met -/

/-- the object of the example of C74 meets the hypotheses of C75-C77 (equator to pole; a particle lying on its side) -/
example : ∃ (o : Obj ℝ ℂ) (Tm : Nat → Nat → Int → Nat → Nat → ℂ), Axisymmetric Tm ∧ Stores o.res Tm
    ∧ (∃ i s : Angular, i.IsOf (Real.pi / 2) ∧ s.IsOf 0 ∧ forwardAngles o (Real.pi / 2) 0 0 1 = theory Tm o.k o.nmax i s 1)
    ∧ (∃ θ' φ', dir θ' φ' = _root_.Matrix.mulVec (rot 0 (Real.pi / 2)) (dir (Real.pi / 2) 0) ∧ Regular θ')
    ∧ scatteringCoefficient o = ∑ n ∈ Icc 1 o.nmax, ∑ n' ∈ Icc 1 o.nmax, ∑ m ∈ Icc (-((min n n' : Nat) : Int)) (min n n' : Nat),
      ∑ i ∈ range 2, ∑ i' ∈ range 2, Complex.normSq (Tm i n m i' n') := by
  obtain ⟨o, _, _, Tm, h2, h3⟩ := Example.stored
  obtain ⟨r0, _, r2⟩ := regular_examples
  obtain ⟨i, hi⟩ := exists_angular r2
  obtain ⟨s, hs⟩ := exists_angular r0
  refine ⟨_, Tm, h2, h3, ⟨i, s, hi, hs, ?_⟩, ⟨0, 0, ?_, r0⟩, c77_scattering _ h2 h3⟩
  · have := c75_forward _ h2 h3 (Real.pi / 2) 0 0 1 r2 r0 hi hs
    rw [sub_zero] at this
    exact this
  · rw [c75_axis]
    simp [dir]

/-- the rules exist for two points -/
example : ∃ r, rules (100 + (16 + 1)) 2 = some r := by
  obtain ⟨x, w, _, _, _, e⟩ := Example.quadrature_two
  unfold rules gaussLegendreAB
  rw [e]
  exact ⟨_, rfl⟩

end Verif.Direct
