import Verif.Model.WignerTable
import Verif.Properties.Wigner

/-!
# C31: the tabulated Wigner functions
-/
namespace Verif.WignerTable

open Verif.Matrix (loop loop_inv loop_self loop_succ)
open Verif.Special (realOps wignerD)
open Verif.Legendre (wigner)

/-- what `mirrorRow` does: it only changes row `i2 - 1` of order `m` -/
theorem mirrorRow_spec (nmax m i1 i2 : Nat) (hne : i1 - 1 ≠ i2 - 1) (t : Tab ℝ) :
    (∀ n, n < nmax → (mirrorRow nmax m i1 i2 t).w m (i2 - 1) n = (-1) ^ (n + 1) * t.w m (i1 - 1) n
      ∧ (mirrorRow nmax m i1 i2 t).dw m (i2 - 1) n = -(-1) ^ (n + 1) * t.dw m (i1 - 1) n)
    ∧ (∀ m' r c, ¬(m' = m ∧ r = i2 - 1 ∧ c < nmax) → (mirrorRow nmax m i1 i2 t).w m' r c = t.w m' r c
      ∧ (mirrorRow nmax m i1 i2 t).dw m' r c = t.dw m' r c) := by
  have key := loop_inv (σ := ℝ × Tab ℝ)
    (fun k s => s.1 = (-1) ^ k
      ∧ (∀ n, n < k → s.2.w m (i2 - 1) n = (-1) ^ (n + 1) * t.w m (i1 - 1) n
        ∧ s.2.dw m (i2 - 1) n = -(-1) ^ (n + 1) * t.dw m (i1 - 1) n)
      ∧ (∀ m' r c, ¬(m' = m ∧ r = i2 - 1 ∧ c < k) → s.2.w m' r c = t.w m' r c ∧ s.2.dw m' r c = t.dw m' r c))
    (Nat.zero_le nmax)
    (fun n (s : ℝ × Tab ℝ) =>
      (-s.1, ⟨setElem s.2.w m (i2 - 1) n (-s.1 * s.2.w m (i1 - 1) n),
        setElem s.2.dw m (i2 - 1) n (- -s.1 * s.2.dw m (i1 - 1) n)⟩)) (1, t)
    ⟨by simp, fun n hn => absurd hn (by omega), fun _ _ _ _ => ⟨rfl, rfl⟩⟩
    (by
      rintro k s _ _ ⟨h1, h2, h3⟩
      refine ⟨by dsimp only; rw [h1, pow_succ]; ring, ?_, ?_⟩
      · intro n hn
        dsimp only [setElem]
        by_cases hnk : n = k
        · subst hnk
          have := h3 m (i1 - 1) n (by rintro ⟨_, h, _⟩; exact hne h)
          simp only [true_and, if_true]
          rw [this.1, this.2, h1, pow_succ]
          constructor <;> ring
        · rw [if_neg (by omega), if_neg (by omega)]
          exact h2 n (by omega)
      · intro m' r c hc
        dsimp only [setElem]
        rw [if_neg (by omega), if_neg (by omega)]
        exact h3 m' r c (by omega))
  exact ⟨key.2.1, key.2.2⟩

/-- correctness of the rows computed so far for one `m` -/
def RowsOk (θ : Nat → ℝ) (nmax ngauss m k : Nat) (t : Tab ℝ) : Prop :=
  ∀ ig, 1 ≤ ig → ig < k →
    (∀ n, n < nmax → t.w m (ngauss + ig - 1) n = wigner m (n + 1) (θ (ngauss + ig - 1))
      ∧ HasDerivAt (wigner m (n + 1)) (t.dw m (ngauss + ig - 1) n) (θ (ngauss + ig - 1)))
    ∧ (∀ n, n < nmax → t.w m (ngauss - ig) n = (-1) ^ (n + 1) * wigner m (n + 1) (θ (ngauss + ig - 1))
      ∧ HasDerivAt (wigner m (n + 1)) (-(-1) ^ (n + 1) * t.dw m (ngauss - ig) n) (θ (ngauss + ig - 1)))

theorem sq_one (n : Nat) : (-(-1 : ℝ) ^ n) * (-(-1) ^ n) = 1 := by
  rw [neg_mul_neg, ← mul_pow]; norm_num

theorem inner_spec (θ : Nat → ℝ) (nmax ngauss m : Nat) (hm : m ≤ nmax)
    (hθ : ∀ r, r < 2 * ngauss → 0 < θ r ∧ θ r < Real.pi) (t : Tab ℝ) :
    let u := loop 1 (ngauss + 1) (pointStep realOps (fun r => Real.cos (θ r)) nmax ngauss m) t
    RowsOk θ nmax ngauss m (ngauss + 1) u
    ∧ (∀ m' r c, (m' ≠ m ∨ nmax ≤ c ∨ 2 * ngauss ≤ r) → u.w m' r c = t.w m' r c ∧ u.dw m' r c = t.dw m' r c) := by
  intro u
  refine loop_inv (σ := Tab ℝ)
    (fun k u => RowsOk θ nmax ngauss m k u
      ∧ (∀ m' r c, (m' ≠ m ∨ nmax ≤ c ∨ 2 * ngauss ≤ r) → u.w m' r c = t.w m' r c ∧ u.dw m' r c = t.dw m' r c))
    (by omega : 1 ≤ ngauss + 1) _ t ⟨fun ig _ h => absurd h (by omega), fun _ _ _ _ => ⟨rfl, rfl⟩⟩ ?_
  rintro k s hk hk2 ⟨h1, h2⟩
  have hr := hθ (ngauss + k - 1) (by omega)
  obtain ⟨w1, w2⟩ := Special.c63_wigner (θ (ngauss + k - 1)) hr.1 hr.2 nmax m hm
    (s.w m (ngauss + k - 1), s.dw m (ngauss + k - 1))
  unfold pointStep
  dsimp only
  generalize hq : wignerD realOps (Real.cos (θ (ngauss + k - 1))) nmax m (s.w m (ngauss + k - 1), s.dw m (ngauss + k - 1)) = q at w1 w2 ⊢
  obtain ⟨m1, m2⟩ := mirrorRow_spec nmax m (ngauss + k) (ngauss - k + 1) (by omega)
    ⟨setRow s.w m (ngauss + k - 1) q.1, setRow s.dw m (ngauss + k - 1) q.2⟩
  generalize mirrorRow nmax m (ngauss + k) (ngauss - k + 1) ⟨setRow s.w m (ngauss + k - 1) q.1, setRow s.dw m (ngauss + k - 1) q.2⟩ = v at m1 m2 ⊢
  simp only [Nat.add_sub_cancel, setRow, true_and, if_true] at m1 m2
  refine ⟨?_, ?_⟩
  · intro ig hig1 hig2
    by_cases hik : ig = k
    · subst hik
      refine ⟨?_, ?_⟩
      · intro n hn
        obtain ⟨e1, e2⟩ := m2 m (ngauss + ig - 1) n (by omega)
        have := w1 (n + 1) (by omega) (by omega)
        rw [e1, e2]
        simp only [true_and, if_true]
        exact this
      · intro n hn
        obtain ⟨e1, e2⟩ := m1 n hn
        have := w1 (n + 1) (by omega) (by omega)
        rw [e1, e2, show n = n + 1 - 1 by omega, this.1]
        refine ⟨by rw [show n + 1 - 1 = n by omega], this.2.congr_deriv ?_⟩
        rw [show n + 1 - 1 = n by omega, ← mul_assoc, sq_one, one_mul]
    · obtain ⟨a1, a2⟩ := h1 ig hig1 (by omega)
      refine ⟨?_, ?_⟩
      · intro n hn
        obtain ⟨e1, e2⟩ := m2 m (ngauss + ig - 1) n (by omega)
        rw [e1, e2, if_neg (by omega), if_neg (by omega)]
        exact a1 n hn
      · intro n hn
        obtain ⟨e1, e2⟩ := m2 m (ngauss - ig) n (by omega)
        rw [e1, e2, if_neg (by omega), if_neg (by omega)]
        exact a2 n hn
  · intro m' r c hc
    obtain ⟨e1, e2⟩ := m2 m' r c (by omega)
    rw [e1, e2]
    have := h2 m' r c hc
    rw [← this.1, ← this.2]
    split
    · rename_i hmr
      obtain ⟨rfl, rfl⟩ := hmr
      rcases hc with h | h | h
      · exact absurd rfl h
      · exact w2 c h
      · omega
    · exact ⟨rfl, rfl⟩

/-- the rows of one degree: the sign of a row -/
theorem rowsOk_sign (θ : Nat → ℝ) {nmax ngauss m : Nat} (hsym : ∀ r, r < 2 * ngauss → θ (2 * ngauss - 1 - r) = Real.pi - θ r)
    (u : Tab ℝ) (hrow : RowsOk θ nmax ngauss m (ngauss + 1) u) {r : Nat} (hr : r < 2 * ngauss) :
    ∃ ε : ℝ, ε * ε = 1
      ∧ ((ngauss ≤ r ∨ m % 2 = 0) → ε = 1) ∧ ((r < ngauss ∧ m % 2 = 1) → ε = -1)
      ∧ ∀ n, 1 ≤ n → n ≤ nmax → ∃ d, HasDerivAt (wigner m n) d (θ r)
        ∧ u.w m r (n - 1) = ε * wigner m n (θ r) ∧ u.dw m r (n - 1) = ε * d := by
  by_cases hrg : ngauss ≤ r
  · have := (hrow (r - ngauss + 1) (by omega) (by omega)).1
    rw [show ngauss + (r - ngauss + 1) - 1 = r by omega] at this
    refine ⟨1, by norm_num, fun _ => rfl, fun h => absurd h.1 (by omega), ?_⟩
    intro n h1 h2
    have h := this (n - 1) (by omega)
    rw [show n - 1 + 1 = n by omega] at h
    exact ⟨_, h.2, by rw [h.1, one_mul], by rw [one_mul]⟩
  · have := (hrow (ngauss - r) (by omega) (by omega)).2
    rw [show ngauss + (ngauss - r) - 1 = 2 * ngauss - 1 - r by omega, show ngauss - (ngauss - r) = r by omega,
      hsym r hr] at this
    refine ⟨(-1) ^ m, by rw [← mul_pow]; norm_num, ?_, ?_, ?_⟩
    · rintro (h | h)
      · exact absurd h hrg
      · exact Even.neg_one_pow (Nat.even_iff.mpr h)
    · rintro ⟨_, h⟩
      exact Odd.neg_one_pow (Nat.odd_iff.mpr h)
    · intro n h1 h2
      have h := this (n - 1) (by omega)
      rw [show n - 1 + 1 = n by omega] at h
      have hsq : ∀ k : Nat, ((-1 : ℝ) ^ k) * (-1) ^ k = 1 := fun k => by rw [← mul_pow]; norm_num
      -- derivative by reflection
      have hd : HasDerivAt (wigner m n) (-(-1) ^ (n + m) * (-(-1) ^ n * u.dw m r (n - 1))) (θ r) := by
        have hf : wigner m n = fun x => (-1) ^ (n + m) * wigner m n (Real.pi - x) := by
          funext x
          rw [Special.wigner_reflect, ← mul_assoc, hsq, one_mul]
        rw [hf]
        have hc : HasDerivAt (fun x => wigner m n (Real.pi - x)) (-(-1) ^ n * u.dw m r (n - 1) * -1) (θ r) :=
          h.2.comp (θ r) ((hasDerivAt_id (θ r)).const_sub Real.pi)
        exact (hc.const_mul _).congr_deriv (by ring)
      refine ⟨_, hd, ?_, ?_⟩
      · rw [h.1, Special.wigner_reflect, pow_add]
        have := hsq n
        linear_combination ((-1 : ℝ) ^ m * wigner m n (θ r)) * this
      · rw [pow_add]
        linear_combination -(u.dw m r (n - 1)) * (hsq n * (-1 : ℝ) ^ m * (-1 : ℝ) ^ m + hsq m)

/-- **C31** For every number of quadrature points `2 ngauss`, maximum order, symmetric set of angles and previous
contents of the tables: for `m ≤ nmax` and every quadrature point there is a sign `ε`, common to all orders and to
functions and derivatives, such that the tabulated values are `ε d^n_{0m}(θ)` and `ε` times the derivative. Hence every
product of two tabulated values (the only way the tasks use them) is the product of the true values. The sign is `+1`
except in the mirrored half for odd `m`. Nothing outside the tables is written. -/
theorem c31_tables_partial (θ : Nat → ℝ) (nmax ngauss : Nat) (hθ : ∀ r, r < 2 * ngauss → 0 < θ r ∧ θ r < Real.pi)
    (hsym : ∀ r, r < 2 * ngauss → θ (2 * ngauss - 1 - r) = Real.pi - θ r) (t : Tab ℝ) :
    let u := execute realOps (fun r => Real.cos (θ r)) nmax ngauss t
    (∀ m r, m ≤ nmax → r < 2 * ngauss → ∃ ε : ℝ, ε * ε = 1
      ∧ ((ngauss ≤ r ∨ m % 2 = 0) → ε = 1) ∧ ((r < ngauss ∧ m % 2 = 1) → ε = -1)
      ∧ ∀ n, 1 ≤ n → n ≤ nmax → ∃ d, HasDerivAt (wigner m n) d (θ r)
        ∧ u.w m r (n - 1) = ε * wigner m n (θ r) ∧ u.dw m r (n - 1) = ε * d)
    ∧ (∀ m r c, nmax < m ∨ nmax ≤ c ∨ 2 * ngauss ≤ r → u.w m r c = t.w m r c ∧ u.dw m r c = t.dw m r c) := by
  intro u
  have key : (∀ m, m < nmax + 1 → RowsOk θ nmax ngauss m (ngauss + 1) u)
      ∧ (∀ m r c, nmax < m ∨ nmax ≤ c ∨ 2 * ngauss ≤ r → u.w m r c = t.w m r c ∧ u.dw m r c = t.dw m r c) := by
    have := loop_inv (σ := Tab ℝ)
      (fun k u => (∀ m, m < k → RowsOk θ nmax ngauss m (ngauss + 1) u)
        ∧ (∀ m r c, nmax < m ∨ nmax ≤ c ∨ 2 * ngauss ≤ r → u.w m r c = t.w m r c ∧ u.dw m r c = t.dw m r c))
      (Nat.zero_le (nmax + 1))
      (fun m t => loop 1 (ngauss + 1) (pointStep realOps (fun r => Real.cos (θ r)) nmax ngauss m) t) t
      ⟨fun m hm => absurd hm (by omega), fun _ _ _ _ => ⟨rfl, rfl⟩⟩
      (by
        rintro k s _ hk ⟨h1, h2⟩
        obtain ⟨i1, i2⟩ := inner_spec θ nmax ngauss k (by omega) hθ s
        generalize loop 1 (ngauss + 1) (pointStep realOps (fun r => Real.cos (θ r)) nmax ngauss k) s = v at i1 i2 ⊢
        refine ⟨?_, ?_⟩
        · intro m hm
          by_cases hmk : m = k
          · subst hmk; exact i1
          · have := h1 m (by omega)
            intro ig a b
            have hh := this ig a b
            refine ⟨fun n hn => ?_, fun n hn => ?_⟩
            · have e := i2 m (ngauss + ig - 1) n (Or.inl hmk)
              rw [e.1, e.2]; exact hh.1 n hn
            · have e := i2 m (ngauss - ig) n (Or.inl hmk)
              rw [e.1, e.2]; exact hh.2 n hn
        · intro m r c hc
          have e := i2 m r c (by omega)
          rw [e.1, e.2]
          exact h2 m r c hc)
    exact this
  exact ⟨fun m r hm hr => rowsOk_sign θ hsym u (key.1 m (by omega)) hr, key.2⟩

/-- **C31** (violated) the tabulated values themselves are not the Wigner functions: with one pair of points and
`nmax = 1`, the value stored for `m = 1` at the mirrored point has the wrong sign, while the value computed on the fly
(when precomputation is disabled) is the right one. -/
theorem c31_violated_sign :
    ∃ (θ : Nat → ℝ) (t : Tab ℝ), (∀ r, r < 2 * 1 → 0 < θ r ∧ θ r < Real.pi)
      ∧ (∀ r, r < 2 * 1 → θ (2 * 1 - 1 - r) = Real.pi - θ r)
      ∧ (execute realOps (fun r => Real.cos (θ r)) 1 1 t).w 1 0 0 = -wigner 1 1 (θ 0)
      ∧ wigner 1 1 (θ 0) ≠ 0
      ∧ (getWignerFunctions realOps none (fun r => Real.cos (θ r)) 1 1 0 (fun _ => 0, fun _ => 0)).1 0 = wigner 1 1 (θ 0) := by
  have hpi := Real.pi_pos
  let θ : Nat → ℝ := fun i => if i = 0 then Real.pi - Real.pi / 4 else Real.pi / 4
  have hθ : ∀ r, r < 2 * 1 → 0 < θ r ∧ θ r < Real.pi := by
    intro i hi
    rcases (by omega : i = 0 ∨ i = 1) with rfl | rfl
    · simp only [θ, if_true]; constructor <;> linarith
    · simp only [θ, one_ne_zero, if_false]; constructor <;> linarith
  have hsym : ∀ r, r < 2 * 1 → θ (2 * 1 - 1 - r) = Real.pi - θ r := by
    intro i hi
    rcases (by omega : i = 0 ∨ i = 1) with rfl | rfl <;> simp [θ]
  refine ⟨θ, ⟨fun _ _ _ => 0, fun _ _ _ => 0⟩, hθ, hsym, ?_, ?_, ?_⟩
  · obtain ⟨ε, _, _, h, h2⟩ := (c31_tables_partial θ 1 1 hθ hsym ⟨fun _ _ _ => 0, fun _ _ _ => 0⟩).1 1 0 le_rfl (by omega)
    obtain ⟨d, _, h3, _⟩ := h2 1 le_rfl le_rfl
    rw [h ⟨by omega, rfl⟩] at h3
    rw [h3]; ring
  · rw [Legendre.wigner_diag_succ, Legendre.wigner_zero_zero]
    have h0 := hθ 0 (by omega)
    have := Real.sin_pos_of_pos_of_lt_pi h0.1 h0.2
    have h2 : 0 < Real.sqrt ((2 * (((0 : ℕ) : ℝ) + 1) - 1) / (2 * (((0 : ℕ) : ℝ) + 1))) := Real.sqrt_pos.mpr (by norm_num)
    positivity
  · have h0 := hθ 0 (by omega)
    exact ((Special.c63_wigner (θ 0) h0.1 h0.2 1 1 le_rfl (fun _ => 0, fun _ => 0)).1 1 le_rfl le_rfl).1

/-- **C31** (look-up) with or without precomputation, `get_wigner_functions` returns the same products of two values at
every quadrature point, and writes only the first `nmax` elements -/
theorem c31_lookup (θ : Nat → ℝ) (nmax ngauss m ig : Nat) (hm : m ≤ nmax) (hig : ig < 2 * ngauss)
    (hθ : ∀ r, r < 2 * ngauss → 0 < θ r ∧ θ r < Real.pi)
    (hsym : ∀ r, r < 2 * ngauss → θ (2 * ngauss - 1 - r) = Real.pi - θ r) (t : Tab ℝ) (s : (Nat → ℝ) × (Nat → ℝ)) :
    let a := getWignerFunctions realOps (some (execute realOps (fun r => Real.cos (θ r)) nmax ngauss t))
      (fun r => Real.cos (θ r)) nmax m ig s
    let b := getWignerFunctions realOps none (fun r => Real.cos (θ r)) nmax m ig s
    (∀ n n', n < nmax → n' < nmax → a.1 n * a.1 n' = b.1 n * b.1 n' ∧ a.1 n * a.2 n' = b.1 n * b.2 n'
      ∧ a.2 n * a.2 n' = b.2 n * b.2 n')
    ∧ ∀ q, nmax ≤ q → a.1 q = s.1 q ∧ a.2 q = s.2 q ∧ b.1 q = s.1 q ∧ b.2 q = s.2 q := by
  intro a b
  have hcopy : ∀ q, (q < nmax → a.1 q = (execute realOps (fun r => Real.cos (θ r)) nmax ngauss t).w m ig q
        ∧ a.2 q = (execute realOps (fun r => Real.cos (θ r)) nmax ngauss t).dw m ig q)
      ∧ (nmax ≤ q → a.1 q = s.1 q ∧ a.2 q = s.2 q) := by
    refine loop_inv (σ := (Nat → ℝ) × (Nat → ℝ))
      (fun k a => ∀ q, (q < k → a.1 q = (execute realOps (fun r => Real.cos (θ r)) nmax ngauss t).w m ig q
        ∧ a.2 q = (execute realOps (fun r => Real.cos (θ r)) nmax ngauss t).dw m ig q)
      ∧ (k ≤ q → a.1 q = s.1 q ∧ a.2 q = s.2 q)) (Nat.zero_le nmax) _ s ?_ ?_
    · intro q; exact ⟨fun h => absurd h (by omega), fun _ => ⟨rfl, rfl⟩⟩
    · intro k v _ _ h q
      dsimp only
      by_cases hq : q = k
      · subst hq; simp
      · rw [Function.update_of_ne hq, Function.update_of_ne hq]
        exact ⟨fun h' => (h q).1 (by omega), fun h' => (h q).2 (by omega)⟩
  obtain ⟨b1, b2⟩ := Special.c63_wigner (θ ig) (hθ ig hig).1 (hθ ig hig).2 nmax m hm s
  obtain ⟨ε, he, _, _, h4⟩ := (c31_tables_partial θ nmax ngauss hθ hsym t).1 m ig hm hig
  have hval : ∀ n, n < nmax → a.1 n = ε * b.1 n ∧ a.2 n = ε * b.2 n := by
    intro n hn
    obtain ⟨d, hd, e1, e2⟩ := h4 (n + 1) (by omega) (by omega)
    obtain ⟨f1, f2⟩ := b1 (n + 1) (by omega) (by omega)
    simp only [Nat.add_sub_cancel] at e1 e2 f1 f2
    rw [((hcopy n).1 hn).1, ((hcopy n).1 hn).2, e1, e2]
    refine ⟨by rw [← f1]; rfl, ?_⟩
    rw [hd.unique f2]; rfl
  refine ⟨?_, fun q hq => ⟨((hcopy q).2 hq).1, ((hcopy q).2 hq).2, (b2 q hq).1, (b2 q hq).2⟩⟩
  intro n n' hn hn'
  obtain ⟨x1, x2⟩ := hval n hn
  obtain ⟨y1, y2⟩ := hval n' hn'
  rw [x1, x2, y1, y2]
  refine ⟨?_, ?_, ?_⟩
  · linear_combination (b.1 n * b.1 n') * he
  · linear_combination (b.1 n * b.2 n') * he
  · linear_combination (b.2 n * b.2 n') * he

/-- **C31** (sines) the tables of `1/sin²` and `1/sin` -/
theorem c31_sines (θ : Nat → ℝ) (ngauss : Nat) (hθ : ∀ r, r < 2 * ngauss → 0 < θ r ∧ θ r < Real.pi)
    (hsym : ∀ r, r < 2 * ngauss → θ (2 * ngauss - 1 - r) = Real.pi - θ r) (s : (Nat → ℝ) × (Nat → ℝ)) :
    let a := sineLoop realOps (fun r => Real.cos (θ r)) ngauss s
    (∀ r, r < 2 * ngauss → a.1 r = 1 / Real.sin (θ r) ^ 2 ∧ a.2 r = 1 / Real.sin (θ r))
    ∧ ∀ q, 2 * ngauss ≤ q → a.1 q = s.1 q ∧ a.2 q = s.2 q := by
  intro a
  have hs2 : ∀ x : ℝ, (1 - Real.cos x) * (1 + Real.cos x) = Real.sin x ^ 2 := by
    intro x; have := Real.sin_sq_add_cos_sq x; linear_combination -this
  have hsq : ∀ r, r < 2 * ngauss → realOps.sqrt (1 / ((1 - Real.cos (θ r)) * (1 + Real.cos (θ r)))) = 1 / Real.sin (θ r) := by
    intro r hr
    have hp := Real.sin_pos_of_pos_of_lt_pi (hθ r hr).1 (hθ r hr).2
    rw [hs2, show (1 : ℝ) / Real.sin (θ r) ^ 2 = (1 / Real.sin (θ r)) ^ 2 by rw [one_div, one_div, inv_pow]]
    exact Real.sqrt_sq (by positivity)
  have key : (∀ i, i < ngauss → (a.1 i = 1 / Real.sin (θ i) ^ 2 ∧ a.2 i = 1 / Real.sin (θ i))
        ∧ a.1 (2 * ngauss - 1 - i) = 1 / Real.sin (θ i) ^ 2 ∧ a.2 (2 * ngauss - 1 - i) = 1 / Real.sin (θ i))
      ∧ ∀ q, 2 * ngauss ≤ q → a.1 q = s.1 q ∧ a.2 q = s.2 q := by
    refine loop_inv (σ := (Nat → ℝ) × (Nat → ℝ))
      (fun k a => (∀ i, i < k → (a.1 i = 1 / Real.sin (θ i) ^ 2 ∧ a.2 i = 1 / Real.sin (θ i))
        ∧ a.1 (2 * ngauss - 1 - i) = 1 / Real.sin (θ i) ^ 2 ∧ a.2 (2 * ngauss - 1 - i) = 1 / Real.sin (θ i))
      ∧ ∀ q, 2 * ngauss ≤ q → a.1 q = s.1 q ∧ a.2 q = s.2 q) (Nat.zero_le ngauss) _ s
      ⟨fun i hi => absurd hi (by omega), fun _ _ => ⟨rfl, rfl⟩⟩ ?_
    rintro k v _ hk ⟨h1, h2⟩
    have hsub : 2 * ngauss - k - 1 = 2 * ngauss - 1 - k := by omega
    have hself := hsq k (by omega)
    rw [hs2] at hself
    rw [hsub]
    refine ⟨?_, ?_⟩
    · intro i hi
      by_cases hik : i = k
      · subst hik
        have n1 : i ≠ 2 * ngauss - 1 - i := by omega
        dsimp only
        simp only [Function.update_of_ne n1, Function.update_self, hs2, hself, and_self]
      · obtain ⟨⟨e1, e2⟩, e3, e4⟩ := h1 i (by omega)
        have n1 : i ≠ k := hik
        have n2 : i ≠ 2 * ngauss - 1 - k := by omega
        have n3 : 2 * ngauss - 1 - i ≠ k := by omega
        have n4 : 2 * ngauss - 1 - i ≠ 2 * ngauss - 1 - k := by omega
        dsimp only
        simp only [Function.update_of_ne n1, Function.update_of_ne n2, Function.update_of_ne n3, Function.update_of_ne n4]
        exact ⟨⟨e1, e2⟩, e3, e4⟩
    · intro q hq
      dsimp only
      rw [Function.update_of_ne (by omega), Function.update_of_ne (by omega), Function.update_of_ne (by omega),
        Function.update_of_ne (by omega)]
      exact h2 q hq
  refine ⟨fun r hr => ?_, key.2⟩
  by_cases h : r < ngauss
  · exact (key.1 r h).1
  · have := (key.1 (2 * ngauss - 1 - r) (by omega)).2
    rw [show 2 * ngauss - 1 - (2 * ngauss - 1 - r) = r by omega, hsym r hr, Real.sin_pi_sub] at this
    exact this

end Verif.WignerTable
