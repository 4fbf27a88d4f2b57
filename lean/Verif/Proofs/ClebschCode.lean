import Verif.Model.Clebsch
import Verif.Proofs.Matrix
import Verif.Proofs.Clebsch

/-!
# The recursions compute the Clebsch-Gordan coefficients
-/
namespace Verif.Clebsch

open Finset Verif.Matrix

/-- position of `m1` in row `M` -/
def idx (n1 M m : Int) : Int := M * (2 * n1 + 1) + m + n1

theorem idx_lt {n1 M M' m m' : Int} (h0 : 0 ≤ n1) (h1 : m ≤ n1) (h2 : -n1 ≤ m') (h : M < M') : idx n1 M m < idx n1 M' m' := by
  unfold idx
  have : (M + 1) * (2 * n1 + 1) ≤ M' * (2 * n1 + 1) := mul_le_mul_of_nonneg_right (by omega) (by omega)
  have e : (M + 1) * (2 * n1 + 1) = M * (2 * n1 + 1) + (2 * n1 + 1) := by ring
  omega

theorem idx_ne {n1 M M' m m' : Int} (h1 : -n1 ≤ m ∧ m ≤ n1) (h2 : -n1 ≤ m' ∧ m' ≤ n1) (h : M ≠ M' ∨ m ≠ m') :
    idx n1 M m ≠ idx n1 M' m' := by
  intro e
  rcases lt_trichotomy M M' with g | g | g
  · have := idx_lt (by omega) h1.2 h2.1 g; omega
  · subst g
    unfold idx at e
    omega
  · have := idx_lt (by omega) h2.2 h1.1 g; omega

theorem idx_bounds {n1 N M m : Int} (h0 : 0 ≤ M) (h1 : M ≤ N) (h2 : -n1 ≤ m) (h3 : m ≤ n1) :
    0 ≤ idx n1 M m ∧ idx n1 M m < (N + 1) * (2 * n1 + 1) := by
  unfold idx
  have a : 0 ≤ M * (2 * n1 + 1) := mul_nonneg h0 (by omega)
  have b : M * (2 * n1 + 1) ≤ N * (2 * n1 + 1) := mul_le_mul_of_nonneg_right h1 (by omega)
  have c : (N + 1) * (2 * n1 + 1) = N * (2 * n1 + 1) + (2 * n1 + 1) := by ring
  omega

/-- size and validity of a vector after accesses below `B`, at least one of them to element `B - 1` -/
def Acc {K : Type} (C0 : Vec K) (B : Int) (C : Vec K) : Prop := C.size = C0.size ∧ C.ok = (C0.ok && decide (B ≤ C0.size))

theorem Acc.touch {K : Type} {C0 C : Vec K} {B : Int} (h : Acc C0 B C) {i : Int} (h0 : 0 ≤ i) (h1 : i < B) : Acc C0 B (C.touch i) := by
  obtain ⟨a, b⟩ := h
  refine ⟨a, ?_⟩
  unfold Vec.touch
  dsimp only
  rw [a, b, Bool.and_assoc]
  congr 1
  by_cases h : B ≤ C0.size
  · have : 0 ≤ i ∧ i < C0.size := by omega
    simp [h, this]
  · simp [h]

theorem Acc.set {K : Type} {C0 C : Vec K} {B : Int} (h : Acc C0 B C) {i : Int} (h0 : 0 ≤ i) (h1 : i < B) (x : K) :
    Acc C0 B (C.set i x) := h.touch h0 h1

theorem Vec.set_v {K : Type} (C : Vec K) (i j : Int) (x : K) : (C.set i x).v j = if j = i then x else C.v j := by
  by_cases h : j = i
  · subst h; simp [Vec.set]
  · simp [Vec.set, Vec.touch, h]

theorem Vec.touch_v {K : Type} (C : Vec K) (i j : Int) : (C.touch i).v j = C.v j := rfl

variable {n1 n2 N : Int}

/-- the upper row -/
theorem topRow_spec (T : Triangle n1 n2 N) (C : Vec ℝ) :
    Acc C ((N + 1) * (2 * n1 + 1)) (topRow Real.sqrt n1 n2 N C)
    ∧ ∀ m, -n1 ≤ m → m ≤ n1 → N - m ≤ n2 → (topRow Real.sqrt n1 n2 N C).v (idx n1 N m) = cg n1 n2 N N m := by
  have l1 := T.lo; have l2 := T.lo'; have l3 := T.hi; have l4 := T.h1; have l5 := T.h2; have l6 := T.N0
  have hp := cg_sign T
  have hbnd : ∀ m, -n1 ≤ m → m ≤ n1 → 0 ≤ idx n1 N m ∧ idx n1 N m < (N + 1) * (2 * n1 + 1) := fun m h1 h2 => idx_bounds l6 le_rfl h1 h2
  generalize hlo : max (-n1) (N - n2 - 1) = lo
  have hlo1 : -n1 ≤ lo := by omega
  have hlo2 : lo ≤ n1 := by omega
  have hi : ∀ m, N * (2 * n1 + 1) + m + n1 = idx n1 N m := fun m => rfl
  have hi' : ∀ m, N * (2 * n1 + 1) + m + 1 + n1 = idx n1 N (m + 1) := fun m => by unfold idx; ring
  -- the recursion
  have A := loop_inv (σ := Vec ℝ × ℝ)
    (fun k s => Acc C ((N + 1) * (2 * n1 + 1)) s.1
      ∧ (∀ m, n1 - k ≤ m → m ≤ n1 → s.1.v (idx n1 N m) = cg n1 n2 N N m / cg n1 n2 N N n1)
      ∧ s.2 = ∑ m ∈ Icc (n1 - k) n1, (cg n1 n2 N N m / cg n1 n2 N N n1) ^ 2)
    (Nat.zero_le (n1 - 1 - lo + 1).toNat)
    (fun k s => topStep Real.sqrt n1 n2 N (n1 - 1 - (k : Int)) s) (C.set (N * (2 * n1 + 1) + n1 + n1) 1, 1)
    ⟨by
        refine ⟨rfl, ?_⟩
        unfold Vec.set Vec.touch
        dsimp only
        congr 1
        rw [hi]
        have := hbnd n1 (by omega) le_rfl
        simp only [decide_eq_decide]
        unfold idx at *
        have e : (N + 1) * (2 * n1 + 1) = N * (2 * n1 + 1) + (2 * n1 + 1) := by ring
        omega,
      by
        intro m h1 h2
        have : m = n1 := by push_cast at h1; omega
        subst this
        dsimp only
        rw [Vec.set_v, hi, if_pos rfl, div_self hp.ne'],
      by
        simp only [Nat.cast_zero, sub_zero, Icc_self, sum_singleton]
        rw [div_self hp.ne']; norm_num⟩
    (by
      rintro k s _ hk ⟨h1, h2, h3⟩
      have hk' : lo ≤ n1 - 1 - (k : Int) := by omega
      generalize hm : n1 - 1 - (k : Int) = m at hk'
      have hval : -Real.sqrt (((n2 : ℝ) - N + m + 1) * ((n2 : ℝ) + N - m)) * s.1.v (idx n1 N (m + 1))
          / Real.sqrt (((n1 : ℝ) - m) * ((n1 : ℝ) + m + 1)) = cg n1 n2 N N m / cg n1 n2 N N n1 := by
        rw [h2 (m + 1) (by omega) (by omega)]
        have r1 : (0 : ℝ) < (n1 : ℝ) - m := by
          have : (m : ℝ) < n1 := by exact_mod_cast (by omega : m < n1)
          linarith
        have r2 : (0 : ℝ) < (n1 : ℝ) + m + 1 := by
          have : (-(n1 : ℝ)) ≤ m := by exact_mod_cast (by omega : -n1 ≤ m)
          linarith
        have hpos : 0 < Real.sqrt (((n1 : ℝ) - m) * ((n1 : ℝ) + m + 1)) := Real.sqrt_pos.mpr (by positivity)
        by_cases hg : N - m ≤ n2
        · have ht := cg_top T (m1 := m + 1) (by omega) (by omega) (by omega) (by omega)
          have e1 : ((n1 : ℝ) + ((m + 1 : Int) : ℝ)) * ((n1 : ℝ) - ((m + 1 : Int) : ℝ) + 1) = ((n1 : ℝ) - m) * ((n1 : ℝ) + m + 1) := by
            push_cast; ring
          have e2 : ((n2 : ℝ) + ((N + 1 - (m + 1) : Int) : ℝ)) * ((n2 : ℝ) - ((N + 1 - (m + 1) : Int) : ℝ) + 1)
              = ((n2 : ℝ) - N + m + 1) * ((n2 : ℝ) + N - m) := by
            push_cast; ring
          rw [e1, e2, show m + 1 - 1 = m by ring] at ht
          field_simp
          linarith
        · have hz : cg n1 n2 N N m = 0 := cg_zero T (by omega)
          have e : (n2 : ℝ) - N + m + 1 = 0 := by
            have : n2 - N + m + 1 = 0 := by omega
            exact_mod_cast this
          rw [hz, e]
          simp
      have hb1 := hbnd m (by omega) (by omega)
      have hb2 := hbnd (m + 1) (by omega) (by omega)
      unfold topStep
      dsimp only
      rw [hi, hi']
      simp only [Vec.touch_v]
      rw [hval]
      refine ⟨(h1.touch hb2.1 hb2.2).set hb1.1 hb1.2 _, ?_, ?_⟩
      · intro m' g1 g2
        rw [Vec.set_v]
        by_cases e : m' = m
        · subst e; rw [if_pos rfl]
        · rw [if_neg (idx_ne ⟨by push_cast at g1; omega, g2⟩ ⟨by omega, by omega⟩ (Or.inr e)), Vec.touch_v]
          exact h2 m' (by push_cast at g1; omega) g2
      · rw [h3, show n1 - ((k + 1 : Nat) : Int) = m by push_cast; omega, show n1 - (k : Int) = m + 1 by omega]
        have : Icc m n1 = insert m (Icc (m + 1) n1) := by
          ext x
          simp only [mem_insert, mem_Icc]
          omega
        rw [this, sum_insert (by simp)]
        ring)
  -- the norm
  generalize hs : loop 0 (n1 - 1 - lo + 1).toNat (fun k s => topStep Real.sqrt n1 n2 N (n1 - 1 - (k : Int)) s)
    (C.set (N * (2 * n1 + 1) + n1 + n1) 1, (1 : ℝ)) = s at A
  obtain ⟨a1, a2, a3⟩ := A
  have hK : n1 - ((n1 - 1 - lo + 1).toNat : Int) = lo := by omega
  rw [hK] at a2 a3
  have hnorm : 1 / Real.sqrt s.2 = cg n1 n2 N N n1 := by
    have e : s.2 = (1 / cg n1 n2 N N n1) ^ 2 := by
      rw [a3]
      have : ∑ m ∈ Icc lo n1, (cg n1 n2 N N m / cg n1 n2 N N n1) ^ 2 = (∑ m ∈ Icc (-n1) n1, cg n1 n2 N N m ^ 2) * (1 / cg n1 n2 N N n1) ^ 2 := by
        rw [sum_mul]
        have hsub : Icc lo n1 ⊆ Icc (-n1) n1 := by
          intro x; simp only [mem_Icc]; omega
        rw [← sum_subset hsub]
        · exact sum_congr rfl fun m _ => by rw [div_pow, div_pow]; ring
        · intro m h1 h2
          simp only [mem_Icc] at h1 h2
          rw [cg_zero T (show _ by omega)]
          simp
      rw [this, cg_norm_top T, one_mul]
    rw [e, Real.sqrt_sq (by positivity), one_div_one_div]
  -- normalisation
  have B := loop_inv (σ := Vec ℝ)
    (fun k s' => Acc C ((N + 1) * (2 * n1 + 1)) s'
      ∧ (∀ m, n1 - k < m → m ≤ n1 → s'.v (idx n1 N m) = cg n1 n2 N N m)
      ∧ (∀ m, lo ≤ m → m ≤ n1 - k → s'.v (idx n1 N m) = cg n1 n2 N N m / cg n1 n2 N N n1))
    (Nat.zero_le (n1 - lo + 1).toNat)
    (fun k C => C.set (N * (2 * n1 + 1) + (n1 - (k : Int)) + n1) (C.v (N * (2 * n1 + 1) + (n1 - (k : Int)) + n1) * (1 / Real.sqrt s.2))) s.1
    ⟨a1, fun m h1 h2 => absurd h1 (by push_cast; omega), fun m h1 h2 => a2 m h1 (by push_cast at h2; omega)⟩
    (by
      rintro k s' _ hk ⟨h1, h2, h3⟩
      have hb := hbnd (n1 - k) (by omega) (by omega)
      rw [hi]
      refine ⟨h1.set hb.1 hb.2 _, ?_, ?_⟩
      · intro m g1 g2
        rw [Vec.set_v]
        by_cases e : m = n1 - k
        · subst e
          rw [if_pos rfl, h3 _ (by omega) le_rfl, hnorm]
          field_simp
        · rw [if_neg (idx_ne ⟨by push_cast at g1; omega, g2⟩ ⟨by omega, by omega⟩ (Or.inr e))]
          exact h2 m (by push_cast at g1; omega) g2
      · intro m g1 g2
        push_cast at g2
        rw [Vec.set_v, if_neg (idx_ne ⟨by omega, by omega⟩ ⟨by omega, by omega⟩ (Or.inr (by omega)))]
        exact h3 m g1 (by omega))
  have heq : topRow Real.sqrt n1 n2 N C = loop 0 (n1 - lo + 1).toNat
      (fun k C => C.set (N * (2 * n1 + 1) + (n1 - (k : Int)) + n1) (C.v (N * (2 * n1 + 1) + (n1 - (k : Int)) + n1) * (1 / Real.sqrt s.2))) s.1 := by
    unfold topRow forDown
    rw [hlo]
    dsimp only
    rw [hs]
  rw [heq]
  obtain ⟨b1, b2, _⟩ := B
  refine ⟨b1, fun m h1 h2 h3 => b2 m (by omega) h2⟩

/-- a row below -/
theorem lowerRow_spec (T : Triangle n1 n2 N) (C0 C : Vec ℝ) {Mt : Int} (h0 : 0 ≤ Mt) (h1 : Mt < N)
    (hacc : Acc C0 ((N + 1) * (2 * n1 + 1)) C)
    (hrow : ∀ M m, Mt < M → M ≤ N → -n1 ≤ m → m ≤ n1 → -n2 ≤ M - m → M - m ≤ n2 → C.v (idx n1 M m) = cg n1 n2 N M m) :
    let D := forUp (max (-n1) (Mt - n2)) (min n1 (Mt + n2)) (fun m1 C => lowerStep Real.sqrt n1 n2 N Mt m1 C) C
    Acc C0 ((N + 1) * (2 * n1 + 1)) D
    ∧ ∀ M m, Mt ≤ M → M ≤ N → -n1 ≤ m → m ≤ n1 → -n2 ≤ M - m → M - m ≤ n2 → D.v (idx n1 M m) = cg n1 n2 N M m := by
  have l1 := T.lo; have l2 := T.lo'; have l3 := T.hi; have l4 := T.h1; have l5 := T.h2; have l6 := T.N0
  unfold forUp
  generalize hlo : max (-n1) (Mt - n2) = lo
  generalize hhi : min n1 (Mt + n2) = hi
  intro D
  have A := loop_inv (σ := Vec ℝ)
    (fun k D => Acc C0 ((N + 1) * (2 * n1 + 1)) D
      ∧ (∀ M m, Mt < M → M ≤ N → -n1 ≤ m → m ≤ n1 → -n2 ≤ M - m → M - m ≤ n2 → D.v (idx n1 M m) = cg n1 n2 N M m)
      ∧ ∀ m, lo ≤ m → m < lo + k → D.v (idx n1 Mt m) = cg n1 n2 N Mt m)
    (Nat.zero_le (hi - lo + 1).toNat) (fun k C => lowerStep Real.sqrt n1 n2 N Mt (lo + (k : Int)) C) C
    ⟨hacc, hrow, fun m a b => absurd b (by push_cast; omega)⟩
    (by
      rintro k s _ hk ⟨g1, g2, g3⟩
      have hm1 : -n1 ≤ lo + (k : Int) := by omega
      have hm2 : lo + (k : Int) ≤ n1 := by omega
      have hm3 : -n2 ≤ Mt - (lo + (k : Int)) := by omega
      have hm4 : Mt - (lo + (k : Int)) ≤ n2 := by omega
      generalize hm : lo + (k : Int) = m at *
      have hL := cg_lower T (M := Mt) (m1 := m) (by omega) h1 hm1 hm2 hm3 hm4
      have r1 : (0 : ℝ) < (N : ℝ) + Mt + 1 := by
        have : (0 : ℝ) ≤ Mt := by exact_mod_cast h0
        have : (0 : ℝ) ≤ N := by exact_mod_cast l6
        linarith
      have r2 : (0 : ℝ) < (N : ℝ) - Mt := by
        have : (Mt : ℝ) < N := by exact_mod_cast h1
        linarith
      have hpos : 0 < Real.sqrt (((N : ℝ) + Mt + 1) * ((N : ℝ) - Mt)) := Real.sqrt_pos.mpr (by positivity)
      have i1 : (Mt + 1) * (2 * n1 + 1) + m + 1 + n1 = idx n1 (Mt + 1) (m + 1) := by unfold idx; ring
      have i2 : (Mt + 1) * (2 * n1 + 1) + m + n1 = idx n1 (Mt + 1) m := rfl
      have i3 : Mt * (2 * n1 + 1) + m + n1 = idx n1 Mt m := rfl
      -- the two terms
      have t1 : ∃ C' : Vec ℝ, (if m + 1 ≤ n1 then
          (Real.sqrt (((n1 : ℝ) + m + 1) * ((n1 : ℝ) - m)) * s.v (idx n1 (Mt + 1) (m + 1)), s.touch (idx n1 (Mt + 1) (m + 1))) else (0, s))
          = (Real.sqrt (((n1 : ℝ) + m + 1) * ((n1 : ℝ) - m)) * cg n1 n2 N (Mt + 1) (m + 1), C')
          ∧ Acc C0 ((N + 1) * (2 * n1 + 1)) C' ∧ C'.v = s.v := by
        by_cases h : m + 1 ≤ n1
        · rw [if_pos h, g2 (Mt + 1) (m + 1) (by omega) (by omega) (by omega) h (by omega) (by omega)]
          have := idx_bounds (n1 := n1) (N := N) (M := Mt + 1) (m := m + 1) (by omega) (by omega) (by omega) (by omega)
          exact ⟨_, rfl, g1.touch this.1 this.2, rfl⟩
        · rw [if_neg h, cg_zero T (M := Mt + 1) (m1 := m + 1) (by omega), mul_zero]
          exact ⟨_, rfl, g1, rfl⟩
      obtain ⟨C', e1, a1, v1⟩ := t1
      have t2 : ∃ C'' : Vec ℝ, (if Mt - m + 1 ≤ n2 then
          (Real.sqrt (((n2 : ℝ) + ((Mt - m : Int) : ℝ) + 1) * ((n2 : ℝ) - ((Mt - m : Int) : ℝ))) * C'.v (idx n1 (Mt + 1) m), C'.touch (idx n1 (Mt + 1) m)) else (0, C'))
          = (Real.sqrt (((n2 : ℝ) + ((Mt - m : Int) : ℝ) + 1) * ((n2 : ℝ) - ((Mt - m : Int) : ℝ))) * cg n1 n2 N (Mt + 1) m, C'')
          ∧ Acc C0 ((N + 1) * (2 * n1 + 1)) C'' ∧ C''.v = s.v := by
        by_cases h : Mt - m + 1 ≤ n2
        · rw [if_pos h, v1, g2 (Mt + 1) m (by omega) (by omega) (by omega) (by omega) (by omega) (by omega)]
          have := idx_bounds (n1 := n1) (N := N) (M := Mt + 1) (m := m) (by omega) (by omega) (by omega) (by omega)
          exact ⟨_, rfl, a1.touch this.1 this.2, v1⟩
        · rw [if_neg h, cg_zero T (M := Mt + 1) (m1 := m) (by omega), mul_zero]
          exact ⟨_, rfl, a1, v1⟩
      obtain ⟨C'', e2, a2, v2⟩ := t2
      have hstep : lowerStep Real.sqrt n1 n2 N Mt m s = C''.set (idx n1 Mt m) (cg n1 n2 N Mt m) := by
        unfold lowerStep
        dsimp only
        rw [i1, i2, i3, e1]
        dsimp only
        rw [e2]
        dsimp only
        rw [← hL]
        congr 1
        field_simp
      rw [hstep]
      have hb := idx_bounds (n1 := n1) (N := N) (M := Mt) (m := m) (by omega) (by omega) (by omega) (by omega)
      refine ⟨a2.set hb.1 hb.2 _, ?_, ?_⟩
      · intro M m' f1 f2 f3 f4 f5 f6
        rw [Vec.set_v, if_neg (idx_ne ⟨f3, f4⟩ ⟨hm1, hm2⟩ (Or.inl (by omega))), v2]
        exact g2 M m' f1 f2 f3 f4 f5 f6
      · intro m' f1 f2
        rw [Vec.set_v]
        by_cases e : m' = m
        · subst e; rw [if_pos rfl]
        · rw [if_neg (idx_ne ⟨by omega, by push_cast at f2; omega⟩ ⟨hm1, hm2⟩ (Or.inr e)), v2]
          exact g3 m' f1 (by push_cast at f2; omega))
  obtain ⟨a1, a2, a3⟩ := A
  refine ⟨a1, ?_⟩
  intro M m f1 f2 f3 f4 f5 f6
  by_cases e : M = Mt
  · subst e
    exact a3 m (by omega) (by omega)
  · exact a2 M m (by omega) f2 f3 f4 f5 f6

/-- all rows -/
theorem rows_spec (T : Triangle n1 n2 N) (C : Vec ℝ) :
    Acc C ((N + 1) * (2 * n1 + 1)) (rows Real.sqrt n1 n2 N C)
    ∧ ∀ M m, 0 ≤ M → M ≤ N → -n1 ≤ m → m ≤ n1 → -n2 ≤ M - m → M - m ≤ n2 →
      (rows Real.sqrt n1 n2 N C).v (idx n1 M m) = cg n1 n2 N M m := by
  have l1 := T.lo; have l2 := T.lo'; have l3 := T.hi; have l4 := T.h1; have l5 := T.h2; have l6 := T.N0
  obtain ⟨t1, t2⟩ := topRow_spec T C
  unfold rows lowerRows forDown
  have A := loop_inv (σ := Vec ℝ)
    (fun k D => Acc C ((N + 1) * (2 * n1 + 1)) D
      ∧ ∀ M m, N - k ≤ M → M ≤ N → -n1 ≤ m → m ≤ n1 → -n2 ≤ M - m → M - m ≤ n2 → D.v (idx n1 M m) = cg n1 n2 N M m)
    (Nat.zero_le (N - 1 - 0 + 1).toNat)
    (fun k C => forUp (max (-n1) (N - 1 - (k : Int) - n2)) (min n1 (N - 1 - (k : Int) + n2)) (fun m1 C => lowerStep Real.sqrt n1 n2 N (N - 1 - (k : Int)) m1 C) C)
    (topRow Real.sqrt n1 n2 N C)
    ⟨t1, fun M m f1 f2 f3 f4 f5 f6 => by
      have : M = N := by push_cast at f1; omega
      subst this
      exact t2 m f3 f4 f6⟩
    (by
      rintro k s _ hk ⟨g1, g2⟩
      have := lowerRow_spec T C s (Mt := N - 1 - (k : Int)) (by omega) (by omega) g1
        (fun M m f1 f2 f3 f4 f5 f6 => g2 M m (by omega) f2 f3 f4 f5 f6)
      refine ⟨this.1, fun M m f1 f2 f3 f4 f5 f6 => this.2 M m (by push_cast at f1; omega) f2 f3 f4 f5 f6⟩)
  refine ⟨A.1, fun M m f1 f2 f3 f4 f5 f6 => A.2 M m (by omega) f2 f3 f4 f5 f6⟩

end Verif.Clebsch
