import Verif.Model.Matrix
import Mathlib.LinearAlgebra.Matrix.ToLinearEquiv
import Mathlib.LinearAlgebra.Matrix.NonsingularInverse
import Mathlib.Algebra.BigOperators.Intervals
import Mathlib.Tactic.Ring
import Mathlib.Tactic.Linarith
import Mathlib.Tactic.FieldSimp
import Mathlib.Tactic.Push

/-! Proofs about `Matrix` -/
namespace Verif.Matrix

open Finset

/-! ## loops -/

theorem loop_self {σ : Type} (lo : Nat) (body : Nat → σ → σ) (s : σ) : loop lo lo body s = s := by
  simp [loop]

theorem loop_succ {σ : Type} {lo hi : Nat} (h : lo ≤ hi) (body : Nat → σ → σ) (s : σ) :
    loop lo (hi + 1) body s = body hi (loop lo hi body s) := by
  unfold loop
  rw [show hi + 1 - lo = (hi - lo) + 1 by omega, List.range'_1_concat, List.foldl_append]
  simp [show lo + (hi - lo) = hi by omega]

/-- induction principle for loops -/
theorem loop_inv {σ : Type} (P : Nat → σ → Prop) {lo hi : Nat} (h : lo ≤ hi) (body : Nat → σ → σ) (s : σ)
    (h0 : P lo s) (hs : ∀ k s, lo ≤ k → k < hi → P k s → P (k + 1) (body k s)) : P hi (loop lo hi body s) := by
  obtain ⟨d, rfl⟩ := Nat.exists_eq_add_of_le h
  clear h
  induction d with
  | zero => simpa [loop_self] using h0
  | succ d ih =>
    rw [← Nat.add_assoc, loop_succ (by omega)]
    exact hs _ _ (by omega) (by omega) (ih fun k s h1 h2 => hs k s h1 (by omega))

/-- induction principle for downward loops -/
theorem loopDown_inv {σ : Type} (P : Nat → σ → Prop) (body : Nat → σ → σ) : ∀ (n : Nat) (s : σ), P n s →
    (∀ k s, k < n → P (k + 1) s → P k (body k s)) → P 0 (loopDown body n s) := by
  intro n
  induction n with
  | zero => intro s h _; simpa [loopDown] using h
  | succ n ih =>
    intro s h hs
    rw [loopDown]
    exact ih _ (hs n s (by omega) h) fun k s hk => hs k s (by omega)

/-! ## elements -/

theorem pos_inj {F} (m : Mat F) {i j i' j' : Nat} (hj : j < m.cols) (hj' : j' < m.cols)
    (h : pos m i j = pos m i' j') : i = i' ∧ j = j' := by
  unfold pos at h
  have hc : 0 < m.cols := by omega
  have e1 : (i * m.cols + j) / m.cols = i := by
    rw [Nat.mul_comm, Nat.mul_add_div hc, Nat.div_eq_of_lt hj]; simp
  have e2 : (i' * m.cols + j') / m.cols = i' := by
    rw [Nat.mul_comm, Nat.mul_add_div hc, Nat.div_eq_of_lt hj']; simp
  have : i = i' := by rw [← e1, ← e2, h]
  subst this
  exact ⟨rfl, by omega⟩

theorem get_set {F} (m : Mat F) {i j i' j' : Nat} (v : F) (hj : j < m.cols) (hj' : j' < m.cols) :
    (m.set i j v).get i' j' = if i' = i ∧ j' = j then v else m.get i' j' := by
  unfold Mat.get Mat.set
  simp only [pos]
  by_cases h : i' = i ∧ j' = j
  · obtain ⟨rfl, rfl⟩ := h; simp
  · rw [if_neg h, Function.update_of_ne]
    intro e
    exact h (pos_inj m hj' hj e)

@[simp] theorem set_cols {F} (m : Mat F) (i j : Nat) (v : F) : (m.set i j v).cols = m.cols := rfl
@[simp] theorem set_rows {F} (m : Mat F) (i j : Nat) (v : F) : (m.set i j v).rows = m.rows := rfl

/-- same shape -/
def Shape {F} (m m' : Mat F) : Prop := m'.rows = m.rows ∧ m'.cols = m.cols

section

variable {F Γ : Type} [Field F] [LinearOrder Γ] (absv : F → Γ)

theorem findPivot_spec (n : Nat) (m : Mat F) {i : Nat} (hi : i < n) :
    i ≤ (findPivot absv n m i).1 ∧ (findPivot absv n m i).1 < n
      ∧ ∀ r, i ≤ r → r < n → absv (m.get r i) ≤ absv (m.get (findPivot absv n m i).1 i) := by
  have key := loop_inv (σ := Nat × Γ)
    (fun k s => i ≤ s.1 ∧ s.1 < k ∧ s.2 = absv (m.get s.1 i) ∧ ∀ r, i ≤ r → r < k → absv (m.get r i) ≤ s.2)
    (show i + 1 ≤ n by omega)
    (fun j s => if absv (m.get j i) > s.2 then (j, absv (m.get j i)) else s) (i, absv (m.get i i))
    (by
      refine ⟨le_refl _, by simp, rfl, ?_⟩
      intro r h1 h2
      have : r = i := by omega
      subst this; exact le_refl _)
    (by
      intro k s hk1 hk2 ⟨h1, h2, h3, h4⟩
      split
      · rename_i hgt
        refine ⟨by dsimp only; omega, by simp, rfl, ?_⟩
        intro r hr1 hr2
        by_cases hrk : r = k
        · subst hrk; exact le_refl _
        · exact le_trans (h4 r hr1 (by omega)) (le_of_lt hgt)
      · rename_i hgt
        refine ⟨h1, by omega, h3, ?_⟩
        intro r hr1 hr2
        by_cases hrk : r = k
        · subst hrk; exact not_lt.mp hgt
        · exact h4 r hr1 (by omega))
  obtain ⟨h1, h2, h3, h4⟩ := key
  refine ⟨h1, h2, fun r hr1 hr2 => ?_⟩
  have h5 := h4 r hr1 hr2
  rw [h3] at h5
  exact h5

theorem swapRows_spec (n : Nat) (m : Mat F) (i p : Nat) (hn : n ≤ m.cols) :
    Shape m (swapRows n m i p) ∧ ∀ r c, c < m.cols →
      (swapRows n m i p).get r c = if c < n then m.get (Equiv.swap i p r) c else m.get r c := by
  unfold swapRows
  by_cases hip : i = p
  · subst hip; simp [Shape]
  · rw [if_pos hip]
    have key := loop_inv (σ := Mat F)
      (fun k s => Shape m s ∧ ∀ r c, c < m.cols →
        s.get r c = if c < k then m.get (Equiv.swap i p r) c else m.get r c)
      (Nat.zero_le n) (fun j m => let temp := m.get i j; (m.set i j (m.get p j)).set p j temp) m
      (by simp [Shape])
      (by
        intro k s _ hk ⟨⟨hr, hc⟩, hg⟩
        refine ⟨⟨by simpa using hr, by simpa using hc⟩, ?_⟩
        intro r c hcc
        have hkc : k < s.cols := by omega
        have hcc' : c < s.cols := by omega
        dsimp only
        rw [get_set _ _ (by simpa using hkc) (by simpa using hcc'), get_set _ _ hkc hcc', hg _ _ (by omega),
          hg _ _ (by omega), hg _ _ hcc]
        simp only [lt_irrefl, if_false]
        by_cases hck : c = k
        · subst hck
          simp only [and_true, lt_irrefl, if_false, Nat.lt_succ_self, if_true]
          by_cases h1 : r = p
          · subst h1; simp
          · by_cases h2 : r = i
            · subst h2; simp [hip]
            · simp [h1, h2, Equiv.swap_apply_of_ne_of_ne h2 h1]
        · simp only [hck, and_false, if_false]
          exact if_congr (by omega) rfl rfl)
    exact key

theorem swapCols_spec (n : Nat) (m : Mat F) (j p : Nat) (hj : j < m.cols) (hp : p < m.cols) :
    Shape m (swapCols n m j p) ∧ ∀ r c, c < m.cols →
      (swapCols n m j p).get r c = if r < n then m.get r (Equiv.swap j p c) else m.get r c := by
  unfold swapCols
  by_cases hip : p = j
  · subst hip; simp [Shape]
  · rw [if_pos hip]
    have key := loop_inv (σ := Mat F)
      (fun k s => Shape m s ∧ ∀ r c, c < m.cols →
        s.get r c = if r < k then m.get r (Equiv.swap j p c) else m.get r c)
      (Nat.zero_le n) (fun i m => let temp := m.get i j; (m.set i j (m.get i p)).set i p temp) m
      (by simp [Shape])
      (by
        intro k s _ hk ⟨⟨hr, hc⟩, hg⟩
        refine ⟨⟨by simpa using hr, by simpa using hc⟩, ?_⟩
        intro r c hcc
        have hcc' : c < s.cols := by omega
        dsimp only
        rw [get_set _ _ (by simpa [hc] using hp) (by simpa using hcc'), get_set _ _ (by omega) hcc', hg _ _ hp,
          hg _ _ hj, hg _ _ hcc]
        simp only [lt_irrefl, if_false]
        by_cases hrk : r = k
        · subst hrk
          simp only [true_and, lt_irrefl, if_false, Nat.lt_succ_self, if_true]
          by_cases h1 : c = p
          · subst h1; simp
          · by_cases h2 : c = j
            · subst h2; simp [Ne.symm hip]
            · simp [h1, h2, Equiv.swap_apply_of_ne_of_ne h2 h1]
        · simp only [hrk, false_and, if_false]
          exact if_congr (by omega) rfl rfl)
    exact key

theorem eliminate_spec (n : Nat) (m : Mat F) (i : Nat) (hi : i < n) (hn : n ≤ m.cols) :
    Shape m (eliminate n m i) ∧ ∀ r c, c < m.cols →
      (eliminate n m i).get r c =
        if i < r ∧ r < n then
          (if c = i then m.get r i / m.get i i
            else if i < c ∧ c < n then m.get r c - m.get r i / m.get i i * m.get i c else m.get r c)
        else m.get r c := by
  have k1 := loop_inv (σ := Mat F)
    (fun k s => Shape m s ∧ ∀ r c, c < m.cols →
      s.get r c = if i < r ∧ r < k ∧ c = i then m.get r i / m.get i i else m.get r c)
    (show i + 1 ≤ n by omega) (fun j s => s.set j i (s.get j i * (1 / m.get i i))) m
    (by
      refine ⟨⟨rfl, rfl⟩, fun r c _ => ?_⟩
      rw [if_neg (by omega)])
    (by
      intro k s hk1 hk2 ⟨⟨hr, hc⟩, hg⟩
      refine ⟨⟨by simpa using hr, by simpa using hc⟩, fun r c hcc => ?_⟩
      rw [get_set _ _ (by omega) (by omega), hg _ _ (by omega), hg _ _ hcc]
      by_cases h : r = k ∧ c = i
      · obtain ⟨rfl, rfl⟩ := h
        rw [if_pos ⟨rfl, rfl⟩, if_neg (by omega), if_pos (by omega)]
        rw [mul_one_div]
      · rw [if_neg h]
        by_cases h2 : i < r ∧ r < k ∧ c = i
        · rw [if_pos h2, if_pos (by omega)]
        · rw [if_neg h2, if_neg (by omega)])
  unfold eliminate
  dsimp only
  revert k1
  generalize loop (i + 1) n (fun j s => s.set j i (s.get j i * (1 / m.get i i))) m = m1
  rintro ⟨⟨hr1, hc1⟩, hg1⟩
  have k2 := loop_inv (σ := Mat F)
    (fun j s => Shape m s ∧ ∀ r c, c < m.cols →
      s.get r c = if i < r ∧ r < j ∧ i < c ∧ c < n then m1.get r c - m1.get r i * m1.get i c else m1.get r c)
    (show i + 1 ≤ n by omega)
    (fun j m => loop (i + 1) n (fun k m => m.set j k (m.get j k - m.get j i * m.get i k)) m) m1
    (by
      refine ⟨⟨hr1, hc1⟩, fun r c _ => ?_⟩
      rw [if_neg (by omega)])
    (by
      intro j s hj1 hj2 ⟨⟨hr, hc⟩, hg⟩
      have k3 := loop_inv (σ := Mat F)
        (fun k t => Shape m t ∧ ∀ r c, c < m.cols →
          t.get r c = if r = j ∧ i < c ∧ c < k then s.get r c - s.get r i * s.get i c else s.get r c)
        (show i + 1 ≤ n by omega) (fun k m => m.set j k (m.get j k - m.get j i * m.get i k)) s
        (by
          refine ⟨⟨hr, hc⟩, fun r c _ => ?_⟩
          rw [if_neg (by omega)])
        (by
          intro k t hk1 hk2 ⟨⟨hrt, hct⟩, hgt⟩
          refine ⟨⟨by simpa using hrt, by simpa using hct⟩, fun r c hcc => ?_⟩
          rw [get_set _ _ (by omega) (by omega), hgt _ _ (by omega), hgt _ _ (by omega), hgt _ _ (by omega),
            hgt _ _ (by omega)]
          by_cases h : r = j ∧ c = k
          · obtain ⟨rfl, rfl⟩ := h
            rw [if_pos ⟨rfl, rfl⟩, if_neg (by omega), if_neg (by omega), if_neg (by omega), if_pos (by omega)]
          · rw [if_neg h]
            by_cases h2 : r = j ∧ i < c ∧ c < k
            · rw [if_pos h2, if_pos (by omega)]
            · rw [if_neg h2, if_neg (by omega)])
      refine ⟨k3.1, fun r c hcc => ?_⟩
      rw [k3.2 _ _ hcc, hg _ _ (by omega), hg _ _ (by omega), hg _ _ (by omega)]
      by_cases h : r = j
      · subst h
        by_cases h2 : i < c ∧ c < n
        · rw [if_pos (by omega), if_neg (by omega), if_neg (by omega), if_neg (by omega), if_pos (by omega)]
        · rw [if_neg (by omega), if_neg (by omega), if_neg (by omega)]
      · rw [if_neg (by omega)]
        by_cases h2 : i < r ∧ r < j ∧ i < c ∧ c < n
        · rw [if_pos h2, if_pos (by omega)]
        · rw [if_neg h2, if_neg (by omega)])
  refine ⟨k2.1, fun r c hcc => ?_⟩
  rw [k2.2 _ _ hcc, hg1 _ _ hcc, hg1 r i (by omega), hg1 i c hcc]
  rw [if_neg (show ¬(i < i ∧ i < n ∧ c = i) by omega)]
  by_cases h1 : i < r ∧ r < n
  · rw [if_pos h1]
    by_cases h2 : c = i
    · rw [if_neg (by omega), if_pos (by omega), if_pos h2]
    · rw [if_neg h2]
      by_cases h3 : i < c ∧ c < n
      · rw [if_pos (by omega), if_neg (by omega), if_pos (by omega), if_pos h3]
      · rw [if_neg (by omega), if_neg (by omega), if_neg h3]
  · rw [if_neg h1, if_neg (by omega), if_neg (by omega)]

/-! ## Step 1 -/

/-- permutation of the rows after `i` exchanges -/
def sig (piv : Nat → Nat) : Nat → Equiv.Perm Nat
  | 0 => 1
  | i + 1 => sig piv i * Equiv.swap i (piv i)

theorem sig_congr {p q : Nat → Nat} : ∀ (i : Nat), (∀ k < i, p k = q k) → sig p i = sig q i
  | 0, _ => rfl
  | i + 1, h => by
    rw [sig, sig, sig_congr i (fun k hk => h k (by omega)), h i (by omega)]

theorem swap_lt {n i p r : Nat} (hi : i < n) (hp : p < n) : Equiv.swap i p r < n ↔ r < n := by
  rw [Equiv.swap_apply_def]
  split_ifs <;> omega

theorem sig_lt {n : Nat} {piv : Nat → Nat} : ∀ (i : Nat), i ≤ n → (∀ k < i, piv k < n) → ∀ r, sig piv i r < n ↔ r < n
  | 0, _, _, r => by simp [sig]
  | i + 1, hi, h, r => by
    rw [sig, Equiv.Perm.mul_apply, sig_lt i (by omega) (fun k hk => h k (by omega)),
      swap_lt (by omega) (h i (by omega))]

theorem swap_ge {i p r : Nat} (hp : i ≤ p) : i ≤ Equiv.swap i p r ↔ i ≤ r := by
  rw [Equiv.swap_apply_def]
  split_ifs <;> omega

/-- what the rows of the (permuted) original are in terms of the partly reduced matrix -/
def Red (n i : Nat) (A0 : Nat → Nat → F) (m : Mat F) (piv : Nat → Nat) : Prop :=
  ∀ r c, r < n → c < n →
    A0 (sig piv i r) c = (∑ k ∈ range (min r i), if k ≤ c then m.get r k * m.get k c else 0)
      + (if (r < i ∧ r ≤ c) ∨ (i ≤ r ∧ i ≤ c) then m.get r c else 0)

/-- a matrix whose rows `≥ i` vanish in the columns `≤ i` is singular -/
theorem det_zero {n i : Nat} (hi : i < n) (S : _root_.Matrix (Fin n) (Fin n) F)
    (h : ∀ r c : Fin n, i ≤ r.1 → c.1 ≤ i → S r c = 0) : S.det = 0 := by
  rw [_root_.Matrix.det_apply]
  refine Finset.sum_eq_zero fun τ _ => ?_
  have : ∃ c : Fin n, c.1 ≤ i ∧ i ≤ (τ c).1 := by
    by_contra hcon
    push Not at hcon
    have h1 : (univ.filter fun c : Fin n => c.1 ≤ i).card = i + 1 := by
      have : (univ.filter fun c : Fin n => c.1 ≤ i) = Finset.Iic (⟨i, hi⟩ : Fin n) := by
        ext c; simp [Fin.le_def]
      rw [this]; simp
    have h2 : (univ.filter fun c : Fin n => c.1 < i).card = i := by
      have : (univ.filter fun c : Fin n => c.1 < i) = Finset.Iio (⟨i, hi⟩ : Fin n) := by
        ext c; simp [Fin.lt_def]
      rw [this]; simp
    have h3 : ((univ.filter fun c : Fin n => c.1 ≤ i).image τ).card = i + 1 := by
      rw [Finset.card_image_of_injective _ τ.injective, h1]
    have h4 : ((univ.filter fun c : Fin n => c.1 ≤ i).image τ) ⊆ univ.filter fun c : Fin n => c.1 < i := by
      intro x hx
      simp only [mem_image, mem_filter, mem_univ, true_and] at hx ⊢
      obtain ⟨c, hc, rfl⟩ := hx
      exact hcon c hc
    have := Finset.card_le_card h4
    omega
  obtain ⟨c, hc1, hc2⟩ := this
  rw [Finset.prod_eq_zero (f := fun x => S (τ x) x) (mem_univ c) (h _ _ hc2 hc1), smul_zero]

/-- a column of zeros at and below the diagonal contradicts regularity -/
theorem pivot_ne_zero {n i : Nat} (hi : i < n) (A0 : Nat → Nat → F) (m : Mat F) (piv : Nat → Nat)
    (hdet : (_root_.Matrix.of fun r c : Fin n => A0 r c).det ≠ 0)
    (hp : ∀ k < i, piv k < n) (hred : Red n i A0 m piv) : ∃ r, i ≤ r ∧ r < n ∧ m.get r i ≠ 0 := by
  by_contra hcon
  push Not at hcon
  let S : _root_.Matrix (Fin n) (Fin n) F :=
    _root_.Matrix.of fun r c => if (r.1 < i ∧ r.1 ≤ c.1) ∨ (i ≤ r.1 ∧ i ≤ c.1) then m.get r.1 c.1 else 0
  have hS : S.det = 0 := by
    refine det_zero hi S fun r c hr hc => ?_
    simp only [S, _root_.Matrix.of_apply]
    split
    · rename_i h
      have : c.1 = i := by omega
      rw [this]
      exact hcon _ hr r.2
    · rfl
  obtain ⟨v, hv0, hv⟩ := _root_.Matrix.exists_mulVec_eq_zero_iff.mpr hS
  refine hdet (_root_.Matrix.exists_mulVec_eq_zero_iff.mp ⟨v, hv0, ?_⟩)
  have hrow : ∀ r : Fin n, ∑ c : Fin n, A0 (sig piv i r) c * v c = 0 := by
    intro r
    have hSr : ∀ r : Fin n, ∑ c : Fin n, S r c * v c = 0 := fun r => congrFun hv r
    have : ∀ c : Fin n, A0 (sig piv i r) c * v c
        = (∑ k ∈ range (min r.1 i), (if k ≤ c.1 then m.get r k * m.get k c else 0) * v c) + S r c * v c := by
      intro c
      rw [hred r c r.2 c.2, add_mul, Finset.sum_mul]
      rfl
    simp only [this, Finset.sum_add_distrib, hSr, add_zero]
    rw [Finset.sum_comm]
    refine Finset.sum_eq_zero fun k hk => ?_
    have hk' : k < r.1 ∧ k < i := by simpa using hk
    have hkn : k < n := by omega
    have e : ∀ c : Fin n, (if k ≤ c.1 then m.get r k * m.get k c else 0) * v c
        = m.get r k * (S ⟨k, hkn⟩ c * v c) := by
      intro c
      simp only [S, _root_.Matrix.of_apply]
      by_cases hkc : k ≤ c.1
      · rw [if_pos hkc, if_pos (Or.inl ⟨hk'.2, hkc⟩)]; ring
      · rw [if_neg hkc, if_neg (by omega)]; ring
    simp only [e, ← Finset.mul_sum, hSr, mul_zero]
  funext q
  have hlt : (sig piv i).symm q.1 < n := by
    rw [← sig_lt i (le_of_lt hi) hp]; simp
  have := hrow ⟨_, hlt⟩
  simpa [_root_.Matrix.mulVec, dotProduct] using this

/-- the elements outside the leading `n × n` block did not change -/
def Frame (n : Nat) (m m' : Mat F) : Prop :=
  ∀ r c, c < m.cols → ¬(r < n ∧ c < n) → m'.get r c = m.get r c

theorem step1_spec (habs : ∀ x : F, x ≠ 0 → absv 0 < absv x) (n : Nat) (m0 : Mat F) (piv0 : Nat → Nat)
    (hn : n ≤ m0.cols) (hdet : (_root_.Matrix.of fun r c : Fin n => m0.get r c).det ≠ 0) :
    Shape m0 (step1 absv n m0 piv0).1 ∧ Frame n m0 (step1 absv n m0 piv0).1
      ∧ (∀ k < n, (step1 absv n m0 piv0).2 k < n)
      ∧ (∀ k < n, (step1 absv n m0 piv0).1.get k k ≠ 0)
      ∧ Red n n m0.get (step1 absv n m0 piv0).1 (step1 absv n m0 piv0).2 := by
  unfold step1
  have key := loop_inv (σ := Mat F × (Nat → Nat))
    (fun i s => Shape m0 s.1 ∧ Frame n m0 s.1 ∧ (∀ k < i, s.2 k < n) ∧ (∀ k < i, s.1.get k k ≠ 0)
      ∧ Red n i m0.get s.1 s.2)
    (Nat.zero_le n) (step1Body absv n) (m0, piv0)
    (by
      refine ⟨⟨rfl, rfl⟩, fun _ _ _ _ => rfl, by simp, by simp, ?_⟩
      intro r c hr hc
      simp [sig])
    (by
      rintro i ⟨m, piv⟩ _ hi ⟨⟨hrows, hcols⟩, hframe, hpiv, hdiag, hred⟩
      dsimp only at hrows hcols hframe hpiv hdiag hred
      obtain ⟨hp1, hp2, hp3⟩ := findPivot_spec absv n m hi
      simp only [step1Body]
      generalize (findPivot absv n m i).1 = p at hp1 hp2 hp3 ⊢
      have hpne : m.get p i ≠ 0 := by
        obtain ⟨r, hr1, hr2, hr3⟩ := pivot_ne_zero hi m0.get m piv hdet hpiv hred
        intro h0
        have h1 := hp3 r hr1 hr2
        rw [h0] at h1
        exact absurd (habs _ hr3) (not_lt.mpr h1)
      obtain ⟨⟨sr, sc⟩, sg⟩ := swapRows_spec n m i p (by omega)
      generalize swapRows n m i p = m1 at sr sc sg ⊢
      obtain ⟨⟨er, ec⟩, eg⟩ := eliminate_spec n m1 i hi (by omega)
      generalize eliminate n m1 i = m2 at er ec eg ⊢
      have hii : m1.get i i = m.get p i := by
        rw [sg _ _ (by omega), if_pos hi, Equiv.swap_apply_left]
      have hiine : m1.get i i ≠ 0 := by rw [hii]; exact hpne
      have hlow : ∀ r, r < i → Equiv.swap i p r = r := fun r hr =>
        Equiv.swap_apply_of_ne_of_ne (by omega) (by omega)
      -- `m1` satisfies the invariant with the exchanged rows
      have hm1 : ∀ r c, r < n → c < n → m0.get (sig piv i (Equiv.swap i p r)) c
          = (∑ k ∈ range (min r i), if k ≤ c then m1.get r k * m1.get k c else 0)
            + (if (r < i ∧ r ≤ c) ∨ (i ≤ r ∧ i ≤ c) then m1.get r c else 0) := by
        intro r c hr hc
        rw [hred _ c ((swap_lt hi hp2).mpr hr) hc]
        have hmin : min (Equiv.swap i p r) i = min r i := by
          have := swap_ge (r := r) hp1
          by_cases hri : r < i
          · rw [hlow r hri]
          · have : i ≤ Equiv.swap i p r := this.mpr (by omega)
            omega
        have hcond : ((Equiv.swap i p r < i ∧ Equiv.swap i p r ≤ c) ∨ (i ≤ Equiv.swap i p r ∧ i ≤ c))
            = ((r < i ∧ r ≤ c) ∨ (i ≤ r ∧ i ≤ c)) := by
          have := swap_ge (r := r) hp1
          by_cases hri : r < i
          · rw [hlow r hri]
          · apply propext
            have : i ≤ Equiv.swap i p r := this.mpr (by omega)
            omega
        have hcond' : (if ((Equiv.swap i p r < i ∧ Equiv.swap i p r ≤ c) ∨ (i ≤ Equiv.swap i p r ∧ i ≤ c))
              then m.get (Equiv.swap i p r) c else 0)
            = (if ((r < i ∧ r ≤ c) ∨ (i ≤ r ∧ i ≤ c)) then m1.get r c else 0) := by
          rw [sg _ _ (by omega), if_pos hc]
          exact if_congr (by rw [hcond]) rfl rfl
        rw [hcond', hmin]
        congr 1
        refine Finset.sum_congr rfl fun k hk => ?_
        have hk' : k < r ∧ k < i := by simpa using hk
        have f1 : m1.get r k = m.get (Equiv.swap i p r) k := by rw [sg r k (by omega), if_pos (by omega)]
        have f2 : m1.get k c = m.get k c := by rw [sg k c (by omega), if_pos hc, hlow k hk'.2]
        rw [f1, f2]
      refine ⟨⟨by rw [er, sr, hrows], by rw [ec, sc, hcols]⟩, ?_, ?_, ?_, ?_⟩
      · -- frame
        intro r c hc hout
        rw [eg _ _ (by omega)]
        have h1 : m1.get r c = m0.get r c := by
          rw [sg _ _ (by omega)]
          by_cases hcn : c < n
          · have hr : ¬ r < n := fun h => hout ⟨h, hcn⟩
            rw [if_pos hcn, Equiv.swap_apply_of_ne_of_ne (by omega) (by omega)]
            exact hframe r c hc hout
          · rw [if_neg hcn]
            exact hframe r c hc hout
        by_cases hr : i < r ∧ r < n
        · rw [if_pos hr, if_neg (by omega), if_neg (by omega), h1]
        · rw [if_neg hr, h1]
      · intro k hk
        by_cases hki : k = i
        · subst hki; simpa using hp2
        · rw [Function.update_of_ne hki]; exact hpiv k (by omega)
      · intro k hk
        rw [eg _ _ (by omega), if_neg (by omega)]
        by_cases hki : k = i
        · subst hki; exact hiine
        · rw [sg _ _ (by omega), if_pos (by omega), hlow k (by omega)]
          exact hdiag k (by omega)
      · -- reduction
        intro r c hr hc
        have hs : sig (Function.update piv i p) (i + 1) = sig piv i * Equiv.swap i p := by
          rw [sig, sig_congr i (q := piv) fun k hk => Function.update_of_ne (by omega) _ _]
          simp
        rw [hs, Equiv.Perm.mul_apply, hm1 r c hr hc]
        by_cases hri : r ≤ i
        · have hg : ∀ c < n, m2.get r c = m1.get r c := fun c hc => by
            rw [eg _ _ (by omega), if_neg (by omega)]
          rw [show min r i = r by omega, show min r (i + 1) = r by omega]
          have e1 : (∑ k ∈ range r, if k ≤ c then m1.get r k * m1.get k c else 0)
              = ∑ k ∈ range r, if k ≤ c then m2.get r k * m2.get k c else 0 := by
            refine Finset.sum_congr rfl fun k hk => ?_
            have hk' : k < r := by simpa using hk
            have f2 : m2.get k c = m1.get k c := by rw [eg k c (by omega), if_neg (by omega)]
            rw [hg k (by omega), f2]
          rw [e1, hg c hc]
          congr 1
          refine if_congr ?_ rfl rfl
          omega
        · have hri' : i < r := by omega
          rw [show min r i = i by omega, show min r (i + 1) = i + 1 by omega, Finset.sum_range_succ]
          have e1 : (∑ k ∈ range i, if k ≤ c then m1.get r k * m1.get k c else 0)
              = ∑ k ∈ range i, if k ≤ c then m2.get r k * m2.get k c else 0 := by
            refine Finset.sum_congr rfl fun k hk => ?_
            have hk' : k < i := by simpa using hk
            have f1 : m2.get r k = m1.get r k := by
              rw [eg r k (by omega), if_pos ⟨hri', hr⟩, if_neg (by omega), if_neg (by omega)]
            have f2 : m2.get k c = m1.get k c := by rw [eg k c (by omega), if_neg (by omega)]
            rw [f1, f2]
          rw [e1, add_assoc]
          congr 1
          have f1 : m2.get r i = m1.get r i / m1.get i i := by
            rw [eg r i (by omega), if_pos ⟨hri', hr⟩, if_pos rfl]
          have f2 : m2.get i c = m1.get i c := by rw [eg i c (by omega), if_neg (by omega)]
          have f3 := eg r c (by omega)
          rw [if_pos ⟨hri', hr⟩] at f3
          rw [f1, f2]
          by_cases hci : c = i
          · subst hci
            rw [if_pos (by omega), if_pos le_rfl, if_neg (by omega)]
            field_simp
            simp
          · by_cases hci2 : i < c
            · rw [if_neg hci, if_pos ⟨hci2, hc⟩] at f3
              rw [if_pos (by omega), if_pos (by omega), if_pos (by omega), f3]
              ring
            · rw [if_neg (by omega), if_neg (by omega), if_neg (by omega)]
              simp)
  exact key

/-! ## Step 2 -/

theorem step2_spec (n : Nat) (m0 : Mat F) (hn : n ≤ m0.cols) (hd : ∀ k < n, m0.get k k ≠ 0) :
    Shape m0 (step2 n m0)
      ∧ (∀ r c, c < m0.cols → ¬(r < n ∧ c < n ∧ r ≤ c) → (step2 n m0).get r c = m0.get r c)
      ∧ ∀ r c, r ≤ c → c < n → ∑ k ∈ Ico r (c + 1), (step2 n m0).get r k * m0.get k c = if r = c then 1 else 0 := by
  have key := loop_inv (σ := Mat F)
    (fun i m => Shape m0 m
      ∧ (∀ r c, c < m0.cols → ¬(r < i ∧ c < n ∧ r ≤ c) → m.get r c = m0.get r c)
      ∧ ∀ r c, r < i → r ≤ c → c < n → ∑ k ∈ Ico r (c + 1), m.get r k * m0.get k c = if r = c then 1 else 0)
    (Nat.zero_le n) (fun i m => loop (i + 1) n (step2Inner i) (m.set i i (1 / m.get i i))) m0
    (by
      refine ⟨⟨rfl, rfl⟩, fun _ _ _ _ => rfl, ?_⟩
      intro r c h; omega)
    (by
      rintro i m _ hi ⟨⟨hr, hc⟩, hout, hin⟩
      have key2 := loop_inv (σ := Mat F)
        (fun j t => Shape m0 t
          ∧ (∀ r c, c < m0.cols → ¬(r = i ∧ c < j ∧ i ≤ c) → t.get r c = m.get r c)
          ∧ ∀ c, i ≤ c → c < j → ∑ k ∈ Ico i (c + 1), t.get i k * m0.get k c = if i = c then 1 else 0)
        (show i + 1 ≤ n by omega) (step2Inner i) (m.set i i (1 / m.get i i))
        (by
          refine ⟨⟨by simpa using hr, by simpa using hc⟩, ?_, ?_⟩
          · intro r c hcc hne
            rw [get_set _ _ (by omega) (by omega), if_neg (by omega)]
          · intro c h1 h2
            have : c = i := by omega
            subst this
            rw [Nat.Ico_succ_singleton, Finset.sum_singleton, get_set _ _ (by omega) (by omega), if_pos ⟨rfl, rfl⟩,
              hout _ _ (by omega) (by omega), if_pos rfl]
            exact one_div_mul_cancel (hd c hi))
        (by
          rintro j t hj1 hj2 ⟨⟨hrt, hct⟩, hot, hit⟩
          have hsum : loop i j (fun k s => s - t.get i k * t.get k j) (0 : F)
              = -∑ k ∈ Ico i j, t.get i k * t.get k j :=
            loop_inv (σ := F) (fun k s => s = -∑ q ∈ Ico i k, t.get i q * t.get q j) (show i ≤ j by omega) _ _
              (by simp)
              (by
                intro k s h1 h2 hs
                rw [hs, Finset.sum_Ico_succ_top h1]; ring)
          unfold step2Inner
          dsimp only
          rw [hsum]
          refine ⟨⟨by simpa using hrt, by simpa using hct⟩, ?_, ?_⟩
          · intro r c hcc hne
            rw [get_set _ _ (by omega) (by omega), if_neg (by omega)]
            exact hot r c hcc (by omega)
          · intro c h1 h2
            by_cases hcj : c = j
            · subst hcj
              rw [Finset.sum_Ico_succ_top h1, get_set _ _ (by omega) (by omega), if_pos ⟨rfl, rfl⟩, if_neg (by omega)]
              have e1 : ∑ k ∈ Ico i c, (t.set i c (-(∑ k ∈ Ico i c, t.get i k * t.get k c) / t.get c c)).get i k
                  * m0.get k c = ∑ k ∈ Ico i c, t.get i k * t.get k c := by
                refine Finset.sum_congr rfl fun k hk => ?_
                have hk' : i ≤ k ∧ k < c := by simpa using hk
                rw [get_set _ _ (by omega) (by omega), if_neg (by omega), hot k c (by omega) (by omega),
                  hout k c (by omega) (by omega)]
              have e2 : t.get c c = m0.get c c := by
                rw [hot c c (by omega) (by omega), hout c c (by omega) (by omega)]
              rw [e1, e2]
              have := hd c hj2
              field_simp
              ring
            · have e1 : ∑ k ∈ Ico i (c + 1), (t.set i j (-(∑ k ∈ Ico i j, t.get i k * t.get k j) / t.get j j)).get i k
                  * m0.get k c = ∑ k ∈ Ico i (c + 1), t.get i k * m0.get k c := by
                refine Finset.sum_congr rfl fun k hk => ?_
                have hk' : i ≤ k ∧ k < c + 1 := by simpa using hk
                rw [get_set _ _ (by omega) (by omega), if_neg (by omega)]
              rw [e1]
              exact hit c h1 (by omega))
      obtain ⟨hs2, ho2, hi2⟩ := key2
      refine ⟨hs2, ?_, ?_⟩
      · intro r c hcc hne
        rw [ho2 r c hcc (by omega)]
        exact hout r c hcc (by omega)
      · intro r c h1 h2 h3
        by_cases hri : r = i
        · subst hri
          exact hi2 c h2 h3
        · rw [← hin r c (by omega) h2 h3]
          refine Finset.sum_congr rfl fun k hk => ?_
          have hk' : r ≤ k ∧ k < c + 1 := by simpa using hk
          rw [ho2 r k (by omega) (by omega)])
  refine ⟨key.1, key.2.1, fun r c h1 h2 => key.2.2 r c (by omega) h1 h2⟩

/-! ## Step 3 -/

theorem step3_spec (n : Nat) (m0 : Mat F) (work : Nat → F) (hn : n ≤ m0.cols) :
    Shape m0 (step3 n m0 work).1 ∧ Frame n m0 (step3 n m0 work).1
      ∧ ∀ r c, r < n → c < n → (step3 n m0 work).1.get r c
          = (if r ≤ c then m0.get r c else 0) - ∑ k ∈ Ico (c + 1) n, (step3 n m0 work).1.get r k * m0.get k c := by
  have key := loopDown_inv (σ := Mat F × (Nat → F))
    (fun j s => Shape m0 s.1
      ∧ (∀ r c, c < m0.cols → ¬(r < n ∧ c < n ∧ j ≤ c) → s.1.get r c = m0.get r c)
      ∧ ∀ r c, r < n → c < n → j ≤ c → s.1.get r c
          = (if r ≤ c then m0.get r c else 0) - ∑ k ∈ Ico (c + 1) n, s.1.get r k * m0.get k c)
    (step3Body n) n (m0, work)
    (by
      refine ⟨⟨rfl, rfl⟩, fun _ _ _ _ => rfl, ?_⟩
      intro r c _ h1 h2; omega)
    (by
      rintro j ⟨m, w0⟩ hj ⟨⟨hr, hc⟩, hout, hin⟩
      dsimp only at hr hc hout hin
      unfold step3Body
      dsimp only
      have hw1 := loop_inv (σ := Nat → F) (fun k w => ∀ i, i < k → w i = m.get i j) (Nat.zero_le (j + 1))
        (fun i w => Function.update w i (m.get i j)) w0 (by simp)
        (by
          intro k w _ _ h i hi
          by_cases hik : i = k
          · subst hik; simp
          · rw [Function.update_of_ne hik]; exact h i (by omega))
      generalize loop 0 (j + 1) (fun i w => Function.update w i (m.get i j)) w0 = w1 at hw1 ⊢
      have hw2 := loop_inv (σ := Nat → F) (fun k w => ∀ i, i < k → w i = if i ≤ j then m.get i j else 0)
        (show j + 1 ≤ n by omega) (fun i w => Function.update w i 0) w1
        (by
          intro i hi
          rw [hw1 i hi, if_pos (by omega)])
        (by
          intro k w h1 _ h i hi
          by_cases hik : i = k
          · subst hik; rw [if_neg (by omega)]; simp
          · rw [Function.update_of_ne hik]; exact h i (by omega))
      generalize loop (j + 1) n (fun i w => Function.update w i (0 : F)) w1 = w2 at hw2 ⊢
      have hw3 := loop_inv (σ := Nat → F)
        (fun k w => ∀ i, i < n → w i = (if i ≤ j then m.get i j else 0) - ∑ q ∈ Ico (j + 1) k, m.get i q * m.get q j)
        (show j + 1 ≤ n by omega)
        (fun k w => loop 0 n (fun i w => Function.update w i (w i - m.get i k * m.get k j)) w) w2
        (by
          intro i hi
          rw [hw2 i hi]; simp)
        (by
          intro k w h1 _ h
          have := loop_inv (σ := Nat → F)
            (fun q v => ∀ i, v i = if i < q then w i - m.get i k * m.get k j else w i)
            (Nat.zero_le n) (fun i w => Function.update w i (w i - m.get i k * m.get k j)) w (by simp)
            (by
              intro q v _ _ hv i
              by_cases hiq : i = q
              · subst hiq
                rw [Function.update_self, hv i, if_neg (by omega), if_pos (by omega)]
              · rw [Function.update_of_ne hiq, hv i]
                exact if_congr (by omega) rfl rfl)
          intro i hi
          rw [this i, if_pos hi, h i hi, Finset.sum_Ico_succ_top h1]
          ring)
      generalize loop (j + 1) n (fun k w => loop 0 n (fun i w => Function.update w i (w i - m.get i k * m.get k j)) w) w2
        = w3 at hw3 ⊢
      have hm := loop_inv (σ := Mat F)
        (fun k t => Shape m0 t ∧ ∀ r c, c < m0.cols → t.get r c = if r < k ∧ c = j then w3 r else m.get r c)
        (Nat.zero_le n) (fun i m => m.set i j (w3 i)) m
        (by
          refine ⟨⟨hr, hc⟩, fun r c _ => ?_⟩
          rw [if_neg (by omega)])
        (by
          rintro k t _ hk ⟨⟨h1, h2⟩, h3⟩
          refine ⟨⟨by simpa using h1, by simpa using h2⟩, fun r c hcc => ?_⟩
          rw [get_set _ _ (by omega) (by omega), h3 _ _ hcc]
          by_cases h : r = k ∧ c = j
          · obtain ⟨rfl, rfl⟩ := h
            rw [if_pos ⟨rfl, rfl⟩, if_pos (by omega)]
          · rw [if_neg h]
            exact if_congr (by omega) rfl rfl)
      generalize loop 0 n (fun i m => m.set i j (w3 i)) m = t at hm ⊢
      obtain ⟨hsh, hg⟩ := hm
      refine ⟨hsh, ?_, ?_⟩
      · intro r c hcc hne
        rw [hg r c hcc, if_neg (by omega)]
        exact hout r c hcc (by omega)
      · intro r c hrn hcn hjc
        by_cases hcj : c = j
        · subst hcj
          rw [hg r c (by omega), if_pos ⟨hrn, rfl⟩, hw3 r hrn, hout r c (by omega) (by omega)]
          congr 1
          refine Finset.sum_congr rfl fun k hk => ?_
          have hk' : c + 1 ≤ k ∧ k < n := by simpa using hk
          rw [hg r k (by omega), if_neg (by omega), hout k c (by omega) (by omega)]
        · rw [hg r c (by omega), if_neg (by omega), hin r c hrn hcn (by omega)]
          congr 1
          refine Finset.sum_congr rfl fun k hk => ?_
          have hk' : c + 1 ≤ k ∧ k < n := by simpa using hk
          rw [hg r k (by omega), if_neg (by omega)])
  refine ⟨key.1, ?_, fun r c h1 h2 => key.2.2 r c h1 h2 (Nat.zero_le _)⟩
  intro r c hcc hne
  exact key.2.1 r c hcc (by omega)

/-! ## Step 4 -/

theorem sum_swap {n i p : Nat} (hi : i < n) (hp : p < n) (f : Nat → F) :
    ∑ r ∈ range n, f (Equiv.swap i p r) = ∑ r ∈ range n, f r :=
  Finset.sum_equiv (Equiv.swap i p) (by intro r; simp [swap_lt hi hp]) (by intro r _; rfl)

theorem step4_spec (n : Nat) (m0 : Mat F) (piv : Nat → Nat) (hn : n ≤ m0.cols) (hp : ∀ k < n, piv k < n)
    (A : Nat → Nat → F) :
    Shape m0 (step4 n m0 piv) ∧ Frame n m0 (step4 n m0 piv)
      ∧ ∀ r c, r < n → ∑ k ∈ range n, (step4 n m0 piv).get r k * A k c
          = ∑ k ∈ range n, m0.get r k * A (sig piv n k) c := by
  have key := loopDown_inv (σ := Mat F)
    (fun j m => Shape m0 m ∧ Frame n m0 m
      ∧ ∀ r c, r < n → ∑ k ∈ range n, m.get r k * A (sig piv j k) c
          = ∑ k ∈ range n, m0.get r k * A (sig piv n k) c)
    (fun j m => swapCols n m j (piv j)) n m0
    ⟨⟨rfl, rfl⟩, fun _ _ _ _ => rfl, fun _ _ _ => rfl⟩
    (by
      rintro j m hj ⟨⟨hr, hc⟩, hout, hin⟩
      obtain ⟨⟨sr, sc⟩, sg⟩ := swapCols_spec n m j (piv j) (by omega) (by have := hp j hj; omega)
      have hpj := hp j hj
      refine ⟨⟨by omega, by omega⟩, ?_, ?_⟩
      · intro r c hcc hne
        rw [sg r c (by omega)]
        by_cases hrn : r < n
        · have hcn : ¬ c < n := fun h => hne ⟨hrn, h⟩
          rw [if_pos hrn, Equiv.swap_apply_of_ne_of_ne (by omega) (by omega)]
          exact hout r c hcc hne
        · rw [if_neg hrn]
          exact hout r c hcc hne
      · intro r c hrn
        rw [← hin r c hrn, ← sum_swap hj hpj fun k => m.get r k * A (sig piv (j + 1) k) c]
        refine Finset.sum_congr rfl fun k hk => ?_
        have hk' : k < n := by simpa using hk
        rw [sg r k (by omega), if_pos hrn, sig, Equiv.Perm.mul_apply, Equiv.swap_apply_self])
  obtain ⟨h1, h2, h3⟩ := key
  refine ⟨h1, h2, fun r c hrn => ?_⟩
  rw [← h3 r c hrn]
  refine Finset.sum_congr rfl fun k _ => ?_
  simp [sig, step4]

theorem sum_ico_of_zero {n a b : Nat} (hb : b ≤ n) (f : Nat → F) (h : ∀ k < n, ¬(a ≤ k ∧ k < b) → f k = 0) :
    ∑ k ∈ range n, f k = ∑ k ∈ Ico a b, f k := by
  symm
  refine Finset.sum_subset ?_ ?_
  · intro k hk
    simp only [mem_Ico, mem_range] at hk ⊢
    omega
  · intro k hk1 hk2
    simp only [mem_Ico, mem_range] at hk1 hk2
    exact h k hk1 hk2

/-- the four steps together -/
theorem pluInverse_spec (habs : ∀ x : F, x ≠ 0 → absv 0 < absv x) (n : Nat) (m0 : Mat F) (piv0 : Nat → Nat)
    (work : Nat → F) (hn : n ≤ m0.cols) (hdet : (_root_.Matrix.of fun r c : Fin n => m0.get r c).det ≠ 0) :
    Shape m0 (pluInverse absv n m0 piv0 work) ∧ Frame n m0 (pluInverse absv n m0 piv0 work)
      ∧ ∀ r c, r < n → c < n →
        ∑ k ∈ range n, (pluInverse absv n m0 piv0 work).get r k * m0.get k c = if r = c then 1 else 0 := by
  obtain ⟨⟨s1r, s1c⟩, f1, hp, hd, hred⟩ := step1_spec absv habs n m0 piv0 hn hdet
  unfold pluInverse
  dsimp only
  generalize step1 absv n m0 piv0 = s at *
  obtain ⟨a, piv⟩ := s
  dsimp only at *
  obtain ⟨⟨s2r, s2c⟩, f2, hV⟩ := step2_spec n a (by omega) hd
  generalize step2 n a = v at *
  obtain ⟨⟨s3r, s3c⟩, f3, hX⟩ := step3_spec n v work (by omega)
  generalize (step3 n v work).1 = x at *
  obtain ⟨⟨s4r, s4c⟩, f4, hB⟩ := step4_spec n x piv (by omega) hp m0.get
  refine ⟨⟨by omega, by omega⟩, ?_, ?_⟩
  · intro r c hc hne
    rw [f4 r c (by omega) hne, f3 r c (by omega) hne, f2 r c (by omega) (by omega), f1 r c hc hne]
  · intro r c hr hc
    rw [hB r c hr]
    -- rows of the permuted original are rows of `L U`
    let L : Nat → Nat → F := fun i k => if k < i then a.get i k else if k = i then 1 else 0
    let U : Nat → Nat → F := fun k c => if k ≤ c then a.get k c else 0
    have hLU : ∀ i, i < n → m0.get (sig piv n i) c = ∑ k ∈ range n, L i k * U k c := by
      intro i hi
      rw [hred i c hi hc, sum_ico_of_zero (a := 0) (b := i + 1) (by omega) (fun k => L i k * U k c)]
      · rw [← Finset.range_eq_Ico, Finset.sum_range_succ, show min i n = i by omega]
        congr 1
        · refine Finset.sum_congr rfl fun k hk => ?_
          have hk' : k < i := by simpa using hk
          simp only [L, U, if_pos hk']
          by_cases hkc : k ≤ c <;> simp [hkc]
        · simp only [L, U, lt_irrefl, if_false, if_true, one_mul]
          exact if_congr (by omega) rfl rfl
      · intro k _ hk
        simp only [L]
        rw [if_neg (by omega), if_neg (by omega), zero_mul]
    have hXL : ∀ k, k < n → ∑ i ∈ range n, x.get r i * L i k = if r ≤ k then v.get r k else 0 := by
      intro k hk
      rw [sum_ico_of_zero (a := k) (b := n) le_rfl, Finset.sum_eq_sum_Ico_succ_bot hk]
      · have e : ∑ i ∈ Ico (k + 1) n, x.get r i * L i k = ∑ i ∈ Ico (k + 1) n, x.get r i * v.get i k := by
          refine Finset.sum_congr rfl fun i hi => ?_
          have hi' : k + 1 ≤ i ∧ i < n := by simpa using hi
          simp only [L]
          rw [if_pos (by omega), f2 i k (by omega) (by omega)]
        rw [e]
        simp only [L, lt_irrefl, if_false, if_true, mul_one]
        rw [hX r k hr hk]
        ring
      · intro i _ hi
        simp only [L]
        rw [if_neg (by omega), if_neg (by omega), mul_zero]
    have e1 : ∑ k ∈ range n, x.get r k * m0.get (sig piv n k) c
        = ∑ k ∈ range n, (if r ≤ k then v.get r k else 0) * U k c := by
      have : ∀ k ∈ range n, x.get r k * m0.get (sig piv n k) c = ∑ q ∈ range n, x.get r k * L k q * U q c := by
        intro k hk
        rw [hLU k (by simpa using hk), Finset.mul_sum]
        exact Finset.sum_congr rfl fun q _ => by ring
      rw [Finset.sum_congr rfl this, Finset.sum_comm]
      refine Finset.sum_congr rfl fun q hq => ?_
      rw [← Finset.sum_mul, hXL q (by simpa using hq)]
    rw [e1]
    by_cases hrc : r ≤ c
    · rw [sum_ico_of_zero (a := r) (b := c + 1) (by omega), ← hV r c hrc hc]
      · refine Finset.sum_congr rfl fun k hk => ?_
        have hk' : r ≤ k ∧ k < c + 1 := by simpa using hk
        simp only [U]
        rw [if_pos hk'.1, if_pos (by omega)]
      · intro k _ hk
        simp only [U]
        by_cases h : r ≤ k
        · rw [if_neg (show ¬ k ≤ c by omega), mul_zero]
        · rw [if_neg h, zero_mul]
    · rw [if_neg (show ¬ r = c by omega)]
      refine Finset.sum_eq_zero fun k _ => ?_
      simp only [U]
      by_cases h : r ≤ k
      · rw [if_neg (show ¬ k ≤ c by omega), mul_zero]
      · rw [if_neg h, zero_mul]

end

end Verif.Matrix
