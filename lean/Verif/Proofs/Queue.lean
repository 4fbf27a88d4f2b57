import Verif.Model.Queue
import Mathlib.Data.List.Perm.Basic
import Mathlib.Data.List.Count
import Mathlib.Logic.Function.Basic
import Mathlib.Tactic.Linarith

/-! Lemmas about the queue model: contents and heap order. -/
namespace Verif.Queue

/-- Entries are ordered as a heap: no entry is heavier than its parent. -/
def IsHeap (w : Nat → Int) (a : Nat → Nat) (n : Nat) : Prop :=
  ∀ i, 0 < i → i < n → w (a i) ≤ w (a ((i - 1) / 2))

/-- number of occurrences of `t` in the first `n` entries -/
def cnt (a : Nat → Nat) (n : Nat) (t : Nat) : Nat := ((List.range n).map a).count t

theorem cnt_zero (a t) : cnt a 0 t = 0 := by simp [cnt]

theorem cnt_succ (a n t) : cnt a (n + 1) t = cnt a n t + (if a n = t then 1 else 0) := by
  simp [cnt, List.range_succ, List.count_append, List.count_singleton]

theorem cnt_congr {a b : Nat → Nat} {n} (h : ∀ i, i < n → a i = b i) (t) : cnt a n t = cnt b n t := by
  induction n with
  | zero => simp [cnt_zero]
  | succ n ih => rw [cnt_succ, cnt_succ, ih (fun i hi => h i (by omega)), h n (by omega)]

theorem cnt_update (a : Nat → Nat) (n i v t) (hi : i < n) :
    cnt (Function.update a i v) n t + (if a i = t then 1 else 0)
      = cnt a n t + (if v = t then 1 else 0) := by
  induction n with
  | zero => omega
  | succ n ih =>
    rw [cnt_succ, cnt_succ]
    by_cases h : i = n
    · subst h
      rw [cnt_congr (a := Function.update a i v) (b := a)
        (fun j hj => by simp [Function.update, show j ≠ i by omega])]
      simp [Function.update]; omega
    · have := ih (by omega)
      have e : Function.update a i v n = a n := by simp [Function.update, show n ≠ i by omega]
      rw [e]; omega

theorem swap_eq_update (a : Nat → Nat) (i j) :
    swap a i j = Function.update (Function.update a j (a i)) i (a j) := by
  funext x; unfold swap Function.update; split_ifs <;> simp_all

theorem cnt_swap (a : Nat → Nat) (n i j t) (hi : i < n) (hj : j < n) :
    cnt (swap a i j) n t = cnt a n t := by
  rw [swap_eq_update]
  have h1 := cnt_update a n j (a i) t hj
  have h2 := cnt_update (Function.update a j (a i)) n i (a j) t hi
  by_cases h : i = j
  · subst h; simp at *
  · have e : Function.update a j (a i) i = a i := by simp [Function.update, h]
    rw [e] at h2; omega

theorem cnt_siftUp (w : Nat → Int) (a : Nat → Nat) (k n t) (hk : k < n) :
    cnt (siftUp w a k) n t = cnt a n t := by
  induction k using Nat.strong_induction_on generalizing a with
  | _ k ih =>
    rw [siftUp]
    split
    · rfl
    · dsimp only; split
      · rw [ih _ (by omega) _ (by omega), cnt_swap _ _ _ _ _ (by omega) hk]
      · rfl

theorem siftUp_above (w : Nat → Int) (a : Nat → Nat) (k x) (hx : k < x) : siftUp w a k x = a x := by
  induction k using Nat.strong_induction_on generalizing a with
  | _ k ih =>
    rw [siftUp]
    split
    · rfl
    · dsimp only; split
      · rw [ih _ (by omega) _ (by omega)]; unfold swap; split_ifs <;> omega
      · rfl

theorem siftDown_above (w : Nat → Int) (c : Nat) (a : Nat → Nat) (k x) (hk : k < c ∨ k = c) (hx : c ≤ x) :
    siftDown w c a k x = a x := by
  induction h : c - k using Nat.strong_induction_on generalizing a k with
  | _ m ih =>
    rw [siftDown]
    split
    · rfl
    · dsimp only
      generalize hj : (if 2 * k + 2 < c ∧ w (a (2 * k + 1)) < w (a (2 * k + 2)) then 2 * k + 2 else 2 * k + 1) = j
      have : k < j ∧ j < c := by split_ifs at hj <;> omega
      split
      · rw [ih (c - j) (by omega) _ _ (by omega) rfl]; unfold swap; split_ifs <;> omega
      · rfl

theorem cnt_siftDown (w : Nat → Int) (c : Nat) (a : Nat → Nat) (k t) :
    cnt (siftDown w c a k) c t = cnt a c t := by
  induction h : c - k using Nat.strong_induction_on generalizing a k with
  | _ m ih =>
    rw [siftDown]
    split
    · rfl
    · dsimp only
      generalize hj : (if 2 * k + 2 < c ∧ w (a (2 * k + 1)) < w (a (2 * k + 2)) then 2 * k + 2 else 2 * k + 1) = j
      have : k < j ∧ j < c := by split_ifs at hj <;> omega
      split
      · rw [ih (c - j) (by omega) _ _ rfl, cnt_swap _ _ _ _ _ (by omega) (by omega)]
      · rfl

/-- Sifting up restores the heap when only entry `k` may be too heavy. -/
theorem heap_siftUp (w : Nat → Int) (n : Nat) (a : Nat → Nat) (k) (hk : k < n)
    (h1 : ∀ i, 0 < i → i < n → i ≠ k → w (a i) ≤ w (a ((i - 1) / 2)))
    (h2 : 0 < k → ∀ i, 0 < i → i < n → (i - 1) / 2 = k → w (a i) ≤ w (a ((k - 1) / 2))) :
    IsHeap w (siftUp w a k) n := by
  induction k using Nat.strong_induction_on generalizing a with
  | _ k ih =>
    rw [siftUp]
    split
    · rename_i h0
      subst h0
      intro i hi hn
      exact h1 i hi hn (by omega)
    · rename_i h0
      dsimp only
      split
      · rename_i hlt
        apply ih _ (by omega) _ (by omega)
        · intro i hi hn hne
          have a1 := h1 i hi hn
          have a2 := h2 (by omega) i hi hn
          unfold swap
          by_cases e1 : i = k
          · subst e1; simp [hne]; exact le_of_lt hlt
          · by_cases e2 : (i - 1) / 2 = k
            · simp [hne, e1, e2, show k ≠ (k-1)/2 by omega]; exact a2 e2
            · by_cases e3 : (i - 1) / 2 = (k - 1) / 2
              · simp [hne, e1, e3, show (k-1)/2 ≠ k by omega]
                have := a1 e1; rw [e3] at this; omega
              · simp [hne, e1, e2, e3]; exact a1 e1
        · intro hj i hi hn hpar
          have a0 := h1 ((k-1)/2) hj (by omega) (by omega)
          have a1 := h1 i hi hn
          unfold swap
          have p1 : ((k - 1) / 2 - 1) / 2 ≠ (k-1)/2 := by omega
          have p2 : ((k - 1) / 2 - 1) / 2 ≠ k := by omega
          have p3 : i ≠ (k-1)/2 := by omega
          by_cases e1 : i = k
          · subst e1; simp [p1, p2, p3]; exact a0
          · simp [p1, p2, p3, e1]
            have := a1 e1; rw [hpar] at this; omega
      · rename_i hnl
        intro i hi hn
        by_cases e : i = k
        · subst e; omega
        · exact h1 i hi hn e

/-- Sifting down restores the heap when only entry `k` may be too light. -/
theorem heap_siftDown (w : Nat → Int) (n : Nat) (a : Nat → Nat) (k)
    (h1 : ∀ i, 0 < i → i < n → (i - 1) / 2 ≠ k → w (a i) ≤ w (a ((i - 1) / 2)))
    (h2 : 0 < k → ∀ i, 0 < i → i < n → (i - 1) / 2 = k → w (a i) ≤ w (a ((k - 1) / 2))) :
    IsHeap w (siftDown w n a k) n := by
  induction h : n - k using Nat.strong_induction_on generalizing a k with
  | _ m ih =>
    rw [siftDown]
    split
    · intro i hi hn; exact h1 i hi hn (by omega)
    · rename_i hc
      dsimp only
      generalize hj : (if 2 * k + 2 < n ∧ w (a (2 * k + 1)) < w (a (2 * k + 2)) then 2 * k + 2 else 2 * k + 1) = j
      have hjk : k < j ∧ j < n ∧ (j - 1) / 2 = k ∧
          (∀ i, 0 < i → i < n → (i - 1) / 2 = k → w (a i) ≤ w (a j)) := by
        split_ifs at hj with hcond
        · refine ⟨by omega, by omega, by omega, ?_⟩
          intro i hi hn hp
          have : i = 2 * k + 1 ∨ i = 2 * k + 2 := by omega
          rcases this with e | e <;> subst e
          · rw [← hj]; omega
          · rw [← hj]
        · refine ⟨by omega, by omega, by omega, ?_⟩
          intro i hi hn hp
          have : i = 2 * k + 1 ∨ i = 2 * k + 2 := by omega
          rcases this with e | e <;> subst e
          · rw [← hj]
          · rw [← hj]; push Not at hcond; exact hcond hn
      obtain ⟨hkj, hjn, hpj, hmax⟩ := hjk
      split
      · rename_i hlt
        apply ih (n - j) (by omega) _ _ _ _ rfl
        · intro i hi hn hne
          have a1 := h1 i hi hn
          have a2 := hmax i hi hn
          unfold swap
          by_cases e0 : i = j
          · subst e0; simp [hpj, show k ≠ i by omega]; omega
          · by_cases e1 : i = k
            · subst e1
              have p1 : (i - 1)/2 ≠ j := by omega
              have p2 : (i - 1)/2 ≠ i := by omega
              simp [e0, p1, p2]; exact h2 hi j (by omega) hjn hpj
            · by_cases e2 : (i - 1) / 2 = k
              · simp [e0, e1, e2, show k ≠ j by omega]; exact a2 e2
              · simp [e0, e1, e2, hne]; exact a1 e2
        · intro hj0 i hi hn hp
          have a1 := h1 i hi hn (by omega)
          unfold swap
          have e0 : i ≠ j := by omega
          have e1 : i ≠ k := by omega
          simp [e0, e1, hpj, show k ≠ j by omega]
          rw [hp] at a1; exact a1
      · rename_i hnl
        intro i hi hn
        by_cases e : (i - 1) / 2 = k
        · have := hmax i hi hn e; rw [e]; omega
        · exact h1 i hi hn e

theorem heap_put (w : Nat → Int) (q : Q) (t) (h : IsHeap w q.inds q.count) :
    IsHeap w (put w q t).inds (put w q t).count := by
  unfold put; dsimp only
  apply heap_siftUp _ _ _ _ (by omega)
  · intro i hi hn hne
    have e1 : i ≠ q.count := hne
    have e2 : (i - 1) / 2 ≠ q.count := by omega
    simp only [Function.update, e1, e2, dite_false]
    exact h i hi (by omega)
  · intro hk i hi hn hp; omega

theorem cnt_put (w : Nat → Int) (q : Q) (t x) :
    cnt (put w q t).inds (put w q t).count x = cnt q.inds q.count x + (if t = x then 1 else 0) := by
  unfold put; dsimp only
  rw [cnt_siftUp _ _ _ _ _ (by omega), cnt_succ]
  congr 1
  · exact cnt_congr (fun i hi => by simp [Function.update, show i ≠ q.count by omega]) _
  · simp

/-- With a heap, the repair code of `remove` never moves an entry upwards when `k` is the last
position (so the removed task cannot re-enter). -/
theorem remove_last (w : Nat → Int) (q : Q) (k) (hk : k < q.count) (hl : k = q.count - 1)
    (h : IsHeap w q.inds q.count) : (remove w q k).inds = q.inds := by
  unfold remove; dsimp only
  have e : Function.update q.inds k (q.inds (q.count - 1)) = q.inds := by
    subst hl; simp
  rw [e]
  have hno : ¬ (k > 0 ∧ w (q.inds k) > w (q.inds ((k - 1) / 2))) := by
    rintro ⟨h0, h1⟩
    have := h k h0 hk; omega
  rw [if_neg hno, siftDown, dif_pos (by omega)]

theorem cnt_remove (w : Nat → Int) (q : Q) (k x) (hk : k < q.count) (h : IsHeap w q.inds q.count) :
    cnt (remove w q k).inds (remove w q k).count x + (if q.inds k = x then 1 else 0)
      = cnt q.inds q.count x := by
  obtain ⟨c, hc⟩ : ∃ c, q.count = c + 1 := ⟨q.count - 1, by omega⟩
  by_cases hl : k = q.count - 1
  · rw [remove_last w q k hk hl h]
    have : (remove w q k).count = c := by simp [remove, hc]
    rw [this, hc, cnt_succ]
    have : k = c := by omega
    subst this; rfl
  · have hkc : k < c := by omega
    have hcnt : (remove w q k).count = c := by simp [remove, hc]
    rw [hcnt]
    have key : cnt (remove w q k).inds c x = cnt (Function.update q.inds k (q.inds c)) c x := by
      unfold remove; dsimp only
      rw [hc]; simp only [Nat.add_sub_cancel]
      split
      · exact cnt_siftUp _ _ _ _ _ hkc
      · exact cnt_siftDown _ _ _ _ _
    have h2 := cnt_update q.inds c k (q.inds c) x hkc
    rw [key, hc, cnt_succ]; omega

theorem heap_remove (w : Nat → Int) (q : Q) (k) (hk : k < q.count) (h : IsHeap w q.inds q.count) :
    IsHeap w (remove w q k).inds (remove w q k).count := by
  obtain ⟨c, hc⟩ : ∃ c, q.count = c + 1 := ⟨q.count - 1, by omega⟩
  by_cases hl : k = q.count - 1
  · rw [remove_last w q k hk hl h]
    intro i hi hn
    exact h i hi (by simp [remove, hc] at hn; omega)
  · have hkc : k < c := by omega
    unfold remove; dsimp only
    rw [hc]; simp only [Nat.add_sub_cancel]
    have hne : ∀ i, i ≠ k → Function.update q.inds k (q.inds c) i = q.inds i := by
      intro i hi; simp [Function.update, hi]
    have heq : Function.update q.inds k (q.inds c) k = q.inds c := by simp
    have hsub : ∀ i, 0 < i → i < c → (i-1)/2 = k → w (q.inds i) ≤ w (q.inds k) := by
      intro i hi hn hp
      have := h i hi (by omega); rwa [hp] at this
    have hpk : 0 < k → w (q.inds k) ≤ w (q.inds ((k-1)/2)) := fun h0 => h k h0 (by omega)
    split
    · rename_i hcond
      apply heap_siftUp _ _ _ _ hkc
      · intro i hi hn he
        rw [hne i he]
        by_cases e : (i - 1)/2 = k
        · rw [e, heq]
          have a1 := hsub i hi hn e
          have a2 := hpk (by omega)
          rw [heq, hne _ (by omega)] at hcond
          omega
        · rw [hne _ e]; exact h i hi (by omega)
      · intro h0 i hi hn hp
        rw [hne i (by omega), hne _ (by omega)]
        have a1 := hsub i hi hn hp
        have a2 := hpk h0
        omega
    · rename_i hcond
      apply heap_siftDown
      · intro i hi hn hp
        by_cases e : i = k
        · subst e; omega
        · rw [hne i e, hne _ hp]; exact h i hi (by omega)
      · intro h0 i hi hn hp
        rw [hne i (by omega), hne _ (by omega)]
        have a1 := hsub i hi hn hp
        have a2 := hpk h0
        omega

theorem scan_some {lockable : Nat → Bool} {q : Q} {k j} (h : scan lockable q k = some j) :
    k ≤ j ∧ j < q.count ∧ lockable (q.inds j) = true ∧ ∀ i, k ≤ i → i < j → lockable (q.inds i) = false := by
  induction hm : q.count - k using Nat.strong_induction_on generalizing k with
  | _ m ih =>
    rw [scan] at h
    split at h
    · rename_i hk
      split at h
      · rename_i hl
        simp only [Option.some.injEq] at h; subst h
        exact ⟨le_refl _, hk, hl, fun i h1 h2 => by omega⟩
      · rename_i hl
        obtain ⟨a, b, c, d⟩ := ih (q.count - (k + 1)) (by omega) h rfl
        refine ⟨by omega, b, c, fun i h1 h2 => ?_⟩
        by_cases e : i = k
        · subst e; simpa using hl
        · exact d i (by omega) h2
    · simp at h

theorem scan_none {lockable : Nat → Bool} {q : Q} {k} (h : scan lockable q k = none) :
    ∀ i, k ≤ i → i < q.count → lockable (q.inds i) = false := by
  induction hm : q.count - k using Nat.strong_induction_on generalizing k with
  | _ m ih =>
    rw [scan] at h
    split at h
    · rename_i hk
      split at h
      · simp at h
      · rename_i hl
        intro i h1 h2
        by_cases e : i = k
        · subst e; simpa using hl
        · exact ih (q.count - (k + 1)) (by omega) h rfl i (by omega) h2
    · intro i h1 h2; omega

/-- In a heap the first entry has the largest weight. -/
theorem heap_root (w : Nat → Int) (a : Nat → Nat) (n) (h : IsHeap w a n) (i) (hi : i < n) :
    w (a i) ≤ w (a 0) := by
  induction i using Nat.strong_induction_on with
  | _ i ih =>
    by_cases e : i = 0
    · subst e; exact le_refl _
    · exact le_trans (h i (by omega) hi) (ih _ (by omega) (by omega))

theorem toList_count (q : Q) (t) : q.toList.count t = cnt q.inds q.count t := rfl

theorem mem_toList (q : Q) (t) : t ∈ q.toList ↔ ∃ i, i < q.count ∧ q.inds i = t := by
  simp [Q.toList]

end Verif.Queue
