import Verif.Model.Store
import Mathlib.Tactic.Linarith
import Mathlib.Tactic.Push
import Mathlib.Data.List.Count

/-! # The counting sort -/
namespace Verif.Store

/-- positions below `n` with key `z` -/
def F (key : Nat → Nat) (z n : Nat) : List Nat := (List.range n).filter fun i => key i = z

theorem F_zero (key z) : F key z 0 = [] := by simp [F]

theorem F_succ (key : Nat → Nat) (z n) : F key z (n + 1) = F key z n ++ (if key n = z then [n] else []) := by
  unfold F
  rw [List.range_succ, List.filter_append]
  congr 1
  by_cases h : key n = z <;> simp [h]

/-- number of positions below `n` with a key below `z` -/
def start (key : Nat → Nat) (n z : Nat) : Nat := ((List.range n).filter fun i => key i < z).length

theorem start_zero (key n) : start key n 0 = 0 := by simp [start]

theorem start_succ (key : Nat → Nat) (n z) : start key n (z + 1) = start key n z + (F key z n).length := by
  unfold start F
  induction n with
  | zero => simp
  | succ n ih =>
    rw [List.range_succ, List.filter_append, List.filter_append, List.filter_append, List.length_append,
      List.length_append, List.length_append, ih]
    have : ([n].filter fun i => key i < z + 1).length
        = ([n].filter fun i => key i < z).length + ([n].filter fun i => key i = z).length := by
      rcases Nat.lt_trichotomy (key n) z with h | h | h
      · have h2 : key n < z + 1 := by omega
        have h3 : ¬ key n = z := by omega
        simp [h, h2, h3]
      · subst h; simp
      · have h1 : ¬ key n < z := by omega
        have h2 : ¬ key n < z + 1 := by omega
        have h3 : ¬ key n = z := by omega
        simp [h1, h2, h3]
    omega

theorem start_mono (key : Nat → Nat) (n) {z z'} (h : z ≤ z') : start key n z ≤ start key n z' := by
  induction h with
  | refl => exact le_refl _
  | step _ ih => rw [start_succ]; omega

theorem start_all (key : Nat → Nat) (n nb) (h : ∀ i < n, key i < nb) : start key n nb = n := by
  unfold start
  rw [List.filter_eq_self.2]
  · simp
  · intro i hi; simpa using h i (List.mem_range.1 hi)

theorem start_le (key : Nat → Nat) (n z) : start key n z ≤ n := by
  unfold start
  have := List.length_filter_le (fun i => decide (key i < z)) (List.range n)
  simpa using this

theorem F_length_mono (key : Nat → Nat) (z) {m n} (h : m ≤ n) : (F key z m).length ≤ (F key z n).length := by
  induction h with
  | refl => exact le_refl _
  | step _ ih => rw [F_succ, List.length_append]; omega

theorem bucketCount_apply (key : Nat → Nat) (N z) : bucketCount key N z = (F key z N).length := by
  unfold bucketCount
  induction N generalizing z with
  | zero => simp [F_zero]
  | succ n ih =>
    rw [List.range_succ, List.foldl_append, List.foldl_cons, List.foldl_nil, Function.update_apply, F_succ,
      List.length_append, ih, ih]
    by_cases h : key n = z
    · subst h; simp
    · have : ¬ z = key n := fun e => h e.symm
      simp [h, this]

theorem prefixSum_apply (key : Nat → Nat) (N nb : Nat) {z : Nat} (hz : z < nb) :
    prefixSum nb (bucketCount key N) z = start key N (z + 1) := by
  unfold prefixSum
  have gen : ∀ m z, (List.range m).foldl (fun b i => Function.update b (i + 1) (b (i + 1) + b i))
      (bucketCount key N) z = if z ≤ m then start key N (z + 1) else bucketCount key N z := by
    intro m
    induction m with
    | zero =>
      intro z
      by_cases hz : z = 0
      · subst hz; simp [start_succ, start_zero, bucketCount_apply]
      · simp [hz]
    | succ m ih =>
      intro z
      rw [List.range_succ, List.foldl_append, List.foldl_cons, List.foldl_nil, Function.update_apply, ih, ih, ih]
      by_cases hz : z = m + 1
      · subst hz
        simp [start_succ key N (m + 1), bucketCount_apply]; omega
      · by_cases hz2 : z ≤ m
        · have : z ≤ m + 1 := by omega
          simp [hz, hz2, this]
        · have : ¬ z ≤ m + 1 := by omega
          simp [hz, hz2, this]
  rw [gen, if_pos (by omega)]

theorem shift_apply (b : Nat → Nat) (nb z : Nat) (hz : z < nb) :
    shift nb b z = if z = 0 then 0 else b (z - 1) := by
  unfold shift
  rw [Function.update_apply]
  by_cases h0 : z = 0
  · simp [h0]
  · rw [if_neg h0, if_neg h0]
    have gen : ∀ m (c : Nat → Nat) z, (List.range m).reverse.foldl (fun b i => Function.update b (i + 1) (b i)) c z
        = if 0 < z ∧ z ≤ m then c (z - 1) else c z := by
      intro m
      induction m with
      | zero =>
        intro c z
        have : ¬ (0 < z ∧ z ≤ 0) := by omega
        rw [if_neg this]; rfl
      | succ m ih =>
        intro c z
        rw [List.range_succ, List.reverse_append]
        simp only [List.reverse_cons, List.reverse_nil, List.nil_append, List.singleton_append, List.foldl_cons]
        rw [ih]
        by_cases h1 : 0 < z ∧ z ≤ m
        · have h2 : 0 < z ∧ z ≤ m + 1 := by omega
          rw [if_pos h1, if_pos h2, Function.update_of_ne (by omega)]
        · rw [if_neg h1]
          by_cases h2 : z = m + 1
          · subst h2
            simp
          · have h3 : ¬ (0 < z ∧ z ≤ m + 1) := by omega
            rw [if_neg h3, Function.update_of_ne h2]
    rw [gen, if_pos (by omega)]

theorem buckets (key : Nat → Nat) (N nb : Nat) {z : Nat} (hz : z < nb) :
    shift nb (prefixSum nb (bucketCount key N)) z = start key N z := by
  rw [shift_apply _ _ _ hz]
  by_cases h : z = 0
  · subst h; simp [start_zero]
  · rw [if_neg h, prefixSum_apply key N nb (by omega)]
    congr 1; omega

/-- what the last loop has done after `n` iterations -/
theorem scatter_spec (data key : Nat → Nat) (N nb : Nat) (b nd nk : Nat → Nat)
    (hb : ∀ z < nb, b z = start key N z) (hk : ∀ i < N, key i < nb) (n : Nat) (hn : n ≤ N) :
    ∃ b' nd' nk', scatter data key N b nd nk n = some (b', nd', nk') ∧
      (∀ z < nb, b' z = start key N z + (F key z n).length) ∧
      (∀ z < nb, (List.range (F key z n).length).map (fun m => nd' (start key N z + m)) = (F key z n).map data) ∧
      (∀ z < nb, ∀ m < (F key z n).length, nk' (start key N z + m) = z) := by
  induction n with
  | zero =>
    refine ⟨b, nd, nk, rfl, ?_, ?_, ?_⟩
    · intro z hz; simp [F_zero, hb z hz]
    · intro z hz; simp [F_zero]
    · intro z hz m hm; simp [F_zero] at hm
  | succ n ih =>
    obtain ⟨b', nd', nk', he, h1, h2, h3⟩ := ih (by omega)
    have hkn := hk n (by omega)
    have hp := h1 _ hkn
    have hlen : (F key (key n) (n + 1)).length = (F key (key n) n).length + 1 := by simp [F_succ]
    have hmono := F_length_mono key (key n) hn
    have hss := start_succ key N (key n)
    have hle := start_le key N (key n + 1)
    have hlt : b' (key n) < N := by omega
    refine ⟨Function.update b' (key n) (b' (key n) + 1), Function.update nd' (b' (key n)) (data n),
      Function.update nk' (b' (key n)) (key n), ?_, ?_, ?_, ?_⟩
    rotate_left
    · intro z hz
      rw [Function.update_apply]
      by_cases hzk : z = key n
      · subst hzk; simp only [if_true]; omega
      · have : ¬ key n = z := fun e => hzk e.symm
        rw [if_neg hzk, h1 z hz, F_succ, if_neg this]; simp
    · intro z hz
      by_cases hzk : z = key n
      · subst hzk
        rw [hlen, List.range_succ, List.map_append, F_succ, if_pos rfl, List.map_append]
        congr 1
        · rw [← h2 _ hz]
          apply List.map_congr_left
          intro m hm
          have hm := List.mem_range.1 hm
          rw [Function.update_of_ne (by omega)]
        · simp [← hp]
      · have hkz : ¬ key n = z := fun e => hzk e.symm
        rw [F_succ, if_neg hkz, List.append_nil, ← h2 z hz]
        apply List.map_congr_left
        intro m hm
        have hm := List.mem_range.1 hm
        rw [Function.update_of_ne]
        rw [hp]
        have hz1 := start_succ key N z
        have hz2 := F_length_mono key z (m := n) (n := N) (by omega)
        rcases Nat.lt_or_gt_of_ne hzk with h | h
        · have := start_mono key N (z := z + 1) (z' := key n) (by omega); omega
        · have := start_mono key N (z := key n + 1) (z' := z) (by omega); omega
    · intro z hz m hm
      by_cases hzk : z = key n
      · subst hzk
        rw [Function.update_apply]
        split
        · rfl
        · apply h3 _ hz; omega
      · have hkz : ¬ key n = z := fun e => hzk e.symm
        rw [F_succ, if_neg hkz, List.append_nil] at hm
        rw [Function.update_of_ne]
        · exact h3 z hz m hm
        · rw [hp]
          have hz1 := start_succ key N z
          have hz2 := F_length_mono key z (m := n) (n := N) (by omega)
          rcases Nat.lt_or_gt_of_ne hzk with h | h
          · have := start_mono key N (z := z + 1) (z' := key n) (by omega); omega
          · have := start_mono key N (z := key n + 1) (z' := z) (by omega); omega
    · unfold scatter at he ⊢
      rw [List.range_succ, List.foldl_append, he]
      simp [hlt]

/-- the entries with key `t` -/
def entries (L : Links) (t : Nat) : List Nat := (F L.key t L.count).map L.data

/-- every position below `N` lies in some bucket -/
theorem bucket_of (key : Nat → Nat) (N nb p : Nat) (hk : ∀ i < N, key i < nb) (hp : p < N) :
    ∃ z < nb, start key N z ≤ p ∧ p < start key N (z + 1) := by
  have h := start_all key N nb hk
  have : ∃ z, p < start key N z := ⟨nb, by omega⟩
  classical
  let z := Nat.find this
  have h1 : p < start key N z := Nat.find_spec this
  have hz : z ≠ 0 := by
    intro e; rw [e, start_zero] at h1; omega
  have hzn : z ≤ nb := Nat.find_min' this (by omega)
  refine ⟨z - 1, by omega, ?_, ?_⟩
  · have := Nat.find_min this (m := z - 1) (by omega); omega
  · have : z - 1 + 1 = z := by omega
    rw [this]; exact h1

theorem filter_range_interval (p : Nat → Prop) [DecidablePred p] (N a c : Nat) (h : a + c ≤ N)
    (hp : ∀ i < N, p i ↔ a ≤ i ∧ i < a + c) :
    (List.range N).filter (fun i => p i) = (List.range c).map (a + ·) := by
  have e : List.range N = (List.range a) ++ ((List.range c).map (a + ·) ++ (List.range (N - a - c)).map (a + c + ·)) := by
    have e1 : N = a + (c + (N - a - c)) := by omega
    conv_lhs => rw [e1]
    rw [List.range_add, List.range_add, List.map_append, List.map_map]
    congr 2
    apply List.map_congr_left
    intro x _; simp; omega
  rw [e, List.filter_append, List.filter_append]
  have h1 : (List.range a).filter (fun i => p i) = [] := by
    rw [List.filter_eq_nil_iff]
    intro i hi
    have := List.mem_range.1 hi
    have := hp i (by omega)
    simp only [decide_eq_true_eq]; rw [this]; omega
  have h2 : ((List.range c).map (a + ·)).filter (fun i => p i) = (List.range c).map (a + ·) := by
    rw [List.filter_eq_self]
    intro i hi
    obtain ⟨j, hj, rfl⟩ := List.mem_map.1 hi
    have := List.mem_range.1 hj
    simp only [decide_eq_true_eq]
    rw [hp _ (by omega)]; omega
  have h3 : ((List.range (N - a - c)).map (a + c + ·)).filter (fun i => p i) = [] := by
    rw [List.filter_eq_nil_iff]
    intro i hi
    obtain ⟨j, hj, rfl⟩ := List.mem_map.1 hi
    have := List.mem_range.1 hj
    simp only [decide_eq_true_eq]; rw [hp _ (by omega)]; omega
  rw [h1, h2, h3]; simp

/-- The sort never accesses memory out of bounds, keeps the entries of every task in their order, and makes them
contiguous, in the order of the tasks. -/
theorem sort_spec (J : Junk) (k : Kind) (nb : Nat) (L : Links) (hk : ∀ i < L.count, L.key i < nb) :
    ∃ L', sort J k nb L = some L' ∧ L'.size = L.size ∧ L'.count = L.count ∧
      (∀ i < L'.count, L'.key i < nb) ∧
      (∀ t < nb, entries L' t = entries L t) ∧
      (∀ t < nb, (List.range (entries L t).length).map (fun m => L'.data (start L.key L.count t + m)) = entries L t) := by
  unfold sort
  by_cases h0 : L.count = 0
  · rw [if_pos h0]
    refine ⟨L, rfl, rfl, rfl, hk, fun _ _ => rfl, ?_⟩
    intro t _
    have : entries L t = [] := by simp [entries, h0, F_zero]
    rw [this]; rfl
  · rw [if_neg h0, if_pos hk]
    obtain ⟨b', nd', nk', he, h1, h2, h3⟩ := scatter_spec L.data L.key L.count nb
      (shift nb (prefixSum nb (bucketCount L.key L.count))) (J.ints k) (J.keys k)
      (fun z hz => buckets L.key L.count nb hz) hk L.count (le_refl _)
    rw [he]
    refine ⟨_, rfl, rfl, rfl, ?_, ?_, ?_⟩
    · intro i hi
      dsimp only at hi ⊢
      rw [if_pos hi]
      obtain ⟨z, hz, hs1, hs2⟩ := bucket_of L.key L.count nb i hk hi
      rw [start_succ] at hs2
      have := h3 z hz (i - start L.key L.count z) (by omega)
      rw [show start L.key L.count z + (i - start L.key L.count z) = i from by omega] at this
      omega
    · intro t ht
      unfold entries
      dsimp only
      have hst := start_succ L.key L.count t
      have hle := start_le L.key L.count (t + 1)
      have hF : F (fun i => if i < L.count then nk' i else L.key i) t L.count
          = (List.range (F L.key t L.count).length).map (start L.key L.count t + ·) := by
        unfold F
        apply filter_range_interval
        · have : (F L.key t L.count).length = _ := rfl
          unfold F at this hst
          omega
        · intro i hi
          dsimp only
          rw [if_pos hi]
          obtain ⟨z, hz, hs1, hs2⟩ := bucket_of L.key L.count nb i hk hi
          have hzs := start_succ L.key L.count z
          have := h3 z hz (i - start L.key L.count z) (by omega)
          rw [show start L.key L.count z + (i - start L.key L.count z) = i from by omega] at this
          rw [this]
          unfold F at hst
          constructor
          · rintro rfl; omega
          · intro hti
            rcases Nat.lt_trichotomy z t with h | h | h
            · have := start_mono L.key L.count (z := z + 1) (z' := t) (by omega); omega
            · exact h
            · have := start_mono L.key L.count (z := t + 1) (z' := z) (by omega)
              rw [start_succ] at this
              unfold F at this
              omega
      rw [hF, List.map_map]
      rw [← h2 t ht]
      apply List.map_congr_left
      intro m hm
      have hm := List.mem_range.1 hm
      simp only [Function.comp]
      rw [if_pos (by omega)]
    · intro t ht
      have hst := start_succ L.key L.count t
      have hle := start_le L.key L.count (t + 1)
      rw [show (entries L t).length = (F L.key t L.count).length from by simp [entries]]
      unfold entries
      rw [← h2 t ht]
      apply List.map_congr_left
      intro m hm
      have hm := List.mem_range.1 hm
      dsimp only
      rw [if_pos (by omega)]

end Verif.Store
