import Verif.Model.Interp
import Verif.Proofs.Matrix
import Mathlib.Algebra.Order.BigOperators.Group.Finset
import Mathlib.Algebra.Order.Field.Rat
import Mathlib.Tactic.Ring
import Mathlib.Tactic.Linarith
import Mathlib.Tactic.FieldSimp
import Mathlib.Tactic.NormNum

/-!
# C34 (shape averages), C35 (table look-up), C36 (locate)
-/
namespace Verif.Interp

open Finset Verif.Matrix

/-! ### C34: shape averages -/

section loops

theorem loop_pointwise {K : Type} (f : Nat → K → K) (n : Nat) (o : Nat → K) (j : Nat) :
    loop 0 n (fun it o => Function.update o it (f it (o it))) o j = if j < n then f j (o j) else o j := by
  refine loop_inv (σ := Nat → K) (fun q o' => o' j = if j < q then f j (o j) else o j) (Nat.zero_le n) _ o (by simp) ?_
  intro k s _ _ h
  by_cases e : j = k
  · subst e
    rw [Function.update_self, h, if_neg (lt_irrefl j), if_pos (Nat.lt_succ_self j)]
  · rw [Function.update_of_ne e, h]
    exact if_congr (by omega) rfl rfl

theorem loop_map {σ τ : Type} (π : σ → τ) (n : Nat) (body : Nat → σ → σ) (body' : Nat → τ → τ) (h : ∀ k s, π (body k s) = body' k (π s)) (s : σ) :
    π (loop 0 n body s) = loop 0 n body' (π s) := by
  induction n with
  | zero => rw [loop_self, loop_self]
  | succ n ih => rw [loop_succ (Nat.zero_le n), loop_succ (Nat.zero_le n), h, ih]

theorem loopO_some {σ : Type} (n : Nat) (body : Nat → σ → Option σ) (body' : Nat → σ → σ) (h : ∀ k s, k < n → body k s = some (body' k s)) (s : σ) :
    loopO n body s = some (loop 0 n body' s) := by
  unfold loopO
  induction n with
  | zero => rw [loop_self, loop_self]
  | succ n ih =>
    rw [loop_succ (Nat.zero_le n), loop_succ (Nat.zero_le n), ih fun k s hk => h k s (by omega)]
    exact h n _ (by omega)

theorem loopO_none {σ : Type} (n : Nat) (body : Nat → σ → Option σ) {i : Nat} (hi : i < n) (h : ∀ s, body i s = none) (s : σ) :
    loopO n body s = none := by
  unfold loopO
  induction n with
  | zero => omega
  | succ n ih =>
    rw [loop_succ (Nat.zero_le n)]
    by_cases e : i = n
    · subst e
      generalize loop 0 i _ _ = o
      cases o
      · rfl
      · exact h _
    · rw [ih (by omega)]; rfl

end loops

variable {K : Type} [Field K]

/-- accumulating a weighted sum over the shapes for one array -/
theorem accumulate (ntheta nshape : Nat) (w : Nat → K) (x : Nat → Nat → K) (o : Nat → K) (j : Nat) :
    loop 0 nshape (fun i o => loop 0 ntheta (fun it o => Function.update o it (o it + w i * x i it)) o) o j
      = if j < ntheta then o j + ∑ i ∈ range nshape, w i * x i j else o j := by
  refine loop_inv (σ := Nat → K) (fun q o' => o' j = if j < ntheta then o j + ∑ i ∈ range q, w i * x i j else o j) (Nat.zero_le nshape) _ o
    (by simp) ?_
  intro k s _ _ h
  have := loop_pointwise (fun it v => v + w k * x k it) ntheta s j
  rw [this, h]
  by_cases hj : j < ntheta
  · simp only [if_pos hj, sum_range_succ, add_assoc]
  · simp only [if_neg hj]

/-- reset, accumulate, normalise for one array -/
theorem average_array (ntheta nshape : Nat) (w : Nat → K) (x : Nat → Nat → K) (o : Nat → K) (norm : K) (j : Nat) :
    loop 0 ntheta (fun it o => Function.update o it (o it * (1 / norm)))
      (loop 0 nshape (fun i o => loop 0 ntheta (fun it o => Function.update o it (o it + w i * x i it)) o)
        (loop 0 ntheta (fun it o => Function.update o it 0) o)) j
      = if j < ntheta then (∑ i ∈ range nshape, w i * x i j) / norm else o j := by
  rw [loop_pointwise (fun _ v => v * (1 / norm)), accumulate, loop_pointwise (fun _ _ => (0 : K))]
  by_cases hj : j < ntheta
  · simp only [if_pos hj, zero_add]; rw [mul_one_div]
  · simp only [if_neg hj]

theorem norm_loop {σ : Type} (n : Nat) (w : Nat → K) (body : Nat → σ → σ) (s : σ) :
    loop 0 n (fun i (s : K × σ) => (s.1 + w i, body i s.2)) (0, s) = (∑ i ∈ range n, w i, loop 0 n body s) := by
  induction n with
  | zero => rw [loop_self, loop_self]; simp
  | succ n ih => rw [loop_succ (Nat.zero_le n), loop_succ (Nat.zero_le n), ih, sum_range_succ]

/-- **C34** (absorption) if every shape has its input, every averaged coefficient is the weighted mean of the inputs with the weights
of the distribution, whatever was in the output; other elements are not touched. -/
theorem c34_absorption (ntheta nshape : Nat) (w : Nat → K) (inp : Nat → AbsRes K) (inputs : Nat → Option (AbsRes K))
    (hin : ∀ i, i < nshape → inputs i = some (inp i)) (out : AbsRes K) (_hw : ∑ i ∈ range nshape, w i ≠ 0) :
    ∃ r, averageAbs ntheta nshape w inputs out = some r
      ∧ (∀ it, it < ntheta → r.Qabs it = (∑ i ∈ range nshape, w i * (inp i).Qabs it) / ∑ i ∈ range nshape, w i
        ∧ r.Qabspol it = (∑ i ∈ range nshape, w i * (inp i).Qabspol it) / ∑ i ∈ range nshape, w i)
      ∧ ∀ it, ntheta ≤ it → r.Qabs it = out.Qabs it ∧ r.Qabspol it = out.Qabspol it := by
  unfold averageAbs
  dsimp only
  rw [loopO_some nshape _ (fun i (s : K × AbsRes K) => (s.1 + w i, loop 0 ntheta (fun it o =>
      ⟨Function.update o.Qabs it (o.Qabs it + w i * (inp i).Qabs it), Function.update o.Qabspol it (o.Qabspol it + w i * (inp i).Qabspol it)⟩) s.2))
    (fun i s hi => by rw [hin i hi]; rfl), norm_loop]
  refine ⟨_, rfl, ?_⟩
  have e1 : ∀ j, _ := fun j => average_array ntheta nshape w (fun i => (inp i).Qabs) out.Qabs (∑ i ∈ range nshape, w i) j
  have e2 : ∀ j, _ := fun j => average_array ntheta nshape w (fun i => (inp i).Qabspol) out.Qabspol (∑ i ∈ range nshape, w i) j
  have p1 : ∀ s : AbsRes K, AbsRes.Qabs (loop 0 ntheta (fun it o => ⟨Function.update o.Qabs it (o.Qabs it * (1 / ∑ i ∈ range nshape, w i)),
      Function.update o.Qabspol it (o.Qabspol it * (1 / ∑ i ∈ range nshape, w i))⟩) s)
      = loop 0 ntheta (fun it o => Function.update o it (o it * (1 / ∑ i ∈ range nshape, w i))) s.Qabs :=
    fun s => loop_map AbsRes.Qabs _ _ _ (fun _ _ => rfl) s
  have p2 : ∀ s : AbsRes K, AbsRes.Qabspol (loop 0 ntheta (fun it o => ⟨Function.update o.Qabs it (o.Qabs it * (1 / ∑ i ∈ range nshape, w i)),
      Function.update o.Qabspol it (o.Qabspol it * (1 / ∑ i ∈ range nshape, w i))⟩) s)
      = loop 0 ntheta (fun it o => Function.update o it (o it * (1 / ∑ i ∈ range nshape, w i))) s.Qabspol :=
    fun s => loop_map AbsRes.Qabspol _ _ _ (fun _ _ => rfl) s
  have q1 : ∀ s : AbsRes K, AbsRes.Qabs (loop 0 nshape (fun i o => loop 0 ntheta (fun it o => ⟨Function.update o.Qabs it (o.Qabs it + w i * (inp i).Qabs it),
      Function.update o.Qabspol it (o.Qabspol it + w i * (inp i).Qabspol it)⟩) o) s)
      = loop 0 nshape (fun i o => loop 0 ntheta (fun it o => Function.update o it (o it + w i * (inp i).Qabs it)) o) s.Qabs :=
    fun s => loop_map AbsRes.Qabs _ _ _ (fun _ _ => loop_map AbsRes.Qabs _ _ _ (fun _ _ => rfl) _) s
  have q2 : ∀ s : AbsRes K, AbsRes.Qabspol (loop 0 nshape (fun i o => loop 0 ntheta (fun it o => ⟨Function.update o.Qabs it (o.Qabs it + w i * (inp i).Qabs it),
      Function.update o.Qabspol it (o.Qabspol it + w i * (inp i).Qabspol it)⟩) o) s)
      = loop 0 nshape (fun i o => loop 0 ntheta (fun it o => Function.update o it (o it + w i * (inp i).Qabspol it)) o) s.Qabspol :=
    fun s => loop_map AbsRes.Qabspol _ _ _ (fun _ _ => loop_map AbsRes.Qabspol _ _ _ (fun _ _ => rfl) _) s
  have z1 : AbsRes.Qabs (loop 0 ntheta (fun it o => ⟨Function.update o.Qabs it 0, Function.update o.Qabspol it 0⟩) out)
      = loop 0 ntheta (fun it o => Function.update o it 0) out.Qabs := loop_map AbsRes.Qabs _ _ _ (fun _ _ => rfl) out
  have z2 : AbsRes.Qabspol (loop 0 ntheta (fun it o => ⟨Function.update o.Qabs it 0, Function.update o.Qabspol it 0⟩) out)
      = loop 0 ntheta (fun it o => Function.update o it 0) out.Qabspol := loop_map AbsRes.Qabspol _ _ _ (fun _ _ => rfl) out
  dsimp only
  constructor
  · intro it hit
    rw [p1, q1, z1, p2, q2, z2, e1, e2, if_pos hit, if_pos hit]
    exact ⟨rfl, rfl⟩
  · intro it hit
    rw [p1, q1, z1, p2, q2, z2, e1, e2, if_neg (by omega), if_neg (by omega)]
    exact ⟨rfl, rfl⟩

/-- **C34** (extinction) -/
theorem c34_extinction (ntheta nshape : Nat) (w : Nat → K) (inp : Nat → ExtRes K) (inputs : Nat → Option (ExtRes K))
    (hin : ∀ i, i < nshape → inputs i = some (inp i)) (out : ExtRes K) (_hw : ∑ i ∈ range nshape, w i ≠ 0) :
    ∃ r, averageExt ntheta nshape w inputs out = some r
      ∧ (∀ it, it < ntheta → r.Qext it = (∑ i ∈ range nshape, w i * (inp i).Qext it) / ∑ i ∈ range nshape, w i
        ∧ r.Qextpol it = (∑ i ∈ range nshape, w i * (inp i).Qextpol it) / ∑ i ∈ range nshape, w i
        ∧ r.Qextcpol it = (∑ i ∈ range nshape, w i * (inp i).Qextcpol it) / ∑ i ∈ range nshape, w i)
      ∧ ∀ it, ntheta ≤ it → r.Qext it = out.Qext it ∧ r.Qextpol it = out.Qextpol it ∧ r.Qextcpol it = out.Qextcpol it := by
  unfold averageExt
  dsimp only
  rw [loopO_some nshape _ (fun i (s : K × ExtRes K) => (s.1 + w i, loop 0 ntheta (fun it o =>
      ⟨Function.update o.Qext it (o.Qext it + w i * (inp i).Qext it), Function.update o.Qextpol it (o.Qextpol it + w i * (inp i).Qextpol it),
        Function.update o.Qextcpol it (o.Qextcpol it + w i * (inp i).Qextcpol it)⟩) s.2))
    (fun i s hi => by rw [hin i hi]; rfl), norm_loop]
  refine ⟨_, rfl, ?_⟩
  have key : ∀ (π : ExtRes K → Nat → K)
      (_h0 : ∀ (o : ExtRes K) it, π ⟨Function.update o.Qext it 0, Function.update o.Qextpol it 0, Function.update o.Qextcpol it 0⟩ = Function.update (π o) it 0)
      (_h1 : ∀ (o : ExtRes K) i it, π ⟨Function.update o.Qext it (o.Qext it + w i * (inp i).Qext it), Function.update o.Qextpol it (o.Qextpol it + w i * (inp i).Qextpol it),
        Function.update o.Qextcpol it (o.Qextcpol it + w i * (inp i).Qextcpol it)⟩ = Function.update (π o) it (π o it + w i * π (inp i) it))
      (_h2 : ∀ (o : ExtRes K) it c, π ⟨Function.update o.Qext it (o.Qext it * c), Function.update o.Qextpol it (o.Qextpol it * c), Function.update o.Qextcpol it (o.Qextcpol it * c)⟩
        = Function.update (π o) it (π o it * c)) (j : Nat),
      π (loop 0 ntheta (fun it o => ⟨Function.update o.Qext it (o.Qext it * (1 / ∑ i ∈ range nshape, w i)),
        Function.update o.Qextpol it (o.Qextpol it * (1 / ∑ i ∈ range nshape, w i)), Function.update o.Qextcpol it (o.Qextcpol it * (1 / ∑ i ∈ range nshape, w i))⟩)
        (loop 0 nshape (fun i o => loop 0 ntheta (fun it o => ⟨Function.update o.Qext it (o.Qext it + w i * (inp i).Qext it), Function.update o.Qextpol it (o.Qextpol it + w i * (inp i).Qextpol it),
        Function.update o.Qextcpol it (o.Qextcpol it + w i * (inp i).Qextcpol it)⟩) o)
        (loop 0 ntheta (fun it o => ⟨Function.update o.Qext it 0, Function.update o.Qextpol it 0, Function.update o.Qextcpol it 0⟩) out))) j
      = if j < ntheta then (∑ i ∈ range nshape, w i * π (inp i) j) / (∑ i ∈ range nshape, w i) else π out j := by
    intro π h0 h1 h2 j
    rw [loop_map π ntheta _ (fun it o => Function.update o it (o it * (1 / ∑ i ∈ range nshape, w i))) (fun _ _ => h2 _ _ _),
      loop_map π nshape _ (fun i o => loop 0 ntheta (fun it o => Function.update o it (o it + w i * π (inp i) it)) o)
        (fun i s => loop_map π ntheta _ _ (fun _ _ => h1 _ _ _) _),
      loop_map π ntheta _ (fun it o => Function.update o it 0) (fun _ _ => h0 _ _)]
    exact average_array ntheta nshape w (fun i => π (inp i)) (π out) _ j
  have e1 := key ExtRes.Qext (fun _ _ => rfl) (fun _ _ _ => rfl) (fun _ _ _ => rfl)
  have e2 := key ExtRes.Qextpol (fun _ _ => rfl) (fun _ _ _ => rfl) (fun _ _ _ => rfl)
  have e3 := key ExtRes.Qextcpol (fun _ _ => rfl) (fun _ _ _ => rfl) (fun _ _ _ => rfl)
  dsimp only
  constructor
  · intro it hit
    rw [e1, e2, e3, if_pos hit, if_pos hit, if_pos hit]
    exact ⟨rfl, rfl, rfl⟩
  · intro it hit
    rw [e1, e2, e3, if_neg (by omega), if_neg (by omega), if_neg (by omega)]
    exact ⟨rfl, rfl, rfl⟩

omit [Field K] in
theorem loop_elements (f : Nat → Nat → Nat → K → K) (nmat : Nat) (o : Nat → Nat → Nat → K) (a b c : Nat) :
    loop 0 nmat (fun imat o => loop 0 4 (fun i o => loop 0 4 (fun j o => setM o imat i j (f imat i j (o imat i j))) o) o) o a b c
      = if a < nmat ∧ b < 4 ∧ c < 4 then f a b c (o a b c) else o a b c := by
  refine loop_inv (σ := Nat → Nat → Nat → K) (fun q o' => o' a b c = if a < q ∧ b < 4 ∧ c < 4 then f a b c (o a b c) else o a b c)
    (Nat.zero_le nmat) _ o (by simp) ?_
  intro imat s _ _ h1
  have I1 : ∀ s : Nat → Nat → Nat → K, loop 0 4 (fun i o => loop 0 4 (fun j o => setM o imat i j (f imat i j (o imat i j))) o) s a b c
      = if a = imat ∧ b < 4 ∧ c < 4 then f a b c (s a b c) else s a b c := by
    intro s
    refine loop_inv (σ := Nat → Nat → Nat → K) (fun q o' => o' a b c = if a = imat ∧ b < q ∧ c < 4 then f a b c (s a b c) else s a b c)
      (Nat.zero_le 4) _ s (by simp) ?_
    intro i s1 _ _ h2
    have I2 : ∀ s : Nat → Nat → Nat → K, loop 0 4 (fun j o => setM o imat i j (f imat i j (o imat i j))) s a b c
        = if a = imat ∧ b = i ∧ c < 4 then f a b c (s a b c) else s a b c := by
      intro s
      refine loop_inv (σ := Nat → Nat → Nat → K) (fun q o' => o' a b c = if a = imat ∧ b = i ∧ c < q then f a b c (s a b c) else s a b c)
        (Nat.zero_le 4) _ s (by simp) ?_
      intro j s2 _ _ h3
      unfold setM
      by_cases e : a = imat ∧ b = i ∧ c = j
      · obtain ⟨rfl, rfl, rfl⟩ := e
        rw [if_pos ⟨rfl, rfl, rfl⟩, h3, if_neg (by omega), if_pos ⟨rfl, rfl, by omega⟩]
      · rw [if_neg e, h3]; exact if_congr (by omega) rfl rfl
    rw [I2, h2]
    by_cases e : a = imat ∧ b = i ∧ c < 4
    · rw [if_pos e, if_neg (by omega), if_pos (by omega)]
    · rw [if_neg e]; exact if_congr (by omega) rfl rfl
  rw [I1, h1]
  by_cases e : a = imat ∧ b < 4 ∧ c < 4
  · rw [if_pos e, if_neg (by omega), if_pos (by omega)]
  · rw [if_neg e]; exact if_congr (by omega) rfl rfl

/-- **C34** (scattering matrices) -/
theorem c34_scattering (nmat nshape : Nat) (w : Nat → K) (inp : Nat → Nat → Nat → Nat → K) (inputs : Nat → Option (Nat → Nat → Nat → K))
    (hin : ∀ i, i < nshape → inputs i = some (inp i)) (out : Nat → Nat → Nat → K) (_hw : ∑ i ∈ range nshape, w i ≠ 0) :
    ∃ r, averageScat nmat nshape w inputs out = some r
      ∧ (∀ imat a b, imat < nmat → a < 4 → b < 4 → r imat a b = (∑ i ∈ range nshape, w i * inp i imat a b) / ∑ i ∈ range nshape, w i)
      ∧ ∀ imat a b, ¬ (imat < nmat ∧ a < 4 ∧ b < 4) → r imat a b = out imat a b := by
  unfold averageScat
  dsimp only
  rw [loopO_some nshape _ (fun i (s : K × (Nat → Nat → Nat → K)) => (s.1 + w i, loop 0 nmat (fun imat o => loop 0 4 (fun a o => loop 0 4 (fun b o =>
      setM o imat a b (o imat a b + w i * inp i imat a b)) o) o) s.2)) (fun i s hi => by rw [hin i hi]; rfl), norm_loop]
  refine ⟨_, rfl, ?_⟩
  have key : ∀ a b c, loop 0 nmat (fun imat o => loop 0 4 (fun i o => loop 0 4 (fun j o => setM o imat i j (o imat i j * (1 / ∑ i ∈ range nshape, w i))) o) o)
      (loop 0 nshape (fun i o => loop 0 nmat (fun imat o => loop 0 4 (fun a o => loop 0 4 (fun b o => setM o imat a b (o imat a b + w i * inp i imat a b)) o) o) o)
        (loop 0 nmat (fun imat o => loop 0 4 (fun i o => loop 0 4 (fun j o => setM o imat i j 0) o) o) out)) a b c
      = if a < nmat ∧ b < 4 ∧ c < 4 then (∑ i ∈ range nshape, w i * inp i a b c) / (∑ i ∈ range nshape, w i) else out a b c := by
    intro a b c
    rw [loop_elements (fun _ _ _ v => v * (1 / ∑ i ∈ range nshape, w i))]
    have A : ∀ o : Nat → Nat → Nat → K, loop 0 nshape (fun i o => loop 0 nmat (fun imat o => loop 0 4 (fun a o => loop 0 4 (fun b o =>
        setM o imat a b (o imat a b + w i * inp i imat a b)) o) o) o) o a b c
        = if a < nmat ∧ b < 4 ∧ c < 4 then o a b c + ∑ i ∈ range nshape, w i * inp i a b c else o a b c := by
      intro o
      refine loop_inv (σ := Nat → Nat → Nat → K) (fun q o' => o' a b c = if a < nmat ∧ b < 4 ∧ c < 4 then o a b c + ∑ i ∈ range q, w i * inp i a b c else o a b c)
        (Nat.zero_le nshape) _ o (by simp) ?_
      intro k s _ _ h
      rw [loop_elements (fun imat a b v => v + w k * inp k imat a b), h]
      by_cases hj : a < nmat ∧ b < 4 ∧ c < 4
      · simp only [if_pos hj, sum_range_succ, add_assoc]
      · simp only [if_neg hj]
    rw [A, loop_elements (fun _ _ _ _ => (0 : K))]
    by_cases hj : a < nmat ∧ b < 4 ∧ c < 4
    · simp only [if_pos hj, zero_add]; rw [mul_one_div]
    · simp only [if_neg hj]
  dsimp only
  constructor
  · intro imat a b h1 h2 h3
    rw [key, if_pos ⟨h1, h2, h3⟩]
  · intro imat a b h
    rw [key, if_neg h]

/-- a shape without input: a null pointer is used -/
theorem c34_missing (ntheta nshape : Nat) (w : Nat → K) (inputs : Nat → Option (AbsRes K)) {i : Nat} (hi : i < nshape) (h : inputs i = none) (out : AbsRes K) :
    averageAbs ntheta nshape w inputs out = none := by
  unfold averageAbs
  dsimp only
  rw [loopO_none nshape _ hi (fun s => by rw [h]; rfl)]
  rfl

omit [Field K] in
/-- the inputs added for all shapes are the ones that are averaged -/
theorem c34_inputs {R : Type} (r : Nat → R) (nshape : Nat) (i : Nat) (hi : i < nshape) :
    (List.range nshape).foldl (fun inputs k => addInput inputs k (r k)) (fun _ => none) i = some (r i) := by
  induction nshape with
  | zero => omega
  | succ n ih =>
    rw [List.range_succ, List.foldl_append]
    change addInput _ n (r n) i = _
    unfold addInput
    by_cases e : i = n
    · subst e; exact Function.update_self _ _ _
    · rw [Function.update_of_ne e]; exact ih (by omega)

/-- **C34** a weighted mean with non-negative weights lies between the smallest and the largest input -/
theorem c34_bounds [LinearOrder K] [IsStrictOrderedRing K] (n : Nat) (w x : Nat → K) (lo hi : K) (hw : ∀ i, i < n → 0 ≤ w i) (hs : ∑ i ∈ range n, w i ≠ 0)
    (hx : ∀ i, i < n → lo ≤ x i ∧ x i ≤ hi) :
    lo ≤ (∑ i ∈ range n, w i * x i) / ∑ i ∈ range n, w i ∧ (∑ i ∈ range n, w i * x i) / ∑ i ∈ range n, w i ≤ hi := by
  have pos : 0 < ∑ i ∈ range n, w i := lt_of_le_of_ne (sum_nonneg fun i hi => hw i (mem_range.mp hi)) (Ne.symm hs)
  rw [le_div_iff₀ pos, div_le_iff₀ pos, mul_sum, mul_sum]
  constructor
  · apply sum_le_sum
    intro i hi'
    rw [mul_comm]
    exact mul_le_mul_of_nonneg_left (hx i (mem_range.mp hi')).1 (hw i (mem_range.mp hi'))
  · apply sum_le_sum
    intro i hi'
    rw [mul_comm hi]
    exact mul_le_mul_of_nonneg_left (hx i (mem_range.mp hi')).2 (hw i (mem_range.mp hi'))

/-- **C34** with a single shape the average is the input -/
theorem c34_single (w x : Nat → K) (h : w 0 ≠ 0) : (∑ i ∈ range 1, w i * x i) / ∑ i ∈ range 1, w i = x 0 := by
  rw [sum_range_one, sum_range_one, mul_comm, mul_div_assoc, div_self h, mul_one]

example : (∑ i ∈ range 2, (if i = 0 then (1 : Rat) else 3) ≠ 0)
    ∧ (averageAbs 1 2 (fun i => if i = 0 then (1 : Rat) else 3) (fun i => some ⟨fun _ => i, fun _ => 2⟩) ⟨fun _ => 7, fun _ => 7⟩).map (fun r => (r.Qabs 0, r.Qabspol 0, r.Qabs 1))
      = some (3 / 4, 2, 7) := by
  constructor
  · decide +kernel
  · decide +kernel

/-! ### C35: table look-up -/

theorem bisect_spec (p : Nat → Bool) : ∀ (d ilow ihigh : Nat), ihigh - ilow ≤ d → ilow < ihigh →
    let r := bisect p ilow ihigh
    r.2 = r.1 + 1 ∧ ilow ≤ r.1 ∧ r.2 ≤ ihigh ∧ (r.1 = ilow ∨ p r.1 = true) ∧ (r.2 = ihigh ∨ p r.2 = false) := by
  intro d
  induction d with
  | zero => intro ilow ihigh h h'; omega
  | succ d ih =>
    intro ilow ihigh h h'
    rw [bisect]
    by_cases e : ilow + 1 = ihigh
    · rw [if_pos e]
      dsimp only
      exact ⟨by omega, le_rfl, le_rfl, Or.inl rfl, Or.inl rfl⟩
    · rw [if_neg e, if_pos (by omega)]
      dsimp only
      cases hp : p ((ilow + ihigh) / 2)
      · rw [if_neg (by simp)]
        obtain ⟨a, b, c, d', f⟩ := ih ilow ((ilow + ihigh) / 2) (by omega) (by omega)
        refine ⟨a, b, by omega, d', Or.inr ?_⟩
        rcases f with f | f
        · rw [f]; exact hp
        · exact f
      · rw [if_pos rfl]
        obtain ⟨a, b, c, d', f⟩ := ih ((ilow + ihigh) / 2) ihigh (by omega) (by omega)
        refine ⟨a, by omega, c, Or.inr ?_, f⟩
        rcases d' with g | g
        · rw [g]; exact hp
        · exact g

section table

variable [LinearOrder K] [IsStrictOrderedRing K]

/-- linear interpolation of all columns between two rows -/
def interpolated (rows : Nat → Nat → K) (col i : Nat) (x : K) : Nat → K := fun c =>
  rows i c + (x - rows i col) / (rows (i + 1) col - rows i col) * (rows (i + 1) c - rows i c)

/-- **C35** looking up a value inside the range of a strictly ascending or strictly descending table gives the linear
interpolation between two consecutive rows that bracket the value, with or without assertions. -/
theorem c35_inside (rows : Nat → Nat → K) {size col : Nat} (hs : 2 ≤ size) (asserts : Bool) (x : K)
    (h : ((∀ i j, i < j → j < size → rows i col < rows j col) ∧ rows 0 col ≤ x ∧ x ≤ rows (size - 1) col)
      ∨ ((∀ i j, i < j → j < size → rows j col < rows i col) ∧ rows (size - 1) col ≤ x ∧ x ≤ rows 0 col)) :
    ∃ i, i + 1 < size ∧ ((rows i col ≤ x ∧ x ≤ rows (i + 1) col) ∨ (rows (i + 1) col ≤ x ∧ x ≤ rows i col))
      ∧ getRow rows size col asserts x = .row (interpolated rows col i x) := by
  have fold : ∀ i, (fun c => (1 - (x - rows i col) / (rows (i + 1) col - rows i col)) * rows i c
      + (x - rows i col) / (rows (i + 1) col - rows i col) * rows (i + 1) c) = interpolated rows col i x := by
    intro i; funext c; unfold interpolated; ring
  rcases h with ⟨hm, h0, h1⟩ | ⟨hm, h0, h1⟩
  · obtain ⟨a, b, c, d, e⟩ := bisect_spec (fun inext => decide (rows inext col ≤ x)) size 0 (size - 1) (by omega) (by omega)
    unfold getRow
    rw [if_neg (by omega)]
    dsimp only
    rw [if_pos (hm 0 (size - 1) (by omega) (by omega))]
    generalize bisect (fun inext => decide (rows inext col ≤ x)) 0 (size - 1) = r at a b c d e
    obtain ⟨i, j⟩ := r
    dsimp only at a b c d e ⊢
    subst a
    have hi : rows i col ≤ x := by
      rcases d with d | d
      · rw [d]; exact h0
      · exact of_decide_eq_true d
    have hj : x ≤ rows (i + 1) col := by
      rcases e with e | e
      · rw [e]; exact h1
      · exact (not_le.mp (of_decide_eq_false e)).le
    refine ⟨i, by omega, Or.inl ⟨hi, hj⟩, ?_⟩
    rw [if_neg (by rintro ⟨_, g⟩; exact g ⟨hi, hj⟩), fold]
  · obtain ⟨a, b, c, d, e⟩ := bisect_spec (fun inext => decide (rows inext col ≥ x)) size 0 (size - 1) (by omega) (by omega)
    unfold getRow
    rw [if_neg (by omega)]
    dsimp only
    rw [if_neg (hm 0 (size - 1) (by omega) (by omega)).not_gt, if_pos (hm 0 (size - 1) (by omega) (by omega))]
    generalize bisect (fun inext => decide (rows inext col ≥ x)) 0 (size - 1) = r at a b c d e
    obtain ⟨i, j⟩ := r
    dsimp only at a b c d e ⊢
    subst a
    have hi : x ≤ rows i col := by
      rcases d with d | d
      · rw [d]; exact h1
      · exact of_decide_eq_true d
    have hj : rows (i + 1) col ≤ x := by
      rcases e with e | e
      · rw [e]; exact h0
      · exact (not_le.mp (of_decide_eq_false e)).le
    refine ⟨i, by omega, Or.inr ⟨hj, hi⟩, ?_⟩
    rw [if_neg (by rintro ⟨_, g⟩; exact g ⟨hi, hj⟩), fold]

/-- **C35** the interpolated row lies between the two rows in every column ... -/
theorem c35_between (rows : Nat → Nat → K) (col i : Nat) (x : K) (hne : rows i col ≠ rows (i + 1) col)
    (h : (rows i col ≤ x ∧ x ≤ rows (i + 1) col) ∨ (rows (i + 1) col ≤ x ∧ x ≤ rows i col)) (c : Nat) :
    min (rows i c) (rows (i + 1) c) ≤ interpolated rows col i x c ∧ interpolated rows col i x c ≤ max (rows i c) (rows (i + 1) c) := by
  unfold interpolated
  set t := (x - rows i col) / (rows (i + 1) col - rows i col) with ht
  have h0 : 0 ≤ t ∧ t ≤ 1 := by
    rcases h with ⟨a, b⟩ | ⟨a, b⟩
    · have pos : 0 < rows (i + 1) col - rows i col := sub_pos.mpr (lt_of_le_of_ne (a.trans b) hne)
      exact ⟨div_nonneg (sub_nonneg.mpr a) pos.le, by rw [ht, div_le_one pos]; linarith⟩
    · have neg : rows (i + 1) col - rows i col < 0 := sub_neg.mpr (lt_of_le_of_ne (a.trans b) (Ne.symm hne))
      exact ⟨div_nonneg_of_nonpos (by linarith) neg.le, by rw [ht, div_le_one_of_neg neg]; linarith⟩
  rcases le_total (rows i c) (rows (i + 1) c) with g | g
  · rw [min_eq_left g, max_eq_right g]
    constructor <;> nlinarith [h0.1, h0.2, mul_nonneg h0.1 (sub_nonneg.mpr g), mul_nonneg (sub_nonneg.mpr h0.2) (sub_nonneg.mpr g)]
  · rw [min_eq_right g, max_eq_left g]
    constructor <;> nlinarith [h0.1, h0.2, mul_nonneg h0.1 (sub_nonneg.mpr g), mul_nonneg (sub_nonneg.mpr h0.2) (sub_nonneg.mpr g)]

omit [LinearOrder K] [IsStrictOrderedRing K] in
/-- ... its abscissa is the value that was looked up, and at a tabulated value it is the tabulated row. -/
theorem c35_nodes (rows : Nat → Nat → K) (col i : Nat) (x : K) (hne : rows i col ≠ rows (i + 1) col) :
    interpolated rows col i x col = x ∧ (x = rows i col → interpolated rows col i x = rows i)
    ∧ (x = rows (i + 1) col → interpolated rows col i x = rows (i + 1)) := by
  have h : rows (i + 1) col - rows i col ≠ 0 := sub_ne_zero.mpr (Ne.symm hne)
  refine ⟨?_, ?_, ?_⟩
  · unfold interpolated; rw [div_mul_cancel₀ _ h]; ring
  · intro e; funext c; unfold interpolated; rw [e, sub_self, zero_div, zero_mul, add_zero]
  · intro e; funext c; unfold interpolated; rw [e, div_self h, one_mul]; ring

/-- **C35** the row of a tabulated value is found exactly, for every row of the table -/
theorem c35_exact (rows : Nat → Nat → K) {size col : Nat} (hs : 2 ≤ size) (asserts : Bool)
    (h : (∀ i j, i < j → j < size → rows i col < rows j col) ∨ (∀ i j, i < j → j < size → rows j col < rows i col)) {k : Nat} (hk : k < size) :
    getRow rows size col asserts (rows k col) = .row (rows k) := by
  have inj : ∀ i j, i < size → j < size → rows i col = rows j col → i = j := by
    intro i j hi hj e
    rcases h with h | h
    · rcases lt_trichotomy i j with g | g | g
      · exact absurd e (h i j g hj).ne
      · exact g
      · exact absurd e (h j i g hi).ne'
    · rcases lt_trichotomy i j with g | g | g
      · exact absurd e (h i j g hj).ne'
      · exact g
      · exact absurd e (h j i g hi).ne
  have hin : ((∀ i j, i < j → j < size → rows i col < rows j col) ∧ rows 0 col ≤ rows k col ∧ rows k col ≤ rows (size - 1) col)
      ∨ ((∀ i j, i < j → j < size → rows j col < rows i col) ∧ rows (size - 1) col ≤ rows k col ∧ rows k col ≤ rows 0 col) := by
    rcases h with h | h
    · refine Or.inl ⟨h, ?_, ?_⟩
      · rcases Nat.eq_zero_or_pos k with e | e
        · rw [e]
        · exact (h 0 k e hk).le
      · rcases Nat.lt_or_ge k (size - 1) with e | e
        · exact (h k (size - 1) e (by omega)).le
        · rw [show k = size - 1 by omega]
    · refine Or.inr ⟨h, ?_, ?_⟩
      · rcases Nat.lt_or_ge k (size - 1) with e | e
        · exact (h k (size - 1) e (by omega)).le
        · rw [show k = size - 1 by omega]
      · rcases Nat.eq_zero_or_pos k with e | e
        · rw [e]
        · exact (h 0 k e hk).le
  obtain ⟨i, h1, h2, h3⟩ := c35_inside rows hs asserts (rows k col) hin
  have hne : rows i col ≠ rows (i + 1) col := fun e => by have := inj i (i + 1) (by omega) h1 e; omega
  rw [h3]
  have hk' : k = i ∨ k = i + 1 := by
    by_contra hc
    push Not at hc
    rcases h with h | h
    · rcases h2 with ⟨a, b⟩ | ⟨a, b⟩
      · rcases Nat.lt_or_ge k i with g | g
        · exact absurd a (not_le.mpr (h k i g (by omega)))
        · exact absurd b (not_le.mpr (h (i + 1) k (by omega) hk))
      · exact absurd (a.trans b) (not_le.mpr (h i (i + 1) (by omega) h1))
    · rcases h2 with ⟨a, b⟩ | ⟨a, b⟩
      · exact absurd (a.trans b) (not_le.mpr (h i (i + 1) (by omega) h1))
      · rcases Nat.lt_or_ge k i with g | g
        · exact absurd b (not_le.mpr (h k i g (by omega)))
        · exact absurd a (not_le.mpr (h (i + 1) k (by omega) hk))
  rcases hk' with e | e
  · rw [(c35_nodes rows col i (rows k col) hne).2.1 (by rw [e]), e]
  · rw [(c35_nodes rows col i (rows k col) hne).2.2 (by rw [e]), e]

/-- **C35** outside the range: rejected if assertions are active, otherwise extrapolated from the interval at that end -/
theorem c35_outside (rows : Nat → Nat → K) {size col : Nat} (hs : 2 ≤ size) (x : K)
    (hm : ∀ i j, i < j → j < size → rows i col < rows j col) :
    (x < rows 0 col → getRow rows size col true x = .assertion ∧ getRow rows size col false x = .row (interpolated rows col 0 x))
    ∧ (rows (size - 1) col < x → getRow rows size col true x = .assertion
      ∧ getRow rows size col false x = .row (interpolated rows col (size - 2) x)) := by
  have fold : ∀ i, (fun c => (1 - (x - rows i col) / (rows (i + 1) col - rows i col)) * rows i c
      + (x - rows i col) / (rows (i + 1) col - rows i col) * rows (i + 1) c) = interpolated rows col i x := by
    intro i; funext c; unfold interpolated; ring
  obtain ⟨a, b, c, d, e⟩ := bisect_spec (fun inext => decide (rows inext col ≤ x)) size 0 (size - 1) (by omega) (by omega)
  have mono : ∀ i j, i ≤ j → j < size → rows i col ≤ rows j col := by
    intro i j hij hj
    rcases Nat.lt_or_ge i j with g | g
    · exact (hm i j g hj).le
    · rw [show i = j by omega]
  unfold getRow
  simp only [if_neg (show ¬ size = 0 by omega), if_pos (hm 0 (size - 1) (by omega) (by omega))]
  generalize bisect (fun inext => decide (rows inext col ≤ x)) 0 (size - 1) = r at a b c d e ⊢
  obtain ⟨i, j⟩ := r
  dsimp only at a b c d e ⊢
  subst a
  constructor
  · intro hx
    have i0 : i = 0 := by
      rcases d with d | d
      · exact d
      · exact absurd (lt_of_lt_of_le hx (mono 0 i (by omega) (by omega))) (not_lt.mpr (of_decide_eq_true d))
    subst i0
    rw [if_pos ⟨trivial, fun g => absurd g.1 (not_le.mpr hx)⟩, if_neg (by rintro ⟨g, _⟩; exact absurd g (by decide)), fold]
    exact ⟨rfl, rfl⟩
  · intro hx
    have i0 : i = size - 2 := by
      rcases e with e | e
      · omega
      · exact absurd (of_decide_eq_false e) (not_not.mpr ((mono (i + 1) (size - 1) (by omega) (by omega)).trans hx.le))
    rw [if_pos ⟨trivial, fun g => absurd (g.2.trans (mono (i + 1) (size - 1) (by omega) (by omega))) (not_le.mpr hx)⟩,
      if_neg (by rintro ⟨g, _⟩; exact absurd g (by decide)), fold, i0]
    exact ⟨rfl, rfl⟩

/-- a table of which the end points coincide (in particular a table of one row) is rejected, an empty one is not handled -/
theorem c35_degenerate (rows : Nat → Nat → K) (size col : Nat) (asserts : Bool) (x : K) :
    (1 ≤ size → rows 0 col = rows (size - 1) col → getRow rows size col asserts x = .errorEndpoints)
    ∧ getRow rows 0 col asserts x = .undefined := by
  refine ⟨fun h e => ?_, rfl⟩
  unfold getRow
  rw [if_neg (by omega)]
  dsimp only
  rw [if_neg e.not_lt, if_neg e.not_gt]

end table

section tableExamples
/-- an ascending and a descending table with three rows -/
def asc : Nat → Nat → Rat := fun i c => if c = 0 then i * i else 10 - i
def desc : Nat → Nat → Rat := fun i c => if c = 0 then 4 - i * i else i

example : (∀ i j, i < j → j < 3 → asc i 0 < asc j 0) ∧ (∀ i j, i < j → j < 3 → desc j 0 < desc i 0) := by
  constructor <;>
  · intro i j h1 h2
    have : (i = 0 ∧ j = 1) ∨ (i = 0 ∧ j = 2) ∨ (i = 1 ∧ j = 2) := by omega
    rcases this with ⟨rfl, rfl⟩ | ⟨rfl, rfl⟩ | ⟨rfl, rfl⟩ <;> decide +kernel

example : interpolated asc 0 1 2 1 = 9 - 1 / 3 := by decide +kernel
end tableExamples

/-! ### C36: locate -/

section locate

variable [LinearOrder K]

omit [Field K] in
theorem locateLoop_spec (x : K) (xarr : Nat → K) : ∀ (d jl ju : Nat), ju - jl ≤ d → jl < ju →
    let r := locateLoop x xarr jl ju
    jl ≤ r ∧ r < ju ∧ (r = jl ∨ xarr r < x) ∧ (r + 1 = ju ∨ x ≤ xarr (r + 1)) := by
  intro d
  induction d with
  | zero => intro jl ju h h'; omega
  | succ d ih =>
    intro jl ju h h'
    rw [locateLoop]
    by_cases e : ju - jl > 1
    · rw [if_pos e]
      dsimp only
      by_cases g : x > xarr ((ju + jl) / 2)
      · rw [if_pos g]
        obtain ⟨a, b, c, d'⟩ := ih ((ju + jl) / 2) ju (by omega) (by omega)
        refine ⟨by omega, b, Or.inr ?_, d'⟩
        rcases c with c | c
        · rw [c]; exact g
        · exact c
      · rw [if_neg g]
        obtain ⟨a, b, c, d'⟩ := ih jl ((ju + jl) / 2) (by omega) (by omega)
        refine ⟨a, by omega, c, Or.inr ?_⟩
        rcases d' with d' | d'
        · rw [d']; exact not_lt.mp g
        · exact d'
    · rw [if_neg e]
      dsimp only
      exact ⟨le_rfl, h', Or.inl rfl, Or.inl (by omega)⟩

omit [Field K] in
/-- **C36** for every sorted array of at least two elements and every value the index is at most `length - 2`; a value in the range
of the array lies between the element with that index and the next, and the index is the last one of an element smaller than the
value (if it is not beyond the last element); values below the range give the first, values above it the last interval. -/
theorem c36_locate (x : K) (xarr : Nat → K) {length : Nat} (hl : 2 ≤ length) (h64 : length < 2 ^ 64)
    (hm : ∀ i j, i ≤ j → j < length → xarr i ≤ xarr j) :
    let r := locate x xarr length
    r + 2 ≤ length
    ∧ (xarr 0 ≤ x → x ≤ xarr (length - 1) → xarr r ≤ x ∧ x ≤ xarr (r + 1))
    ∧ (xarr 0 < x → x ≤ xarr (length - 1) → ∀ i, i < length → (xarr i < x ↔ i ≤ r))
    ∧ (x ≤ xarr 0 → r = 0) ∧ (xarr (length - 1) < x → r = length - 2) := by
  obtain ⟨_, b, c, d⟩ := locateLoop_spec x xarr length 0 length (by omega) (by omega)
  unfold locate
  have hL : (length + (2 ^ 64 - 1)) % 2 ^ 64 = length - 1 := by
    rw [show length + (2 ^ 64 - 1) = length - 1 + 2 ^ 64 by omega, Nat.add_mod_right, Nat.mod_eq_of_lt (by omega)]
  dsimp only
  rw [hL]
  generalize locateLoop x xarr 0 length = j at b c d
  by_cases e : j = length - 1
  · rw [if_pos e]
    have hJ : (j + (2 ^ 64 - 1)) % 2 ^ 64 = length - 2 := by
      rw [show j + (2 ^ 64 - 1) = length - 2 + 2 ^ 64 by omega, Nat.add_mod_right, Nat.mod_eq_of_lt (by omega)]
    rw [hJ, show length - 2 + 1 = length - 1 by omega]
    have hlast : xarr (length - 1) < x := by
      rcases c with c | c
      · omega
      · rw [← e]; exact c
    refine ⟨by omega, fun _ g => absurd hlast (not_lt.mpr g), fun _ g => absurd hlast (not_lt.mpr g), fun g => ?_, fun _ => rfl⟩
    exact absurd (lt_of_lt_of_le hlast g) (not_lt.mpr (hm 0 (length - 1) (by omega) (by omega)))
  · rw [if_neg e]
    have hup : x ≤ xarr (j + 1) := by
      rcases d with d | d
      · omega
      · exact d
    refine ⟨by omega, fun g _ => ⟨?_, hup⟩, fun g _ i hi => ⟨fun g' => ?_, fun g' => ?_⟩, fun g => ?_, fun g => ?_⟩
    · rcases c with c | c
      · rw [c]; exact g
      · exact c.le
    · by_contra hc
      exact absurd (lt_of_lt_of_le g' (hup.trans (hm (j + 1) i (by omega) hi))) (lt_irrefl _)
    · refine lt_of_le_of_lt (hm i j g' b) ?_
      rcases c with c | c
      · rw [c]; exact g
      · exact c
    · rcases c with c | c
      · exact c
      · exact absurd (lt_of_lt_of_le c g) (not_lt.mpr (hm 0 j (by omega) b))
    · exact absurd (lt_of_lt_of_le g hup) (not_lt.mpr (hm (j + 1) (length - 1) (by omega) (by omega)))

/-- an array of one element has no interval: the index wraps around -/
theorem c36_one (x : K) (xarr : Nat → K) : locate x xarr 1 = 2 ^ 64 - 1 := by
  have h : locateLoop x xarr 0 1 = 0 := by
    rw [locateLoop]
    exact if_neg (by decide)
  unfold locate
  rw [h]
  norm_num

end locate

example : (∀ i j, i ≤ j → j < 4 → (fun k : Nat => ((k * k : Nat) : Rat)) i ≤ (fun k : Nat => ((k * k : Nat) : Rat)) j)
    ∧ (2 ≤ 4) := by
  refine ⟨fun i j h _ => ?_, by omega⟩
  dsimp only
  exact_mod_cast Nat.mul_le_mul h h

end Verif.Interp
