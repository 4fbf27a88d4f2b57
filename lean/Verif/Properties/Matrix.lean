import Verif.Proofs.Matrix
import Mathlib.Data.Rat.Defs
import Mathlib.Algebra.Order.Ring.Abs
import Mathlib.Algebra.Order.Field.Rat

/-!
# C27, C28, C54: `Matrix`
-/
namespace Verif.Matrix

/-! ## C27 -/

/-- **C27** For every element in range the position in the array is within the `rows * cols` allocated elements,
distinct elements have distinct positions, an assignment changes the element it names and no other (and not the
shape), the row pointer is the row, and a new matrix is zero. -/
theorem c27_elements {F : Type} (m : Mat F) :
    (∀ i j, i < m.rows → j < m.cols → pos m i j < m.rows * m.cols)
    ∧ (∀ i j i' j', j < m.cols → j' < m.cols → pos m i j = pos m i' j' → i = i' ∧ j = j')
    ∧ (∀ k, k < m.rows * m.cols → ∃ i j, i < m.rows ∧ j < m.cols ∧ pos m i j = k)
    ∧ (∀ i j v, j < m.cols → (m.set i j v).get i j = v ∧ (m.set i j v).rows = m.rows ∧ (m.set i j v).cols = m.cols
        ∧ ∀ i' j', j' < m.cols → (i', j') ≠ (i, j) → (m.set i j v).get i' j' = m.get i' j')
    ∧ (∀ i j, m.rowGet i j = m.get i j) := by
  refine ⟨?_, ?_, ?_, ?_, ?_⟩
  · intro i j hi hj
    unfold pos
    calc i * m.cols + j < i * m.cols + m.cols := by omega
      _ = (i + 1) * m.cols := by ring
      _ ≤ m.rows * m.cols := Nat.mul_le_mul_right _ hi
  · intro i j i' j' hj hj' h
    exact pos_inj m hj hj' h
  · intro k hk
    have hc : 0 < m.cols := by
      rcases Nat.eq_zero_or_pos m.cols with h | h
      · rw [h] at hk; omega
      · exact h
    refine ⟨k / m.cols, k % m.cols, (Nat.div_lt_iff_lt_mul hc).mpr hk, Nat.mod_lt _ hc, ?_⟩
    unfold pos
    rw [Nat.mul_comm]
    exact Nat.div_add_mod k m.cols
  · intro i j v hj
    refine ⟨by rw [get_set _ _ hj hj, if_pos ⟨rfl, rfl⟩], rfl, rfl, ?_⟩
    intro i' j' hj' hne
    rw [get_set _ _ hj hj', if_neg]
    rintro ⟨rfl, rfl⟩
    exact hne rfl
  · intro i j; rfl

/-- a new matrix is zero -/
theorem c27_new {F : Type} [Zero F] (r c i j : Nat) :
    (Mat.new r c : Mat F).get i j = 0 ∧ (Mat.new r c : Mat F).rows = r ∧ (Mat.new r c : Mat F).cols = c :=
  ⟨rfl, rfl, rfl⟩

/-- `reset()` makes every element zero and keeps the shape -/
theorem c27_reset {F : Type} [Zero F] (m : Mat F) (i j : Nat) (hi : i < m.rows) (hj : j < m.cols) :
    (m.reset).get i j = 0 ∧ m.reset.rows = m.rows ∧ m.reset.cols = m.cols := by
  have key := loop_inv (σ := Mat F)
    (fun k s => s.rows = m.rows ∧ s.cols = m.cols ∧ ∀ q < k, s.arr q = 0)
    (Nat.zero_le (m.rows * m.cols)) (fun k s => { s with arr := Function.update s.arr k 0 }) m
    ⟨rfl, rfl, by simp⟩
    (by
      intro k s _ _ ⟨h1, h2, h3⟩
      refine ⟨h1, h2, fun q hq => ?_⟩
      by_cases h : q = k
      · subst h; simp
      · simp only [Function.update_of_ne h]; exact h3 q (by omega))
  obtain ⟨h1, h2, h3⟩ := key
  refine ⟨?_, h1, h2⟩
  unfold Mat.get
  refine h3 _ ?_
  have e : pos m.reset i j = pos m i j := by unfold pos; rw [show m.reset.cols = m.cols from h2]
  rw [e]
  exact (c27_elements m).1 i j hi hj

/-- if the column is out of range, assignments to "different" elements do collide: the bound is needed -/
theorem c27_out_of_range : ∃ (m : Mat Nat), pos m 0 2 = pos m 1 0 := ⟨⟨2, 2, fun _ => 0⟩, rfl⟩

/-! ## C28 -/

section

variable {F Γ : Type} [Field F] [LinearOrder Γ] (absv : F → Γ)

/-- the leading `n × n` block as a matrix of Mathlib -/
def block (n : Nat) (m : Mat F) : _root_.Matrix (Fin n) (Fin n) F := fun r c => m.get r c

/-- **C28** For every size `n` that fits the matrix, whatever the pivot and work arrays contained, if the leading
`n × n` block is regular then `plu_inverse(n)` replaces it by its inverse, and changes neither the other elements nor
the shape. (Exact arithmetic; `absv` is the absolute value, of which only `|0| < |x|` for `x ≠ 0` is used.) -/
theorem c28_inverse (habs : ∀ x : F, x ≠ 0 → absv 0 < absv x) (n : Nat) (m : Mat F) (piv : Nat → Nat) (work : Nat → F)
    (hn : n ≤ m.cols) (hdet : (block n m).det ≠ 0) :
    block n (pluInverse absv n m piv work) = (block n m)⁻¹
    ∧ block n (pluInverse absv n m piv work) * block n m = 1
    ∧ block n m * block n (pluInverse absv n m piv work) = 1
    ∧ (pluInverse absv n m piv work).rows = m.rows ∧ (pluInverse absv n m piv work).cols = m.cols
    ∧ ∀ r c, c < m.cols → ¬(r < n ∧ c < n) → (pluInverse absv n m piv work).get r c = m.get r c := by
  obtain ⟨⟨h1, h2⟩, h3, h4⟩ := pluInverse_spec absv habs n m piv work hn hdet
  have hl : block n (pluInverse absv n m piv work) * block n m = 1 := by
    ext r c
    rw [_root_.Matrix.mul_apply, _root_.Matrix.one_apply]
    have := h4 r c r.2 c.2
    rw [Finset.sum_range fun k => (pluInverse absv n m piv work).get r k * m.get k c] at this
    simp only [block]
    rw [this]
    exact if_congr Fin.ext_iff.symm rfl rfl
  refine ⟨(_root_.Matrix.inv_eq_left_inv hl).symm, hl, _root_.mul_eq_one_comm.mp hl, h1, h2, h3⟩

/-- no division by zero happens: every pivot is different from zero -/
theorem c28_pivots (habs : ∀ x : F, x ≠ 0 → absv 0 < absv x) (n : Nat) (m : Mat F) (piv : Nat → Nat)
    (hn : n ≤ m.cols) (hdet : (block n m).det ≠ 0) (k : Nat) (hk : k < n) :
    (step1 absv n m piv).1.get k k ≠ 0 ∧ (step1 absv n m piv).2 k < n := by
  obtain ⟨_, _, h3, h4, _⟩ := step1_spec absv habs n m piv hn hdet
  exact ⟨h4 k hk, h3 k hk⟩

/-- inverting twice gives the original block -/
theorem c28_involution (habs : ∀ x : F, x ≠ 0 → absv 0 < absv x) (n : Nat) (m : Mat F) (piv piv' : Nat → Nat)
    (work work' : Nat → F) (hn : n ≤ m.cols) (hdet : (block n m).det ≠ 0) :
    block n (pluInverse absv n (pluInverse absv n m piv work) piv' work') = block n m := by
  obtain ⟨_, h2, h3, _, h5, _⟩ := c28_inverse absv habs n m piv work hn hdet
  have hd : (block n (pluInverse absv n m piv work)).det ≠ 0 := by
    intro h
    have := congrArg _root_.Matrix.det h2
    rw [_root_.Matrix.det_mul, h, zero_mul, _root_.Matrix.det_one] at this
    exact zero_ne_one this
  have h6 := (c28_inverse absv habs n _ piv' work' (by omega) hd).1
  rw [h6]
  exact _root_.Matrix.inv_eq_right_inv h2

end

/-- the matrix `(0 1 ; 2 3)` within a `3 × 3` matrix: a row exchange is needed -/
def exMat : Mat ℚ := ⟨3, 3, fun k => match k with | 0 => 0 | 1 => 1 | 2 => 9 | 3 => 2 | 4 => 3 | 5 => 8 | _ => 7⟩

example : (block 2 exMat).det ≠ 0 := by
  rw [_root_.Matrix.det_fin_two]
  simp [block, exMat, Mat.get, pos]

example : (fun r c => (pluInverse (fun x : ℚ => |x|) 2 exMat (fun _ => 77) (fun _ => 55)).get r c) 0 0 = -3 / 2 := by
  decide +kernel

example : (pluInverse (fun x : ℚ => |x|) 2 exMat (fun _ => 77) (fun _ => 55)).get 1 2 = 8 := by
  decide +kernel

/-! ## C54 -/

/-- value of a little-endian sequence of bytes -/
def leValue : List Nat → Nat
  | [] => 0
  | b :: l => b + 256 * leValue l

theorem bytes32_value (x : Nat) (hx : x < 2 ^ 32) : leValue (bytes32 x) = x := by
  unfold bytes32
  simp only [leValue]
  omega

/-- a reader of the dump: shape, element size, element `(i, j)` -/
def readRows (d : List Nat) : Nat := leValue (d.take 4)
def readCols (d : List Nat) : Nat := leValue ((d.drop 4).take 4)
def readSize (d : List Nat) : Nat := leValue ((d.drop 8).take 4)
def readElem (d : List Nat) (i j : Nat) : List Nat :=
  (d.drop (12 + (i * readCols d + j) * readSize d)).take (readSize d)

theorem flatMap_piece {α β : Type} (f : α → List β) (size : Nat) (hf : ∀ a, (f a).length = size) :
    ∀ (l : List α) (k : Nat) (hk : k < l.length), (((l.flatMap f).drop (k * size)).take size) = f l[k] := by
  intro l
  induction l with
  | nil => intro k hk; simp at hk
  | cons a l ih =>
    intro k hk
    rw [List.flatMap_cons]
    cases k with
    | zero =>
      simp only [Nat.zero_mul, List.drop_zero, List.getElem_cons_zero]
      rw [← hf a, List.take_left']
      rfl
    | succ k =>
      rw [show (k + 1) * size = (f a).length + k * size by rw [hf]; ring, List.drop_append,
        List.drop_eq_nil_of_le (by omega)]
      simp only [Nat.add_sub_cancel_left, List.nil_append, List.getElem_cons_succ]
      exact ih k (by simpa using hk)

theorem flatMap_len {α β : Type} (f : α → List β) (size : Nat) (hf : ∀ a, (f a).length = size) :
    ∀ (l : List α), (l.flatMap f).length = l.length * size := by
  intro l
  induction l with
  | nil => simp
  | cons a l ih => rw [List.flatMap_cons, List.length_append, ih, hf, List.length_cons]; ring

/-- **C54** For every matrix whose shape fits 32-bit integers, the dump has exactly the length of the header and the
elements, and a reader that decodes it finds the shape, the element size and, at every `(i, j)` in range, the
representation of that element. -/
theorem c54_dump {F : Type} (m : Mat F) (size : Nat) (enc : F → List Nat) (henc : ∀ x, (enc x).length = size)
    (hr : m.rows < 2 ^ 32) (hc : m.cols < 2 ^ 32) (hs : size < 2 ^ 32) :
    (binaryDump m size enc).length = 12 + m.rows * m.cols * size
    ∧ readRows (binaryDump m size enc) = m.rows ∧ readCols (binaryDump m size enc) = m.cols
    ∧ readSize (binaryDump m size enc) = size
    ∧ ∀ i j, i < m.rows → j < m.cols → readElem (binaryDump m size enc) i j = enc (m.get i j) := by
  have e1 : readRows (binaryDump m size enc) = m.rows := by
    have : (binaryDump m size enc).take 4 = bytes32 (m.rows % 2 ^ 32) := by simp [binaryDump, bytes32]
    rw [readRows, this, Nat.mod_eq_of_lt hr, bytes32_value _ hr]
  have e2 : readCols (binaryDump m size enc) = m.cols := by
    have : ((binaryDump m size enc).drop 4).take 4 = bytes32 (m.cols % 2 ^ 32) := by simp [binaryDump, bytes32]
    rw [readCols, this, Nat.mod_eq_of_lt hc, bytes32_value _ hc]
  have e3 : readSize (binaryDump m size enc) = size := by
    have : ((binaryDump m size enc).drop 8).take 4 = bytes32 size := by simp [binaryDump, bytes32]
    rw [readSize, this, bytes32_value _ hs]
  refine ⟨?_, e1, e2, e3, ?_⟩
  · have := flatMap_len (fun k => enc (m.arr k)) size (fun _ => henc _) (List.range (m.cols * m.rows))
    rw [binaryDump, List.length_append, this]
    simp only [bytes32, List.length_append, List.length_cons, List.length_nil, List.length_range]
    ring
  · intro i j hi hj
    have hk : i * m.cols + j < m.cols * m.rows := by
      have := (c27_elements m).1 i j hi hj
      unfold pos at this
      rw [Nat.mul_comm m.cols]; exact this
    rw [readElem, e2, e3]
    have : (binaryDump m size enc).drop (12 + (i * m.cols + j) * size)
        = ((List.range (m.cols * m.rows)).flatMap fun k => enc (m.arr k)).drop ((i * m.cols + j) * size) := by
      rw [binaryDump, List.drop_append, List.drop_eq_nil_of_le (by simp [bytes32])]
      simp [bytes32]
    rw [this]
    have := flatMap_piece (fun k => enc (m.arr k)) size (fun _ => henc _) (List.range (m.cols * m.rows))
      (i * m.cols + j) (by simpa using hk)
    rw [this]
    simp [Mat.get, pos]

/-- beyond 32 bits the header does not determine the shape -/
theorem c54_violated_large : ∃ m : Mat Nat, m.rows = 2 ^ 32 + 1 ∧ ∀ size enc, readRows (binaryDump m size enc) = 1 := by
  refine ⟨⟨2 ^ 32 + 1, 0, fun _ => 0⟩, rfl, fun size enc => ?_⟩
  simp [readRows, binaryDump, bytes32, leValue]

example : (exMat.rows < 2 ^ 32 ∧ exMat.cols < 2 ^ 32 ∧ (8 : Nat) < 2 ^ 32)
    ∧ (binaryDump (⟨1, 2, fun k => k + 5⟩ : Mat Nat) 1 (fun x => [x])) = [1, 0, 0, 0, 2, 0, 0, 0, 1, 0, 0, 0, 5, 6] := by
  decide

end Verif.Matrix
