import Mathlib.Algebra.Field.Basic
import Mathlib.Order.Defs.LinearOrder
import Mathlib.Logic.Function.Basic

/-!
# `Matrix` (src/Matrix.hpp)

`F` is the type of the elements: exact arithmetic in a field (the code uses floating point).
-/
namespace Verif.Matrix

/-- `Matrix` (Matrix.hpp:46-54); the array is a `std::vector` of size `rows * cols` -/
structure Mat (F : Type) where
  rows : Nat
  cols : Nat
  arr : Nat → F

/-- position of an element in the flat array (Matrix.hpp:111, 132) -/
def pos {F} (m : Mat F) (i j : Nat) : Nat := i * m.cols + j

/-- reading through `operator()` (Matrix.hpp:130-133) -/
def Mat.get {F} (m : Mat F) (i j : Nat) : F := m.arr (pos m i j)

/-- assignment to `operator()` (Matrix.hpp:110-112) -/
def Mat.set {F} (m : Mat F) (i j : Nat) (v : F) : Mat F := { m with arr := Function.update m.arr (pos m i j) v }

/-- `get_row(i)[j]` (Matrix.hpp:142-144) -/
def Mat.rowGet {F} (m : Mat F) (i j : Nat) : F := m.arr (i * m.cols + j)

/-- constructor (Matrix.hpp:63-67) -/
def Mat.new {F} [Zero F] (r c : Nat) : Mat F := ⟨r, c, fun _ => 0⟩

/-- `for (k = lo; k < hi; ++k) body(k)` -/
def loop {σ : Type} (lo hi : Nat) (body : Nat → σ → σ) (s : σ) : σ :=
  (List.range' lo (hi - lo)).foldl (fun s k => body k s) s

/-- `for (jp1 = hi; jp1 > 0; --jp1) { j = jp1 - 1; body(j) }` -/
def loopDown {σ : Type} (body : Nat → σ → σ) : Nat → σ → σ
  | 0, s => s
  | j + 1, s => loopDown body j (body j s)

/-- `reset()` (Matrix.hpp:72-76): all elements of the array -/
def Mat.reset {F} [Zero F] (m : Mat F) : Mat F :=
  loop 0 (m.rows * m.cols) (fun k s => { s with arr := Function.update s.arr k 0 }) m

section

variable {F Γ : Type} [Field F] [LinearOrder Γ] (absv : F → Γ)

/-- search for the pivot in column `i` (Matrix.hpp:282-293) -/
def findPivot (n : Nat) (m : Mat F) (i : Nat) : Nat × Γ :=
  loop (i + 1) n (fun j s => if absv (m.get j i) > s.2 then (j, absv (m.get j i)) else s) (i, absv (m.get i i))

/-- exchange of two rows (Matrix.hpp:296-304) -/
def swapRows (n : Nat) (m : Mat F) (i p : Nat) : Mat F :=
  if i ≠ p then
    loop 0 n (fun j m => let temp := m.get i j; (m.set i j (m.get p j)).set p j temp) m
  else m

/-- division of the column and elimination (Matrix.hpp:305-319) -/
def eliminate (n : Nat) (m : Mat F) (i : Nat) : Mat F :=
  let inv := 1 / m.get i i
  let m := loop (i + 1) n (fun j m => m.set j i (m.get j i * inv)) m
  loop (i + 1) n (fun j m => loop (i + 1) n (fun k m => m.set j k (m.get j k - m.get j i * m.get i k)) m) m

/-- body of the loop of step 1 (Matrix.hpp:281-319) -/
def step1Body (n : Nat) (i : Nat) (s : Mat F × (Nat → Nat)) : Mat F × (Nat → Nat) :=
  let p := (findPivot absv n s.1 i).1
  (eliminate n (swapRows n s.1 i p) i, Function.update s.2 i p)

/-- step 1 (Matrix.hpp:279-320); `piv` is what `pivot_array` contained before -/
def step1 (n : Nat) (m : Mat F) (piv : Nat → Nat) : Mat F × (Nat → Nat) :=
  loop 0 n (step1Body absv n) (m, piv)

/-- body of the inner loop of step 2 (Matrix.hpp:328-335) -/
def step2Inner (i : Nat) (j : Nat) (m : Mat F) : Mat F :=
  let Aij := loop i j (fun k s => s - m.get i k * m.get k j) 0
  m.set i j (Aij / m.get j j)

/-- step 2 (Matrix.hpp:322-337) -/
def step2 (n : Nat) (m : Mat F) : Mat F :=
  loop 0 n (fun i m => loop (i + 1) n (step2Inner i) (m.set i i (1 / m.get i i))) m

/-- body of step 3 (Matrix.hpp:343-364) -/
def step3Body (n : Nat) (j : Nat) (s : Mat F × (Nat → F)) : Mat F × (Nat → F) :=
  let w := loop 0 (j + 1) (fun i w => Function.update w i (s.1.get i j)) s.2
  let w := loop (j + 1) n (fun i w => Function.update w i 0) w
  let w := loop (j + 1) n (fun k w => loop 0 n (fun i w => Function.update w i (w i - s.1.get i k * s.1.get k j)) w) w
  (loop 0 n (fun i m => m.set i j (w i)) s.1, w)

/-- step 3 (Matrix.hpp:339-365); `work` is what the work array contained before -/
def step3 (n : Nat) (m : Mat F) (work : Nat → F) : Mat F × (Nat → F) := loopDown (step3Body n) n (m, work)

/-- exchange of two columns (Matrix.hpp:376-382) -/
def swapCols (n : Nat) (m : Mat F) (j p : Nat) : Mat F :=
  if p ≠ j then
    loop 0 n (fun i m => let temp := m.get i j; (m.set i j (m.get i p)).set i p temp) m
  else m

/-- step 4 (Matrix.hpp:367-384) -/
def step4 (n : Nat) (m : Mat F) (piv : Nat → Nat) : Mat F := loopDown (fun j m => swapCols n m j (piv j)) n m

/-- `plu_inverse` (Matrix.hpp:261-385) -/
def pluInverse (n : Nat) (m : Mat F) (piv : Nat → Nat) (work : Nat → F) : Mat F :=
  let s := step1 absv n m piv
  step4 n (step3 n (step2 n s.1) work).1 s.2

end

/-! ## `binary_dump` (Matrix.hpp:156-172) -/

/-- a 32-bit value in memory (little endian) -/
def bytes32 (x : Nat) : List Nat := [x % 256, x / 256 % 256, x / 256 ^ 2 % 256, x / 256 ^ 3 % 256]

/-- `const uint32_t number_of_rows = _number_of_rows; file.write(...)`: reduction modulo `2^32`; `enc` is the
representation of an element in memory, `size` bytes -/
def binaryDump {F} (m : Mat F) (size : Nat) (enc : F → List Nat) : List Nat :=
  bytes32 (m.rows % 2 ^ 32) ++ bytes32 (m.cols % 2 ^ 32) ++ bytes32 size
    ++ (List.range (m.cols * m.rows)).flatMap fun k => enc (m.arr k)

end Verif.Matrix
