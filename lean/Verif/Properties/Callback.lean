import Verif.Spec.Callback
import Verif.Properties.Numpy

/-!
# C90: numbers returned by functions of the user
-/
namespace Verif.Callback

open Verif.Numpy

/-- **C90** what the user function returns is what is used, for the class `float` and the classes derived from it, and for arrays without axes that hold a double precision
number.  Missing: all other numbers (`c90_violated_*`). -/
theorem c90_float_partial (x : Obj) (v : Num) (h : x.number = some (v, .fin 0))
    (hx : (∃ u, x = .float u) ∨ ∃ buf data, x = .array buf (.one .f8) data []) : floatOf x = .value v := by
  rcases hx with ⟨u, rfl⟩ | ⟨buf, data, rfl⟩
  · simp only [Obj.number, Option.some.injEq, Prod.mk.injEq, and_true] at h
    rw [h]; rfl
  · simp only [Obj.number, Elem.size, DType.size, Option.map_eq_some_iff] at h
    obtain ⟨l, hl, he⟩ := h
    simp only [floatOf, Elem.isFloat, ne_eq, not_true_eq_false, if_false, View.read, hl, Option.map_some]
    simp only [Elem.decode, DType.decode, Prod.mk.injEq, and_true] at he
    rw [he]

theorem bytesAt_split {buf : List Nat} {x : Int} {l : List Nat} (h : bytesAt buf x 16 = some l) :
    bytesAt buf x 8 = some (l.take 8) ∧ bytesAt buf (x + 8) 8 = some (l.drop 8) := by
  unfold bytesAt at h ⊢
  split_ifs at h with hb
  push_cast at hb
  obtain rfl := Option.some.inj h
  rw [if_pos (by push_cast; omega), if_pos (by push_cast; omega)]
  refine ⟨by rw [List.take_take]; rfl, ?_⟩
  rw [List.drop_take, List.drop_drop, show (x + 8).toNat = x.toNat + 8 by omega]

/-- **C90** refractive index: the class `complex`, and arrays without axes that hold a double precision complex number.  Missing: all other numbers
(`c90_violated_*`). -/
theorem c90_complex_partial (x : Obj) (v : Num × Num) (h : x.number = some v)
    (hx : (∃ re im, x = .complex re im) ∨ ∃ buf data, x = .array buf (.pair .f8) data []) : complexOf x = .value v := by
  rcases hx with ⟨re, im, rfl⟩ | ⟨buf, data, rfl⟩
  · obtain rfl := Option.some.inj h
    rfl
  · simp only [Obj.number, Elem.size, DType.size, Option.map_eq_some_iff] at h
    obtain ⟨l, hl, he⟩ := h
    obtain ⟨h1, h2⟩ := bytesAt_split hl
    simp only [complexOf, Elem.isComplex, ne_eq, not_true_eq_false, if_false, View.read, h1, h2, Option.map_some]
    rw [← he]
    rfl

/-- **C90** the function is called with the wavelength, the size and the type, for types that are a C `int`; the method of the Python object leads to the same
call -/
theorem c90_arguments (f : Rat → Rat → Int → Obj) (wavelength size : Rat) (type : Int) (h : -2 ^ 31 ≤ type ∧ type < 2 ^ 31) :
    refractiveIndex f wavelength size type = complexOf (f wavelength size type)
    ∧ method f type size wavelength = some (refractiveIndex f wavelength size type) := by
  refine ⟨?_, if_pos h⟩
  unfold refractiveIndex
  congr 2
  unfold toInt
  dsimp only
  split_ifs <;> omega

/-- **C90 is violated**: an exception in the function of the user is not passed on, it leads to an access through a null pointer -/
theorem c90_violated_exception : floatOf .raised = .ub ∧ complexOf .raised = .ub := ⟨rfl, rfl⟩

/-- **C90 is violated**: the interpreter is stopped when a distribution function returns an integer (like 1), or a refractive index is a real number (like 1.5) or
an element of a NumPy array of complex numbers -/
theorem c90_violated_type (n : Int) (v re im : Num) :
    (floatOf (.int n) = .abort ∧ (Obj.int n).number = some (.fin n, .fin 0))
    ∧ (complexOf (.float v) = .abort ∧ (Obj.float v).number = some (v, .fin 0))
    ∧ (complexOf (.derived re im) = .abort ∧ (Obj.derived re im).number = some (re, im))
    ∧ ∀ b, floatOf (.scalar (.one .f4) b) = .abort :=
  ⟨⟨rfl, rfl⟩, ⟨rfl, rfl⟩, ⟨rfl, rfl⟩, fun _ => rfl⟩

/-- **C90 is violated** by arrays without axes that hold a single precision number: bytes after the end of the array are read -/
theorem c90_violated_single (b : List Nat) (hb : b.length = 4) : floatOf (.array b (.one .f4) 0 []) = .ub
    ∧ ∀ c, c.length = 8 → complexOf (.array c (.pair .f4) 0 []) = .ub := by
  refine ⟨?_, fun c hc => ?_⟩
  · have : bytesAt b 0 8 = none := by unfold bytesAt; rw [if_neg (by rw [hb]; decide)]
    simp [floatOf, Elem.isFloat, View.read, this]
  · have : bytesAt c 8 8 = none := by unfold bytesAt; rw [if_neg (by rw [hc]; decide)]
    have e : View.double.read c ((0 : Nat) + 8) = none := by simp [View.read, this]
    simp only [complexOf, Elem.isComplex, ne_eq, not_true_eq_false, if_false, e]
    cases View.double.read c (0 : Nat) <;> rfl

/-- **C90 is violated** for types that are no C `int` (they come from an array of 64 bit integers): the function is called with another type -/
theorem c90_violated_wrap : toInt (2 ^ 32 + 1) = 1 ∧ toInt (2 ^ 31) = -2 ^ 31 := by decide

/-- 1.5 in an array without axes; 1.5 - 2i -/
example : floatOf (.array [0, 0, 0, 0, 0, 0, 0xF8, 0x3F] (.one .f8) 0 []) = .value (.fin (3 / 2)) := by decide +kernel
example : complexOf (.array [0, 0, 0, 0, 0, 0, 0xF8, 0x3F, 0, 0, 0, 0, 0, 0, 0, 0xC0] (.pair .f8) 0 []) = .value (.fin (3 / 2), .fin (-2)) := by
  decide +kernel
example : (Obj.array [0, 0, 0, 0, 0, 0, 0xF8, 0x3F] (.one .f8) 0 []).number = some (.fin (3 / 2), .fin 0) := by decide +kernel
/-- the same number with the other byte order is misread -/
example : (Obj.array [0x3F, 0xF8, 0, 0, 0, 0, 0, 0] (.one .f8swapped) 0 []).number = some (.fin (3 / 2), .fin 0)
    ∧ floatOf (.array [0x3F, 0xF8, 0, 0, 0, 0, 0, 0] (.one .f8swapped) 0 []) ≠ .value (.fin (3 / 2)) := by decide +kernel

end Verif.Callback
