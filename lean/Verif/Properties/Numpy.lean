import Verif.Spec.Numpy
import Verif.Properties.Table
import Mathlib.Tactic.Ring
import Mathlib.Tactic.Linarith
import Mathlib.Tactic.NormNum
import Mathlib.Tactic.FieldSimp

/-!
# C86: array arguments are read as the numbers they show
-/
namespace Verif.Numpy

theorem bytesAt_some {buf : List Nat} {x : Int} {n : Nat} (h : 0 ≤ x ∧ x + n ≤ buf.length) :
    bytesAt buf x n = some ((buf.drop x.toNat).take n) := if_pos h

theorem size_eq (a : NdArray) : a.size = a.count := by
  unfold NdArray.size NdArray.count
  cases a.shape <;> rfl

theorem ptr1_eq {a : NdArray} (h : a.strides.length = a.shape.length) {i : Nat} (hi : i < a.size) : a.ptr1 i = a.addr i := by
  rw [size_eq] at hi
  unfold NdArray.ptr1 NdArray.addr NdArray.count at *
  cases hs : a.strides with
  | cons s l => rfl
  | nil =>
    rw [hs] at h
    have : a.shape = [] := List.eq_nil_of_length_eq_zero h.symm
    rw [this] at hi
    obtain rfl : i = 0 := by simpa using hi
    simp

theorem NdArray.Ok.inside' {a : NdArray} (h : a.Ok) : ∀ i < a.size, 0 ≤ a.ptr1 i ∧ a.ptr1 i + a.dtype.size ≤ a.buf.length := by
  intro i hi
  rw [ptr1_eq h.axes hi]
  exact h.inside i (by rwa [← size_eq])

theorem item_eq {a : NdArray} (h : a.Ok) {i : Nat} (hi : i < a.size) : a.item i = (bytesAt a.buf (a.ptr1 i) a.dtype.size).map a.dtype.decode := by
  rw [ptr1_eq h.axes hi]
  rfl

theorem shows_iff (a : NdArray) (l : List Num) : a.Shows l ↔ l.length = a.size ∧ ∀ i < a.size, a.item i = l[i]? := by
  rw [size_eq]
  rfl

/-- a list of readings -/
theorem readings {n : Nat} {f : Nat → Option Num} (h : ∀ i < n, (f i).isSome) :
    ∃ l, (List.range n).mapM f = some l ∧ l.length = n ∧ ∀ i < n, l[i]? = f i := by
  obtain ⟨r, h1, h2, h3⟩ := Table.mapM_getElem? f (List.range n) (fun x hx => h x (List.mem_range.mp hx))
  refine ⟨r, h1, by simpa using h2, fun i hi => ?_⟩
  rw [h3, List.getElem?_range hi]
  rfl

theorem item_some {a : NdArray} (h : a.Ok) {i : Nat} (hi : i < a.size) : (a.item i).isSome := by
  rw [item_eq h hi, bytesAt_some (h.inside' i hi)]
  rfl

/-- Every array shows one list of numbers. -/
theorem shows {a : NdArray} (h : a.Ok) : ∃ l, a.Shows l ∧ ∀ l', a.Shows l' → l' = l := by
  obtain ⟨l, _, h2, h3⟩ := readings (f := a.item) fun i hi => item_some h hi
  refine ⟨l, (shows_iff a l).2 ⟨h2, fun i hi => (h3 i hi).symm⟩, fun l' h' => ?_⟩
  rw [shows_iff] at h'
  apply List.ext_getElem?
  intro i
  by_cases hi : i < a.size
  · rw [← h'.2 i hi, h3 i hi]
  · rw [List.getElem?_eq_none (by rw [h'.1]; omega), List.getElem?_eq_none (by omega)]

theorem read_item {a : NdArray} (h : a.Ok) (hd : a.dtype = .f8) {i : Nat} (hi : i < a.size) : View.double.read a.buf (a.ptr1 i) = a.item i := by
  have := h.inside' i hi
  rw [item_eq h hi]
  unfold View.read
  rw [hd] at this ⊢
  rw [show DType.f8.size = 8 from rfl] at this ⊢
  rw [bytesAt_some this]
  rfl

theorem read_item_int {a : NdArray} (h : a.Ok) (hd : a.dtype = .i8) {i : Nat} (hi : i < a.size) : View.int.read a.buf (a.ptr1 i) = a.item i := by
  have := h.inside' i hi
  rw [item_eq h hi]
  unfold View.read
  rw [hd] at this ⊢
  rw [show DType.i8.size = 8 from rfl] at this ⊢
  rw [bytesAt_some this]
  rfl

theorem gather {a : NdArray} (h : a.Ok) {f : Nat → Option Num} (hf : ∀ i < a.size, f i = a.item i) :
    ∃ l, a.Shows l ∧ (List.range a.size).mapM f = some l := by
  obtain ⟨l, h1, h2, h3⟩ := readings (f := f) fun i hi => by
    rw [hf i hi]
    exact item_some h hi
  exact ⟨l, (shows_iff a l).2 ⟨h2, fun i hi => by rw [h3 i hi, hf i hi]⟩, h1⟩

/-- **C86** (part that holds) arrays of native double precision numbers (64 bit integers for the list of types) with at most one axis and
arbitrary strides are unpacked to the numbers they show.  Missing: all other element types, arrays with more axes. -/
theorem c86_unpack_partial {a : NdArray} (h : a.Ok) (hn : a.shape.length ≤ 1) :
    (a.dtype = .f8 → ∃ l, a.Shows l ∧ unpack .double a = some l ∧ argStrided a = .values l)
    ∧ (a.dtype = .i8 → ∃ l, a.Shows l ∧ unpack .int a = some l) := by
  constructor
  · intro hd
    obtain ⟨l, h1, h2⟩ := gather h fun i hi => read_item h hd hi
    refine ⟨l, h1, ?_, ?_⟩
    · unfold unpack
      rw [if_neg (by omega), h2]
    · unfold argStrided
      rw [if_neg (by omega), h2]
      rfl
  · intro hd
    obtain ⟨l, h1, h2⟩ := gather h fun i hi => read_item_int h hd hi
    refine ⟨l, h1, ?_⟩
    unfold unpack
    rw [if_neg (by omega), h2]

/-- **C86** (part that holds) the absorption functions: only if the numbers lie next to each other. -/
theorem c86_data_partial {a : NdArray} (h : a.Ok) (hn : a.shape.length ≤ 1) (hd : a.dtype = .f8) (hc : a.Contiguous) :
    ∃ l, a.Shows l ∧ argData a = .values l := by
  obtain ⟨l, h1, h2⟩ := gather (f := fun i => View.double.read a.buf (a.data + 8 * i)) h fun i hi => by
    rw [← read_item h hd hi]
    congr 1
    unfold NdArray.ptr1
    rcases hc with hc | hc
    · rw [← size_eq] at hc
      have : i = 0 := by omega
      subst this
      simp
    · rw [hc, hd]
      change (a.data : Int) + 8 * i = a.data + i * 8
      ring
  refine ⟨l, h1, ?_⟩
  unfold argData
  rw [if_neg (by omega), h2]
  rfl

theorem leNat_lt {l : List Nat} (h : ∀ b ∈ l, b < 256) : leNat l < 256 ^ l.length := by
  induction l with
  | nil => simp [leNat]
  | cons b l ih =>
    have h1 := h b (by simp)
    have h2 := ih fun x hx => h x (by simp [hx])
    simp only [leNat, List.length_cons, pow_succ]
    omega

theorem small_double {x : Nat} (h1 : x < 2 ^ 52) : decodeDouble x = .fin (x * (2 : Rat) ^ (-1074 : Int)) := by
  unfold decodeDouble decodeFloat
  have e1 : x % 2 ^ 52 = x := Nat.mod_eq_of_lt h1
  have e2 : x / 2 ^ 52 = 0 := Nat.div_eq_of_lt h1
  have e3 : x / 2 ^ (52 + 11) = 0 := Nat.div_eq_of_lt (lt_of_lt_of_le h1 (by norm_num))
  simp only [e1, e2, e3]
  norm_num

/-- **C86** (negation 1) Integers: an array of 64 bit integers (such as the one NumPy makes of a Python list of integers) is read as if its
bytes were those of double precision numbers; every integer `0 < x < 2^52` becomes `x 2^(-1074)`. -/
theorem c86_violated_int {a : NdArray} (h : a.Ok) (hn : a.shape.length ≤ 1) (hd : a.dtype = .i8) :
    ∃ l m, a.Shows l ∧ unpack .double a = some m ∧ argStrided a = .values m ∧
      ∀ (i x : Nat), 0 < x → x < 2 ^ 52 → l[i]? = some (.fin x) → m[i]? = some (.fin (x * (2 : Rat) ^ (-1074 : Int))) ∧ m[i]? ≠ l[i]? := by
  obtain ⟨l, hl0, _⟩ := shows h
  have hl := (shows_iff a l).1 hl0
  have hin := h.inside'
  rw [hd, show DType.i8.size = 8 from rfl] at hin
  obtain ⟨m, h1, h2, h3⟩ := readings (n := a.size) (f := fun i => View.double.read a.buf (a.ptr1 i)) fun i hi => by
    unfold View.read
    rw [bytesAt_some (hin i hi)]
    rfl
  refine ⟨l, m, hl0, ?_, ?_, ?_⟩
  · unfold unpack
    rw [if_neg (by omega), h1]
  · unfold argStrided
    rw [if_neg (by omega), h1]
    rfl
  · intro i x hx0 hx hli
    have hi : i < a.size := by
      rw [← hl.1]
      by_contra hc
      rw [List.getElem?_eq_none (by omega)] at hli
      cases hli
    have hit := hl.2 i hi
    rw [hli] at hit
    rw [item_eq h hi] at hit
    rw [hd, show DType.i8.size = 8 from rfl, bytesAt_some (hin i hi)] at hit
    have hm := h3 i hi
    unfold View.read at hm
    rw [bytesAt_some (hin i hi)] at hm
    simp only [Option.map_some, DType.decode, decodeInt, Option.some.injEq, Num.fin.injEq] at hit hm
    generalize hB : (a.buf.drop (a.ptr1 i).toNat).take 8 = B at hit hm
    have hlt : leNat B < 2 ^ 64 := by
      have hb := leNat_lt (l := B) fun b hb => h.bytes b (by
        rw [← hB] at hb
        exact List.mem_of_mem_drop (List.mem_of_mem_take hb))
      have hlen : B.length ≤ 8 := by
        rw [← hB, List.length_take]
        omega
      calc leNat B < 256 ^ B.length := hb
        _ ≤ 256 ^ 8 := Nat.pow_le_pow_right (by norm_num) hlen
        _ = 2 ^ 64 := by norm_num
    have hx' : leNat B = x := by
      split at hit
      · exact_mod_cast hit
      · exfalso
        have : (leNat B : Rat) < 2 ^ 64 := by exact_mod_cast hlt
        have : (0 : Rat) < x := by exact_mod_cast hx0
        linarith
    rw [hx'] at hm
    rw [hm, small_double hx]
    refine ⟨rfl, ?_⟩
    rw [hli]
    intro hc
    simp only [Option.some.injEq, Num.fin.injEq] at hc
    have hxq : (x : Rat) ≠ 0 := by exact_mod_cast hx0.ne'
    have : ((2 : Rat) ^ (-1074 : Int)) = 1 := by
      apply mul_left_cancel₀ hxq
      rw [hc, mul_one]
    rw [zpow_neg, inv_eq_one] at this
    rw [show ((2 : Rat) ^ (1074 : Int)) = 2 ^ (1074 : Nat) from zpow_natCast 2 1074] at this
    exact (one_lt_pow₀ (by norm_num : (1 : Rat) < 2) (by norm_num : (1074 : Nat) ≠ 0)).ne' this

/-- **C86** (negation 2) Strides: given every second (third, ...) element of a vector, the absorption functions use the first elements of
the vector instead. -/
theorem c86_violated_stride {a : NdArray} (h : a.Ok) (hd : a.dtype = .f8) (hs : a.strides.head?.getD 8 = 8)
    {step : Nat} (hst : 1 ≤ step) :
    ∃ l m v, a.Shows l ∧ argData (a.every step) = .values m ∧ (a.every step).Shows v ∧ m.length = v.length ∧
      ∀ i < v.length, m[i]? = l[i]? ∧ v[i]? = l[step * i]? := by
  obtain ⟨l, hl0, _⟩ := shows h
  have hl := (shows_iff a l).1 hl0
  have hin := h.inside'
  rw [hd, show DType.f8.size = 8 from rfl] at hin
  have hsz : (a.every step).size = (a.size + step - 1) / step := by
    rw [size_eq, size_eq]
    rfl
  have hle : ∀ i, i < (a.every step).size → step * i < a.size := by
    intro i hi
    rw [hsz] at hi
    have h2 : i * step < a.size := by
      have := Nat.div_mul_le_self (a.size + step - 1) step
      have h3 : (i + 1) * step ≤ (a.size + step - 1) / step * step := Nat.mul_le_mul_right _ hi
      rw [Nat.add_mul] at h3
      omega
    rw [Nat.mul_comm]
    exact h2
  have hle' : ∀ i, i < (a.every step).size → i < a.size := fun i hi => lt_of_le_of_lt (Nat.le_mul_of_pos_left i hst) (hle i hi)
  have hptr : ∀ i, (a.every step).ptr1 i = a.ptr1 (step * i) := by
    intro i
    unfold NdArray.ptr1 NdArray.every
    rw [hs]
    simp only [List.head?_cons, Option.getD_some, Nat.cast_mul]
    ring
  have hok : (a.every step).Ok := by
    refine ⟨h.bytes, rfl, fun i hi => ?_⟩
    rw [← size_eq] at hi
    rw [← ptr1_eq rfl hi, hptr]
    exact h.inside' _ (hle i hi)
  obtain ⟨v, hv0, _⟩ := shows hok
  have hv := (shows_iff _ v).1 hv0
  obtain ⟨m, h1, h2, h3⟩ := readings (n := (a.every step).size) (f := fun i => View.double.read (a.every step).buf ((a.every step).data + 8 * i))
    fun i hi => by
      have := hin i (hle' i hi)
      unfold NdArray.ptr1 at this
      rw [hs] at this
      unfold View.read
      rw [bytesAt_some (by
        change 0 ≤ (a.data : Int) + 8 * i ∧ (a.data : Int) + 8 * i + (8 : Nat) ≤ a.buf.length
        rw [show (a.data : Int) + 8 * i = a.data + i * 8 by ring]
        exact this)]
      rfl
  refine ⟨l, m, v, hl0, ?_, hv0, by rw [h2, hv.1], fun i hi => ?_⟩
  · unfold argData
    rw [if_neg (by change ¬ 1 < [_].length; simp), h1]
    rfl
  · rw [hv.1] at hi
    constructor
    · rw [h3 i hi, ← hl.2 i (hle' i hi), ← read_item h hd (hle' i hi)]
      change View.double.read a.buf (a.data + 8 * i) = View.double.read a.buf (a.ptr1 i)
      unfold NdArray.ptr1
      rw [hs, mul_comm (8 : Int)]
    · rw [← hv.2 i hi, ← hl.2 _ (hle i hi)]
      rw [item_eq hok hi, item_eq h (hle i hi), hptr]
      rfl

/-- **C86** (negation 3) Arrays with more than one axis are taken as empty by `unpack_numpy_array`, or lead to a null pointer without an
exception. -/
theorem c86_violated_axes (v : View) {a : NdArray} (hn : 1 < a.shape.length) : unpack v a = some [] ∧ argStrided a = .null ∧ argData a = .null := by
  unfold unpack argStrided argData
  rw [if_pos hn, if_pos hn, if_pos hn]
  exact ⟨rfl, rfl, rfl⟩

/-- **C86** (negation 4) An array of single precision numbers (or 32 bit integers) is read beyond its end. -/
theorem c86_violated_single {a : NdArray} (hd : a.dtype.size = 4) {n : Nat} (hn : a.shape = [n + 1]) (hs : a.strides = [(a.dtype.size : Int)])
    (hda : a.data = 0) (hb : a.buf.length = a.dtype.size * (n + 1)) : unpack .double a = none ∧ argStrided a = .ub ∧ argData a = .ub := by
  rw [hd] at hs hb
  have hsz : a.size = n + 1 := by
    unfold NdArray.size
    rw [hn]
    rfl
  have key : ∀ f : Nat → Option Num, f n = none → (List.range (n + 1)).mapM f = none := by
    intro f hf
    rw [List.range_succ, List.mapM_append]
    cases h : (List.range n).mapM f with
    | none => rfl
    | some l => simp [hf]
  have hr : View.double.read a.buf (a.ptr1 n) = none := by
    unfold View.read bytesAt NdArray.ptr1
    rw [if_neg]
    · rfl
    · rw [hda, hs, hb]
      simp only [List.head?_cons, Option.getD_some]
      push_cast
      omega
  have hr' : View.double.read a.buf (a.data + 8 * (n : Int)) = none := by
    unfold View.read bytesAt
    rw [if_neg]
    · rfl
    · rw [hda, hb]
      push_cast
      omega
  refine ⟨?_, ?_, ?_⟩
  · unfold unpack
    rw [if_neg (by rw [hn]; simp), hsz]
    exact key _ hr
  · unfold argStrided
    rw [if_neg (by rw [hn]; simp), hsz, key _ hr]
    rfl
  · unfold argData
    rw [if_neg (by rw [hn]; simp), hsz, key _ hr']
    rfl

/-! ### examples -/

/-- `numpy.array([1.5, -2.0, 0.1])` as bytes; `0.1` is the double precision number next to it -/
def exBytes : List Nat :=
  [0, 0, 0, 0, 0, 0, 0xF8, 0x3F, 0, 0, 0, 0, 0, 0, 0, 0xC0, 0x9A, 0x99, 0x99, 0x99, 0x99, 0x99, 0xB9, 0x3F]

def exArr : NdArray := ⟨exBytes, .f8, 0, [3], [8]⟩

theorem exArr_ok : exArr.Ok := ⟨by decide, rfl, by decide⟩

example : unpack .double exArr = some [.fin (3 / 2), .fin (-2), .fin (3602879701896397 / 2 ^ 55)] := by decide +kernel

/-- reversed, `a[::-1]` -/
example : unpack .double ⟨exBytes, .f8, 16, [3], [-8]⟩ = some [.fin (3602879701896397 / 2 ^ 55), .fin (-2), .fin (3 / 2)] := by
  decide +kernel

example : (⟨exBytes, .f8, 16, [3], [-8]⟩ : NdArray).Ok := ⟨by decide, rfl, by decide⟩

/-- `a[::2]` in an absorption function -/
example : argData (exArr.every 2) = .values [.fin (3 / 2), .fin (-2)] ∧ argStrided (exArr.every 2) = .values [.fin (3 / 2), .fin (3602879701896397 / 2 ^ 55)] := by
  decide +kernel

/-- `numpy.array([1, 2])` -/
def exInts : NdArray := ⟨[1, 0, 0, 0, 0, 0, 0, 0, 2, 0, 0, 0, 0, 0, 0, 0], .i8, 0, [2], [8]⟩

theorem exInts_ok : exInts.Ok := ⟨by decide, rfl, by decide⟩

example : unpack .int exInts = some [.fin 1, .fin 2] ∧ exInts.item 1 = some (.fin 2) ∧ unpack .double exInts ≠ some [.fin 1, .fin 2] := by
  decide +kernel

/-- `numpy.array([1.0], dtype=numpy.float32)` -/
example : (⟨[0, 0, 0x80, 0x3F], .f4, 0, [1], [4]⟩ : NdArray).item 0 = some (.fin 1) ∧ unpack .double ⟨[0, 0, 0x80, 0x3F], .f4, 0, [1], [4]⟩ = none := by
  decide +kernel

/-- infinity and not-a-number -/
example : decodeDouble 0x7FF0000000000000 = .inf false ∧ decodeDouble 0xFFF0000000000000 = .inf true ∧ decodeDouble 0x7FF8000000000000 = .nan := by
  decide +kernel

end Verif.Numpy
