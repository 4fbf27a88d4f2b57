import Verif.Model.DustFiles
import Verif.Model.DustData
import Verif.Properties.TableFile
import Verif.Properties.Optics
import Verif.Properties.Interp

/-!
# Refractive indices from the data files (C105)
-/
namespace Verif.DustFiles

open Verif.Text Verif.Text.Spec Verif.TableFile Verif.TableFile.Spec Verif.Optics Verif.DustData
open Verif.Interp (getRow interpolated)

set_option autoImplicit false

/-- the file with these rows, after any comments -/
def content (comments : List (List Char)) (rows : List Row) : List Char := fileText true (comments.map Line.comment ++ rows.map line)

/-- the numbers in a line: `1239840 5` in the first column is `1.239840E+05` -/
noncomputable def realRow (x : Row) : List ℝ := List.zipWith (fun (p : Nat) (x : Int × Int) => (x.1 : ℝ) / 10 ^ p * 10 ^ x.2) [6, 4, 4, 4, 4] x

/-! ## reading -/

theorem digitsOf_lt (k n : Nat) : ∀ d ∈ digitsOf k n, d < 10 := by
  induction k generalizing n with
  | zero => simp [digitsOf]
  | succ k ih =>
    intro d hd
    rw [digitsOf, List.mem_append, List.mem_singleton] at hd
    rcases hd with hd | rfl
    · exact ih _ d hd
    · omega

theorem digitsOf_length (k n : Nat) : (digitsOf k n).length = k := by
  induction k generalizing n with
  | zero => rfl
  | succ k ih => simp [digitsOf, ih]

theorem digitsOf_value (k n : Nat) : value 10 (digitsOf k n) = n % 10 ^ k := by
  induction k generalizing n with
  | zero => simp [digitsOf, value, Nat.mod_one]
  | succ k ih =>
    rw [digitsOf, value_append, ih, pow_succ, mul_comm (10 ^ k) 10, Nat.mod_mul]
    ring

/-- one number has the layout of the files -/
def okNumber (places : Nat) (x : Int × Int) : Bool := x.1.natAbs / 10 ^ places < 10 && x.2.natAbs < 100

theorem number_proper (b p : Nat) (x : Int × Int) (h : okNumber p x = true) : (number b p x).Proper ∧ '\n' ∉ (number b p x).blanks := by
  simp only [okNumber, Bool.and_eq_true, decide_eq_true_eq] at h
  have hb : ∀ c ∈ (number b p x).blanks, c = ' ' := fun c hc => List.eq_of_mem_replicate hc
  refine ⟨⟨?_, ?_, ?_, Or.inl (by simp [number]), ?_⟩, ?_⟩
  · intro c hc; rw [hb c hc]; decide
  · intro d hd
    simp only [number, List.mem_singleton] at hd
    omega
  · intro f hf d hd
    simp only [number, Option.some.injEq] at hf
    rw [← hf] at hd
    exact digitsOf_lt _ _ d hd
  · intro u s ds hx
    simp only [number, Option.some.injEq, Prod.mk.injEq] at hx
    obtain ⟨-, -, rfl⟩ := hx
    refine ⟨by simp, ?_⟩
    intro d hd
    simp only [List.mem_cons, List.not_mem_nil, or_false] at hd
    omega
  · intro hc
    exact absurd (hb _ hc) (by decide)

theorem number_value (b p : Nat) (x : Int × Int) : (number b p x).number = (x.1 : ℝ) / 10 ^ p * 10 ^ x.2 := by
  have hp : (10 : ℝ) ^ p ≠ 0 := by positivity
  have hn : (x.1.natAbs : ℝ) = (x.1.natAbs / 10 ^ p : Nat) * 10 ^ p + (x.1.natAbs % 10 ^ p : Nat) := by
    have := Nat.div_add_mod x.1.natAbs (10 ^ p)
    rw [mul_comm] at this
    exact_mod_cast this.symm
  have he : expValue (number b p x).exp = x.2 := by
    have h1 : value 10 [x.2.natAbs / 10, x.2.natAbs % 10] = x.2.natAbs := by simp [value]; omega
    simp only [number, expValue, h1, Option.some.injEq, decide_eq_true_eq]
    split_ifs with h <;> omega
  have hw : value 10 [x.1.natAbs / 10 ^ p] = x.1.natAbs / 10 ^ p := by simp [value]
  rw [Literal.number, he]
  congr 1
  simp only [number, hw, Option.getD_some, digitsOf_value, digitsOf_length]
  have hs : (if (if x.1 < 0 then some true else none) = some true then (-1 : ℝ) else 1) * x.1.natAbs = x.1 := by
    by_cases h : x.1 < 0
    · simp only [h, if_true]
      have : (x.1.natAbs : ℤ) = -x.1 := by omega
      have h2 : (x.1.natAbs : ℝ) = -(x.1 : ℝ) := by rw [← Int.cast_natCast, this]; push_cast; rfl
      rw [h2]; ring
    · simp only [h, if_false]
      have : (x.1.natAbs : ℤ) = x.1 := by omega
      have h2 : (x.1.natAbs : ℝ) = (x.1 : ℝ) := by rw [← Int.cast_natCast, this]
      rw [h2, if_neg (by decide), one_mul]
  rw [eq_div_iff hp, mul_assoc, add_mul, div_mul_cancel₀ _ hp, ← hn]
  refine (congrArg (· * (x.1.natAbs : ℝ)) ?_).trans hs
  by_cases h : x.1 < 0
  · simp [h]
  · simp [h]

/-- one line has the layout of the files -/
def okRow (x : Row) : Bool :=
  match x with
  | [a, b, c, d, e] => okNumber 6 a && okNumber 4 b && okNumber 4 c && okNumber 4 d && okNumber 4 e && decide (0 ≤ c.1) && decide (0 ≤ e.1)
  | _ => false

theorem line_spec (x : Row) (h : okRow x = true) : (line x).Proper 5 ∧ (line x).row = some (realRow x) := by
  unfold okRow at h
  split at h
  · rename_i a b c d e
    simp only [Bool.and_eq_true, decide_eq_true_eq] at h
    obtain ⟨⟨⟨⟨⟨⟨ha, hb⟩, hc⟩, hd⟩, he⟩, hc'⟩, he'⟩ := h
    refine ⟨⟨rfl, ?_, ?_, ?_, by simp⟩, ?_⟩
    · intro l hl
      simp only [List.mem_cons, List.not_mem_nil, or_false] at hl
      rcases hl with rfl | rfl | rfl | rfl | rfl
      · exact number_proper _ _ _ ha
      · exact number_proper _ _ _ hb
      · exact number_proper _ _ _ hc
      · exact number_proper _ _ _ hd
      · exact number_proper _ _ _ he
    · intro l hl
      simp only [List.tail_cons, List.mem_cons, List.not_mem_nil, or_false] at hl
      have h2 : ∀ x, (number 2 4 x).blanks ≠ [] := by
        intro x
        simp only [number]
        split_ifs <;> simp
      have h1 : ∀ x : Int × Int, 0 ≤ x.1 → (number 1 4 x).blanks ≠ [] := by
        intro x hx
        simp only [number, if_neg (not_lt.2 hx)]
        simp
      rcases hl with rfl | rfl | rfl | rfl
      · exact h2 _
      · exact h1 _ hc'
      · exact h2 _
      · exact h1 _ he'
    · intro c r h; cases h
    · simp [line, Line.row, realRow, number_value]
  · cases h

set_option maxRecDepth 20000 in
theorem ok_silicon : silicon.all okRow = true := by decide +kernel
set_option maxRecDepth 20000 in
theorem ok_parallel : parallel.all okRow = true := by decide +kernel
set_option maxRecDepth 20000 in
theorem ok_perpendicular : perpendicular.all okRow = true := by decide +kernel

theorem read_rows (comments : List (List Char)) (hc : ∀ t ∈ comments, '\n' ∉ t) (rows : List Row) (h : rows.all okRow = true) :
    fromAscii 5 [] (some (content comments rows)) = .ok (rows.map realRow) := by
  rw [List.all_eq_true] at h
  rw [content, c105_read 5 (by decide)]
  · rw [List.nil_append, List.filterMap_append]
    congr 1
    have h1 : (comments.map Line.comment).filterMap Line.row = [] := by
      rw [List.filterMap_eq_nil_iff]
      intro l hl
      rw [List.mem_map] at hl
      obtain ⟨t, -, rfl⟩ := hl
      rfl
    rw [h1, List.nil_append, List.filterMap_map]
    have : ∀ x ∈ rows, (Line.row ∘ line) x = some (realRow x) := fun x hx => (line_spec x (h x hx)).2
    clear h
    induction rows with
    | nil => rfl
    | cons x rows ih =>
      rw [List.filterMap_cons_some (this x (by simp)), ih fun y hy => this y (by simp [hy]), List.map_cons]
  · intro l hl
    rw [List.mem_append, List.mem_map, List.mem_map] at hl
    rcases hl with ⟨t, ht, rfl⟩ | ⟨x, hx, rfl⟩
    · exact hc t ht
    · exact (line_spec x (h x hx)).1

/-- C105: the three data files are read as the rows of numbers they contain -/
theorem c105_data (comments : List (List Char)) (hc : ∀ t ∈ comments, '\n' ∉ t) :
    fromAscii 5 [] (some (content comments silicon)) = .ok (silicon.map realRow)
    ∧ fromAscii 5 [] (some (content comments parallel)) = .ok (parallel.map realRow)
    ∧ fromAscii 5 [] (some (content comments perpendicular)) = .ok (perpendicular.map realRow) :=
  ⟨read_rows _ hc _ ok_silicon, read_rows _ hc _ ok_parallel, read_rows _ hc _ ok_perpendicular⟩

/-! ## the tables -/

/-- wavelengths as integers -/
def wave (x : Row) : Int := (x.headD (0, 0)).1 * 10 ^ ((x.headD (0, 0)).2 + 20).toNat

/-- strictly descending, all exponents representable -/
def descending : List Row → Bool
  | a :: b :: l => decide (wave b < wave a) && descending (b :: l)
  | _ => true

def small (x : Row) : Bool := decide (-20 ≤ (x.headD (0, 0)).2) && decide (0 < (x.headD (0, 0)).1)

set_option maxRecDepth 20000 in
theorem descending_all : descending silicon = true ∧ descending parallel = true ∧ descending perpendicular = true := by decide +kernel
set_option maxRecDepth 20000 in
theorem small_all : silicon.all small = true ∧ parallel.all small = true ∧ perpendicular.all small = true := by decide +kernel
set_option maxRecDepth 20000 in
theorem sizes : silicon.length = 837 ∧ parallel.length = 386 ∧ perpendicular.length = 383 := by decide +kernel

theorem first_column (x : Row) (h : small x = true) : (realRow x).getD 0 0 = wave x / 10 ^ 26 := by
  cases x with
  | nil => simp [small] at h
  | cons a x =>
    simp only [small, List.headD_cons, Bool.and_eq_true] at h
    have h1 := of_decide_eq_true h.1
    simp only [realRow, List.zipWith_cons_cons, List.getD_cons_zero, wave, List.headD_cons]
    push_cast
    have : (10 : ℝ) ^ a.2 = 10 ^ (a.2 + 20).toNat / 10 ^ 20 := by
      rw [eq_div_iff (by positivity), ← zpow_natCast, ← zpow_natCast, ← zpow_add₀ (by norm_num)]
      congr 1
      push_cast
      omega
    rw [this]
    ring

theorem descending_at (rows : List Row) (h : descending rows = true) (i j : Nat) (hij : i < j) (hj : j < rows.length) :
    wave (rows.getD j []) < wave (rows.getD i []) := by
  have step : ∀ (rows : List Row), descending rows = true → ∀ i, i + 1 < rows.length → wave (rows.getD (i + 1) []) < wave (rows.getD i []) := by
    intro rows
    induction rows with
    | nil => intro _ i hi; simp at hi
    | cons a l ih =>
      intro h i hi
      cases l with
      | nil => simp at hi
      | cons b l =>
        simp only [descending, Bool.and_eq_true, decide_eq_true_eq] at h
        cases i with
        | zero => exact h.1
        | succ i => exact ih h.2 i (by simpa using hi)
  induction j with
  | zero => omega
  | succ j ih =>
    have h1 := step rows h j hj
    rcases Nat.lt_or_ge i j with g | g
    · exact h1.trans (ih g (by omega))
    · rw [show i = j by omega]; exact h1

theorem table_at (rows : List Row) (i : Nat) (hi : i < rows.length) : (asTable (rows.map realRow)).2 i = fun j => (realRow (rows.getD i [])).getD j 0 := by
  funext j
  simp [asTable, List.getD_eq_getElem?_getD, List.getElem?_map, List.getElem?_eq_getElem hi]

theorem table_descending (rows : List Row) (h : descending rows = true) (hs : rows.all small = true) :
    ∀ i j, i < j → j < (asTable (rows.map realRow)).1 → (asTable (rows.map realRow)).2 j 0 < (asTable (rows.map realRow)).2 i 0 := by
  intro i j hij hj
  have hj' : j < rows.length := by simpa [asTable] using hj
  rw [List.all_eq_true] at hs
  have mem : ∀ k, k < rows.length → small (rows.getD k []) = true := by
    intro k hk
    rw [List.getD_eq_getElem?_getD, List.getElem?_eq_getElem hk]
    exact hs _ (List.getElem_mem hk)
  rw [table_at rows i (by omega), table_at rows j hj']
  simp only
  rw [first_column _ (mem i (by omega)), first_column _ (mem j hj')]
  have := descending_at rows h i j hij hj'
  apply div_lt_div_of_pos_right _ (by positivity)
  exact_mod_cast this

/-! ## looking up -/

/-- interpolation in a descending table, as weights of the two rows -/
theorem between_rows (S : Rows) (size : Nat) (hs : 2 ≤ size) (hm : ∀ i j, i < j → j < size → S j 0 < S i 0) (w : ℝ) (h0 : S (size - 1) 0 ≤ w) (h1 : w ≤ S 0 0) :
    ∃ i t, i + 1 < size ∧ 0 ≤ t ∧ t ≤ 1 ∧ w = (1 - t) * S i 0 + t * S (i + 1) 0
      ∧ getRow S size 0 false w = .row fun c => (1 - t) * S i c + t * S (i + 1) c := by
  obtain ⟨i, hi, hb, hrow⟩ := Verif.Interp.c35_inside S hs false w (Or.inr ⟨hm, h0, h1⟩)
  have hlt := hm i (i + 1) (by omega) hi
  have hb : S (i + 1) 0 ≤ w ∧ w ≤ S i 0 := by
    rcases hb with ⟨a, b⟩ | h
    · exact absurd (a.trans b) (not_le.2 hlt)
    · exact h
  have hneg : S (i + 1) 0 - S i 0 < 0 := by linarith
  refine ⟨i, (w - S i 0) / (S (i + 1) 0 - S i 0), hi, div_nonneg_of_nonpos (by linarith) hneg.le, by rw [div_le_one_of_neg hneg]; linarith, ?_, ?_⟩
  · have : (w - S i 0) / (S (i + 1) 0 - S i 0) * (S (i + 1) 0 - S i 0) = w - S i 0 := div_mul_cancel₀ _ hneg.ne
    linarith
  · rw [hrow]
    congr 1
    funext c
    simp only [interpolated]
    ring

/-- beyond the first row of a descending table: the first two rows are extrapolated -/
theorem beyond_row (S : Rows) (size : Nat) (hs : 2 ≤ size) (hm : ∀ i j, i < j → j < size → S j 0 < S i 0) (w : ℝ) (h1 : S 0 0 < w) :
    getRow S size 0 false w = .row (interpolated S 0 0 w) := by
  obtain ⟨a, b, c, d, e⟩ := Verif.Interp.bisect_spec (fun inext => decide (S inext 0 ≥ w)) size 0 (size - 1) (by omega) (by omega)
  have h2 := hm 0 (size - 1) (by omega) (by omega)
  unfold getRow
  simp only [if_neg (show ¬ size = 0 by omega), if_neg (not_lt.2 h2.le), if_pos h2]
  generalize Verif.Interp.bisect (fun inext => decide (S inext 0 ≥ w)) 0 (size - 1) = r at a b c d e ⊢
  obtain ⟨i, j⟩ := r
  dsimp only at a b c d e ⊢
  subst a
  have i0 : i = 0 := by
    rcases d with d | d
    · exact d
    · have := of_decide_eq_true d
      rcases Nat.eq_zero_or_pos i with g | g
      · exact g
      · exact absurd (this.trans (hm 0 i g (by omega)).le) (not_le.2 h1)
  subst i0
  rw [if_neg (by simp)]
  congr 1
  funext c
  simp only [interpolated]
  ring

/-- the dust properties with the data files -/
noncomputable def shipped (T : ℝ) : Dust :=
  dust T (asTable (silicon.map realRow)) (asTable (parallel.map realRow)) (asTable (perpendicular.map realRow))

/-- the number in a file: row and column -/
noncomputable def cell (rows : List Row) (i j : Nat) : ℝ := (realRow (rows.getD i [])).getD j 0

theorem asTable_length (rows : List Row) : (asTable (rows.map realRow)).1 = rows.length := by simp [asTable]

/-- C105: with the data files, the object is created with the tables in the files; without one of them it is not -/
theorem c105_created (T : ℝ) (c1 c2 c3 : List (List Char)) (h1 : ∀ t ∈ c1, '\n' ∉ t) (h2 : ∀ t ∈ c2, '\n' ∉ t) (h3 : ∀ t ∈ c3, '\n' ∉ t) :
    dustOfFiles T (some (content c1 silicon)) (some (content c2 parallel)) (some (content c3 perpendicular)) = .ok (shipped T)
    ∧ ∀ a b c, a = none ∨ b = none ∨ c = none → dustOfFiles T a b c = .error .error := by
  constructor
  · rw [dustOfFiles, (c105_data c1 h1).1, (c105_data c2 h2).2.1, (c105_data c3 h3).2.2]
    rfl
  · intro a b c h
    rw [dustOfFiles]
    rcases h with rfl | rfl | rfl
    · rfl
    · rw [c105_missing]; cases fromAscii 5 [] a <;> rfl
    · rw [c105_missing 5 []]; cases fromAscii 5 [] a <;> cases fromAscii 5 [] b <;> rfl

/-- real and imaginary part of the refractive index are positive in all rows (the real part minus one is tabulated) -/
def positive (x : Row) : Bool :=
  match x with
  | [_, _, _, d, e] => decide (-20 ≤ d.2) && decide (-(10 ^ 24 : Int) < d.1 * 10 ^ (d.2 + 20).toNat) && decide (0 < e.1)
  | _ => false

set_option maxRecDepth 20000 in
theorem positive_silicon : silicon.all positive = true := by decide +kernel

theorem positive_spec (x : Row) (h : positive x = true) : -1 < (realRow x).getD 3 0 ∧ 0 < (realRow x).getD 4 0 := by
  unfold positive at h
  split at h
  · rename_i a b c d e
    simp only [Bool.and_eq_true] at h
    obtain ⟨⟨h1, h2⟩, h3⟩ := h
    have h1 := of_decide_eq_true h1
    have h2 := of_decide_eq_true h2
    have h3 := of_decide_eq_true h3
    constructor
    · have e1 : (10 : ℝ) ^ d.2 = 10 ^ (d.2 + 20).toNat / 10 ^ 20 := by
        rw [eq_div_iff (by positivity), ← zpow_natCast, ← zpow_natCast, ← zpow_add₀ (by norm_num)]
        congr 1
        push_cast
        omega
      have h2' : -(10 ^ 24 : ℝ) < (d.1 : ℝ) * 10 ^ (d.2 + 20).toNat := by exact_mod_cast h2
      have e2 : (realRow [a, b, c, d, e]).getD 3 0 = (d.1 : ℝ) * 10 ^ (d.2 + 20).toNat / 10 ^ 24 := by
        simp only [realRow, List.zipWith_cons_cons, List.getD_cons_succ, List.getD_cons_zero]
        rw [e1]
        ring
      rw [e2, lt_div_iff₀ (by positivity)]
      linarith
    · simp only [realRow, List.zipWith_cons_cons, List.getD_cons_succ, List.getD_cons_zero]
      have : (0 : ℝ) < e.1 := by exact_mod_cast h3
      positivity
  · cases h

theorem row_of (rows : List Row) (p : Row → Bool) (h : rows.all p = true) (i : Nat) (hi : i < rows.length) : p (rows.getD i []) = true := by
  rw [List.all_eq_true] at h
  rw [List.getD_eq_getElem?_getD, List.getElem?_eq_getElem hi]
  exact h _ (List.getElem_mem hi)

set_option maxRecDepth 20000 in
theorem ends : silicon.getD 0 [] = r 1239840 5 10799 1 76875 (-3) 24350 0 11190 (-3) ∧ silicon.getD 1 [] = r 9998710 4 10799 1 95356 (-3) 24350 0 13880 (-3)
    ∧ silicon.getD 836 [] = r 6199200 (-5) (-38900) (-6) 35660 (-8) (-19450) (-6) 17830 (-8)
    ∧ (parallel.getD 0 []).headD (0, 0) = (1239840, 5) ∧ (parallel.getD 385 []).headD (0, 0) = (6199200, -5)
    ∧ (perpendicular.getD 0 []).headD (0, 0) = (1239840, 5) ∧ (perpendicular.getD 382 []).headD (0, 0) = (6199200, -5) := by decide +kernel

theorem cell_first (rows : List Row) (hs : rows.all small = true) (i : Nat) (hi : i < rows.length) (m e : Int) (h : (rows.getD i []).headD (0, 0) = (m, e)) :
    cell rows i 0 = m / 10 ^ 6 * 10 ^ e := by
  have h1 := row_of rows small hs i hi
  unfold cell
  cases hx : rows.getD i [] with
  | nil => rw [hx] at h1; simp [small] at h1
  | cons a x =>
    rw [hx] at h
    simp only [List.headD_cons] at h
    simp [realRow, h]

theorem table_cell (rows : List Row) (i j : Nat) (hi : i < rows.length) : (asTable (rows.map realRow)).2 i j = cell rows i j := by
  rw [table_at rows i hi]
  rfl

/-- the wavelengths of a table after the conversion -/
theorem converted (rows : List Row) (hd : descending rows = true) (hs : rows.all small = true) :
    ∀ i j, i < j → j < rows.length → cell rows j 0 / 10 ^ 6 < cell rows i 0 / (10 : ℝ) ^ 6 := by
  intro i j hij hj
  have := table_descending rows hd hs i j hij (by rw [asTable_length]; exact hj)
  rw [table_cell rows i 0 (by omega), table_cell rows j 0 hj] at this
  exact div_lt_div_of_pos_right this (by positivity)

/-- **C105** for every wavelength in the range of the file with silicates, every size and every temperature, the refractive index is the linear
interpolation between the values in two consecutive lines of the file, whose wavelengths enclose the given one; real and imaginary part are positive -/
theorem c105_silicate (T w grain : ℝ) (h0 : 61992 / 10 ^ 15 ≤ w) (h1 : w ≤ 123984 / 10 ^ 6) :
    ∃ i t m, i + 1 < 837 ∧ 0 ≤ t ∧ t ≤ 1 ∧ w = (1 - t) * (cell silicon i 0 / 10 ^ 6) + t * (cell silicon (i + 1) 0 / 10 ^ 6)
      ∧ refractiveIndex (shipped T) w grain 2 = .index m
      ∧ m.re = 1 + ((1 - t) * cell silicon i 3 + t * cell silicon (i + 1) 3) ∧ m.im = (1 - t) * cell silicon i 4 + t * cell silicon (i + 1) 4
      ∧ 0 < m.re ∧ 0 < m.im := by
  set S := convertTable 837 (asTable (silicon.map realRow)).2 with hS
  have spec : ∀ i, i < 837 → S i 0 = cell silicon i 0 / 10 ^ 6 ∧ S i 3 = cell silicon i 3 + 1 ∧ S i 4 = cell silicon i 4 := by
    intro i hi
    obtain ⟨a, -, -, b, c⟩ := convert_spec 837 (asTable (silicon.map realRow)).2 i hi
    have hi' : i < silicon.length := by rw [sizes.1]; exact hi
    rw [hS, a, b, c, table_cell _ _ _ hi', table_cell _ _ _ hi', table_cell _ _ _ hi']
    exact ⟨rfl, rfl, rfl⟩
  have hm : ∀ i j, i < j → j < 837 → S j 0 < S i 0 := by
    intro i j hij hj
    rw [(spec i (by omega)).1, (spec j hj).1]
    exact converted silicon descending_all.1 small_all.1 i j hij (by rw [sizes.1]; exact hj)
  have e0 : S 0 0 = 123984 / 10 ^ 6 := by
    rw [(spec 0 (by omega)).1, cell_first silicon small_all.1 0 (by rw [sizes.1]; omega) 1239840 5 (by rw [ends.1]; rfl)]
    norm_num
  have e1 : S 836 0 = 61992 / 10 ^ 15 := by
    rw [(spec 836 (by omega)).1, cell_first silicon small_all.1 836 (by rw [sizes.1]; omega) 6199200 (-5) (by rw [ends.2.2.1]; rfl)]
    norm_num
  obtain ⟨i, t, hi, ht0, ht1, hw, hrow⟩ := between_rows S 837 (by omega) hm w (by rw [show 837 - 1 = 836 from rfl, e1]; exact h0) (by rw [e0]; exact h1)
  have si := spec i (by omega)
  have sj := spec (i + 1) hi
  have pi := positive_spec _ (row_of silicon positive positive_silicon i (by rw [sizes.1]; omega))
  have pj := positive_spec _ (row_of silicon positive positive_silicon (i + 1) (by rw [sizes.1]; omega))
  refine ⟨i, t, ⟨(1 - t) * S i 3 + t * S (i + 1) 3, (1 - t) * S i 4 + t * S (i + 1) 4⟩, hi, ht0, ht1, by rw [← si.1, ← sj.1]; exact hw, ?_, ?_, ?_, ?_, ?_⟩
  · unfold refractiveIndex
    rw [if_neg (by decide), if_neg (by decide), if_pos rfl]
    have hl : (asTable (silicon.map realRow)).1 = 837 := by rw [asTable_length, sizes.1]
    simp only [shipped, dust, hl, ← hS, hrow]
  · simp only [si.2.1, sj.2.1]; ring
  · simp only [si.2.2, sj.2.2]
  · simp only [si.2.1, sj.2.1]
    have a1 : 0 < cell silicon i 3 + 1 := by have := pi.1; unfold cell; linarith
    have a2 : 0 < cell silicon (i + 1) 3 + 1 := by have := pj.1; unfold cell; linarith
    rcases ht0.eq_or_lt with h | h
    · rw [← h]; linarith
    · have := mul_pos h a2
      have := mul_nonneg (sub_nonneg.2 ht1) a1.le
      linarith
  · simp only [si.2.2, sj.2.2]
    have a1 : 0 < cell silicon i 4 := pi.2
    have a2 : 0 < cell silicon (i + 1) 4 := pj.2
    rcases ht0.eq_or_lt with h | h
    · rw [← h]; linarith
    · have := mul_pos h a2
      have := mul_nonneg (sub_nonneg.2 ht1) a1.le
      linarith

theorem carbon_between (rows : List Row) (size : Nat) (hl : rows.length = size + 1) (hs1 : 1 ≤ size) (hd : descending rows = true) (hs : rows.all small = true)
    (par : Bool) (T w grain : ℝ) (h0 : cell rows size 0 / 10 ^ 6 ≤ w) (h1 : w ≤ cell rows 0 0 / 10 ^ 6) :
    ∃ i t, i + 1 < rows.length ∧ 0 ≤ t ∧ t ≤ 1 ∧ w = (1 - t) * (cell rows i 0 / 10 ^ 6) + t * (cell rows (i + 1) 0 / 10 ^ 6)
      ∧ ∃ r, getRow (subtractFree rows.length par (convertTable rows.length (asTable (rows.map realRow)).2)) rows.length 0 false w = .row r
        ∧ (⟨r 1, r 2⟩ : ℂ) + freeTerm T w grain par
          = ((1 - t : ℝ) * ((⟨cell rows i 1 + 1, cell rows i 2⟩ : ℂ) - freeTerm 20 (cell rows i 0 / 10 ^ 6) (1 / 10 ^ 7) par)
            + (t : ℝ) * ((⟨cell rows (i + 1) 1 + 1, cell rows (i + 1) 2⟩ : ℂ) - freeTerm 20 (cell rows (i + 1) 0 / 10 ^ 6) (1 / 10 ^ 7) par)
            + freeTerm T w grain par) := by
  set S := subtractFree rows.length par (convertTable rows.length (asTable (rows.map realRow)).2) with hS
  have spec : ∀ i, i < rows.length → S i 0 = cell rows i 0 / 10 ^ 6
      ∧ (⟨S i 1, S i 2⟩ : ℂ) = ⟨cell rows i 1 + 1, cell rows i 2⟩ - freeTerm 20 (cell rows i 0 / 10 ^ 6) (1 / 10 ^ 7) par := by
    intro i hi
    obtain ⟨a, b, c, -⟩ := convert_spec rows.length (asTable (rows.map realRow)).2 i hi
    have := subtract_spec rows.length par (convertTable rows.length (asTable (rows.map realRow)).2) i hi
    rw [a, b, c, table_cell _ _ _ hi, table_cell _ _ _ hi, table_cell _ _ _ hi] at this
    exact this
  have hm : ∀ i j, i < j → j < rows.length → S j 0 < S i 0 := by
    intro i j hij hj
    rw [(spec i (by omega)).1, (spec j hj).1]
    exact converted rows hd hs i j hij hj
  obtain ⟨i, t, hi, ht0, ht1, hw, hrow⟩ := between_rows S rows.length (by omega) hm w
    (by rw [show rows.length - 1 = size by omega, (spec size (by omega)).1]; exact h0) (by rw [(spec 0 (by omega)).1]; exact h1)
  have si := spec i (by omega)
  have sj := spec (i + 1) hi
  refine ⟨i, t, hi, ht0, ht1, by rw [← si.1, ← sj.1]; exact hw, _, hrow, ?_⟩
  rw [← si.2, ← sj.2]
  congr 1
  apply Complex.ext <;> simp

/-- **C105** for every wavelength in the range of the files with carbon, every size and every temperature, the refractive index belongs to the
dielectric function which is interpolated between two consecutive lines of the file for that orientation, without the free electron term of the
tabulated grains, plus the free electron term of the actual grain -/
theorem c105_carbon (T w grain : ℝ) (h0 : 61992 / 10 ^ 15 ≤ w) (h1 : w ≤ 123984 / 10 ^ 6) :
    (∃ i t, i + 1 < 386 ∧ 0 ≤ t ∧ t ≤ 1 ∧ w = (1 - t) * (cell parallel i 0 / 10 ^ 6) + t * (cell parallel (i + 1) 0 / 10 ^ 6)
      ∧ IndexOf (refractiveIndex (shipped T) w grain 0)
        ((1 - t : ℝ) * ((⟨cell parallel i 1 + 1, cell parallel i 2⟩ : ℂ) - freeTerm 20 (cell parallel i 0 / 10 ^ 6) (1 / 10 ^ 7) true)
          + (t : ℝ) * ((⟨cell parallel (i + 1) 1 + 1, cell parallel (i + 1) 2⟩ : ℂ) - freeTerm 20 (cell parallel (i + 1) 0 / 10 ^ 6) (1 / 10 ^ 7) true)
          + freeTerm T w grain true))
    ∧ ∃ i t, i + 1 < 383 ∧ 0 ≤ t ∧ t ≤ 1 ∧ w = (1 - t) * (cell perpendicular i 0 / 10 ^ 6) + t * (cell perpendicular (i + 1) 0 / 10 ^ 6)
      ∧ IndexOf (refractiveIndex (shipped T) w grain 1)
        ((1 - t : ℝ) * ((⟨cell perpendicular i 1 + 1, cell perpendicular i 2⟩ : ℂ) - freeTerm 20 (cell perpendicular i 0 / 10 ^ 6) (1 / 10 ^ 7) false)
          + (t : ℝ) * ((⟨cell perpendicular (i + 1) 1 + 1, cell perpendicular (i + 1) 2⟩ : ℂ)
            - freeTerm 20 (cell perpendicular (i + 1) 0 / 10 ^ 6) (1 / 10 ^ 7) false)
          + freeTerm T w grain false) := by
  constructor
  · have hl := sizes.2.1
    obtain ⟨i, t, hi, a, b, c, r, hr, he⟩ := carbon_between parallel 385 hl (by omega) descending_all.2.1 small_all.2.1 true T w grain
      (by
        rw [cell_first parallel small_all.2.1 385 (by omega) 6199200 (-5) ends.2.2.2.2.1]
        convert h0 using 1; norm_num)
      (by
        rw [cell_first parallel small_all.2.1 0 (by omega) 1239840 5 ends.2.2.2.1]
        convert h1 using 1; norm_num)
    refine ⟨i, t, by omega, a, b, c, ?_⟩
    unfold refractiveIndex
    rw [if_pos rfl]
    simp only [shipped, dust, asTable_length, hr]
    rw [he]
    exact indexOf_eps _
  · have hl := sizes.2.2
    obtain ⟨i, t, hi, a, b, c, r, hr, he⟩ := carbon_between perpendicular 382 hl (by omega) descending_all.2.2 small_all.2.2 false T w grain
      (by
        rw [cell_first perpendicular small_all.2.2 382 (by omega) 6199200 (-5) ends.2.2.2.2.2.2]
        convert h0 using 1; norm_num)
      (by
        rw [cell_first perpendicular small_all.2.2 0 (by omega) 1239840 5 ends.2.2.2.2.2.1]
        convert h1 using 1; norm_num)
    refine ⟨i, t, by omega, a, b, c, ?_⟩
    unfold refractiveIndex
    rw [if_neg (by decide), if_pos rfl]
    simp only [shipped, dust, asTable_length, hr]
    rw [he]
    exact indexOf_eps _

/-- a wavelength in the range -/
example : (61992 / 10 ^ 15 : ℝ) ≤ 200 / 10 ^ 6 ∧ (200 / 10 ^ 6 : ℝ) ≤ 123984 / 10 ^ 6 := by norm_num

/-- **C105** (violated) a wavelength that is not in the range of the file is not refused: for all wavelengths above 0.24 m, the refractive index of
silicates has a negative imaginary part (the grains would emit instead of absorb) -/
theorem c105_outside_violation (T w grain : ℝ) (h : 24 / 100 ≤ w) : ∃ m, refractiveIndex (shipped T) w grain 2 = .index m ∧ m.im < 0 := by
  set S := convertTable 837 (asTable (silicon.map realRow)).2 with hS
  have spec : ∀ i, i < 837 → S i 0 = cell silicon i 0 / 10 ^ 6 ∧ S i 4 = cell silicon i 4 := by
    intro i hi
    obtain ⟨a, -, -, b, c⟩ := convert_spec 837 (asTable (silicon.map realRow)).2 i hi
    have hi' : i < silicon.length := by rw [sizes.1]; exact hi
    rw [hS, a, c, table_cell _ _ _ hi', table_cell _ _ _ hi']
    exact ⟨rfl, rfl⟩
  have hm : ∀ i j, i < j → j < 837 → S j 0 < S i 0 := by
    intro i j hij hj
    rw [(spec i (by omega)).1, (spec j hj).1]
    exact converted silicon descending_all.1 small_all.1 i j hij (by rw [sizes.1]; exact hj)
  have e00 : S 0 0 = 123984 / 10 ^ 6 := by
    rw [(spec 0 (by omega)).1, cell, ends.1]
    norm_num [r, realRow]
  have e10 : S 1 0 = 999871 / 10 ^ 7 := by
    rw [(spec 1 (by omega)).1, cell, ends.2.1]
    norm_num [r, realRow]
  have e04 : S 0 4 = 1119 / 10 ^ 6 := by
    rw [(spec 0 (by omega)).2, cell, ends.1]
    norm_num [r, realRow]
  have e14 : S 1 4 = 1388 / 10 ^ 6 := by
    rw [(spec 1 (by omega)).2, cell, ends.2.1]
    norm_num [r, realRow]
  have hrow := beyond_row S 837 (by omega) hm w (by rw [e00]; linarith)
  refine ⟨⟨interpolated S 0 0 w 3, interpolated S 0 0 w 4⟩, ?_, ?_⟩
  · unfold refractiveIndex
    rw [if_neg (by decide), if_neg (by decide), if_pos rfl]
    have hl : (asTable (silicon.map realRow)).1 = 837 := by rw [asTable_length, sizes.1]
    simp only [shipped, dust, hl, ← hS, hrow]
  · simp only [interpolated, zero_add, e00, e10, e04, e14]
    have : (w - 123984 / 10 ^ 6) / (999871 / 10 ^ 7 - 123984 / 10 ^ 6) = -(w - 123984 / 10 ^ 6) * (10 ^ 7 / 239969) := by
      norm_num
      ring
    rw [this]
    norm_num
    linarith

end Verif.DustFiles
