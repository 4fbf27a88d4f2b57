import Verif.Spec.Text
import Mathlib.Data.Int.ModEq
import Mathlib.Data.List.TakeWhile
import Mathlib.Data.Nat.Prime.Basic
import Mathlib.Data.Nat.Digits.Lemmas
import Mathlib.Tactic.Ring
import Mathlib.Tactic.Linarith
import Mathlib.Tactic.IntervalCases
import Mathlib.Tactic.Positivity

/-!
# C47, C48: conversion of strings to integers and truth values
-/
namespace Verif.Text

open Spec

/-! ## integer types -/

theorem wrap_modEq (t : IntType) (x : Int) : t.wrap x ≡ x [ZMOD 2 ^ t.bits] := by
  unfold IntType.wrap
  have e : ((2 ^ t.bits : Nat) : Int) = 2 ^ t.bits := by push_cast; rfl
  split
  · rw [Int.bmod_def, e]
    split
    · exact Int.mod_modEq _ _
    · exact (Int.mod_modEq _ _).symm.trans (by
        have : x % 2 ^ t.bits - 2 ^ t.bits ≡ x % 2 ^ t.bits - 0 [ZMOD 2 ^ t.bits] :=
          Int.ModEq.sub (Int.ModEq.refl _) (by simp [Int.ModEq])
        rw [sub_zero] at this
        exact ((Int.mod_modEq _ _).trans this.symm)) |>.symm |> fun h => h.trans (Int.mod_modEq _ _)
  · exact Int.mod_modEq _ _

theorem wrap_congr (t : IntType) {x y : Int} (h : x ≡ y [ZMOD 2 ^ t.bits]) : t.wrap x = t.wrap y := by
  unfold IntType.wrap
  have e : ((2 ^ t.bits : Nat) : Int) = 2 ^ t.bits := by push_cast; rfl
  split
  · rw [Int.bmod_def, Int.bmod_def, e, h]
  · exact h

theorem wrap_range (t : IntType) (hb : 1 ≤ t.bits) {x : Int} (h : InRange t x) : t.wrap x = x := by
  unfold IntType.wrap
  unfold InRange at h
  have e : ((2 ^ t.bits : Nat) : Int) = 2 ^ t.bits := by push_cast; rfl
  split
  · rename_i hs
    rw [if_pos hs] at h
    have e2 : (2 : Int) ^ t.bits = 2 * 2 ^ (t.bits - 1) := by
      rw [← pow_succ']
      congr 1
      omega
    apply Int.bmod_eq_of_le
    · rw [e]; omega
    · rw [e]; omega
  · rename_i hs
    rw [if_neg hs] at h
    exact Int.emod_eq_of_lt h.1 h.2

theorem mul_range (t : IntType) (hb : 1 ≤ t.bits) {a b : Int} (h : InRange t (a * b)) : t.mul a b = .ok (a * b) := by
  have hw := wrap_range t hb h
  unfold InRange at h
  unfold IntType.mul
  split
  · rename_i hs
    rw [if_pos hs] at h
    rw [if_pos h]
  · rename_i hs
    rw [if_neg hs] at h
    rw [hw]
    split
    · rename_i h32
      have : (2 : Int) ^ t.bits ≤ 2 ^ 31 := pow_le_pow_right₀ (by norm_num) (by omega)
      rw [if_pos (by omega)]
    · rfl

theorem inRange_zero (t : IntType) : InRange t 0 := by
  unfold InRange
  split
  · constructor
    · have : (0 : Int) ≤ 2 ^ (t.bits - 1) := by positivity
      omega
    · positivity
  · exact ⟨le_rfl, by positivity⟩

theorem inRange_le (t : IntType) {x y : Int} (h : InRange t y) (h0 : 0 ≤ x) (hx : x ≤ y) : InRange t x := by
  unfold InRange at *
  split
  · rename_i hs
    rw [if_pos hs] at h
    have : (0 : Int) ≤ 2 ^ (t.bits - 1) := by positivity
    omega
  · rename_i hs
    rw [if_neg hs] at h
    omega

/-! ## the loops over the digits -/

theorem value_append (r : Nat) (a : List Nat) (d : Nat) : value r (a ++ [d]) = value r a * r + d := by
  unfold value
  rw [List.foldl_append]
  rfl

theorem fold_digits (t : IntType) (hb : t.bits ≤ 64) (r : Nat) (ds : List Nat) : ∀ (x : Int) (b : Nat),
    (ds.reverse.foldl (fun (s : Int × Nat) (d : Nat) => (t.wrap ((s.1 + s.2 * d) % 2 ^ 64), s.2 * r % 2 ^ 64)) (t.wrap x, b % 2 ^ 64)).1
      = t.wrap (x + b * value r ds) := by
  induction ds using List.reverseRecOn with
  | nil => intro x b; simp [value]
  | append_singleton ds d ih =>
    intro x b
    rw [List.reverse_append, List.reverse_singleton, List.singleton_append, List.foldl_cons]
    have hdvd : ((2 : Int) ^ t.bits) ∣ 2 ^ 64 := pow_dvd_pow 2 hb
    have e1 : t.wrap ((t.wrap x + ((b % 2 ^ 64 : Nat) : Int) * d) % 2 ^ 64) = t.wrap (x + b * d) := by
      apply wrap_congr
      refine (Int.ModEq.of_dvd hdvd (Int.mod_modEq _ _)).trans ?_
      apply Int.ModEq.add (wrap_modEq t x)
      apply Int.ModEq.mul_right
      push_cast
      exact Int.ModEq.of_dvd hdvd (Int.mod_modEq _ _)
    have e2 : b % 2 ^ 64 * r % 2 ^ 64 = (b * r) % 2 ^ 64 := by
      rw [Nat.mul_mod, Nat.mod_mod, ← Nat.mul_mod]
    dsimp only
    rw [e1, e2, ih]
    congr 1
    rw [value_append]
    push_cast
    ring

/-- the digits are read as the number they denote, modulo the number of values of the type -/
theorem accumulate_eq (t : IntType) (hb : t.bits ≤ 64) (hb1 : 1 ≤ t.bits) (r : Nat) (ds : List Nat) :
    accumulate t r ds = t.wrap (value r ds) := by
  have := fold_digits t hb r ds 0 1
  rw [wrap_range t hb1 (inRange_zero t)] at this
  unfold accumulate
  rw [show (1 : Nat) % 2 ^ 64 = 1 by norm_num] at this
  rw [this]
  simp

theorem fold_exponent (ds : List Nat) : ∀ (x b : Nat),
    (ds.reverse.foldl (fun (s : Nat × Nat) (d : Nat) => ((s.1 + s.2 * d) % 2 ^ 64, s.2 * 10 % 2 ^ 64)) (x % 2 ^ 64, b % 2 ^ 64)).1
      = (x + b * value 10 ds) % 2 ^ 64 := by
  induction ds using List.reverseRecOn with
  | nil => intro x b; simp [value]
  | append_singleton ds d ih =>
    intro x b
    rw [List.reverse_append, List.reverse_singleton, List.singleton_append, List.foldl_cons]
    have e1 : (x % 2 ^ 64 + b % 2 ^ 64 * d) % 2 ^ 64 = (x + b * d) % 2 ^ 64 := by
      rw [Nat.add_mod, Nat.mul_mod, Nat.mod_mod, Nat.mod_mod, ← Nat.mul_mod, ← Nat.add_mod]
    have e2 : b % 2 ^ 64 * 10 % 2 ^ 64 = (b * 10) % 2 ^ 64 := by
      rw [Nat.mul_mod, Nat.mod_mod, ← Nat.mul_mod]
    dsimp only
    rw [e1, e2, ih, value_append]
    congr 1
    ring

theorem accumulateExponent_eq (ds : List Nat) (h : value 10 ds < 2 ^ 64) : accumulateExponent ds = value 10 ds := by
  have := fold_exponent ds 0 1
  rw [show (0 : Nat) % 2 ^ 64 = 0 by norm_num, show (1 : Nat) % 2 ^ 64 = 1 by norm_num] at this
  unfold accumulateExponent
  rw [this, zero_add, one_mul, Nat.mod_eq_of_lt h]

theorem powerOfTen_eq (t : IntType) (hb : 1 ≤ t.bits) : ∀ e : Nat, InRange t (10 ^ e) → powerOfTen t e = .ok (10 ^ e) := by
  intro e
  induction e with
  | zero =>
    intro h
    rw [pow_zero] at h
    rw [powerOfTen, wrap_range t hb h, pow_zero]
  | succ e ih =>
    intro h
    have h' : InRange t (10 ^ e) := inRange_le t h (by positivity) (pow_le_pow_right₀ (by norm_num) (by omega))
    rw [powerOfTen, ih h']
    change t.mul (10 ^ e) 10 = _
    rw [pow_succ] at h ⊢
    exact mul_range t hb h

/-! ## characters -/

theorem digitChar_spec : ∀ d, d < 10 → isDigit (digitChar d) = true ∧ digit (digitChar d) = d ∧ digitChar d ≠ ' ' ∧ digitChar d ≠ '-'
    ∧ digitChar d ≠ 'x' ∧ digitChar d ≠ 'X' := by
  intro d hd
  interval_cases d <;> decide

theorem hexChar_spec (u : Bool) : ∀ d, d < 16 → isXDigit (hexChar u d) = true ∧ xdigit (hexChar u d) = d := by
  intro d hd
  cases u <;> interval_cases d <;> decide

/-- reading digits stops at the first other character -/
theorem read_digits {α : Type} (p : Char → Bool) (f : Char → Nat) (ds : List α) (c : α → Char) (g : α → Nat) (rest : List Char)
    (h : ∀ d ∈ ds, p (c d) = true ∧ f (c d) = g d) (hr : ∀ x r, rest = x :: r → p x = false) :
    ((ds.map c ++ rest).takeWhile p).map f = ds.map g ∧ (ds.map c ++ rest).dropWhile p = rest := by
  induction ds with
  | nil =>
    cases rest with
    | nil => simp
    | cons x r => simp [hr x r rfl]
  | cons d ds ih =>
    have hd := h d (by simp)
    obtain ⟨i1, i2⟩ := ih fun d hd => h d (by simp [hd])
    rw [List.map_cons, List.cons_append, List.takeWhile_cons, List.dropWhile_cons, hd.1]
    simp only [if_true, List.map_cons, hd.2, i1, i2, and_self]

theorem skip_blanks (k : Nat) (rest : List Char) (hr : here rest ≠ ' ') :
    (List.replicate k ' ' ++ rest).dropWhile (· = ' ') = rest := by
  induction k with
  | zero =>
    cases rest with
    | nil => rfl
    | cons c r =>
      rw [List.replicate_zero, List.nil_append, List.dropWhile_cons, if_neg]
      simpa [here] using hr
  | succ k ih =>
    rw [List.replicate_succ, List.cons_append, List.dropWhile_cons, if_pos (by simp), ih]

/-- everything before the digits -/
theorem lead_spec (t : IntType) (k : Nat) (neg : Bool) (body : List Char) (h1 : body ≠ []) (h2 : here body ≠ ' ') (h3 : here body ≠ '-') :
    stringToInteger t (lead k neg ++ body) = (do
      let ivalue ←
        if here body = '0' ∧ (here (body.drop 1) = 'x' ∨ here (body.drop 1) = 'X') then hexPart t (body.drop 2)
        else decimalPart t body
      t.mul ivalue (if neg then -1 else 1)) := by
  unfold stringToInteger lead
  cases neg with
  | true =>
    simp only [if_true]
    rw [if_neg (by simp), List.append_assoc, skip_blanks k _ (by simp [here])]
    rw [if_neg (by simp), show here (['-'] ++ body) = '-' from rfl]
    simp only [if_true]
    rfl
  | false =>
    simp only [Bool.false_eq_true, if_false, List.append_nil]
    have hl : 0 < body.length := List.length_pos_of_ne_nil h1
    rw [if_neg (by rw [List.length_append]; omega), skip_blanks k _ h2]
    rw [if_neg (by omega)]
    simp only [if_neg h3]

/-! ## C47 -/

/-- the body of a decimal number is not taken for blanks, a sign, or the start of a hexadecimal number -/
theorem decimal_start (ds : List Nat) (hne : ds ≠ []) (hds : ∀ d ∈ ds, d < 10) (rest : List Char)
    (hr : ds = [0] → here rest ≠ 'x' ∧ here rest ≠ 'X') :
    ds.map digitChar ++ rest ≠ [] ∧ here (ds.map digitChar ++ rest) ≠ ' ' ∧ here (ds.map digitChar ++ rest) ≠ '-'
    ∧ ¬ (here (ds.map digitChar ++ rest) = '0'
      ∧ (here ((ds.map digitChar ++ rest).drop 1) = 'x' ∨ here ((ds.map digitChar ++ rest).drop 1) = 'X')) := by
  cases ds with
  | nil => exact absurd rfl hne
  | cons d ds =>
    have hd := digitChar_spec d (hds d (by simp))
    refine ⟨by simp, hd.2.2.1, hd.2.2.2.1, ?_⟩
    rintro ⟨h0, hx⟩
    have h0 : d = 0 := by
      have := congrArg digit (show digitChar d = '0' from h0)
      rw [hd.2.1] at this
      exact this
    subst h0
    cases ds with
    | nil =>
      have := hr rfl
      simp only [List.map_cons, List.map_nil, List.singleton_append, List.drop_one, List.tail_cons] at hx
      exact hx.elim this.1 this.2
    | cons e ds =>
      have he := digitChar_spec e (hds e (by simp))
      simp only [List.map_cons, List.cons_append, List.drop_one, List.tail_cons] at hx
      exact hx.elim he.2.2.2.2.1 he.2.2.2.2.2

/-- **C47** (decimal) Blanks, an optional minus sign and decimal digits, followed by anything that is not a digit or an exponent,
is converted to the integer it denotes, for all numbers of digits, if that integer, with and without the sign, is a value of
the type. -/
theorem c47_decimal (t : IntType) (hb : t.bits ≤ 64) (hb1 : 1 ≤ t.bits) (k : Nat) (neg : Bool) (ds : List Nat) (hne : ds ≠ [])
    (hds : ∀ d ∈ ds, d < 10) (rest : List Char) (hrest : ∀ x r, rest = x :: r → isDigit x = false ∧ x ≠ 'e' ∧ x ≠ 'E')
    (hx : ds = [0] → here rest ≠ 'x' ∧ here rest ≠ 'X') (h1 : InRange t (value 10 ds)) (h2 : InRange t (signed neg (value 10 ds))) :
    stringToInteger t (lead k neg ++ (ds.map digitChar ++ rest)) = .ok (signed neg (value 10 ds)) := by
  obtain ⟨s1, s2, s3, s4⟩ := decimal_start ds hne hds rest hx
  rw [lead_spec t k neg _ s1 s2 s3, if_neg s4]
  obtain ⟨r1, r2⟩ := read_digits isDigit digit ds digitChar id rest (fun d hd => ⟨(digitChar_spec d (hds d hd)).1, (digitChar_spec d (hds d hd)).2.1⟩)
    fun x r h => (hrest x r h).1
  have hd : decimalPart t (ds.map digitChar ++ rest) = .ok (value 10 ds : Int) := by
    unfold decimalPart
    dsimp only
    rw [r1, r2, List.map_id, accumulate_eq t hb hb1, wrap_range t hb1 h1, if_neg]
    cases rest with
    | nil => decide
    | cons x r =>
      have := hrest x r rfl
      exact fun h => h.elim this.2.1 this.2.2
  rw [hd]
  change t.mul _ _ = _
  cases neg
  · rw [show signed false (value 10 ds : Int) = value 10 ds from rfl] at h2 ⊢
    have := mul_range t hb1 (a := (value 10 ds : Int)) (b := 1) (by rw [mul_one]; exact h2)
    rw [mul_one] at this
    exact this
  · rw [show signed true (value 10 ds : Int) = -value 10 ds from rfl] at h2 ⊢
    have := mul_range t hb1 (a := (value 10 ds : Int)) (b := -1) (by rw [mul_neg_one]; exact h2)
    rw [mul_neg_one] at this
    exact this

/-- **C47** (exponent) digits, `e` or `E` and digits: the number times the power of ten, if the power and the product are values of
the type -/
theorem c47_exponent (t : IntType) (hb : t.bits ≤ 64) (hb1 : 1 ≤ t.bits) (k : Nat) (neg upper : Bool) (ds es : List Nat) (hne : ds ≠ [])
    (hds : ∀ d ∈ ds, d < 10) (hes : ∀ d ∈ es, d < 10) (rest : List Char) (hrest : ∀ x r, rest = x :: r → isDigit x = false)
    (h1 : InRange t (value 10 ds * 10 ^ value 10 es)) (h2 : InRange t (signed neg (value 10 ds * 10 ^ value 10 es)))
    (h3 : InRange t (10 ^ value 10 es)) :
    stringToInteger t (lead k neg ++ (ds.map digitChar ++ ((if upper then 'E' else 'e') :: (es.map digitChar ++ rest))))
      = .ok (signed neg (value 10 ds * 10 ^ value 10 es)) := by
  have hE : ∀ x r, (if upper then 'E' else 'e') :: (es.map digitChar ++ rest) = x :: r → isDigit x = false := by
    intro x r h
    injection h with h _
    rw [← h]
    cases upper <;> decide
  obtain ⟨s1, s2, s3, s4⟩ := decimal_start ds hne hds ((if upper then 'E' else 'e') :: (es.map digitChar ++ rest)) (by
    intro _
    cases upper <;> simp [here])
  rw [lead_spec t k neg _ s1 s2 s3, if_neg s4]
  obtain ⟨r1, r2⟩ := read_digits isDigit digit ds digitChar id _ (fun d hd => ⟨(digitChar_spec d (hds d hd)).1, (digitChar_spec d (hds d hd)).2.1⟩) hE
  obtain ⟨q1, q2⟩ := read_digits isDigit digit es digitChar id rest (fun d hd => ⟨(digitChar_spec d (hes d hd)).1, (digitChar_spec d (hes d hd)).2.1⟩) hrest
  have p1 : (1 : Int) ≤ 10 ^ value 10 es := one_le_pow₀ (by norm_num)
  have hv : InRange t (value 10 ds) := by
    apply inRange_le t h1 (by positivity)
    have : (0 : Int) ≤ value 10 ds := by positivity
    nlinarith
  have hexp : value 10 es < 2 ^ 64 := by
    have lt : (10 : Int) ^ value 10 es < 2 ^ 64 := by
      have := pow_le_pow_right₀ (show (1 : Int) ≤ 2 by norm_num) hb
      have h4 := pow_le_pow_right₀ (show (1 : Int) ≤ 2 by norm_num) (show t.bits - 1 ≤ t.bits by omega)
      unfold InRange at h3
      split at h3 <;> omega
    have a : value 10 es < 10 ^ value 10 es := Nat.lt_pow_self (by norm_num)
    have b : (10 : Nat) ^ value 10 es < 2 ^ 64 := by exact_mod_cast lt
    omega
  have hd : decimalPart t (ds.map digitChar ++ ((if upper then 'E' else 'e') :: (es.map digitChar ++ rest)))
      = .ok (value 10 ds * 10 ^ value 10 es : Int) := by
    unfold decimalPart
    dsimp only
    rw [r1, r2, List.map_id, accumulate_eq t hb hb1, wrap_range t hb1 hv, if_pos (by cases upper <;> simp [here])]
    rw [show List.drop 1 ((if upper then 'E' else 'e') :: (es.map digitChar ++ rest)) = es.map digitChar ++ rest from rfl, q1, List.map_id,
      accumulateExponent_eq es hexp, powerOfTen_eq t hb1 _ h3]
    exact mul_range t hb1 h1
  rw [hd]
  change t.mul _ _ = _
  cases neg
  · rw [show signed false (value 10 ds * 10 ^ value 10 es : Int) = value 10 ds * 10 ^ value 10 es from rfl] at h2 ⊢
    have := mul_range t hb1 (a := (value 10 ds * 10 ^ value 10 es : Int)) (b := 1) (by rw [mul_one]; exact h2)
    rw [mul_one] at this
    exact this
  · rw [show signed true (value 10 ds * 10 ^ value 10 es : Int) = -(value 10 ds * 10 ^ value 10 es) from rfl] at h2 ⊢
    have := mul_range t hb1 (a := (value 10 ds * 10 ^ value 10 es : Int)) (b := -1) (by rw [mul_neg_one]; exact h2)
    rw [mul_neg_one] at this
    exact this

theorem value_lt (r : Nat) (ds : List Nat) (h : ∀ d ∈ ds, d < r) : value r ds < r ^ ds.length ∨ ds = [] := by
  induction ds using List.reverseRecOn with
  | nil => exact Or.inr rfl
  | append_singleton ds d ih =>
    left
    rw [value_append, List.length_append, List.length_singleton, pow_succ]
    have hd := h d (by simp)
    have hl : value r ds + 1 ≤ r ^ ds.length := by
      rcases ih fun d hd => h d (by simp [hd]) with h | rfl
      · exact h
      · simp [value]
    calc value r ds * r + d < value r ds * r + r := by omega
      _ = (value r ds + 1) * r := by ring
      _ ≤ _ := Nat.mul_le_mul_right r hl

/-- **C47** (hexadecimal) `0x` or `0X` and hexadecimal digits of either case, not more than the type has room for: the integer
they denote; the sign as before. More digits are rejected, even leading zeros; and so is a prefix without digits. -/
theorem c47_hexadecimal (t : IntType) (hb : t.bits ≤ 64) (hb1 : 1 ≤ t.bits) (k : Nat) (neg upper : Bool) (ds : List (Bool × Nat))
    (hds : ∀ d ∈ ds, d.2 < 16) (rest : List Char) (hrest : ∀ x r, rest = x :: r → isXDigit x = false) :
    let s := lead k neg ++ ('0' :: (if upper then 'X' else 'x') :: (ds.map (fun d => hexChar d.1 d.2) ++ rest))
    let v := value 16 (ds.map (·.2))
    (ds = [] ∨ t.bits - (if t.signed then 1 else 0) < 4 * ds.length → stringToInteger t s = .error .error)
    ∧ (ds ≠ [] → 4 * ds.length ≤ t.bits - (if t.signed then 1 else 0) → InRange t (signed neg v) →
        stringToInteger t s = .ok (signed neg v)) := by
  intro s v
  have hs : stringToInteger t s = (do
      let ivalue ← hexPart t (ds.map (fun d => hexChar d.1 d.2) ++ rest)
      t.mul ivalue (if neg then -1 else 1)) := by
    rw [lead_spec t k neg _ (by simp) (by simp [here]) (by simp [here]), if_pos]
    · rfl
    · cases upper <;> simp [here]
  obtain ⟨r1, r2⟩ := read_digits isXDigit xdigit ds (fun d => hexChar d.1 d.2) (·.2) rest (fun d hd => hexChar_spec d.1 d.2 (hds d hd)) hrest
  rw [hs]
  unfold hexPart
  dsimp only
  rw [r1, List.length_map]
  constructor
  · intro h
    by_cases h0 : ds.length = 0
    · rw [if_pos h0]; rfl
    · rw [if_neg h0, if_pos]
      · rfl
      · rcases h with h | h
        · rw [h] at h0; simp at h0
        · omega
  · intro hne hlen hr
    have h0 : ¬ ds.length = 0 := fun h => hne (List.length_eq_zero_iff.mp h)
    rw [if_neg h0, if_neg (by omega), accumulate_eq t hb hb1]
    have hv : (value 16 (ds.map (·.2)) : Int) < 2 ^ (4 * ds.length) := by
      have := (value_lt 16 (ds.map (·.2)) (by
        intro d hd
        obtain ⟨e, he, rfl⟩ := List.mem_map.mp hd
        exact hds e he)).resolve_right (by simpa using hne)
      rw [List.length_map] at this
      rw [pow_mul]
      exact_mod_cast this
    have hin : InRange t (value 16 (ds.map (·.2))) := by
      have h0 : (0 : Int) ≤ value 16 (ds.map (·.2)) := by positivity
      unfold InRange
      split
      · rename_i hsg
        rw [if_pos hsg] at hlen
        have := pow_le_pow_right₀ (show (1 : Int) ≤ 2 by norm_num) hlen
        have : (0 : Int) ≤ 2 ^ (t.bits - 1) := by positivity
        omega
      · rename_i hsg
        rw [if_neg hsg] at hlen
        have := pow_le_pow_right₀ (show (1 : Int) ≤ 2 by norm_num) (show 4 * ds.length ≤ t.bits by omega)
        omega
    rw [wrap_range t hb1 hin]
    change t.mul _ _ = _
    change InRange t (signed neg (value 16 (ds.map (·.2)))) at hr
    change _ = Except.ok (signed neg (value 16 (ds.map (·.2)) : Int))
    generalize (value 16 (ds.map (·.2)) : Int) = x at *
    cases neg
    · have := mul_range t hb1 (a := x) (b := 1) (by rw [mul_one]; exact hr)
      rw [mul_one] at this
      exact this
    · have := mul_range t hb1 (a := x) (b := -1) (by rw [mul_neg_one]; exact hr)
      rw [mul_neg_one] at this
      exact this

/-- **C47** empty and blank strings are rejected -/
theorem c47_blank (t : IntType) (k : Nat) : stringToInteger t (List.replicate k ' ') = .error .error := by
  unfold stringToInteger
  split
  · rfl
  · have := skip_blanks k [] (by decide)
    rw [List.append_nil] at this
    rw [this]
    rfl

/-- **C47** (negation: not only integers are accepted) a string that starts with something else is converted to 0 -/
theorem c47_no_digits (t : IntType) (hb : t.bits ≤ 64) (hb1 : 1 ≤ t.bits) (k : Nat) (c : Char) (rest : List Char)
    (hc : isDigit c = false) (h : c ≠ ' ' ∧ c ≠ '-' ∧ c ≠ 'e' ∧ c ≠ 'E') :
    stringToInteger t (List.replicate k ' ' ++ c :: rest) = .ok 0 := by
  have := lead_spec t k false (c :: rest) (by simp) h.1 h.2.1
  rw [show lead k false = List.replicate k ' ' by simp [lead]] at this
  rw [this, if_neg]
  · unfold decimalPart
    simp only [List.takeWhile_cons, List.dropWhile_cons, hc, Bool.false_eq_true, if_false, List.map_nil]
    rw [if_neg (fun h' => h'.elim h.2.2.1 h.2.2.2), accumulate_eq t hb hb1]
    simp only [value, List.foldl_nil, Nat.cast_zero]
    rw [wrap_range t hb1 (inRange_zero t)]
    change t.mul 0 1 = _
    have := mul_range t hb1 (a := 0) (b := 1) (by simpa using inRange_zero t)
    simpa using this
  · rintro ⟨h0, -⟩
    change c = '0' at h0
    rw [h0] at hc
    exact absurd hc (by decide)

/-- **C47** (negation: the lowest value) the lowest value of a signed type, written in decimal notation, leads to an overflow
(undefined behaviour), although it is a value of the type -/
theorem c47_violated_lowest (t : IntType) (hs : t.signed = true) (hb : t.bits ≤ 64) (hb1 : 1 ≤ t.bits) (ds : List Nat) (hne : ds ≠ [])
    (hds : ∀ d ∈ ds, d < 10) (hv : value 10 ds = 2 ^ (t.bits - 1)) :
    InRange t (-(value 10 ds)) ∧ stringToInteger t ('-' :: ds.map digitChar) = .error .undefined := by
  have hv' : (value 10 ds : Int) = 2 ^ (t.bits - 1) := by rw [hv]; push_cast; rfl
  have hp : (0 : Int) < 2 ^ (t.bits - 1) := by positivity
  constructor
  · unfold InRange
    rw [if_pos hs, hv']
    omega
  · obtain ⟨s1, s2, s3, s4⟩ := decimal_start ds hne hds [] (fun _ => by decide)
    have := lead_spec t 0 true _ s1 s2 s3
    rw [if_neg s4] at this
    rw [List.append_nil] at this
    rw [show lead 0 true ++ ds.map digitChar = '-' :: ds.map digitChar from rfl] at this
    rw [this]
    obtain ⟨r1, r2⟩ := read_digits isDigit digit ds digitChar id [] (fun d hd => ⟨(digitChar_spec d (hds d hd)).1, (digitChar_spec d (hds d hd)).2.1⟩)
      fun x r h => by cases h
    rw [List.append_nil] at r1 r2
    have hw : t.wrap (value 10 ds) = -(2 ^ (t.bits - 1)) := by
      rw [hv', ← wrap_range t hb1 (x := -(2 ^ (t.bits - 1))) (by unfold InRange; rw [if_pos hs]; omega)]
      apply wrap_congr
      rw [Int.modEq_iff_dvd]
      refine ⟨-1, ?_⟩
      have e2 : (2 : Int) ^ t.bits = 2 * 2 ^ (t.bits - 1) := by
        rw [← pow_succ']
        congr 1
        omega
      rw [e2]; ring
    have hd : decimalPart t (ds.map digitChar) = .ok (-(2 ^ (t.bits - 1))) := by
      unfold decimalPart
      dsimp only
      rw [r1, r2, List.map_id, accumulate_eq t hb hb1, hw, if_neg (by decide)]
    rw [hd]
    change t.mul _ (-1) = _
    unfold IntType.mul
    rw [if_pos hs, if_neg (by omega)]

/-! ### printing and reading back -/

theorem showNat_spec (n : Nat) : ∃ ds : List Nat, ds ≠ [] ∧ (∀ d ∈ ds, d < 10) ∧ showNat n = ds.map digitChar ∧ value 10 ds = n
    ∧ (2 ≤ ds.length → ds.head? ≠ some 0) := by
  have key : ∀ l : List Nat, value 10 l.reverse = Nat.ofDigits 10 l := by
    intro l
    induction l with
    | nil => rfl
    | cons d l ih => rw [List.reverse_cons, value_append, ih, Nat.ofDigits_cons]; ring
  by_cases h : n = 0
  · refine ⟨[0], by simp, by simp, ?_, by rw [h]; rfl, by simp⟩
    rw [showNat, if_pos h]
    rfl
  · refine ⟨(Nat.digits 10 n).reverse, by simpa [Nat.digits_ne_nil_iff_ne_zero] using h, ?_, ?_, ?_, ?_⟩
    · intro d hd
      exact Nat.digits_lt_base (by norm_num) (List.mem_reverse.mp hd)
    · rw [showNat, if_neg h]
      rfl
    · rw [key, Nat.ofDigits_digits]
    · intro _ h0
      rw [List.head?_reverse] at h0
      have hne : Nat.digits 10 n ≠ [] := Nat.digits_ne_nil_iff_ne_zero.mpr h
      rw [List.getLast?_eq_getLast_of_ne_nil hne] at h0
      injection h0 with h0
      exact Nat.getLast_digit_ne_zero 10 h h0

/-- **C47** (round trip) a printed integer is read back as itself, except the lowest value of a signed type -/
theorem c47_roundtrip (t : IntType) (hb : t.bits ≤ 64) (hb1 : 1 ≤ t.bits) (n : Int) (h : InRange t n) (h' : InRange t n.natAbs) :
    stringToInteger t (showInt n) = .ok n := by
  obtain ⟨ds, h1, h2, h3, h4, -⟩ := showNat_spec n.natAbs
  unfold showInt
  split
  · rename_i hn
    have := c47_decimal t hb hb1 0 true ds h1 h2 [] (fun x r h => by cases h) (fun _ => by decide) (by rw [h4]; exact h')
      (by rw [h4]; change InRange t (-(n.natAbs : Int)); rw [show -(n.natAbs : Int) = n by omega]; exact h)
    rw [List.append_nil, ← h3, h4] at this
    change stringToInteger t ('-' :: showNat n.natAbs) = .ok (-(n.natAbs : Int)) at this
    rw [this, show -(n.natAbs : Int) = n by omega]
  · rename_i hn
    have := c47_decimal t hb hb1 0 false ds h1 h2 [] (fun x r h => by cases h) (fun _ => by decide) (by rw [h4]; exact h')
      (by rw [h4]; change InRange t (n.natAbs : Int); exact h')
    rw [List.append_nil, ← h3, h4] at this
    change stringToInteger t (showNat n.natAbs) = .ok (n.natAbs : Int) at this
    rw [this, show (n.natAbs : Int) = n by omega]

/-- `" -120 "` and `0xfF`, `3e2` as `int` -/
example : stringToInteger ⟨32, true⟩ " -120 ".toList = .ok (-120) ∧ stringToInteger ⟨32, true⟩ "0xfF".toList = .ok 255
    ∧ stringToInteger ⟨32, true⟩ "3e2".toList = .ok 300 := by
  refine ⟨?_, ?_, ?_⟩
  · exact c47_decimal ⟨32, true⟩ (by decide) (by decide) 1 true [1, 2, 0] (by decide) (by decide) [' ']
      (by intro x r h; injection h with h _; subst h; decide) (by decide) (by decide) (by decide)
  · exact (c47_hexadecimal ⟨32, true⟩ (by decide) (by decide) 0 false false [(false, 15), (true, 15)] (by decide) []
      (by intro x r h; cases h)).2 (by decide) (by decide) (by decide)
  · exact c47_exponent ⟨32, true⟩ (by decide) (by decide) 0 false false [3] [2] (by decide) (by decide) (by decide) []
      (by intro x r h; cases h) (by decide) (by decide) (by decide)

/-- `-2147483648` as `int` -/
example : stringToInteger ⟨32, true⟩ "-2147483648".toList = .error .undefined :=
  (c47_violated_lowest ⟨32, true⟩ rfl (by decide) (by decide) [2, 1, 4, 7, 4, 8, 3, 6, 4, 8] (by decide) (by decide) (by decide)).2

/-! ## C48 -/

theorem toLower_eq (s : List Char) : s.map toLower = lower s := by
  unfold lower
  apply List.map_congr_left
  intro c _
  unfold toLower
  apply if_congr _ rfl rfl
  rfl

theorem toLower_blank (c : Char) : toLower c = ' ' ↔ c = ' ' := by
  unfold toLower
  split
  · rename_i h
    constructor
    · intro e
      have h1 : 65 ≤ c.toNat := h.1
      have h2 : c.toNat ≤ 90 := h.2
      have e2 := congrArg Char.toNat e
      have hv : (c.toNat + 32).isValidChar := Or.inl (by omega)
      have e3 : (Char.ofNat (c.toNat + 32)).toNat = c.toNat + 32 := by
        unfold Char.ofNat
        rw [dif_pos hv]
        rfl
      rw [e3] at e2
      have : ' '.toNat = 32 := rfl
      omega
    · intro e
      rw [e] at h
      exact absurd h (by decide)
  · rfl

/-- the middle part of a string: it does not start or end with a blank -/
def Core (core : List Char) : Prop := core.head? ≠ some ' ' ∧ core.getLast? ≠ some ' ' ∧ core ≠ []

theorem strip (a b : Nat) (core : List Char) (h : Core core) :
    let s := (List.replicate a ' ' ++ core ++ List.replicate b ' ').map toLower
    (s.dropWhile (· = ' ')).length ≠ 0 ∧ stripEnd (s.dropWhile (· = ' ')) = lower core := by
  intro s
  have hb : ∀ n, (List.replicate n ' ').map toLower = List.replicate n ' ' := by
    intro n
    rw [List.map_replicate]
    rfl
  have hs : s = List.replicate a ' ' ++ (lower core ++ List.replicate b ' ') := by
    change List.map toLower _ = _
    rw [List.map_append, List.map_append, hb, hb, toLower_eq, List.append_assoc]
  have h1 : here (lower core ++ List.replicate b ' ') ≠ ' ' := by
    obtain ⟨c, r, rfl⟩ := List.exists_cons_of_ne_nil h.2.2
    have : c ≠ ' ' := by simpa using h.1
    rw [← toLower_eq]
    change toLower c ≠ ' '
    rw [ne_eq, toLower_blank]
    exact this
  rw [hs, skip_blanks a _ h1]
  have hne : lower core ≠ [] := by
    rw [← toLower_eq]
    simpa using h.2.2
  constructor
  · rw [List.length_append]
    have := List.length_pos_of_ne_nil hne
    omega
  · unfold stripEnd
    rw [List.reverse_append, List.reverse_replicate, skip_blanks b, List.reverse_reverse]
    obtain ⟨r, c, rfl⟩ : ∃ r c, core = r ++ [c] := ⟨core.dropLast, core.getLast h.2.2, (List.dropLast_append_getLast h.2.2).symm⟩
    have : c ≠ ' ' := by simpa using h.2.1
    rw [← toLower_eq, List.map_append, List.reverse_append]
    change toLower c ≠ ' '
    rw [ne_eq, toLower_blank]
    exact this

/-- **C48** A string with surrounding blanks converts to true exactly if the rest is, ignoring case, `true`, `yes`, `on` or `y`, to
false exactly if it is `false`, `no`, `off` or `n`, and is rejected otherwise. -/
theorem c48_convert (a b : Nat) (core : List Char) (h : Core core) :
    convertBool (List.replicate a ' ' ++ core ++ List.replicate b ' ') =
      if lower core ∈ ["true".toList, "yes".toList, "on".toList, "y".toList] then .ok true
      else if lower core ∈ ["false".toList, "no".toList, "off".toList, "n".toList] then .ok false
      else .error .error := by
  obtain ⟨s1, s2⟩ := strip a b core h
  unfold convertBool
  dsimp only at s1 s2 ⊢
  rw [if_neg s1, s2]
  apply if_congr (by simp) rfl
  exact if_congr (by simp) rfl rfl

/-- every string is of that form, or blank -/
theorem c48_cases (s : List Char) :
    (∃ a, s = List.replicate a ' ') ∨ ∃ a b core, Core core ∧ s = List.replicate a ' ' ++ core ++ List.replicate b ' ' := by
  have tw : ∀ l : List Char, l.takeWhile (· = ' ') = List.replicate (l.takeWhile (· = ' ')).length ' ' := by
    intro l
    rw [List.eq_replicate_iff]
    refine ⟨rfl, fun c hc => ?_⟩
    have := List.mem_takeWhile_imp hc
    simpa using this
  by_cases h : s.dropWhile (· = ' ') = []
  · left
    refine ⟨(s.takeWhile (· = ' ')).length, ?_⟩
    rw [← tw]
    conv_lhs => rw [← List.takeWhile_append_dropWhile (p := (· = ' ')) (l := s), h, List.append_nil]
  · right
    let m := s.dropWhile (· = ' ')
    have hm : m ≠ [] := h
    refine ⟨(s.takeWhile (· = ' ')).length, (m.reverse.takeWhile (· = ' ')).length, (m.reverse.dropWhile (· = ' ')).reverse, ⟨?_, ?_, ?_⟩, ?_⟩
    · -- the head is that of m
      obtain ⟨c, r, hcr⟩ := List.exists_cons_of_ne_nil hm
      have hc : c ≠ ' ' := by
        have := List.head_dropWhile_not (fun x => decide (x = ' ')) h
        have e : (s.dropWhile (· = ' ')).head h = c := by
          have : s.dropWhile (· = ' ') = c :: r := hcr
          simp [this]
        rw [e] at this
        simpa using this
      rw [hcr, List.reverse_cons]
      have : (r.reverse ++ [c]).dropWhile (· = ' ') = r.reverse.dropWhile (· = ' ') ++ [c] := by
        rw [List.dropWhile_append]
        split
        · rename_i he
          rw [List.isEmpty_iff] at he
          rw [he, List.dropWhile_cons, if_neg (by simpa using hc), List.nil_append]
        · rfl
      rw [this, List.reverse_append]
      simpa using hc
    · rw [List.getLast?_reverse]
      intro e
      have hne : m.reverse.dropWhile (· = ' ') ≠ [] := by
        intro e'; rw [e'] at e; simp at e
      have := List.head_dropWhile_not (fun x => decide (x = ' ')) hne
      rw [List.head?_eq_some_head hne] at e
      injection e with e
      rw [e] at this
      simp at this
    · obtain ⟨c, r, hcr⟩ := List.exists_cons_of_ne_nil hm
      have hc : c ≠ ' ' := by
        have := List.head_dropWhile_not (fun x => decide (x = ' ')) h
        have e : (s.dropWhile (· = ' ')).head h = c := by
          have : s.dropWhile (· = ' ') = c :: r := hcr
          simp [this]
        rw [e] at this
        simpa using this
      intro e
      rw [List.reverse_eq_nil_iff, List.dropWhile_eq_nil_iff] at e
      have := e c (by rw [hcr]; simp)
      exact hc (by simpa using this)
    · rw [List.append_assoc, ← tw]
      have e : (m.reverse.dropWhile (· = ' ')).reverse ++ List.replicate (m.reverse.takeWhile (· = ' ')).length ' ' = m := by
        have h1 := tw m.reverse
        have h2 : List.replicate (m.reverse.takeWhile (· = ' ')).length ' ' = (m.reverse.takeWhile (· = ' ')).reverse := by
          rw [h1, List.reverse_replicate, List.length_replicate]
        rw [h2, ← List.reverse_append, List.takeWhile_append_dropWhile, List.reverse_reverse]
      rw [e]
      exact (List.takeWhile_append_dropWhile (p := (· = ' ')) (l := s)).symm

/-- **C48** (negation for blank strings) the empty string and strings of blanks lead to an access outside the string -/
theorem c48_blank (a : Nat) : convertBool (List.replicate a ' ') = .error .undefined := by
  unfold convertBool
  have : (List.replicate a ' ').map toLower = List.replicate a ' ' := by
    rw [List.map_replicate]
    rfl
  have h := skip_blanks a [] (by decide)
  rw [List.append_nil] at h
  dsimp only
  rw [this, h]
  rfl

/-- **C48** printed truth values are read back -/
theorem c48_roundtrip (b : Bool) : convertBool (showBool b) = .ok b := by
  cases b <;> decide

example : convertBool "  YeS ".toList = .ok true ∧ convertBool "nope".toList = .error .error := by
  constructor
  · have := c48_convert 2 1 "YeS".toList ⟨by decide, by decide, by decide⟩
    exact this.trans (by decide)
  · have := c48_convert 0 0 "nope".toList ⟨by decide, by decide, by decide⟩
    exact this.trans (by decide)

/-! ## C49 -/

/-- **C49** (time) For every time: the pieces add up to it; every piece but the first is less than one of the next larger unit;
the units are the last ones of `y`, `d`, `h`, `m`, in this order; the first piece is not zero; and there are `0 ≤ seconds < 60`. -/
theorem c49_time (time : ℝ) (h : 0 ≤ time) :
    let r := humanReadableTime time
    ((r.1.map fun p => p.1 * seconds p.2).sum : ℕ) + r.2 = time
    ∧ (0 ≤ r.2 ∧ r.2 < 60)
    ∧ r.1.map (·.2) <:+ ['y', 'd', 'h', 'm']
    ∧ (∀ p ∈ r.1, ∀ l, limit p.2 = some l → p.1 < l)
    ∧ (∀ p, r.1.head? = some p → 0 < p.1) := by
  intro r
  have hf := Nat.floor_le (show 0 ≤ time / 60 by positivity)
  have hf2 := Nat.lt_floor_add_one (time / 60)
  have hr2 : r.2 = time - 60 * (⌊time / 60⌋₊ : ℝ) := rfl
  have hsec : 0 ≤ r.2 ∧ r.2 < 60 := by
    rw [hr2]
    constructor
    · linarith
    · linarith
  have key : (r.1.map fun p => p.1 * seconds p.2).sum = 60 * ⌊time / 60⌋₊ ∧ r.1.map (·.2) <:+ ['y', 'd', 'h', 'm']
      ∧ (∀ p ∈ r.1, ∀ l, limit p.2 = some l → p.1 < l) ∧ (∀ p, r.1.head? = some p → 0 < p.1) := by
    change ((humanReadableTime time).1.map _).sum = _ ∧ (humanReadableTime time).1.map _ <:+ _ ∧ (∀ p ∈ (humanReadableTime time).1, _)
      ∧ (∀ p, (humanReadableTime time).1.head? = some p → _)
    unfold humanReadableTime
    dsimp only
    generalize ⌊time / 60⌋₊ = n
    split
    · split
      · split
        · split
          · refine ⟨?_, ⟨[], rfl⟩, ?_, ?_⟩
            · simp [seconds]; omega
            · simp [limit]; omega
            · simp; omega
          · refine ⟨?_, ⟨['y'], rfl⟩, ?_, ?_⟩
            · simp [seconds]; omega
            · simp [limit]; omega
            · simp; omega
        · refine ⟨?_, ⟨['y', 'd'], rfl⟩, ?_, ?_⟩
          · simp [seconds]; omega
          · simp [limit]; omega
          · simp; omega
      · refine ⟨?_, ⟨['y', 'd', 'h'], rfl⟩, ?_, ?_⟩
        · simp [seconds]; omega
        · simp [limit]; omega
        · simp; omega
    · refine ⟨?_, ⟨['y', 'd', 'h', 'm'], rfl⟩, ?_, ?_⟩
      · simp; omega
      · simp
      · simp
  refine ⟨?_, hsec, key.2⟩
  rw [key.1, hr2]
  push_cast
  ring

theorem byteLoop_spec : ∀ (bytes k : Nat) (f : ℚ), ∃ j, byteLoop bytes k f = (k + j, f / 1024 ^ j)
    ∧ bytes < 1024 ^ (j + 1) ∧ (0 < j → 1024 ^ j ≤ bytes) := by
  intro bytes
  induction bytes using Nat.strong_induction_on with
  | _ bytes ih =>
    intro k f
    rw [byteLoop]
    split
    · rename_i h
      obtain ⟨j, h1, h2, h3⟩ := ih (bytes / 1024) (by omega) (k + 1) (f / 1024)
      refine ⟨j + 1, ?_, ?_, ?_⟩
      · rw [h1]
        congr 1
        · omega
        · rw [pow_succ', div_div]
      · rw [pow_succ]
        omega
      · intro _
        rw [pow_succ]
        rcases Nat.eq_zero_or_pos j with rfl | hj
        · omega
        · have := h3 hj
          omega
    · refine ⟨0, by simp, by omega, fun h => by omega⟩

theorem byteUnit_large : ∀ j, 5 ≤ j → byteUnit j = .error .error
  | j + 5, _ => rfl

/-- **C49** (sizes; partial: the printed number can reach 1024, see below) For every number of bytes `b` below `2^50` the
printed unit is that of `1024^j` bytes with `1024^j ≤ b < 1024^(j+1)` (`j = 0` for less than 1024 bytes), and the printed number
times the unit differs from `b` by 0.5 percent of the unit or less; it is not above 1024. From `2^50` on the program ends. -/
theorem c49_bytes_partial (bytes : Nat) :
    (bytes < 2 ^ 50 → ∃ (j : Nat) (x : ℚ), j < 5 ∧ bytes < 1024 ^ (j + 1) ∧ (0 < j → 1024 ^ j ≤ bytes)
      ∧ humanReadableBytes bytes = .ok (x, (["bytes".toList, "KB".toList, "MB".toList, "GB".toList, "TB".toList][j]?).getD [])
      ∧ |x * 1024 ^ j - bytes| ≤ 1024 ^ j / 200 ∧ x ≤ 1024)
    ∧ (2 ^ 50 ≤ bytes → humanReadableBytes bytes = .error .error) := by
  obtain ⟨j, h1, h2, h3⟩ := byteLoop_spec bytes 0 bytes
  rw [zero_add] at h1
  unfold humanReadableBytes
  rw [h1]
  dsimp only
  constructor
  · intro hb
    have hj : j < 5 := by
      by_contra hc
      have := h3 (by omega)
      have h5 : (1024 : Nat) ^ 5 ≤ 1024 ^ j := Nat.pow_le_pow_right (by norm_num) (by omega)
      norm_num at h5 hb
      omega
    have hu : byteUnit j = .ok ((["bytes".toList, "KB".toList, "MB".toList, "GB".toList, "TB".toList][j]?).getD []) := by
      interval_cases j <;> rfl
    refine ⟨j, roundNat (100 * ((bytes : ℚ) / 1024 ^ j)) / 100, hj, h2, h3, ?_, ?_, ?_⟩
    · rw [hu]
      rfl
    · have hp : (0 : ℚ) < 1024 ^ j := by positivity
      have hn : (0 : ℚ) ≤ 100 * ((bytes : ℚ) / 1024 ^ j) + 1 / 2 := by positivity
      have f1 := Nat.floor_le hn
      have f2 := Nat.lt_floor_add_one (100 * ((bytes : ℚ) / 1024 ^ j) + 1 / 2)
      unfold roundNat
      generalize (⌊100 * ((bytes : ℚ) / 1024 ^ j) + 1 / 2⌋₊ : ℚ) = n at f1 f2 ⊢
      have e : (bytes : ℚ) = ((bytes : ℚ) / 1024 ^ j) * 1024 ^ j := by field_simp
      generalize (bytes : ℚ) / 1024 ^ j = y at f1 f2 e
      rw [e, ← sub_mul, abs_mul, abs_of_pos hp]
      have : |n / 100 - y| ≤ 1 / 200 := by
        rw [abs_le]
        constructor <;> linarith
      calc _ ≤ 1 / 200 * 1024 ^ j := mul_le_mul_of_nonneg_right this hp.le
        _ = _ := by ring
    · have hp : (0 : ℚ) < 1024 ^ j := by positivity
      have : (bytes : ℚ) / 1024 ^ j < 1024 := by
        rw [div_lt_iff₀ hp, ← pow_succ']
        exact_mod_cast h2
      have hr : roundNat (100 * ((bytes : ℚ) / 1024 ^ j)) ≤ 102400 := by
        unfold roundNat
        apply Nat.lt_succ_iff.mp
        rw [Nat.floor_lt (by positivity)]
        push_cast
        linarith
      rw [div_le_iff₀ (by norm_num)]
      exact_mod_cast hr
  · intro hb
    have hj : 5 ≤ j := by
      by_contra hc
      have h5 : (1024 : Nat) ^ (j + 1) ≤ 1024 ^ 5 := Nat.pow_le_pow_right (by norm_num) (by omega)
      norm_num at h5 hb
      omega
    rw [byteUnit_large j hj]
    rfl

/-- **C49** (negation) because of the rounding, 1048575 bytes are printed as 1024 KB, not as 1 MB -/
theorem c49_violated_1024 (b : Nat) (hb : b = 1048575) : humanReadableBytes b = .ok (1024, "KB".toList) := by
  have e : (b : ℚ) = 1048575 := by rw [hb]; norm_num
  have hr : roundNat (100 * ((b : ℚ) / 1024)) = 102400 := by
    unfold roundNat
    rw [Nat.floor_eq_iff (by positivity), e]
    norm_num
  have hl : byteLoop b 0 (b : ℚ) = (1, (b : ℚ) / 1024) := by
    rw [byteLoop, if_pos (by omega), byteLoop, if_neg (by omega)]
  have hx : (((102400 : Nat) : ℚ) / 100) = 1024 := by norm_num
  unfold humanReadableBytes
  rw [hl]
  dsimp only
  rw [hr, hx]
  rfl

/-! ## C58 -/

theorem rfind_spec (haystack needle : List Char) (pos : Nat) :
    rfind haystack needle pos = some pos ↔ needle <+: haystack.drop pos := by
  cases pos with
  | zero =>
    unfold rfind
    rw [List.drop_zero, ← List.isPrefixOf_iff_prefix]
    split <;> simp_all
  | succ pos =>
    unfold rfind
    rw [← List.isPrefixOf_iff_prefix]
    split
    · simp_all
    · rename_i h
      constructor
      · intro e
        have le : ∀ p q, rfind haystack needle p = some q → q ≤ p := by
          intro p
          induction p with
          | zero => intro q e; unfold rfind at e; split at e <;> simp_all
          | succ p ih =>
            intro q e
            unfold rfind at e
            split at e
            · injection e with e; omega
            · have := ih q e; omega
        have := le _ _ e
        omega
      · intro e; exact absurd e h

/-- **C58** the suffix test accepts exactly the strings that end in the suffix -/
theorem c58_suffix (haystack needle : List Char) : stringEndsWith haystack needle = true ↔ needle <:+ haystack := by
  unfold stringEndsWith
  split
  · rename_i h
    constructor
    · intro e; exact absurd e (by simp)
    · intro e
      have := e.length_le
      omega
  · rename_i h
    have hs := rfind_spec haystack needle (haystack.length - needle.length)
    have : (match rfind haystack needle (haystack.length - needle.length) with
        | none => false
        | some check => decide (check = haystack.length - needle.length)) = true
        ↔ rfind haystack needle (haystack.length - needle.length) = some (haystack.length - needle.length) := by
      cases rfind haystack needle (haystack.length - needle.length) <;> simp
    refine Iff.trans this (hs.trans ?_)
    constructor
    · intro hp
      have hl : needle.length = (haystack.drop (haystack.length - needle.length)).length := by
        rw [List.length_drop]; omega
      rw [hp.eq_of_length hl]
      exact List.drop_suffix _ _
    · rintro ⟨t, ht⟩
      have : haystack.length - needle.length = t.length := by
        rw [← ht, List.length_append]; omega
      rw [this, ← ht, List.drop_left]

/-- **C58** a composed name consists of the folder and a slash (if there is a folder), the prefix, the digits of the counter, with
zeros in front of them up to the requested width, a dot and the extension -/
theorem c58_compose (folder pre extension : List Char) (counter padding : Nat) :
    ∃ ds : List Nat, (∀ d ∈ ds, d < 10) ∧ value 10 ds = counter ∧ padding ≤ ds.length ∧ (counter < 10 ^ padding → 0 < padding → ds.length = padding)
      ∧ (padding < ds.length → ds.head? ≠ some 0 ∨ ds.length = 1)
      ∧ composeFilename folder pre extension counter padding
        = (if folder = [] then [] else folder ++ ['/']) ++ pre ++ ds.map digitChar ++ '.' :: extension := by
  obtain ⟨ds, h1, h2, h3, h4, h5⟩ := showNat_spec counter
  have hl : (showNat counter).length = ds.length := by rw [h3, List.length_map]
  have hz : ∀ n, value 10 (List.replicate n 0 ++ ds) = value 10 ds := by
    intro n
    unfold value
    rw [List.foldl_append]
    congr 1
    induction n with
    | zero => rfl
    | succ n ih => rw [List.replicate_succ, List.foldl_cons]; simpa using ih
  refine ⟨List.replicate (padding - ds.length) 0 ++ ds, ?_, ?_, ?_, ?_, ?_, ?_⟩
  · intro d hd
    rcases List.mem_append.mp hd with hd | hd
    · rw [List.eq_of_mem_replicate hd]; omega
    · exact h2 d hd
  · rw [hz, h4]
  · rw [List.length_append, List.length_replicate]; omega
  · intro hc hp
    rw [List.length_append, List.length_replicate]
    have : ds.length ≤ padding := by
      by_contra hcon
      have h1' : 2 ≤ ds.length := by omega
      have := h5 h1'
      obtain ⟨d, r, rfl⟩ := List.exists_cons_of_ne_nil h1
      have hd : 1 ≤ d := by
        rw [List.head?_cons] at this
        rcases Nat.eq_zero_or_pos d with h | h
        · exact absurd (by rw [h]) this
        · exact h
      have hv : ∀ (l : List Nat) v, v * 10 ^ l.length ≤ l.foldl (fun v d => v * 10 + d) v := by
        intro l
        induction l with
        | nil => intro v; simp
        | cons e l ih =>
          intro v
          rw [List.foldl_cons, List.length_cons]
          refine le_trans ?_ (ih _)
          rw [pow_succ']
          nlinarith [Nat.zero_le (e * 10 ^ l.length)]
      have := hv r d
      have e : value 10 (d :: r) = r.foldl (fun v d => v * 10 + d) d := by
        unfold value
        rw [List.foldl_cons]
        simp
      rw [← e, h4] at this
      have : 10 ^ padding ≤ 10 ^ r.length := Nat.pow_le_pow_right (by norm_num) (by rw [List.length_cons] at hcon; omega)
      nlinarith
    omega
  · intro hlt
    rw [List.length_append, List.length_replicate] at hlt
    have e0 : padding - ds.length = 0 := by omega
    rw [e0, List.replicate_zero, List.nil_append]
    by_cases h2' : 2 ≤ ds.length
    · exact Or.inl (h5 h2')
    · have := List.length_pos_of_ne_nil h1
      exact Or.inr (by omega)
  · unfold composeFilename
    rw [hl, h3, List.map_append, List.map_replicate]
    have : (if folder.isEmpty = true then [] else folder ++ ['/']) = if folder = [] then [] else folder ++ ['/'] := by
      apply if_congr _ rfl rfl
      exact List.isEmpty_iff
    rw [this]
    simp only [List.append_assoc]
    rfl

/-- **C58** different counters give different names -/
theorem c58_injective (folder pre extension : List Char) (padding a b : Nat)
    (h : composeFilename folder pre extension a padding = composeFilename folder pre extension b padding) : a = b := by
  obtain ⟨da, a1, a2, -, -, -, a6⟩ := c58_compose folder pre extension a padding
  obtain ⟨db, b1, b2, -, -, -, b6⟩ := c58_compose folder pre extension b padding
  rw [a6, b6] at h
  have h1 := List.append_cancel_right h
  have h2 := List.append_cancel_left h1
  have inv : ∀ l : List Nat, (∀ d ∈ l, d < 10) → (l.map digitChar).map digit = l := by
    intro l hl
    rw [List.map_map]
    conv_rhs => rw [← List.map_id l]
    apply List.map_congr_left
    intro d hd
    exact (digitChar_spec d (hl d hd)).2.1
  have := congrArg (List.map digit) h2
  rw [inv da a1, inv db b1] at this
  rw [← a2, ← b2, this]

example : composeFilename "out".toList "snap".toList "txt".toList 42 3 = "out/snap042.txt".toList := by
  simp [composeFilename, showNat]

/-- **C58** a string `[a,b,c]`, with any text before and after, is split into its three parts, blanks included -/
theorem c58_split (before a b c after : List Char) (h0 : '[' ∉ before) (ha : ',' ∉ a) (hb : ',' ∉ b) (hc : ']' ∉ c) :
    splitString (before ++ '[' :: (a ++ ',' :: (b ++ ',' :: (c ++ ']' :: after)))) = (a, b, c) := by
  have hcut : ∀ (x : Char) (u v : List Char), x ∉ u → cut x (u ++ x :: v) = (u, some v) := by
    intro x u v hx
    unfold cut
    have h1 : ∀ y ∈ u, decide (y ≠ x) = true := by
      intro y hy
      rw [decide_eq_true_eq]
      rintro rfl
      exact hx hy
    rw [List.takeWhile_append_of_pos h1, List.dropWhile_append_of_pos h1]
    simp
  unfold splitString
  rw [hcut '[' before _ h0]
  dsimp only [Option.getD_some]
  rw [hcut ',' a _ ha]
  dsimp only [Option.getD_some]
  rw [hcut ',' b _ hb]
  dsimp only [Option.getD_some]
  rw [hcut ']' c _ hc]

/-! ## C50 -/

theorem decomposeLoop_spec (divisor number : Nat) (acc : List Nat) (h : 0 < divisor) (h2 : 2 ≤ divisor) (hn : 0 < number)
    (hd : ∀ p, 2 ≤ p → p < divisor → ¬ p ∣ number) :
    ∃ l, decomposeLoop divisor number acc h = acc ++ l ∧ l.prod = number ∧ (∀ p ∈ l, p.Prime ∧ divisor ≤ p) ∧ l.Pairwise (· ≤ ·) := by
  induction divisor, number, acc, h using decomposeLoop.induct with
  | case1 divisor number acc h hc hdiv ih =>
    rw [decomposeLoop, dif_pos hc, dif_pos hdiv]
    have hdvd : divisor ∣ number := Nat.dvd_of_mod_eq_zero hdiv.1
    obtain ⟨l, l1, l2, l3, l4⟩ := ih h2 (Nat.div_pos hc.1 h) (fun p hp hlt hpd => hd p hp hlt (hpd.trans (Nat.div_dvd_of_dvd hdvd)))
    have hprime : divisor.Prime := by
      rw [Nat.prime_def_lt']
      refine ⟨h2, fun m hm hlt hmd => hd m hm hlt (hmd.trans hdvd)⟩
    refine ⟨divisor :: l, ?_, ?_, ?_, ?_⟩
    · rw [l1, List.append_assoc]
      rfl
    · rw [List.prod_cons, l2, Nat.mul_div_cancel' hdvd]
    · intro p hp
      rcases List.mem_cons.mp hp with rfl | hp
      · exact ⟨hprime, le_rfl⟩
      · exact l3 p hp
    · rw [List.pairwise_cons]
      exact ⟨fun p hp => (l3 p hp).2, l4⟩
  | case2 divisor number acc h hc hdiv ih =>
    rw [decomposeLoop, dif_pos hc, dif_neg hdiv]
    obtain ⟨l, l1, l2, l3, l4⟩ := ih (by omega) hn (by
      intro p hp hlt hpd
      rcases Nat.lt_succ_iff_lt_or_eq.mp hlt with hlt | rfl
      · exact hd p hp hlt hpd
      · exact hdiv ⟨Nat.mod_eq_zero_of_dvd hpd, by omega⟩)
    exact ⟨l, l1, l2, fun p hp => ⟨(l3 p hp).1, by have := (l3 p hp).2; omega⟩, l4⟩
  | case3 divisor number acc h hc =>
    rw [decomposeLoop, dif_neg hc]
    refine ⟨[], by simp, ?_, by simp, List.Pairwise.nil⟩
    rw [List.prod_nil]
    by_contra hne
    exact hd number (by omega) (by omega) dvd_rfl

/-- **C50** `decompose` returns prime numbers in ascending order, and their product is the number, for every positive number -/
theorem c50_decompose (n : Nat) (hn : 0 < n) :
    (decompose n).prod = n ∧ (∀ p ∈ decompose n, p.Prime) ∧ (decompose n).Pairwise (· ≤ ·) := by
  obtain ⟨l, l1, l2, l3, l4⟩ := decomposeLoop_spec 2 n [] (by omega) le_rfl hn (fun p h1 h2 => by omega)
  unfold decompose
  rw [l1, List.nil_append]
  exact ⟨l2, fun p hp => (l3 p hp).1, l4⟩

/-- **C50** the binary representation of a number below `2^64` has, without the blanks, 64 digits `0` or `1`, and they denote the
number; there is a blank exactly between two groups of four digits -/
theorem c50_binary (v : Nat) (hv : v < 2 ^ 64) :
    ∃ ds : List Nat, ds.length = 64 ∧ (∀ d ∈ ds, d < 2) ∧ value 2 ds = v
      ∧ asBinarySequence v = (ds.mapIdx fun i d => (if i > 0 ∧ i % 4 = 0 then [' '] else []) ++ [digitChar d]).flatten := by
  have key : ∀ k, k ≤ 64 → ∃ ds : List Nat, ds.length = k ∧ (∀ d ∈ ds, d < 2) ∧ value 2 ds = v / 2 ^ (64 - k)
      ∧ (List.range k).foldl (fun (s : List Char × Nat) i =>
        let out := if i > 0 ∧ i % 4 = 0 then s.1 ++ [' '] else s.1
        (out ++ showNat ((v &&& s.2) >>> (63 - i)), s.2 >>> 1)) ([], 0x8000000000000000)
      = ((ds.mapIdx fun i d => (if i > 0 ∧ i % 4 = 0 then [' '] else []) ++ [digitChar d]).flatten, 2 ^ 63 >>> k) := by
    intro k
    induction k with
    | zero =>
      intro _
      refine ⟨[], rfl, by simp, ?_, by simp⟩
      rw [Nat.sub_zero, Nat.div_eq_of_lt hv]
      rfl
    | succ k ih =>
      intro hk
      obtain ⟨ds, d1, d2, d3, d4⟩ := ih (by omega)
      have hbit : (v &&& (2 ^ 63 >>> k)) >>> (63 - k) = v / 2 ^ (63 - k) % 2 := by
        have e : (2 : Nat) ^ 63 >>> k = 2 ^ (63 - k) := by
          rw [Nat.shiftRight_eq_div_pow, Nat.pow_div (by omega) (by norm_num)]
        rw [e, Nat.shiftRight_and_distrib, Nat.shiftRight_eq_div_pow, Nat.shiftRight_eq_div_pow, Nat.div_self (by positivity), Nat.and_one_is_mod]
      have hlt : v / 2 ^ (63 - k) % 2 < 2 := Nat.mod_lt _ (by norm_num)
      refine ⟨ds ++ [v / 2 ^ (63 - k) % 2], by simp [d1], ?_, ?_, ?_⟩
      · intro d hd
        rcases List.mem_append.mp hd with hd | hd
        · exact d2 d hd
        · rw [List.mem_singleton.mp hd]; exact hlt
      · rw [value_append, d3]
        have e : (2 : Nat) ^ (64 - k) = 2 ^ (63 - k) * 2 := by
          rw [← pow_succ]
          congr 1
          omega
        rw [e, ← Nat.div_div_eq_div_mul, show 64 - (k + 1) = 63 - k by omega]
        omega
      · rw [List.range_succ, List.foldl_append, d4]
        simp only [List.foldl_cons, List.foldl_nil]
        rw [hbit, List.mapIdx_append]
        have hs : showNat (v / 2 ^ (63 - k) % 2) = [digitChar (v / 2 ^ (63 - k) % 2)] := by
          have : v / 2 ^ (63 - k) % 2 = 0 ∨ v / 2 ^ (63 - k) % 2 = 1 := by omega
          rcases this with h | h <;> rw [h] <;> simp [showNat, digitChar]
        rw [hs]
        congr 1
        rw [List.flatten_append]
        simp only [List.mapIdx_cons, List.mapIdx_nil, d1, Nat.zero_add, List.flatten_cons, List.flatten_nil, List.append_nil]
        split <;> simp
  obtain ⟨ds, d1, d2, d3, d4⟩ := key 64 le_rfl
  refine ⟨ds, d1, d2, by simpa using d3, ?_⟩
  unfold asBinarySequence
  rw [d4]

/-- **C50** the indices `argsort` returns: a permutation of all positions, and the values in this order are ascending; for all
vectors over a linear order, and every result `std::sort` may give -/
theorem c50_argsort {α : Type} [LinearOrder α] (values : List α) (r : List Nat) (h : Argsort values r) :
    r.Perm (List.range values.length) ∧ (∀ i ∈ r, i < values.length)
    ∧ (r.filterMap (values[·]?)).Perm values ∧ (r.filterMap (values[·]?)).Pairwise (· ≤ ·) := by
  refine ⟨h.1, ?_, ?_, ?_⟩
  · intro i hi
    exact List.mem_range.mp (h.1.mem_iff.mp hi)
  · have := h.1.filterMap (values[·]?)
    refine this.trans ?_
    have e : (List.range values.length).filterMap (values[·]?) = values := by
      have : ∀ n, (List.range n).filterMap (values[·]?) = values.take n := by
        intro n
        induction n with
        | zero => simp
        | succ n ih =>
          rw [List.range_succ, List.filterMap_append, ih, List.take_add_one]
          rcases hv : values[n]? with _ | v <;> simp [hv]
      rw [this, List.take_length]
    rw [e]
  · rw [List.pairwise_filterMap, List.pairwise_iff_getElem]
    intro i j hi hj hij x hx y hy
    have := h.2 i j hij r[i] r[j] (List.getElem?_eq_getElem hi) (List.getElem?_eq_getElem hj) x y hx hy
    exact not_lt.mp this

example : decompose 60 = [2, 2, 3, 5] := by
  simp [decompose, decomposeLoop]

/-- a result: the positions of 1, 2, 3 in `[3, 1, 2]` -/
example : Argsort [3, 1, 2] [1, 2, 0] := by
  refine ⟨by decide, ?_⟩
  intro i j hij a b ha hb x y hx hy
  have hj : j < 3 := by
    by_contra h
    rw [List.getElem?_eq_none (by simp; omega)] at hb
    cases hb
  interval_cases j <;> interval_cases i <;> simp only [List.getElem?_cons_zero, List.getElem?_cons_succ, Option.some.injEq] at ha hb <;>
    subst ha <;> subst hb <;> simp only [List.getElem?_cons_zero, List.getElem?_cons_succ, Option.some.injEq] at hx hy <;> omega

end Verif.Text
