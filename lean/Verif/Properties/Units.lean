import Verif.Spec.Units
import Verif.Properties.Text
import Mathlib.Tactic.FieldSimp
import Mathlib.Tactic.FinCases

/-!
# C41, C42: units
-/
namespace Verif.Units

open Spec
open Verif.Text.Spec
open Verif.Text (Failure isDigit digit)

/-! ## C41: the algebra of units -/

theorem times_succ {α : Type} (n : Nat) (f : α → α) (x : α) : times (n + 1) f x = f (times n f x) := by
  unfold times
  rw [List.range_succ, List.foldl_append]
  rfl

theorem times_mul (n : Nat) (v x : ℝ) : times n (· * v) x = x * v ^ n := by
  induction n with
  | zero => simp [times]
  | succ n ih => rw [times_succ, ih, pow_succ, mul_assoc]

theorem times_div (n : Nat) (v x : ℝ) : times n (· / v) x = x / v ^ n := by
  induction n with
  | zero => simp [times]
  | succ n ih => rw [times_succ, ih, pow_succ, div_div]

theorem Unit.ext_dim {u v : Unit} (h1 : u.value = v.value) (h2 : dim u = dim v) : u = v := by
  cases u
  cases v
  unfold dim at h2
  have := congrFun h2
  have a0 := this 0
  have a1 := this 1
  have a2 := this 2
  have a3 := this 3
  have a4 := this 4
  have a5 := this 5
  simp only [Unit.mk.injEq]
  exact ⟨h1, a0, a1, a2, a3, a4, a5⟩

theorem dim_mul (u v : Unit) : dim (u.mul v) = dim u + dim v := by
  funext i
  fin_cases i <;> rfl

theorem dim_div (u v : Unit) : dim (u.div v) = dim u - dim v := by
  funext i
  fin_cases i <;> rfl

theorem dim_pow (u : Unit) (p : ℤ) : dim (u.pow p) = p • dim u := by
  funext i
  fin_cases i <;> exact mul_comm _ _

/-- **C41** multiplication and division act on the value and on the dimensions, and are inverse to each other -/
theorem c41_mul_div (u v : Unit) (hv : v.value ≠ 0) :
    ((u.mul v).value = u.value * v.value ∧ dim (u.mul v) = dim u + dim v)
    ∧ ((u.div v).value = u.value / v.value ∧ dim (u.div v) = dim u - dim v)
    ∧ (u.mul v).div v = u ∧ (u.div v).mul v = u := by
  refine ⟨⟨rfl, dim_mul u v⟩, ⟨rfl, dim_div u v⟩, ?_, ?_⟩
  · apply Unit.ext_dim
    · exact mul_div_cancel_right₀ _ hv
    · rw [dim_div, dim_mul, add_sub_cancel_right]
  · apply Unit.ext_dim
    · exact div_mul_cancel₀ _ hv
    · rw [dim_mul, dim_div, sub_add_cancel]

theorem powValue_eq (v : ℝ) (p : ℤ) (hp : p ≠ 0) : powValue v p = v ^ p := by
  unfold powValue
  split
  · rename_i h
    rw [times_mul, ← pow_succ']
    have : ((p - 1).toNat + 1 : ℕ) = p.toNat := by omega
    rw [this, ← zpow_natCast]
    congr 1
    omega
  · rename_i h
    rw [times_div, one_div, ← zpow_natCast, ← zpow_neg]
    congr 1
    omega

/-- **C41** powers, but for the power zero -/
theorem c41_pow_partial (u : Unit) (p : ℤ) (hp : p ≠ 0) : (u.pow p).value = u.value ^ p ∧ dim (u.pow p) = p • dim u :=
  ⟨powValue_eq u.value p hp, dim_pow u p⟩

/-- **C41** powers add up, and powers of powers multiply -/
theorem c41_pow_laws (u : Unit) (hu : u.value ≠ 0) (p q : ℤ) (hp : p ≠ 0) (hq : q ≠ 0) :
    (p + q ≠ 0 → (u.pow p).mul (u.pow q) = u.pow (p + q)) ∧ (u.pow p).pow q = u.pow (p * q)
    ∧ ∀ v : Unit, (u.mul v).pow p = (u.pow p).mul (v.pow p) := by
  refine ⟨fun hpq => ?_, ?_, fun v => ?_⟩
  · apply Unit.ext_dim
    · change powValue _ _ * powValue _ _ = powValue _ _
      rw [powValue_eq _ _ hp, powValue_eq _ _ hq, powValue_eq _ _ hpq, zpow_add₀ hu]
    · rw [dim_mul, dim_pow, dim_pow, dim_pow, add_smul]
  · apply Unit.ext_dim
    · change powValue (powValue _ _) _ = powValue _ _
      rw [powValue_eq _ _ hp, powValue_eq _ _ hq, powValue_eq _ _ (mul_ne_zero hp hq), zpow_mul]
    · rw [dim_pow, dim_pow, dim_pow, smul_smul, mul_comm]
  · apply Unit.ext_dim
    · change powValue (_ * _) _ = powValue _ _ * powValue _ _
      rw [powValue_eq _ _ hp, powValue_eq _ _ hp, powValue_eq _ _ hp, mul_zpow]
    · rw [dim_pow, dim_mul, dim_mul, dim_pow, dim_pow, smul_add]

/-- **C41** (negation for power zero) the dimensions vanish, but the value stays: `km^0` is 1000, not 1 -/
theorem c41_violated_zero (u : Unit) : (u.pow 0).value = u.value ∧ dim (u.pow 0) = 0 := by
  constructor
  · change powValue u.value 0 = _
    unfold powValue
    rw [if_pos le_rfl]
    rfl
  · rw [dim_pow, zero_smul]

/-- so the power of a sum of exponents is not the product of the powers -/
example : ∃ u : Unit, singleUnit "km".toList = .ok u ∧ (u.pow 1).mul (u.pow (-1)) ≠ u.pow (1 + -1) := by
  refine ⟨⟨1000, 1, 0, 0, 0, 0, 0⟩, rfl, fun h => ?_⟩
  have := congrArg Unit.value h
  change powValue 1000 1 * powValue 1000 (-1) = powValue 1000 (1 + -1) at this
  rw [powValue_eq _ _ (by norm_num), powValue_eq _ _ (by norm_num)] at this
  have h0 := (c41_violated_zero ⟨1000, 1, 0, 0, 0, 0, 0⟩).1
  change powValue 1000 0 = 1000 at h0
  rw [show (1 : ℤ) + -1 = 0 by norm_num, h0] at this
  norm_num at this

theorem sameQuantity_iff (u v : Unit) : u.sameQuantity v = true ↔ dim u = dim v := by
  unfold Unit.sameQuantity
  simp only [Bool.and_eq_true, decide_eq_true_eq]
  constructor
  · rintro ⟨⟨⟨⟨⟨h0, h1⟩, h2⟩, h3⟩, h4⟩, h5⟩
    unfold dim
    rw [h0, h1, h2, h3, h4, h5]
  · intro h
    have := congrFun h
    exact ⟨⟨⟨⟨⟨this 0, this 1⟩, this 2⟩, this 3⟩, this 4⟩, this 5⟩

theorem block_eq (e : ℤ) (b : Unit) (x : ℝ) : block e b x = x * b.value ^ e := by
  unfold block
  split
  · split
    · rw [times_mul, ← zpow_natCast]
      congr 2
      omega
    · rw [times_div, ← zpow_natCast, div_eq_mul_inv, ← zpow_neg]
      congr 2
      omega
  · rename_i h
    have : e = 0 := by omega
    rw [this, zpow_zero, mul_one]

/-- **C41** the equivalent of a unit in another system of units has the same dimensions, and its value is the product of the basic
units to the powers of the dimensions (all exponents, zero included) -/
theorem c41_equivalent (u : Unit) (bl bt bm bk bc ba : Unit) :
    dim (u.getEquivalent bl bt bm bk bc ba) = dim u
    ∧ (u.getEquivalent bl bt bm bk bc ba).value
      = bl.value ^ u.length * bt.value ^ u.time * bm.value ^ u.mass * bk.value ^ u.temperature * bc.value ^ u.current * ba.value ^ u.angle := by
  refine ⟨rfl, ?_⟩
  unfold Unit.getEquivalent
  simp only [block_eq, one_mul]

/-! ## C42: unit strings -/

theorem isAlpha_iff (c : Char) : isAlpha c = true ↔ (65 ≤ c.toNat ∧ c.toNat ≤ 90) ∨ (97 ≤ c.toNat ∧ c.toNat ≤ 122) := by
  unfold isAlpha
  simp only [Bool.or_eq_true, Bool.and_eq_true, decide_eq_true_eq]
  exact Or.comm

theorem isDigit_iff (c : Char) : isDigit c = true ↔ 48 ≤ c.toNat ∧ c.toNat ≤ 57 := by
  unfold isDigit
  simp only [Bool.and_eq_true, decide_eq_true_eq]
  rfl

/-- the names of the table consist of letters, and all values are positive -/
theorem single_spec (name : List Char) (u : Unit) (h : singleUnit name = .ok u) :
    name ≠ [] ∧ (∀ c ∈ name, isAlpha c = true) ∧ 0 < u.value := by
  have hpi := Real.pi_pos
  have fin : ∀ (n : List Char) (v : Unit), n ≠ [] ∧ (∀ c ∈ n, isAlpha c = true) → 0 < v.value → name = n →
      (Except.ok v : Except Failure Unit) = .ok u → name ≠ [] ∧ (∀ c ∈ name, isAlpha c = true) ∧ 0 < u.value := by
    intro n v h1 h2 h3 h4
    injection h4 with h4
    rw [h3, ← h4]
    exact ⟨h1.1, h1.2, h2⟩
  unfold singleUnit at h
  iterate 25
    rcases em (name = _) with hn | hn
    · rw [if_pos hn] at h
      exact fin _ _ (by decide) (by norm_num [electronvolt, hpi]) hn h
    rw [if_neg hn] at h
    clear hn
  cases h

theorem takeWhile_split {p : Char → Bool} (a rest : List Char) (ha : ∀ c ∈ a, p c = true) (hr : ∀ c, rest.head? = some c → p c = false) :
    (a ++ rest).takeWhile p = a ∧ (a ++ rest).dropWhile p = rest := by
  rw [List.takeWhile_append_of_pos ha, List.dropWhile_append_of_pos ha]
  cases rest with
  | nil => simp
  | cons c r =>
    have := hr c rfl
    simp [this]

theorem inName_alpha (c : Char) (h : isAlpha c = true) : inName c = true := by
  unfold inName
  rw [isAlpha_iff] at h
  simp only [Bool.and_eq_true, decide_eq_true_eq]
  constructor
  · rintro rfl
    revert h; decide
  · rintro rfl
    revert h; decide

theorem digitChar_range (d : Nat) (h : d < 10) : isDigit (digitChar d) = true ∧ digit (digitChar d) = d ∧ isSpace (digitChar d) = false
    ∧ digitChar d ≠ '-' ∧ digitChar d ≠ '+' ∧ isAlpha (digitChar d) = false := by
  interval_cases d <;> decide

theorem stoi_of (t rest : List Char) (sign : ℤ) (ds : List Nat) (h1 : t.dropWhile isSpace = t)
    (h2 : (if Text.here t = '-' then (-1 : ℤ) else 1) = sign) (h3 : (if Text.here t = '-' ∨ Text.here t = '+' then t.drop 1 else t) = rest)
    (h4 : (rest.takeWhile isDigit).map digit = ds) (h5 : ds ≠ []) :
    stoi t = if -(2 ^ 31) ≤ sign * (value 10 ds : ℕ) ∧ sign * (value 10 ds : ℕ) < 2 ^ 31 then .ok (sign * (value 10 ds : ℕ)) else .error .error := by
  unfold stoi
  simp only [h1, h2, h3, h4]
  rw [if_neg h5]
  rfl

/-- reading an integer -/
theorem stoi_spec (t : List Char) (p : ℤ) (h : IsPower t p) (hp : -(2 ^ 31) ≤ p ∧ p < 2 ^ 31) :
    stoi t = .ok p ∧ t ≠ [] ∧ ∀ c ∈ t, inPower c = true := by
  obtain ⟨ds, hne, hds, hcases⟩ := h
  have hread : ((ds.map digitChar).takeWhile isDigit).map digit = ds := by
    have := (Verif.Text.read_digits isDigit digit ds digitChar (fun d => d) [] (fun d hd => ⟨(digitChar_range d (hds d hd)).1,
      (digitChar_range d (hds d hd)).2.1⟩) (by intro x r h; cases h)).1
    rw [List.append_nil, List.map_id'] at this
    exact this
  have hin : ∀ c ∈ ds.map digitChar, inPower c = true := by
    intro c hc
    obtain ⟨d, hd, rfl⟩ := List.mem_map.mp hc
    unfold inPower
    rw [(digitChar_range d (hds d hd)).1]
    rfl
  obtain ⟨d, r, rfl⟩ := List.exists_cons_of_ne_nil hne
  have hd := digitChar_range d (hds d (by simp))
  rcases hcases with ⟨rfl, hv⟩ | ⟨rfl, hv⟩ | ⟨rfl, hv⟩
  · refine ⟨?_, by simp, hin⟩
    have e2 : Text.here ((d :: r).map digitChar) = digitChar d := rfl
    rw [stoi_of ((d :: r).map digitChar) ((d :: r).map digitChar) 1 (d :: r) (by
      rw [List.map_cons, List.dropWhile_cons, if_neg (by rw [hd.2.2.1]; simp)]) (by rw [e2, if_neg hd.2.2.2.1]) (by
      rw [e2, if_neg (by rintro (h | h); exacts [hd.2.2.2.1 h, hd.2.2.2.2.1 h])]) hread (by simp), one_mul, ← hv, if_pos hp]
  · refine ⟨?_, by simp, ?_⟩
    · rw [stoi_of ('+' :: (d :: r).map digitChar) ((d :: r).map digitChar) 1 (d :: r) (by
        rw [List.dropWhile_cons, if_neg (by decide)]) rfl rfl hread (by simp), one_mul, ← hv, if_pos hp]
    · intro c hc
      rcases List.mem_cons.mp hc with rfl | hc
      · decide
      · exact hin c hc
  · refine ⟨?_, by simp, ?_⟩
    · rw [stoi_of ('-' :: (d :: r).map digitChar) ((d :: r).map digitChar) (-1) (d :: r) (by
        rw [List.dropWhile_cons, if_neg (by decide)]) rfl rfl hread (by simp), neg_one_mul, ← hv, if_pos hp]
    · intro c hc
      rcases List.mem_cons.mp hc with rfl | hc
      · decide
      · exact hin c hc

/-- skipping to the next name -/
theorem skip_sep (sep : List Char) (h : NoLetters sep) (c : Char) (r : List Char) (hc : isAlpha c = true) :
    (sep ++ c :: r).dropWhile (fun c => !isAlpha c) = c :: r := by
  rw [List.dropWhile_append_of_pos, List.dropWhile_cons, if_neg (by rw [hc]; simp)]
  intro x hx
  have := h x hx
  have h' : ¬ isAlpha x = true := by
    rw [isAlpha_iff]
    tauto
  simpa using h'

theorem skip_all (sep : List Char) (h : NoLetters sep) : sep.dropWhile (fun c => !isAlpha c) = [] := by
  rw [List.dropWhile_eq_nil_iff]
  intro x hx
  have := h x hx
  have h' : ¬ isAlpha x = true := by
    rw [isAlpha_iff]
    tauto
  simpa using h'

/-- reading a factor without power -/
theorem factor_plain (c : Char) (n rest : List Char) (u : Unit) (hu : singleUnit (c :: n) = .ok u)
    (hr : rest = [] ∨ rest.head? = some ' ') : factor c (n ++ rest) = .ok (u, rest) := by
  obtain ⟨-, ha, -⟩ := single_spec _ _ hu
  obtain ⟨e1, e2⟩ := takeWhile_split (p := inName) n rest (fun x hx => inName_alpha x (ha x (by simp [hx]))) (by
    intro x hx
    rcases hr with rfl | hr
    · cases hx
    · rw [hr] at hx
      injection hx with hx
      rw [← hx]
      rfl)
  unfold factor
  rw [e1, e2, hu]
  dsimp only
  split
  · rename_i p
    rcases hr with h | h
    · cases h
    · cases h
  · rfl

/-- reading a factor with a power -/
theorem factor_power (c : Char) (n t rest : List Char) (p : ℤ) (u : Unit) (hu : singleUnit (c :: n) = .ok u) (hp : IsPower t p)
    (hrange : -(2 ^ 31) ≤ p ∧ p < 2 ^ 31) (hr : ∀ c, rest.head? = some c → c ≠ '+' ∧ c ≠ '-' ∧ ¬ (48 ≤ c.toNat ∧ c.toNat ≤ 57)) :
    factor c (n ++ '^' :: (t ++ rest)) = .ok (u.pow p, rest) := by
  obtain ⟨-, ha, -⟩ := single_spec _ _ hu
  obtain ⟨e1, e2⟩ := takeWhile_split (p := inName) n ('^' :: (t ++ rest)) (fun x hx => inName_alpha x (ha x (by simp [hx]))) (by
    intro x hx
    injection hx with hx
    rw [← hx]
    rfl)
  obtain ⟨s1, s2, s3⟩ := stoi_spec t p hp hrange
  obtain ⟨x, t', rfl⟩ := List.exists_cons_of_ne_nil s2
  obtain ⟨f1, f2⟩ := takeWhile_split (p := inPower) t' rest (fun y hy => s3 y (by simp [hy])) (by
    intro y hy
    obtain ⟨h1, h2, h3⟩ := hr y hy
    rw [← isDigit_iff] at h3
    unfold inPower
    simp [h1, h2, h3])
  unfold factor
  rw [e1, e2, hu]
  change (match stoi ([x] ++ (t' ++ rest).takeWhile inPower) with
    | Except.error e => Except.error e
    | Except.ok power => Except.ok (u.pow power, (t' ++ rest).dropWhile inPower)) = Except.ok (u.pow p, rest)
  rw [f1, f2]
  change (match stoi (x :: t') with
    | Except.error e => Except.error e
    | Except.ok power => Except.ok (u.pow power, rest)) = Except.ok (u.pow p, rest)
  rw [s1]

/-- the units of the factors -/
def Known (l : List (List Char × ℤ)) (us : List (Unit × ℤ)) : Prop :=
  List.Forall₂ (fun f u => singleUnit f.1 = .ok u.1 ∧ f.2 = u.2 ∧ u.2 ≠ 0 ∧ -(2 ^ 31) ≤ u.2 ∧ u.2 < 2 ^ 31) l us

theorem isProduct_mul {a b : Unit} {l m : List (Unit × ℤ)} (ha : IsProduct a l) (hb : IsProduct b m) : IsProduct (a.mul b) (l ++ m) := by
  constructor
  · rw [List.map_append, List.prod_append, ← ha.1, ← hb.1]
    rfl
  · rw [List.map_append, List.sum_append, ← ha.2, ← hb.2, dim_mul]

theorem isProduct_pow (u : Unit) (p : ℤ) (hp : p ≠ 0) : IsProduct (u.pow p) [(u, p)] := by
  constructor
  · simp only [List.map_cons, List.map_nil, List.prod_cons, List.prod_nil, mul_one]
    exact powValue_eq u.value p hp
  · simp only [List.map_cons, List.map_nil, List.sum_cons, List.sum_nil, add_zero]
    exact dim_pow u p

theorem isProduct_one (u : Unit) : IsProduct u [(u, 1)] := by
  constructor
  · simp
  · simp

theorem unitLoop_step (unit u2 : Unit) (name rest : List Char) (c : Char) (r : List Char) (h : name.dropWhile (fun c => !isAlpha c) = c :: r)
    (hf : factor c r = .ok (u2, rest)) : unitLoop unit name = unitLoop (unit.mul u2) rest := by
  rw [unitLoop]
  split
  · rename_i h'
    rw [h] at h'
    cases h'
  · rename_i c' r' h'
    rw [h] at h'
    injection h' with h1 h2
    subst h1 h2
    split
    · rename_i hf'
      rw [hf] at hf'
      cases hf'
    · rename_i hf'
      rw [hf] at hf'
      injection hf' with hf'
      injection hf' with h3 h4
      subst h3 h4
      rfl

/-- the first name of a text and its factor -/
theorem writes_step (s : List Char) (f : List Char × ℤ) (l : List (List Char × ℤ)) (h : Writes s (f :: l)) (u : Unit × ℤ)
    (hu : singleUnit f.1 = .ok u.1 ∧ f.2 = u.2 ∧ u.2 ≠ 0 ∧ -(2 ^ 31) ≤ u.2 ∧ u.2 < 2 ^ 31) :
    ∃ c r u2 rest, s.dropWhile (fun c => !isAlpha c) = c :: r ∧ factor c r = .ok (u2, rest) ∧ IsProduct u2 [u] ∧ Writes rest l := by
  obtain ⟨h1, h2, h3, h4⟩ := hu
  obtain ⟨hne, ha, -⟩ := single_spec _ _ h1
  generalize hg : f :: l = fl at h
  cases h with
  | nil sep h => cases hg
  | plain sep name rest l' hs hr h' =>
    injection hg with hg1 hg2
    subst hg1 hg2
    obtain ⟨c, n, rfl⟩ := List.exists_cons_of_ne_nil hne
    refine ⟨c, n ++ rest, u.1, rest, skip_sep sep hs c (n ++ rest) (ha c (by simp)), factor_plain c n rest u.1 h1 hr, ?_, h'⟩
    have : u = (u.1, 1) := Prod.ext rfl h2.symm
    rw [this]
    exact isProduct_one u.1
  | power sep name t rest p l' hs hp hr h' =>
    injection hg with hg1 hg2
    subst hg1 hg2
    obtain ⟨c, n, rfl⟩ := List.exists_cons_of_ne_nil hne
    change p = u.2 at h2
    subst h2
    exact ⟨c, n ++ '^' :: (t ++ rest), u.1.pow u.2, rest, skip_sep sep hs c _ (ha c (by simp)),
      factor_power c n t rest u.2 u.1 h1 hp h4 hr, isProduct_pow u.1 u.2 h3, h'⟩

theorem loop_spec (l : List (List Char × ℤ)) : ∀ (s : List Char) (us : List (Unit × ℤ)) (unit : Unit) (done : List (Unit × ℤ)),
    Writes s l → Known l us → IsProduct unit done → ∃ r, unitLoop unit s = .ok r ∧ IsProduct r (done ++ us) := by
  induction l with
  | nil =>
    intro s us unit done h hk hu
    cases hk
    cases h with
    | nil sep h =>
      refine ⟨unit, ?_, by simpa using hu⟩
      rw [unitLoop]
      split
      · rfl
      · rename_i hc
        rw [skip_all s h] at hc
        cases hc
  | cons f l ih =>
    intro s us unit done h hk hu
    cases hk with
    | cons hf hk =>
      rename_i u us
      obtain ⟨c, r, u2, rest, w1, w2, w3, w4⟩ := writes_step s f l h u hf
      obtain ⟨r', r1, r2⟩ := ih rest us (unit.mul u2) (done ++ [u]) w4 hk (isProduct_mul hu w3)
      refine ⟨r', ?_, by simpa using r2⟩
      rw [unitLoop_step unit u2 s rest c r w1 w2, r1]

/-- **C42** A text of names of the table, with or without non-zero powers, separated as described, is accepted, and the result is
the product of the powers of the units. -/
theorem c42_parse (s : List Char) (l : List (List Char × ℤ)) (us : List (Unit × ℤ)) (hl : l ≠ []) (hs : Writes s l) (hk : Known l us) :
    ∃ r, getUnit s = .ok r ∧ IsProduct r us := by
  cases hk with
  | nil => exact absurd rfl hl
  | cons hf hk =>
    rename_i f u l us
    obtain ⟨c, r, u2, rest, w1, w2, w3, w4⟩ := writes_step s f l hs u hf
    obtain ⟨r', r1, r2⟩ := loop_spec l rest us u2 [u] w4 hk w3
    refine ⟨r', ?_, r2⟩
    unfold getUnit
    rw [w1]
    dsimp only
    rw [w2]
    exact r1

theorem isProduct_unique {a b : Unit} {l : List (Unit × ℤ)} (ha : IsProduct a l) (hb : IsProduct b l) : a = b :=
  Unit.ext_dim (ha.1.trans hb.1.symm) (ha.2.trans hb.2.symm)

theorem isProduct_perm {a : Unit} {l m : List (Unit × ℤ)} (ha : IsProduct a l) (h : l.Perm m) : IsProduct a m :=
  ⟨ha.1.trans (h.map _).prod_eq, ha.2.trans (h.map _).sum_eq⟩

/-- **C42** the order of the factors and the way they are separated do not matter -/
theorem c42_order (s s' : List Char) (l l' : List (List Char × ℤ)) (us us' : List (Unit × ℤ)) (hl : l ≠ []) (hl' : l' ≠ [])
    (hs : Writes s l) (hs' : Writes s' l') (hk : Known l us) (hk' : Known l' us') (h : us.Perm us') : getUnit s = getUnit s' := by
  obtain ⟨r, r1, r2⟩ := c42_parse s l us hl hs hk
  obtain ⟨r', r1', r2'⟩ := c42_parse s' l' us' hl' hs' hk'
  rw [r1, r1', isProduct_unique (isProduct_perm r2 h) r2']

/-- a text for powers of names -/
def write (l : List (List Char × Option ℤ)) : List Char :=
  l.flatMap fun f => ' ' :: (f.1 ++ match f.2 with | none => [] | some p => '^' :: Text.showInt p)

theorem showInt_power (p : ℤ) : IsPower (Text.showInt p) p := by
  obtain ⟨ds, h1, h2, h3, h4, -⟩ := Verif.Text.showNat_spec p.natAbs
  refine ⟨ds, h1, h2, ?_⟩
  unfold Text.showInt
  split
  · exact Or.inr (Or.inr ⟨by rw [h3], by rw [h4]; omega⟩)
  · exact Or.inl ⟨h3, by rw [h4]; omega⟩

theorem write_head (l : List (List Char × Option ℤ)) : write l = [] ∨ (write l).head? = some ' ' := by
  cases l with
  | nil => exact Or.inl rfl
  | cons f l => exact Or.inr rfl

theorem blank_noLetters : NoLetters [' '] := by
  intro c hc
  rw [List.mem_singleton.mp hc]
  decide

theorem writes_write (l : List (List Char × Option ℤ)) : Writes (write l) (l.map fun f => (f.1, f.2.getD 1)) := by
  induction l with
  | nil => exact Writes.nil [] (by intro c hc; cases hc)
  | cons f l ih =>
    obtain ⟨name, _ | p⟩ := f
    · have e : write ((name, none) :: l) = [' '] ++ (name ++ write l) := by simp [write]
      rw [e]
      exact Writes.plain [' '] name (write l) _ blank_noLetters (write_head l) ih
    · have e : write ((name, some p) :: l) = [' '] ++ (name ++ '^' :: (Text.showInt p ++ write l)) := by simp [write]
      rw [e]
      refine Writes.power [' '] name _ (write l) p _ blank_noLetters (showInt_power p) ?_ ih
      intro c hc
      rcases write_head l with h | h
      · rw [h] at hc; cases hc
      · rw [h] at hc
        injection hc with hc
        rw [← hc]
        decide

theorem getUnit_blank (s : List Char) : getUnit (' ' :: s) = getUnit s := by
  unfold getUnit
  rw [List.dropWhile_cons, if_pos (by decide)]

/-- the SI units: the names in `siUnitName`, as lists -/
def siFactors : Quantity → List (List Char × Option ℤ)
  | .acceleration => [("m".toList, none), ("s".toList, some (-2))]
  | .angle => [("radians".toList, none)]
  | .density => [("kg".toList, none), ("m".toList, some (-3))]
  | .energy => [("J".toList, none)]
  | .energyChangeRate => [("J".toList, none), ("m".toList, some (-3)), ("s".toList, some (-1))]
  | .energyRate => [("J".toList, none), ("s".toList, some (-1))]
  | .flux => [("m".toList, some (-2)), ("s".toList, some (-1))]
  | .forcingPower => [("m".toList, some 2), ("s".toList, some (-3))]
  | .frequency => [("Hz".toList, none)]
  | .frequencyPerMass => [("Hz".toList, none), ("kg".toList, some (-1))]
  | .inverseLength => [("m".toList, some (-1))]
  | .inverseSurfaceArea => [("m".toList, some (-2))]
  | .length => [("m".toList, none)]
  | .mass => [("kg".toList, none)]
  | .massRate => [("kg".toList, none), ("s".toList, some (-1))]
  | .momentum => [("kg".toList, none), ("m".toList, none), ("s".toList, some (-1))]
  | .numberDensity => [("m".toList, some (-3))]
  | .opacity => [("m".toList, some (-1))]
  | .pressure => [("Pa".toList, none)]
  | .reactionRate => [("m".toList, some 3), ("s".toList, some (-1))]
  | .surfaceArea => [("m".toList, some 2)]
  | .surfaceDensity => [("kg".toList, none), ("m".toList, some (-2))]
  | .temperature => [("K".toList, none)]
  | .time => [("s".toList, none)]
  | .velocity => [("m".toList, none), ("s".toList, some (-1))]
  | .volume => [("m".toList, some 3)]

theorem write_none (n : List Char) (l : List (List Char × Option ℤ)) : write ((n, none) :: l) = ' ' :: (n ++ [] ++ write l) := rfl
theorem write_some (n : List Char) (p : ℤ) (l : List (List Char × Option ℤ)) :
    write ((n, some p) :: l) = ' ' :: (n ++ '^' :: Text.showInt p ++ write l) := rfl
theorem write_nil : write [] = [] := rfl

theorem siFactors_spec (q : Quantity) : write (siFactors q) = ' ' :: siUnitName q := by
  have h1 : Text.showInt (-1) = "-1".toList := by simp [Text.showInt, Text.showNat]
  have h2 : Text.showInt (-2) = "-2".toList := by simp [Text.showInt, Text.showNat]
  have h3 : Text.showInt (-3) = "-3".toList := by simp [Text.showInt, Text.showNat]
  have h4 : Text.showInt 2 = "2".toList := by simp [Text.showInt, Text.showNat]
  have h5 : Text.showInt 3 = "3".toList := by simp [Text.showInt, Text.showNat]
  cases q <;> unfold siFactors <;>
    (repeat first | rw [write_none] | rw [write_some]) <;> rw [write_nil] <;> (repeat first | rw [h1] | rw [h2] | rw [h3] | rw [h4] | rw [h5]) <;> rfl

/-- reading a written text: the product -/
theorem getUnit_write (l : List (List Char × Option ℤ)) (us : List (Unit × ℤ)) (hl : l ≠ [])
    (hk : Known (l.map fun f => (f.1, f.2.getD 1)) us) : ∃ r, getUnit (write l) = .ok r ∧ IsProduct r us :=
  c42_parse (write l) _ us (by simpa using hl) (writes_write l) hk

/-- the unit of a name -/
noncomputable def unitOf (name : List Char) : Unit := match singleUnit name with | .ok u => u | .error _ => ⟨0, 0, 0, 0, 0, 0, 0⟩

/-- **C42** the SI unit of every quantity has the value 1 and the dimensions of the quantity -/
theorem c42_si (q : Quantity) : ∃ u, siUnit q = .ok u ∧ u.value = 1 ∧ dim u = quantityDim q := by
  have key : ∀ us : List (Unit × ℤ), Known ((siFactors q).map fun f => (f.1, f.2.getD 1)) us → (∀ u ∈ us, u.1.value = 1)
      → (us.map fun f => f.2 • dim f.1).sum = quantityDim q → siFactors q ≠ [] → ∃ u, siUnit q = .ok u ∧ u.value = 1 ∧ dim u = quantityDim q := by
    intro us h1 h2 h3 h4
    obtain ⟨r, r1, r2⟩ := getUnit_write (siFactors q) us h4 h1
    rw [siFactors_spec, getUnit_blank] at r1
    refine ⟨r, r1, ?_, r2.2.trans h3⟩
    rw [r2.1]
    apply List.prod_eq_one
    intro x hx
    obtain ⟨u, hu, rfl⟩ := List.mem_map.mp hx
    rw [h2 u hu, one_zpow]
  refine key ((siFactors q).map fun f => (unitOf f.1, f.2.getD 1)) ?_ ?_ ?_ ?_
  · cases q <;> simp only [siFactors, List.map_cons, List.map_nil] <;>
      (repeat' first | exact .nil | refine .cons ⟨rfl, rfl, by decide, by decide, by decide⟩ ?_)
  · have hm : (unitOf "m".toList).value = 1 := rfl
    have hs : (unitOf "s".toList).value = 1 := rfl
    have hkg : (unitOf "kg".toList).value = 1 := rfl
    have hK : (unitOf "K".toList).value = 1 := rfl
    have hr : (unitOf "radians".toList).value = 1 := rfl
    have hH : (unitOf "Hz".toList).value = 1 := rfl
    have hJ : (unitOf "J".toList).value = 1 := rfl
    have hP : (unitOf "Pa".toList).value = 1 := rfl
    generalize unitOf = f at *
    cases q <;> simp only [siFactors, List.map_cons, List.map_nil, List.forall_mem_cons, hm, hs, hkg, hK, hr, hH, hJ, hP, true_and] <;>
      (intro u hu; cases hu)
  · cases q <;> (funext i; fin_cases i <;> rfl)
  · cases q <;> (intro h; cases h)

/-- example: `K kg^3 s^-1m ` (of the documentation) is one of these texts -/
example : ∃ r, getUnit "K kg^3 s^-1m ".toList = .ok r ∧ r.value = 1 ∧ dim r = ![1, -1, 3, 1, 0, 0] := by
  have hw : Writes ([] ++ ("K".toList ++ ([' '] ++ ("kg".toList ++ '^' :: (['3'] ++ ([' '] ++ ("s".toList ++ '^' :: (['-', '1'] ++ ([] ++ ("m".toList ++ [' ']))))))))))
      [("K".toList, 1), ("kg".toList, 3), ("s".toList, -1), ("m".toList, 1)] := by
    refine .plain [] _ _ _ (by intro c hc; cases hc) (Or.inr rfl) ?_
    refine .power [' '] _ ['3'] _ _ _ blank_noLetters ⟨[3], by simp, by simp, Or.inl ⟨rfl, rfl⟩⟩ (by decide) ?_
    refine .power [' '] _ ['-', '1'] _ _ _ blank_noLetters ⟨[1], by simp, by simp, Or.inr (Or.inr ⟨rfl, rfl⟩)⟩ (by decide) ?_
    refine .plain [] _ [' '] _ (by intro c hc; cases hc) (Or.inr rfl) ?_
    exact .nil _ blank_noLetters
  obtain ⟨r, r1, r2⟩ := c42_parse _ _ [(unitOf "K".toList, 1), (unitOf "kg".toList, 3), (unitOf "s".toList, -1), (unitOf "m".toList, 1)] (by simp) hw (by
    repeat' first | exact .nil | refine .cons ⟨rfl, rfl, by decide, by decide, by decide⟩ ?_)
  refine ⟨r, r1, ?_, ?_⟩
  · rw [r2.1]
    have hm : (unitOf "m".toList).value = 1 := rfl
    have hs : (unitOf "s".toList).value = 1 := rfl
    have hkg : (unitOf "kg".toList).value = 1 := rfl
    have hK : (unitOf "K".toList).value = 1 := rfl
    simp only [List.map_cons, List.map_nil, hm, hs, hkg, hK, one_zpow, List.prod_cons, List.prod_nil, mul_one]
  · rw [r2.2]
    funext i
    fin_cases i <;> rfl

/-- **C42** a text whose first name is not in the table is rejected -/
theorem c42_unknown (sep name rest : List Char) (c : Char) (n : List Char) (hname : name = c :: n) (hc : isAlpha c = true) (h : NoLetters sep)
    (hn : ' ' ∉ n ∧ '^' ∉ n) (hr : rest = [] ∨ rest.head? = some ' ' ∨ rest.head? = some '^') (hu : ∀ u, singleUnit name ≠ .ok u) :
    ∃ e, getUnit (sep ++ (name ++ rest)) = .error e := by
  subst hname
  obtain ⟨e1, -⟩ := takeWhile_split (p := inName) n rest (by
    intro x hx
    unfold inName
    simp only [Bool.and_eq_true, decide_eq_true_eq]
    exact ⟨fun h => hn.1 (h ▸ hx), fun h => hn.2 (h ▸ hx)⟩) (by
    intro x hx
    rcases hr with rfl | hr | hr
    · cases hx
    · rw [hr] at hx
      injection hx with hx
      rw [← hx]; rfl
    · rw [hr] at hx
      injection hx with hx
      rw [← hx]; rfl)
  unfold getUnit
  rw [List.cons_append, skip_sep sep h c _ hc]
  dsimp only
  have hf : ∃ e, factor c (n ++ rest) = .error e := by
    unfold factor
    rw [e1]
    cases hs : singleUnit (c :: n) with
    | error e => exact ⟨e, rfl⟩
    | ok u => exact absurd hs (hu u)
  obtain ⟨e, he⟩ := hf
  rw [he]
  exact ⟨e, rfl⟩

example : ∃ e, getUnit "kgs".toList = .error e :=
  c42_unknown [] "kgs".toList [] 'k' "gs".toList rfl (by decide) (by intro c hc; cases hc) (by decide) (Or.inl rfl) (by
    intro u h
    simp [singleUnit] at h)

/-- a factor is a power of a unit of the table -/
theorem factor_sound (c : Char) (r : List Char) (u : Unit) (rest : List Char) (h : factor c r = .ok (u, rest)) :
    ∃ (v : Unit) (name : List Char) (p : ℤ), singleUnit name = .ok v ∧ u.value = (if p = 0 then v.value else v.value ^ p) ∧ dim u = p • dim v := by
  unfold factor at h
  split at h
  · cases h
  · rename_i v hv
    split at h
    · split at h
      · cases h
      · rename_i power _
        injection h with h
        injection h with h _
        refine ⟨v, _, power, hv, ?_, by rw [← h, dim_pow]⟩
        rw [← h]
        change powValue v.value power = _
        split
        · rename_i h0
          rw [h0]
          exact (c41_violated_zero v).1
        · rename_i h0
          exact powValue_eq _ _ h0
    · injection h with h
      injection h with h _
      exact ⟨v, _, 1, hv, by rw [← h]; simp, by rw [← h, one_smul]⟩

theorem loop_sound (unit : Unit) (s : List Char) (r : Unit) (h : unitLoop unit s = .ok r) :
    ∃ us : List (Unit × ℤ), (∀ f ∈ us, ∃ name, singleUnit name = .ok f.1)
      ∧ r.value = unit.value * (us.map fun f => if f.2 = 0 then f.1.value else f.1.value ^ f.2).prod
      ∧ dim r = dim unit + (us.map fun f => f.2 • dim f.1).sum := by
  induction unit, s using unitLoop.induct with
  | case1 unit s hs =>
    rw [unitLoop] at h
    split at h
    · injection h with h
      exact ⟨[], by simp, by simp [h], by simp [h]⟩
    · rename_i h'
      rw [hs] at h'
      cases h'
  | case2 unit s c r' hs e hf =>
    rw [unitLoop] at h
    split at h
    · rename_i h'
      rw [hs] at h'
      cases h'
    · rename_i h'
      rw [hs] at h'
      injection h' with h1 h2
      subst h1 h2
      split at h
      · cases h
      · rename_i hf'
        rw [hf] at hf'
        cases hf'
  | case3 unit s c r' hs u2 rest hf ih =>
    rw [unitLoop_step unit u2 s rest c r' hs hf] at h
    obtain ⟨us, h1, h2, h3⟩ := ih h
    obtain ⟨v, name, p, f1, f2, f3⟩ := factor_sound c r' u2 rest hf
    refine ⟨(v, p) :: us, ?_, ?_, ?_⟩
    · intro f hf
      rcases List.mem_cons.mp hf with rfl | hf
      · exact ⟨name, f1⟩
      · exact h1 f hf
    · rw [h2, List.map_cons, List.prod_cons, ← f2, ← mul_assoc]
      rfl
    · rw [h3, List.map_cons, List.sum_cons, ← f3, dim_mul, add_assoc]

/-- **C42** every text that is accepted gives a product of powers of units of the table (with the powers zero of C41); in particular
its value is positive -/
theorem c42_sound (s : List Char) (r : Unit) (h : getUnit s = .ok r) :
    ∃ us : List (Unit × ℤ), us ≠ [] ∧ (∀ f ∈ us, ∃ name, singleUnit name = .ok f.1)
      ∧ r.value = (us.map fun f => if f.2 = 0 then f.1.value else f.1.value ^ f.2).prod
      ∧ dim r = (us.map fun f => f.2 • dim f.1).sum := by
  unfold getUnit at h
  split at h
  · cases h
  · split at h
    · cases h
    · rename_i c r' _ _ u rest hf
      obtain ⟨us, h1, h2, h3⟩ := loop_sound _ _ _ h
      obtain ⟨v, name, p, f1, f2, f3⟩ := factor_sound _ _ _ _ hf
      refine ⟨(v, p) :: us, by simp, ?_, ?_, ?_⟩
      · intro f hf
        rcases List.mem_cons.mp hf with rfl | hf
        · exact ⟨name, f1⟩
        · exact h1 f hf
      · rw [h2, List.map_cons, List.prod_cons, ← f2]
      · rw [h3, List.map_cons, List.sum_cons, ← f3]

theorem getUnit_pos (s : List Char) (r : Unit) (h : getUnit s = .ok r) : 0 < r.value := by
  obtain ⟨us, -, h1, h2, -⟩ := c42_sound s r h
  rw [h2]
  apply List.prod_pos
  intro x hx
  obtain ⟨f, hf, rfl⟩ := List.mem_map.mp hx
  obtain ⟨name, hn⟩ := h1 f hf
  have := (single_spec name f.1 hn).2.2
  split
  · exact this
  · exact zpow_pos this _

/-- a name denotes a multiple of what another text denotes -/
def Multiple (name : List Char) (x : ℝ) (other : List (List Char × Option ℤ)) : Prop :=
  ∃ u r, singleUnit name = .ok u ∧ getUnit (write other) = .ok r ∧ dim u = dim r ∧ u.value = x * r.value

theorem multiple (name : List Char) (x : ℝ) (other : List (List Char × Option ℤ)) (h1 : singleUnit name = .ok (unitOf name))
    (h2 : Known (other.map fun f => (f.1, f.2.getD 1)) (other.map fun f => (unitOf f.1, f.2.getD 1))) (h3 : other ≠ [])
    (h4 : dim (unitOf name) = (other.map fun f => f.2.getD 1 • dim (unitOf f.1)).sum)
    (h5 : (unitOf name).value = x * (other.map fun f => (unitOf f.1).value ^ (f.2.getD 1)).prod) : Multiple name x other := by
  obtain ⟨r, r1, r2⟩ := getUnit_write other _ h3 h2
  refine ⟨unitOf name, r, h1, r1, ?_, ?_⟩
  · rw [h4, r2.2, List.map_map]
    rfl
  · rw [h5, r2.1, List.map_map]
    rfl

/-- **C42** the units of the table in terms of the SI units and of each other -/
theorem c42_table :
    Multiple "cm".toList (1 / 100) [("m".toList, none)]
    ∧ Multiple "km".toList 1000 [("m".toList, none)]
    ∧ Multiple "micron".toList (1 / 10 ^ 6) [("m".toList, none)]
    ∧ Multiple "angstrom".toList (1 / 10 ^ 10) [("m".toList, none)]
    ∧ Multiple "au".toList 149597870700 [("m".toList, none)]
    ∧ Multiple "pc".toList 30860000000000000 [("m".toList, none)]
    ∧ Multiple "kpc".toList 1000 [("pc".toList, none)]
    ∧ Multiple "h".toList (60 * 60) [("s".toList, none)]
    ∧ Multiple "yr".toList 31540000 [("s".toList, none)]
    ∧ Multiple "Myr".toList (10 ^ 6) [("yr".toList, none)]
    ∧ Multiple "Gyr".toList (10 ^ 9) [("yr".toList, none)]
    ∧ Multiple "g".toList (1 / 1000) [("kg".toList, none)]
    ∧ Multiple "Msol".toList (1.98855 * 10 ^ 30) [("kg".toList, none)]
    ∧ Multiple "degrees".toList (Real.pi / 180) [("radians".toList, none)]
    ∧ Multiple "Hz".toList 1 [("s".toList, some (-1))]
    ∧ Multiple "J".toList 1 [("kg".toList, none), ("m".toList, some 2), ("s".toList, some (-2))]
    ∧ Multiple "erg".toList 1 [("g".toList, none), ("cm".toList, some 2), ("s".toList, some (-2))]
    ∧ Multiple "eV".toList (1.6021766208 / 10 ^ 19) [("J".toList, none)]
    ∧ Multiple "Pa".toList 1 [("kg".toList, none), ("m".toList, some (-1)), ("s".toList, some (-2))]
    ∧ Multiple "bar".toList (10 ^ 5) [("Pa".toList, none)] := by
  have v_m : (unitOf "m".toList).value = 1 := rfl
  have v_cm : (unitOf "cm".toList).value = 0.01 := rfl
  have v_pc : (unitOf "pc".toList).value = 3.086e16 := rfl
  have v_kpc : (unitOf "kpc".toList).value = 3.086e19 := rfl
  have v_angstrom : (unitOf "angstrom".toList).value = 1e-10 := rfl
  have v_km : (unitOf "km".toList).value = 1000 := rfl
  have v_au : (unitOf "au".toList).value = 149597870700 := rfl
  have v_micron : (unitOf "micron".toList).value = 1e-6 := rfl
  have v_s : (unitOf "s".toList).value = 1 := rfl
  have v_Gyr : (unitOf "Gyr".toList).value = 3.154e16 := rfl
  have v_Myr : (unitOf "Myr".toList).value = 3.154e13 := rfl
  have v_yr : (unitOf "yr".toList).value = 3.154e7 := rfl
  have v_h : (unitOf "h".toList).value = 3600 := rfl
  have v_kg : (unitOf "kg".toList).value = 1 := rfl
  have v_g : (unitOf "g".toList).value = 0.001 := rfl
  have v_Msol : (unitOf "Msol".toList).value = 1.98855e30 := rfl
  have v_radians : (unitOf "radians".toList).value = 1 := rfl
  have v_degrees : (unitOf "degrees".toList).value = Real.pi / 180 := rfl
  have v_Hz : (unitOf "Hz".toList).value = 1 := rfl
  have v_J : (unitOf "J".toList).value = 1 := rfl
  have v_erg : (unitOf "erg".toList).value = 1e-7 := rfl
  have v_eV : (unitOf "eV".toList).value = electronvolt := rfl
  have v_Pa : (unitOf "Pa".toList).value = 1 := rfl
  have v_bar : (unitOf "bar".toList).value = 1e5 := rfl
  refine ⟨?_, ?_, ?_, ?_, ?_, ?_, ?_, ?_, ?_, ?_, ?_, ?_, ?_, ?_, ?_, ?_, ?_, ?_, ?_, ?_⟩
  all_goals
    refine multiple _ _ _ rfl (by
      simp only [List.map_cons, List.map_nil]
      repeat' first | exact .nil | refine .cons ⟨rfl, rfl, by decide, by decide, by decide⟩ ?_) (by simp) (by
      funext i
      fin_cases i <;> rfl) ?_
  all_goals simp only [List.map_cons, List.map_nil, List.prod_cons, List.prod_nil, Option.getD_none, Option.getD_some, zpow_one, mul_one]
  all_goals simp only [v_m, v_cm, v_pc, v_kpc, v_angstrom, v_km, v_au, v_micron, v_s, v_Gyr, v_Myr, v_yr, v_h, v_kg, v_g, v_Msol, v_radians, v_degrees, v_Hz, v_J, v_erg, v_eV, v_Pa, v_bar]
  all_goals norm_num [electronvolt]

/-! ## C41: conversion -/

theorem dims_ne : quantityDim .energy ≠ quantityDim .frequency ∧ quantityDim .length ≠ quantityDim .frequency
    ∧ quantityDim .energy ≠ quantityDim .length := by decide

theorem forward_one (S : ℝ) : forward S 1 = S := by
  unfold forward
  rw [if_pos (by norm_num), times_mul]
  simp

theorem forward_neg (S : ℝ) : forward S (-1) = 1 / S := by
  unfold forward
  rw [if_neg (by norm_num), times_div]
  simp

theorem backward_one (S : ℝ) : backward S 1 = S := by
  unfold backward
  norm_num [times]

theorem backward_neg (S : ℝ) : backward S (-1) = 1 / S := by
  unfold backward
  norm_num [times]

theorem tryConversion_eq (v : ℝ) (f t : Unit) :
    tryConversion v f t =
      if dim f = quantityDim .energy ∧ dim t = quantityDim .frequency then .ok (v * f.value * (1 / planck) / t.value)
      else if dim f = quantityDim .frequency ∧ dim t = quantityDim .energy then .ok (v * f.value / (1 / planck) / t.value)
      else if dim f = quantityDim .length ∧ dim t = quantityDim .frequency then .ok (1 / (v * f.value) * lightspeed / t.value)
      else if dim f = quantityDim .frequency ∧ dim t = quantityDim .length then .ok (1 / (v * f.value / lightspeed) / t.value)
      else .error .error := by
  obtain ⟨ue, e1, e2, e3⟩ := c42_si .energy
  obtain ⟨un, n1, n2, n3⟩ := c42_si .frequency
  obtain ⟨ul, l1, l2, l3⟩ := c42_si .length
  have hb : ∀ a b c d : Unit, (a.sameQuantity b && c.sameQuantity d) = true ↔ dim a = dim b ∧ dim c = dim d := by
    intro a b c d
    rw [Bool.and_eq_true, sameQuantity_iff, sameQuantity_iff]
  unfold tryConversion conversions
  unfold tryList
  rw [e1, n1]
  dsimp only
  unfold tryList
  rw [l1, n1]
  dsimp only
  unfold tryList
  rw [forward_one, forward_neg, backward_one, backward_neg]
  unfold Unit.times
  simp only [one_mul]
  refine if_congr ((hb _ _ _ _).trans (by rw [e3, n3])) rfl ?_
  refine if_congr ((hb _ _ _ _).trans (by rw [e3, n3])) rfl ?_
  refine if_congr ((hb _ _ _ _).trans (by rw [l3, n3])) rfl ?_
  exact if_congr ((hb _ _ _ _).trans (by rw [l3, n3])) rfl rfl

/-- conversion between units gives the amount that corresponds -/
theorem tryConversion_iff (v y : ℝ) (f t : Unit) (hv : v ≠ 0) (hf : 0 < f.value) (ht : 0 < t.value) (hne : dim f ≠ dim t) :
    tryConversion v f t = .ok y ↔ Corresponds (dim f) (v * f.value) (dim t) (y * t.value) := by
  obtain ⟨d1, d2, d3⟩ := dims_ne
  rw [tryConversion_eq]
  unfold Corresponds
  have hp : (0 : ℝ) < planck := by norm_num [planck]
  have hp' : (6.626070040e-34 : ℝ) = planck := rfl
  have hl' : (299792458 : ℝ) = lightspeed := rfl
  have hl : (0 : ℝ) < lightspeed := by norm_num [lightspeed]
  have hvf : v * f.value ≠ 0 := mul_ne_zero hv hf.ne'
  rw [hp', hl']
  have eqv : ∀ a : ℝ, ((Except.ok a : Except Failure ℝ) = .ok y ↔ a = y) := fun a => ⟨fun h => by injection h, fun h => by rw [h]⟩
  split
  · rename_i h
    rw [h.1, h.2, eqv]
    simp only [d1, d1.symm, d3, d2.symm, false_and, and_false, or_false, false_or, true_and]
    rw [div_eq_iff ht.ne', mul_one_div, div_eq_iff hp.ne', mul_comm planck]
  · split
    · rename_i h
      rw [h.1, h.2, eqv]
      simp only [d1, d1.symm, d3, d2.symm, false_and, and_false, or_false, false_or, true_and]
      rw [div_eq_iff ht.ne', div_div_eq_mul_div, div_one, mul_comm planck]
      exact eq_comm
    · split
      · rename_i h
        rw [h.1, h.2, eqv]
        simp only [d1, d1.symm, d2, d3.symm, d2.symm, false_and, and_false, or_false, false_or, true_and]
        rw [div_eq_iff ht.ne', one_div_mul_eq_div, div_eq_iff hvf, mul_comm (v * f.value)]
        exact eq_comm
      · split
        · rename_i h
          rw [h.1, h.2, eqv]
          simp only [d1, d1.symm, d2, d3.symm, d2.symm, false_and, and_false, or_false, false_or, true_and]
          rw [div_eq_iff ht.ne', one_div_div, div_eq_iff hvf, mul_comm (v * f.value)]
          exact eq_comm
        · rename_i h1 h2 h3 h4
          constructor
          · intro h; cases h
          · rintro (h | h | h | h | h)
            · exact absurd h.1 hne
            · exact absurd ⟨h.1, h.2.1⟩ h1
            · exact absurd ⟨h.1, h.2.1⟩ h2
            · exact absurd ⟨h.1, h.2.1⟩ h3
            · exact absurd ⟨h.1, h.2.1⟩ h4

theorem corresponds_same {d : Fin 6 → ℤ} {x y : ℝ} : Corresponds d x d y ↔ x = y := by
  obtain ⟨d1, d2, d3⟩ := dims_ne
  unfold Corresponds
  constructor
  · rintro (h | h | h | h | h)
    · exact h.2
    · exact absurd (h.1.symm.trans h.2.1) d1
    · exact absurd (h.2.1.symm.trans h.1) d1
    · exact absurd (h.1.symm.trans h.2.1) d2
    · exact absurd (h.2.1.symm.trans h.1) d2
  · intro h
    exact Or.inl ⟨rfl, h⟩

/-- **C41** `convert` returns a number exactly if the two units have the same dimensions or are those of the energy and frequency,
or wavelength and frequency, of a photon; and then the amount is the same, or belongs to the same photon. All unit strings that are
accepted, all values but zero. -/
theorem c41_convert (a b : List Char) (ua ub : Unit) (ha : getUnit a = .ok ua) (hb : getUnit b = .ok ub) (v y : ℝ) (hv : v ≠ 0) :
    convert v a b = .ok y ↔ Corresponds (dim ua) (v * ua.value) (dim ub) (y * ub.value) := by
  have pa := getUnit_pos a ua ha
  have pb := getUnit_pos b ub hb
  unfold convert
  rw [ha, hb]
  dsimp only
  by_cases h : dim ub = dim ua
  · rw [if_neg (by rw [(sameQuantity_iff ub ua).mpr h]; simp), h, corresponds_same]
    unfold Unit.times Unit.div
    dsimp only
    constructor
    · intro e
      injection e with e
      rw [← e]
      field_simp
    · intro e
      congr 1
      rw [← mul_div_assoc, e]
      field_simp
  · have : ub.sameQuantity ua = false := by
      rw [← Bool.not_eq_true, sameQuantity_iff]
      exact h
    rw [if_pos (by rw [this]; rfl)]
    exact tryConversion_iff v y ua ub hv pa pb (fun e => h e.symm)

/-- **C41** `to_SI` -/
theorem c41_to_SI (q : Quantity) (s : List Char) (u : Unit) (hs : getUnit s = .ok u) (v x : ℝ) (hv : v ≠ 0) :
    toSI q v s = .ok x ↔ Corresponds (dim u) (v * u.value) (quantityDim q) x := by
  have pu := getUnit_pos s u hs
  obtain ⟨si, s1, s2, s3⟩ := c42_si q
  unfold toSI
  rw [s1, hs]
  dsimp only
  by_cases h : dim si = dim u
  · rw [if_neg (by rw [(sameQuantity_iff _ _).mpr h]; simp), ← s3, h, corresponds_same]
    unfold Unit.times
    exact ⟨fun e => by injection e, fun e => by rw [e]⟩
  · have : si.sameQuantity u = false := by
      rw [← Bool.not_eq_true, sameQuantity_iff]
      exact h
    rw [if_pos (by rw [this]; rfl), tryConversion_iff v x u si hv pu (by rw [s2]; norm_num) (fun e => h e.symm), s2, s3, mul_one]

/-- **C41** `to_unit` -/
theorem c41_to_unit (q : Quantity) (s : List Char) (u : Unit) (hs : getUnit s = .ok u) (x v : ℝ) (hx : x ≠ 0) :
    toUnit q x s = .ok v ↔ Corresponds (quantityDim q) x (dim u) (v * u.value) := by
  have pu := getUnit_pos s u hs
  obtain ⟨si, s1, s2, s3⟩ := c42_si q
  unfold toUnit
  rw [s1, hs]
  dsimp only
  by_cases h : dim si = dim u
  · rw [if_neg (by rw [(sameQuantity_iff _ _).mpr h]; simp), ← s3, h, corresponds_same]
    unfold Unit.over
    constructor
    · intro e
      injection e with e
      rw [← e]
      field_simp
    · intro e
      rw [e]
      field_simp
  · have : si.sameQuantity u = false := by
      rw [← Bool.not_eq_true, sameQuantity_iff]
      exact h
    rw [if_pos (by rw [this]; rfl), tryConversion_iff x v si u hx (by rw [s2]; norm_num) pu h, s2, s3, mul_one]

theorem corresponds_symm {d e : Fin 6 → ℤ} {x y : ℝ} (h : Corresponds d x e y) : Corresponds e y d x := by
  unfold Corresponds at *
  rcases h with h | h | h | h | h
  · exact Or.inl ⟨h.1.symm, h.2.symm⟩
  · exact Or.inr (Or.inr (Or.inl ⟨h.2.1, h.1, h.2.2⟩))
  · exact Or.inr (Or.inl ⟨h.2.1, h.1, h.2.2⟩)
  · exact Or.inr (Or.inr (Or.inr (Or.inr ⟨h.2.1, h.1, by rw [mul_comm]; exact h.2.2⟩)))
  · exact Or.inr (Or.inr (Or.inr (Or.inl ⟨h.2.1, h.1, by rw [mul_comm]; exact h.2.2⟩)))

theorem corresponds_ne {d e : Fin 6 → ℤ} {x y : ℝ} (h : Corresponds d x e y) (hx : x ≠ 0) : y ≠ 0 := by
  unfold Corresponds at h
  rcases h with h | h | h | h | h
  · exact h.2 ▸ hx
  · rintro rfl
    exact hx (by rw [h.2.2, mul_zero])
  · rw [h.2.2]
    exact mul_ne_zero (by norm_num) hx
  · rintro rfl
    have := h.2.2
    norm_num at this
  · rintro rfl
    have := h.2.2
    norm_num at this

/-- **C41** converting to SI units and back is the identity, for every unit string and quantity, photon conversions included -/
theorem c41_roundtrip (q : Quantity) (s : List Char) (v x : ℝ) (hv : v ≠ 0) (h : toSI q v s = .ok x) : toUnit q x s = .ok v := by
  obtain ⟨u, hu⟩ : ∃ u, getUnit s = .ok u := by
    obtain ⟨si, s1, -, -⟩ := c42_si q
    unfold toSI at h
    rw [s1] at h
    cases hs : getUnit s with
    | ok u => exact ⟨u, rfl⟩
    | error e => rw [hs] at h; cases h
  have hc := (c41_to_SI q s u hu v x hv).mp h
  have hx := corresponds_ne hc (mul_ne_zero hv (getUnit_pos s u hu).ne')
  exact (c41_to_unit q s u hu x v hx).mpr (corresponds_symm hc)

/-- **C41** zero is converted too, where the dimensions agree -/
theorem c41_zero (a b : List Char) (ua ub : Unit) (ha : getUnit a = .ok ua) (hb : getUnit b = .ok ub) (h : dim ua = dim ub) :
    convert 0 a b = .ok 0 := by
  unfold convert
  rw [ha, hb]
  dsimp only
  rw [if_neg (by rw [(sameQuantity_iff ub ua).mpr h.symm]; simp)]
  unfold Unit.times
  rw [zero_mul]

/-- example: 2 km are 2000 m, and a wavelength of 1 m is a frequency of 299792458 Hz -/
example : convert 2 "km".toList "m".toList = .ok 2000 ∧ toSI .frequency 1 "m".toList = .ok 299792458 := by
  obtain ⟨um, m1, m2, m3⟩ := c42_si .length
  obtain ⟨u, r, h1, h2, h3, h4⟩ := c42_table.2.1
  have hm : getUnit "m".toList = .ok um := m1
  obtain ⟨k, k1, k2⟩ := getUnit_write [("km".toList, none)] [(u, 1)] (by simp) (.cons ⟨h1, rfl, one_ne_zero, by norm_num, by norm_num⟩ .nil)
  have hk : getUnit "km".toList = .ok k := by
    rw [← getUnit_blank]
    exact k1
  have hr : r = um := by
    have : getUnit "m".toList = .ok r := by
      rw [← getUnit_blank]
      exact h2
    rw [hm] at this
    injection this with this
    exact this.symm
  constructor
  · rw [c41_convert _ _ _ _ hk hm _ _ (by norm_num)]
    left
    constructor
    · rw [k2.2]
      simp [h3, hr]
    · rw [k2.1]
      simp only [List.map_cons, List.map_nil, List.prod_cons, List.prod_nil, zpow_one, mul_one]
      rw [h4, hr, m2]
      norm_num
  · rw [c41_to_SI _ _ _ hm _ _ (by norm_num)]
    right; right; right; left
    refine ⟨m3, rfl, ?_⟩
    rw [m2]
    norm_num

/-! ## C42: printed dimensions -/

/-- a part of the printed dimensions as a list of factors -/
def partOf (name : List Char) (e : ℤ) : List (List Char × Option ℤ) := if e = 0 then [] else [(name, if e = 1 then none else some e)]

theorem showPart_eq (name : List Char) (e : ℤ) : showPart name e = write (partOf name e) := by
  unfold showPart partOf
  by_cases h0 : e = 0
  · rw [if_neg (by simpa using h0), if_pos h0]
    rfl
  · rw [if_pos h0, if_neg h0]
    by_cases h1 : e = 1
    · rw [if_neg (by simpa using h1), if_pos h1]
      simp [write]
    · rw [if_pos h1, if_neg h1]
      simp [write]

theorem write_append (a b : List (List Char × Option ℤ)) : write (a ++ b) = write a ++ write b := by
  unfold write
  rw [List.flatMap_append]

/-- the units of the parts -/
noncomputable def partUnit (f : List Char × ℤ) : List (Unit × ℤ) := if f.2 = 0 then [] else [(unitOf f.1, f.2)]

theorem known_parts (parts : List (List Char × ℤ))
    (h : ∀ f ∈ parts, singleUnit f.1 = .ok (unitOf f.1) ∧ -(2 ^ 31) ≤ f.2 ∧ f.2 < 2 ^ 31) :
    Known ((parts.flatMap fun f => partOf f.1 f.2).map fun f => (f.1, f.2.getD 1)) (parts.flatMap partUnit) := by
  induction parts with
  | nil => exact .nil
  | cons f parts ih =>
    have ih := ih (fun g hg => h g (by simp [hg]))
    obtain ⟨h1, h2⟩ := h f (by simp)
    rw [List.flatMap_cons, List.flatMap_cons, List.map_append]
    unfold partOf partUnit
    by_cases h0 : f.2 = 0
    · rw [if_pos h0, if_pos h0]
      exact ih
    · rw [if_neg h0, if_neg h0]
      refine .cons ⟨h1, ?_, h0, h2⟩ ih
      dsimp only
      split
      · rename_i h1
        rw [h1]; rfl
      · rfl

theorem sum_parts (parts : List (List Char × ℤ)) :
    ((parts.flatMap partUnit).map fun f => f.2 • dim f.1).sum = (parts.map fun f => f.2 • dim (unitOf f.1)).sum := by
  induction parts with
  | nil => rfl
  | cons f parts ih =>
    rw [List.flatMap_cons, List.map_append, List.sum_append, ih, List.map_cons, List.sum_cons]
    congr 1
    unfold partUnit
    split
    · rename_i h
      rw [h, zero_smul]
      rfl
    · simp

/-- **C42** The dimensions that `to_string` prints are read back: the result has the value 1 and the same dimensions. All units with
some dimension but no current (the table has no unit of current). -/
theorem c42_show (u : Unit) (hc : u.current = 0) (hd : dim u ≠ 0) (hr : ∀ i, -(2 ^ 31) ≤ dim u i ∧ dim u i < 2 ^ 31) :
    ∃ r, getUnit u.showDimensions = .ok r ∧ r.value = 1 ∧ dim r = dim u := by
  let parts : List (List Char × ℤ) := [("m".toList, u.length), ("s".toList, u.time), ("kg".toList, u.mass), ("K".toList, u.temperature),
    ("radians".toList, u.angle)]
  let l := parts.flatMap fun f => partOf f.1 f.2
  have hl : u.showDimensions = write l := by
    unfold Unit.showDimensions
    rw [hc]
    simp only [showPart_eq, ← write_append]
    congr 1
    change _ = _ ++ (_ ++ (_ ++ (_ ++ (_ ++ []))))
    simp [partOf]
  have hs : ∀ f ∈ parts, singleUnit f.1 = .ok (unitOf f.1) ∧ -(2 ^ 31) ≤ f.2 ∧ f.2 < 2 ^ 31 := by
    intro f hf
    simp only [parts, List.mem_cons, List.not_mem_nil, or_false] at hf
    rcases hf with rfl | rfl | rfl | rfl | rfl
    · exact ⟨rfl, hr 0⟩
    · exact ⟨rfl, hr 1⟩
    · exact ⟨rfl, hr 2⟩
    · exact ⟨rfl, hr 3⟩
    · exact ⟨rfl, hr 5⟩
  have hdim : (parts.map fun f => f.2 • dim (unitOf f.1)).sum = dim u := by
    change u.length • dim (unitOf "m".toList) + (u.time • dim (unitOf "s".toList) + (u.mass • dim (unitOf "kg".toList)
      + (u.temperature • dim (unitOf "K".toList) + (u.angle • dim (unitOf "radians".toList) + 0)))) = _
    have d1 : dim (unitOf "m".toList) = ![1, 0, 0, 0, 0, 0] := rfl
    have d2 : dim (unitOf "s".toList) = ![0, 1, 0, 0, 0, 0] := rfl
    have d3 : dim (unitOf "kg".toList) = ![0, 0, 1, 0, 0, 0] := rfl
    have d4 : dim (unitOf "K".toList) = ![0, 0, 0, 1, 0, 0] := rfl
    have d5 : dim (unitOf "radians".toList) = ![0, 0, 0, 0, 0, 1] := rfl
    rw [d1, d2, d3, d4, d5]
    unfold dim
    rw [hc]
    simp
  have hne : l ≠ [] := by
    intro h
    apply hd
    have hz : parts.flatMap partUnit = [] := by
      have := known_parts parts hs
      change Known (l.map _) _ at this
      rw [h] at this
      exact List.forall₂_nil_left_iff.mp this
    rw [← hdim, ← sum_parts, hz]
    rfl
  obtain ⟨r, r1, r2⟩ := getUnit_write l (parts.flatMap partUnit) hne (known_parts parts hs)
  rw [← hl] at r1
  refine ⟨r, r1, ?_, by rw [r2.2, sum_parts, hdim]⟩
  rw [r2.1]
  apply List.prod_eq_one
  intro x hx
  obtain ⟨f, hf, rfl⟩ := List.mem_map.mp hx
  obtain ⟨g, hg, hfg⟩ := List.mem_flatMap.mp hf
  unfold partUnit at hfg
  have hv : (unitOf g.1).value = 1 := by
    simp only [parts, List.mem_cons, List.not_mem_nil, or_false] at hg
    rcases hg with rfl | rfl | rfl | rfl | rfl <;> rfl
  split at hfg
  · cases hfg
  · rw [List.mem_singleton.mp hfg, hv, one_zpow]

/-- **C42** (limit) a printed unit of current is not read back -/
theorem c42_show_current (v : ℝ) (c : ℤ) (hc : c ≠ 0) : ∃ e, getUnit (Unit.showDimensions ⟨v, 0, 0, 0, 0, c, 0⟩) = .error e := by
  have hu : ∀ u, singleUnit "A".toList ≠ .ok u := by
    intro u h
    simp [singleUnit] at h
  have e : Unit.showDimensions ⟨v, 0, 0, 0, 0, c, 0⟩ = [' '] ++ ("A".toList ++ if c = 1 then [] else '^' :: Text.showInt c) := by
    unfold Unit.showDimensions showPart
    simp only [ne_eq, not_true_eq_false, if_false, List.nil_append, List.append_nil, if_pos hc]
    by_cases h1 : c = 1 <;> simp [h1]
  rw [e]
  refine c42_unknown [' '] "A".toList _ 'A' [] rfl (by decide) blank_noLetters (by simp) ?_ hu
  split
  · exact Or.inl rfl
  · exact Or.inr (Or.inr rfl)

/-- example: metres per second squared -/
example : ∃ r, getUnit (Unit.showDimensions ⟨5, 1, -2, 0, 0, 0, 0⟩) = .ok r ∧ r.value = 1 ∧ dim r = ![1, -2, 0, 0, 0, 0] :=
  c42_show ⟨5, 1, -2, 0, 0, 0, 0⟩ rfl (by intro h; have := congrFun h 0; revert this; decide) (by
    intro i
    fin_cases i <;> decide)

end Verif.Units
