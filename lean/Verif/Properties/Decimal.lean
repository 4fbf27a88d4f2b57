import Verif.Model.Decimal
import Verif.Spec.Decimal
import Verif.Properties.Text
import Verif.Properties.Units

/-!
# Numbers as texts (C97)
-/
namespace Verif.Text

open Spec

set_option autoImplicit false

theorem ofDigits_value (ds : List Nat) : ofDigits ds = value 10 ds := rfl

theorem value_concat (a b : List Nat) : value 10 (a ++ b) = value 10 a * 10 ^ b.length + value 10 b := by
  induction b using List.reverseRecOn with
  | nil => simp [value]
  | append_singleton b d ih =>
    rw [← List.append_assoc, value_append, value_append, ih, List.length_append, List.length_singleton]
    ring

theorem value_zeros (k : Nat) : value 10 (List.replicate k 0) = 0 := by
  induction k with
  | zero => rfl
  | succ k ih => rw [List.replicate_succ', value_append, ih]

theorem isDigit_iff (c : Char) : isDigit c = true ↔ c ∈ "0123456789".toList := by
  constructor
  · intro h
    simp only [isDigit, Bool.and_eq_true, decide_eq_true_eq] at h
    obtain ⟨h1, h2⟩ := h
    have h1' : 48 ≤ c.toNat := h1
    have h2' : c.toNat ≤ 57 := h2
    have hc : c = Char.ofNat c.toNat := (Char.ofNat_toNat c).symm
    rw [hc]
    generalize c.toNat = n at h1' h2'
    interval_cases n <;> decide
  · intro h
    fin_cases h <;> rfl

theorem isSpace_iff (c : Char) : Units.isSpace c = true ↔ c ∈ [' ', '\t', '\n', '\x0b', '\x0c', '\r'] := by
  constructor
  · intro h
    simp only [Units.isSpace, Bool.or_eq_true, Bool.and_eq_true, decide_eq_true_eq] at h
    rcases h with h | ⟨h1, h2⟩
    · rw [h]; decide
    · have hc : c = Char.ofNat c.toNat := (Char.ofNat_toNat c).symm
      rw [hc]
      generalize c.toNat = n at h1 h2
      interval_cases n <;> decide
  · intro h
    fin_cases h <;> rfl

theorem digitChar_more : ∀ d, d < 10 → Units.isSpace (digitChar d) = false ∧ digitChar d ≠ '+' ∧ digitChar d ≠ '-' ∧ digitChar d ≠ '.'
    ∧ digitChar d ∈ "0123456789".toList ∧ toLower (digitChar d) = digitChar d ∧ (digitChar d = '0' ↔ d = 0) := by
  decide

/-- digits in front of something else -/
theorem takeDigits_spec (ds : List Nat) (h : ∀ d ∈ ds, d < 10) (rest : List Char) (hr : ∀ c r, rest = c :: r → isDigit c = false) :
    takeDigits (ds.map digitChar ++ rest) = ds ∧ (ds.map digitChar ++ rest).dropWhile isDigit = rest := by
  have := read_digits isDigit digit ds digitChar id rest
    (fun d hd => ⟨(digitChar_spec d (h d hd)).1, (digitChar_spec d (h d hd)).2.1⟩) hr
  rw [List.map_id] at this
  exact this

theorem drop_blanks (b : List Char) (hb : ∀ c ∈ b, Units.isSpace c = true) (rest : List Char)
    (hr : ∀ c r, rest = c :: r → Units.isSpace c = false) : (b ++ rest).dropWhile Units.isSpace = rest := by
  induction b with
  | nil =>
    cases rest with
    | nil => rfl
    | cons c r => simp [hr c r rfl]
  | cons c b ih =>
    rw [List.cons_append, List.dropWhile_cons, if_pos (hb c (by simp))]
    exact ih fun c hc => hb c (by simp [hc])

theorem takeSign_spec (s : Option Bool) (rest : List Char) (hr : ∀ c r, rest = c :: r → c ≠ '+' ∧ c ≠ '-') :
    takeSign (signText s ++ rest) = (decide (s = some true), rest) := by
  cases s with
  | some b => cases b <;> rfl
  | none =>
    cases rest with
    | nil => rfl
    | cons c r =>
      have := hr c r rfl
      simp only [signText, List.nil_append]
      unfold takeSign
      split
      · rename_i h; cases h; exact absurd rfl this.2
      · rename_i h; cases h; exact absurd rfl this.1
      · rfl

theorem head_append {a b : List Char} {P : Char → Prop} (ha : ∀ c ∈ a, P c) (hb : ∀ c r, b = c :: r → P c) :
    ∀ c r, a ++ b = c :: r → P c := by
  intro c r h
  cases a with
  | nil => exact hb c r h
  | cons x a => cases h; exact ha _ (by simp)

/-- the text of an exponent is read as its value -/
theorem takeExponent_spec (u : Bool) (s : Option Bool) (ds : List Nat) (hne : ds ≠ []) (hds : ∀ d ∈ ds, d < 10) (rest : List Char)
    (hr : ∀ c r, rest = c :: r → isDigit c = false) :
    takeExponent (((if u then 'E' else 'e') :: (signText s ++ ds.map digitChar)) ++ rest)
      = (some (if s = some true then -(value 10 ds : ℤ) else value 10 ds), rest) := by
  have h1 : takeSign (signText s ++ (ds.map digitChar ++ rest)) = (decide (s = some true), ds.map digitChar ++ rest) := by
    apply takeSign_spec
    intro c r h
    cases ds with
    | nil => exact absurd rfl hne
    | cons d ds =>
      cases h
      have := digitChar_more d (hds d (by simp))
      exact ⟨this.2.1, this.2.2.1⟩
  have h2 := takeDigits_spec ds hds rest hr
  rw [List.cons_append, takeExponent, if_pos (by cases u <;> simp), List.append_assoc, h1]
  simp only [h2.1, h2.2, if_neg hne, ofDigits_value, decide_eq_true_eq]

theorem takeExponent_none (rest : List Char) (hr : ∀ c r, rest = c :: r → c ≠ 'e' ∧ c ≠ 'E') : takeExponent rest = (none, rest) := by
  cases rest with
  | nil => rfl
  | cons c r =>
    have := hr c r rfl
    rw [takeExponent, if_neg (by tauto)]

/-- C97: every decimal number that can be written with blanks, sign, digits, a point and an exponent, is read as its value, up to its end -/
theorem c97_literal (l : Literal) (hl : l.Proper) (rest : List Char) (hr : Stops rest) :
    readReal (l.text ++ rest) = .number l.number rest := by
  obtain ⟨hb, hw, hf, hne, he⟩ := hl
  have hstop : ∀ c r, rest = c :: r → isDigit c = false ∧ c ≠ '.' ∧ c ≠ 'e' ∧ c ≠ 'E' ∧ toLower c ≠ 'x' := by
    intro c r h
    have h1 := hr c r h
    refine ⟨?_, ?_, ?_, ?_, ?_⟩
    · rw [Bool.eq_false_iff]
      intro h2
      rw [isDigit_iff] at h2
      apply h1
      revert h2
      generalize hX : "0123456789".toList = X
      intro h2
      rw [show "0123456789.eExX".toList = X ++ ['.', 'e', 'E', 'x', 'X'] by rw [← hX]; rfl]
      exact List.mem_append_left _ h2
    · rintro rfl; exact h1 (by decide)
    · rintro rfl; exact h1 (by decide)
    · rintro rfl; exact h1 (by decide)
    · intro h2
      unfold toLower at h2
      split at h2
      · rename_i h3
        have ha : 65 ≤ c.toNat := h3.1
        have hz : c.toNat ≤ 90 := h3.2
        have hc : c = Char.ofNat c.toNat := (Char.ofNat_toNat c).symm
        rw [hc] at h1
        generalize c.toNat = n at h1 h2 ha hz
        interval_cases n <;> first | exact absurd h2 (by decide) | exact absurd (by decide) h1
      · exact h1 (by rw [h2]; decide)
  -- the parts
  obtain ⟨E, hE⟩ : ∃ E, E = expText l.exp := ⟨_, rfl⟩
  obtain ⟨F, hF⟩ : ∃ F, F = fracText l.frac := ⟨_, rfl⟩
  have htext : l.text ++ rest = l.blanks ++ (signText l.sign ++ (l.whole.map digitChar ++ (F ++ (E ++ rest)))) := by
    rw [Literal.text, ← hE, ← hF]
    simp only [List.append_assoc]
  have hEe : takeExponent (E ++ rest) = (l.exp.map fun x => if x.2.1 = some true then -(value 10 x.2.2 : ℤ) else value 10 x.2.2, rest) := by
    cases hx : l.exp with
    | none => rw [hE, hx]; exact takeExponent_none rest fun c r h => ⟨(hstop c r h).2.2.1, (hstop c r h).2.2.2.1⟩
    | some x =>
      obtain ⟨u, s, ds⟩ := x
      have := he u s ds hx
      rw [hE, hx]
      exact takeExponent_spec u s ds this.1 this.2 rest fun c r h => (hstop c r h).1
  have hEd : ∀ c r, E ++ rest = c :: r → isDigit c = false ∧ c ≠ '.' ∧ toLower c ≠ 'x' := by
    intro c r h
    cases hx : l.exp with
    | none => rw [hE, hx] at h; exact ⟨(hstop c r h).1, (hstop c r h).2.1, (hstop c r h).2.2.2.2⟩
    | some x =>
      obtain ⟨u, s, ds⟩ := x
      rw [hE, hx] at h
      cases h
      cases u <;> decide
  have hFf : takeFraction (F ++ (E ++ rest)) = (l.frac.getD [], E ++ rest) := by
    cases hx : l.frac with
    | none =>
      rw [hF, hx]
      simp only [List.nil_append, Option.getD_none]
      generalize hg : E ++ rest = g
      cases g with
      | nil => rfl
      | cons c g =>
        have := (hEd c g hg).2.1
        unfold takeFraction
        split
        · rename_i h; cases h; exact absurd rfl this
        · rfl
    | some f =>
      have := takeDigits_spec f (hf f hx) (E ++ rest) fun c r h => (hEd c r h).1
      rw [hF, hx]
      simp only [fracText, List.cons_append, takeFraction, this.1, this.2, Option.getD_some]
  have hFd : ∀ c r, F ++ (E ++ rest) = c :: r → isDigit c = false ∧ toLower c ≠ 'x' := by
    intro c r h
    cases hx : l.frac with
    | none => rw [hF, hx] at h; exact ⟨(hEd c r h).1, (hEd c r h).2.2⟩
    | some f => rw [hF, hx] at h; cases h; decide
  have hWw := takeDigits_spec l.whole hw (F ++ (E ++ rest)) fun c r h => (hFd c r h).1
  -- what the number starts with
  obtain ⟨c0, r0, h0, hc0⟩ : ∃ c r, l.whole.map digitChar ++ (F ++ (E ++ rest)) = c :: r ∧ (c = '.' ∨ c ∈ "0123456789".toList) := by
    cases hx : l.whole with
    | cons d w =>
      exact ⟨_, _, rfl, Or.inr (digitChar_more d (hw d (by simp [hx]))).2.2.2.2.1⟩
    | nil =>
      rcases hne with h | ⟨f, hf1, hf2⟩
      · exact absurd hx h
      · rw [hF, hf1]; exact ⟨_, _, rfl, Or.inl rfl⟩
  have hc0' : Units.isSpace c0 = false ∧ c0 ≠ '+' ∧ c0 ≠ '-' ∧ toLower c0 ≠ 'i' ∧ toLower c0 ≠ 'n' := by
    rcases hc0 with h | h
    · subst h; decide
    · revert h; revert c0; intro c0 _ h; fin_cases h <;> decide
  have hblank : (l.text ++ rest).dropWhile Units.isSpace = signText l.sign ++ (l.whole.map digitChar ++ (F ++ (E ++ rest))) := by
    rw [htext]
    apply drop_blanks
    · intro c hc
      rw [isSpace_iff]
      exact hb c hc
    · apply head_append
      · cases l.sign with
        | none => intro c hc; cases hc
        | some b => cases b <;> intro c hc <;> simp [signText] at hc <;> subst hc <;> decide
      · intro c r h
        rw [h0] at h
        cases h
        exact hc0'.1
  have hsign : takeSign ((l.text ++ rest).dropWhile Units.isSpace) = (decide (l.sign = some true), l.whole.map digitChar ++ (F ++ (E ++ rest))) := by
    rw [hblank]
    apply takeSign_spec
    intro c r h
    rw [h0] at h
    cases h
    exact ⟨hc0'.2.1, hc0'.2.2.1⟩
  have hspecial : isSpecial (l.whole.map digitChar ++ (F ++ (E ++ rest))) = false := by
    have h3 : (l.whole.map digitChar ++ (F ++ (E ++ rest))).map toLower = toLower c0 :: r0.map toLower := by rw [h0]; rfl
    have h4 : ∀ c1 r1, r0 = c1 :: r1 → c0 = '0' → toLower c1 ≠ 'x' := by
      intro c1 r1 h h00
      cases hx : l.whole with
      | nil =>
        rw [hx] at h0
        have := (hFd c0 r0 h0).1
        rw [h00] at this
        cases this
      | cons d w =>
        rw [hx, List.map_cons, List.cons_append] at h0
        injection h0 with h01 h02
        rw [h] at h02
        cases w with
        | nil => exact (hFd c1 r1 h02).2
        | cons d' w =>
          rw [List.map_cons, List.cons_append] at h02
          injection h02 with h03 h04
          have hd := hw d' (by simp [hx])
          rw [← h03, (digitChar_more d' hd).2.2.2.2.2.1]
          exact (digitChar_spec d' hd).2.2.2.2.1
    unfold isSpecial
    simp only [h3]
    rw [Bool.eq_false_iff]
    intro h
    simp only [Bool.or_eq_true, decide_eq_true_eq, List.take_succ_cons, List.cons.injEq] at h
    rcases h with (h | h) | h
    · exact hc0'.2.2.2.1 h.1
    · exact hc0'.2.2.2.2 h.1
    · have h00 : c0 = '0' := by
        rcases hc0 with h1 | h1
        · subst h1; exact absurd h.1 (by decide)
        · revert h; revert h1; clear h0 hc0' h3 h4; intro h1; fin_cases h1 <;> intro h <;> first | rfl | exact absurd h.1 (by decide)
      cases r0 with
      | nil => simp at h
      | cons c1 r1 => simp at h; exact h4 c1 r1 rfl h00 h.2
  unfold readReal
  simp only [hsign, hspecial, hWw.1, hWw.2, hFf, hEe]
  rw [if_neg (by simp), if_neg]
  · congr 1
    have hvalue : (ofDigits (l.whole ++ l.frac.getD []) : ℝ) = value 10 l.whole * 10 ^ (l.frac.getD []).length + value 10 (l.frac.getD []) := by
      rw [ofDigits_value, value_concat]
      push_cast
      rfl
    have hnum : ∀ E : ℤ, ((value 10 l.whole : ℝ) * 10 ^ (l.frac.getD []).length + value 10 (l.frac.getD [])) * 10 ^ (E - ((l.frac.getD []).length : ℤ))
        = (value 10 l.whole + value 10 (l.frac.getD []) / 10 ^ (l.frac.getD []).length) * 10 ^ E := by
      intro E
      rw [zpow_sub₀ (by norm_num), zpow_natCast]
      have : (10 : ℝ) ^ (l.frac.getD []).length ≠ 0 := by positivity
      field_simp
    rw [hvalue, hnum, Literal.number]
    have hE' : ∀ x : Option (Bool × Option Bool × List Nat), (x.map fun x => if x.2.1 = some true then -(value 10 x.2.2 : ℤ) else value 10 x.2.2).getD 0
        = expValue x := by
      rintro (_ | ⟨u, s, ds⟩) <;> rfl
    rw [hE']
    by_cases hs : l.sign = some true
    · simp only [hs, decide_true, if_true]; ring
    · simp only [hs, decide_false, if_false, Bool.false_eq_true]; ring
  · rintro ⟨h1, h2⟩
    rcases hne with h | ⟨f, hf1, hf2⟩
    · exact h h1
    · rw [hf1] at h2; exact hf2 h2

/-! ## only decimal numbers are read -/

theorem digit_back (c : Char) (h : isDigit c = true) : digit c < 10 ∧ digitChar (digit c) = c := by
  rw [isDigit_iff] at h
  fin_cases h <;> decide

theorem takeDigits_back (s : List Char) : (∀ d ∈ takeDigits s, d < 10) ∧ s = (takeDigits s).map digitChar ++ s.dropWhile isDigit := by
  have hall : ∀ c ∈ s.takeWhile isDigit, isDigit c = true := fun c hc => List.mem_takeWhile_imp hc
  constructor
  · intro d hd
    obtain ⟨c, hc, rfl⟩ := List.mem_map.1 hd
    exact (digit_back c (hall c hc)).1
  · conv_lhs => rw [← List.takeWhile_append_dropWhile (p := isDigit) (l := s)]
    congr 1
    rw [takeDigits, List.map_map]
    conv_lhs => rw [← List.map_id (s.takeWhile isDigit)]
    exact List.map_congr_left fun c hc => (digit_back c (hall c hc)).2.symm

theorem takeSign_back (s : List Char) : ∃ g, s = signText g ++ (takeSign s).2 ∧ (takeSign s).1 = decide (g = some true) := by
  unfold takeSign
  split
  · exact ⟨some true, rfl, rfl⟩
  · exact ⟨some false, rfl, rfl⟩
  · exact ⟨none, rfl, rfl⟩

theorem takeFraction_back (s : List Char) : ∃ f, s = fracText f ++ (takeFraction s).2 ∧ (takeFraction s).1 = f.getD []
    ∧ (∀ g, f = some g → ∀ d ∈ g, d < 10) := by
  unfold takeFraction
  split
  · rename_i r
    have := takeDigits_back r
    exact ⟨some (takeDigits r), congrArg ('.' :: ·) this.2, rfl, fun g hg => by cases hg; exact this.1⟩
  · exact ⟨none, rfl, rfl, by simp⟩

theorem takeExponent_back (s : List Char) : ∃ x, s = expText x ++ (takeExponent s).2 ∧ (takeExponent s).1.getD 0 = expValue x
    ∧ ∀ u g ds, x = some (u, g, ds) → ds ≠ [] ∧ ∀ d ∈ ds, d < 10 := by
  unfold takeExponent
  cases s with
  | nil => exact ⟨none, rfl, rfl, by simp⟩
  | cons c r =>
    dsimp only
    split
    · rename_i hc
      split
      · exact ⟨none, rfl, rfl, by simp⟩
      · rename_i hd
        obtain ⟨g, hg1, hg2⟩ := takeSign_back r
        have hb := takeDigits_back (takeSign r).2
        refine ⟨some (decide (c = 'E'), g, takeDigits (takeSign r).2), ?_, ?_, ?_⟩
        · have h1 : c = (if decide (c = 'E') = true then 'E' else 'e') := by
            rcases hc with h | h <;> subst h <;> rfl
          rw [expText, List.cons_append, List.append_assoc, ← hb.2, ← hg1, ← h1]
        · simp only [Option.getD_some, expValue, hg2, decide_eq_true_eq, ofDigits_value]
        · intro u g' ds h
          cases h
          exact ⟨hd, hb.1⟩
    · exact ⟨none, rfl, rfl, by simp⟩

/-- C97: nothing else is read: a number that was read was written as a decimal number with this value, at the start of the text -/
theorem c97_only (s : List Char) (x : ℝ) (rest : List Char) (h : readReal s = .number x rest) :
    ∃ l : Literal, l.Proper ∧ s = l.text ++ rest ∧ x = l.number := by
  unfold readReal at h
  dsimp only at h
  split at h
  · cases h
  split at h
  · cases h
  rename_i hne
  injection h with hx hrest
  obtain ⟨g, hg1, hg2⟩ := takeSign_back (s.dropWhile Units.isSpace)
  generalize takeSign (s.dropWhile Units.isSpace) = t at *
  have hw := takeDigits_back t.2
  obtain ⟨f, hf1, hf2, hf3⟩ := takeFraction_back (t.2.dropWhile isDigit)
  obtain ⟨e, he1, he2, he3⟩ := takeExponent_back (takeFraction (t.2.dropWhile isDigit)).2
  refine ⟨⟨s.takeWhile Units.isSpace, g, takeDigits t.2, f, e⟩, ⟨?_, hw.1, hf3, ?_, he3⟩, ?_, ?_⟩
  · intro c hc
    exact (isSpace_iff c).1 (List.mem_takeWhile_imp hc)
  · by_contra hn
    push Not at hn
    apply hne
    refine ⟨hn.1, ?_⟩
    rw [hf2]
    cases f with
    | none => rfl
    | some f => exact hn.2 f rfl
  · rw [Literal.text]
    simp only [List.append_assoc]
    rw [← hrest, ← he1, ← hf1, ← hw.2, ← hg1, List.takeWhile_append_dropWhile]
  · rw [← hx, Literal.number]
    simp only [he2, hf2, hg2, decide_eq_true_eq]
    have hvalue : (ofDigits (takeDigits t.2 ++ f.getD []) : ℝ) = value 10 (takeDigits t.2) * 10 ^ (f.getD []).length + value 10 (f.getD []) := by
      rw [ofDigits_value, value_concat]
      push_cast
      rfl
    rw [hvalue, zpow_sub₀ (by norm_num), zpow_natCast]
    have : (10 : ℝ) ^ (f.getD []).length ≠ 0 := by positivity
    by_cases hs : g = some true
    · simp only [hs, if_true]; field_simp
    · simp only [hs, if_false]; field_simp

/-- C97: a text without digits is refused (unless it is infinity or not a number) -/
theorem c97_refused (s : List Char) (hd : ∀ c ∈ s, c ∉ "0123456789".toList)
    (hs : isSpecial (takeSign (s.dropWhile Units.isSpace)).2 = false) : readReal s = .none := by
  cases h : readReal s with
  | none => rfl
  | special =>
    unfold readReal at h
    dsimp only at h
    rw [hs, if_neg (by simp)] at h
    split at h <;> cases h
  | number x rest =>
    exfalso
    obtain ⟨l, hl, ht, -⟩ := c97_only s x rest h
    obtain ⟨-, hw, hf, hne, -⟩ := hl
    rcases hne with h1 | ⟨f, h1, h2⟩
    · obtain ⟨d, w, hx⟩ := List.exists_cons_of_ne_nil h1
      refine hd (digitChar d) ?_ (digitChar_more d (hw d (by simp [hx]))).2.2.2.2.1
      rw [ht, Literal.text, hx]
      simp
    · obtain ⟨d, w, hx⟩ := List.exists_cons_of_ne_nil h2
      refine hd (digitChar d) ?_ (digitChar_more d (hf f h1 d (by simp [hx]))).2.2.2.2.1
      rw [ht, Literal.text, h1, hx, fracText]
      simp

/-! ## what is printed -/

/-- zeros at the end are dropped -/
theorem strip_spec (ds : List Nat) (h : ∀ d ∈ ds, d < 10) : ∃ ds' k, ds = ds' ++ List.replicate k 0
    ∧ stripZeros (ds.map digitChar) = ds'.map digitChar := by
  induction ds using List.reverseRecOn with
  | nil => exact ⟨[], 0, rfl, rfl⟩
  | append_singleton ds d ih =>
    have hd := (digitChar_more d (h d (by simp))).2.2.2.2.2.2
    by_cases h0 : d = 0
    · obtain ⟨ds', k, h1, h2⟩ := ih fun d hd => h d (by simp [hd])
      refine ⟨ds', k + 1, ?_, ?_⟩
      · rw [List.replicate_succ', ← List.append_assoc, ← h1, h0]
      · rw [← h2]
        unfold stripZeros
        rw [List.map_append, List.reverse_append]
        simp [hd.2 h0]
    · refine ⟨ds ++ [d], 0, by simp, ?_⟩
      unfold stripZeros
      rw [List.map_append, List.reverse_append]
      have : digitChar d ≠ '0' := fun h => h0 (hd.1 h)
      simp [this]

theorem strip_value (ds ds' : List Nat) (k : Nat) (h : ds = ds' ++ List.replicate k 0) :
    (value 10 ds' : ℝ) / 10 ^ ds'.length = value 10 ds / 10 ^ ds.length := by
  subst h
  rw [value_concat, value_zeros, List.length_append, List.length_replicate, pow_add]
  push_cast
  field_simp
  ring

/-- six digits -/
theorem six (m : Nat) (h1 : 10 ^ 5 ≤ m) (h2 : m < 10 ^ 6) : ∃ ds : List Nat, ds.length = 6 ∧ (∀ d ∈ ds, d < 10) ∧ showNat m = ds.map digitChar
    ∧ value 10 ds = m := by
  obtain ⟨ds, hne, hd, ht, hv, hh⟩ := showNat_spec m
  refine ⟨ds, ?_, hd, ht, hv⟩
  have hlt : m < 10 ^ ds.length := by
    have := value_lt 10 ds hd
    rw [hv] at this
    exact this.resolve_right hne
  have h5 : 5 < ds.length := by
    by_contra hn
    have : 10 ^ ds.length ≤ 10 ^ 5 := Nat.pow_le_pow_right (by norm_num) (by omega)
    omega
  by_contra hn
  have h7 : 7 ≤ ds.length := by omega
  obtain ⟨d, w, hx⟩ := List.exists_cons_of_ne_nil hne
  have hd0 : d ≠ 0 := by
    have := hh (by omega)
    rw [hx] at this
    simpa using this
  have hval : value 10 ds = d * 10 ^ w.length + value 10 w := by
    rw [hx, show d :: w = [d] ++ w from rfl, value_concat]
    simp [value]
  have hw : 10 ^ 6 ≤ 10 ^ w.length := by
    apply Nat.pow_le_pow_right (by norm_num)
    rw [hx] at h7
    simp at h7
    omega
  have : 1 * 10 ^ w.length ≤ d * 10 ^ w.length := Nat.mul_le_mul_right _ (by omega)
  omega

/-- the text of an exponent -/
theorem twoDigits_spec (n : Nat) : ∃ ds : List Nat, ds ≠ [] ∧ (∀ d ∈ ds, d < 10) ∧ twoDigits n = ds.map digitChar ∧ value 10 ds = n := by
  obtain ⟨ds, hne, hd, ht, hv, -⟩ := showNat_spec n
  unfold twoDigits
  split
  · refine ⟨0 :: ds, by simp, ?_, ?_, ?_⟩
    · intro d h
      rcases List.mem_cons.1 h with h | h
      · omega
      · exact hd d h
    · rw [ht]; rfl
    · rw [show 0 :: ds = [0] ++ ds from rfl, value_concat, hv]; simp [value]
  · exact ⟨ds, hne, hd, ht, hv⟩

/-- the fraction, which is left out if it is zero -/
theorem frac_spec (ds : List Nat) (h : ∀ d ∈ ds, d < 10) : ∃ f : Option (List Nat), (∀ g, f = some g → ∀ d ∈ g, d < 10)
    ∧ fracText f = (if stripZeros (ds.map digitChar) = [] then [] else '.' :: stripZeros (ds.map digitChar))
    ∧ (value 10 (f.getD []) : ℝ) / 10 ^ (f.getD []).length = value 10 ds / 10 ^ ds.length := by
  obtain ⟨ds', k, h1, h2⟩ := strip_spec ds h
  rw [h2, ← strip_value ds ds' k h1]
  by_cases h0 : ds' = []
  · exact ⟨none, by simp, by simp [h0, fracText], by simp [h0]⟩
  · refine ⟨some ds', ?_, by simp [h0, fracText], rfl⟩
    intro g hg d hd
    cases hg
    exact h d (by rw [h1]; simp [hd])

theorem layout_spec (m : Nat) (h1 : 10 ^ 5 ≤ m) (h2 : m < 10 ^ 6) (e : Int) : ∃ l : Literal, l.Proper ∧ l.blanks = [] ∧ l.sign = none
    ∧ l.text = layout m e ∧ l.number = m * 10 ^ (e - 5) := by
  obtain ⟨ds, hlen, hd, ht, hv⟩ := six m h1 h2
  have hsplit : ∀ k ≤ 6, (value 10 (ds.take k) : ℝ) + value 10 (ds.drop k) / 10 ^ (ds.drop k).length = m * 10 ^ ((k : ℤ) - 6) := by
    intro k hk
    have h3 : value 10 ds = value 10 (ds.take k) * 10 ^ (ds.drop k).length + value 10 (ds.drop k) := by
      rw [← value_concat, List.take_append_drop]
    have h4 : (ds.drop k).length = 6 - k := by simp [hlen]
    rw [← hv, h3, h4]
    push_cast
    rw [show (k : ℤ) - 6 = -((6 - k : ℕ) : ℤ) by omega, zpow_neg, zpow_natCast]
    field_simp
  unfold layout
  dsimp only
  rw [ht]
  split
  · obtain ⟨f, hf1, hf2, hf3⟩ := frac_spec (ds.drop 1) fun d h => hd d (List.mem_of_mem_drop h)
    obtain ⟨es, he1, he2, he3, he4⟩ := twoDigits_spec e.natAbs
    refine ⟨⟨[], none, ds.take 1, f, some (false, some (decide (e < 0)), es)⟩, ⟨by simp, fun d h => hd d (List.mem_of_mem_take h), hf1, ?_, ?_⟩,
      rfl, rfl, ?_, ?_⟩
    · left
      intro h
      have := congrArg List.length h
      simp [hlen] at this
    · intro u g es' h
      cases h
      exact ⟨he1, he2⟩
    · rw [Literal.text]
      simp only [List.nil_append, signText, hf2, expText, he3, ← List.map_drop, ← List.map_take]
      by_cases h : e < 0 <;> simp [h, signText]
    · rw [Literal.number]
      simp only [hf3, expValue, he4]
      have := hsplit 1 (by norm_num)
      rw [this]
      have h5 : (if some (decide (e < 0)) = some true then -((e.natAbs : ℕ) : ℤ) else (e.natAbs : ℕ)) = e := by
        by_cases h : e < 0
        · rw [if_pos (by simp [h])]; omega
        · rw [if_neg (by simp [h])]; omega
      rw [h5, if_neg (by simp), one_mul, mul_assoc, ← zpow_add₀ (by norm_num)]
      congr 2
      push_cast
      ring
  · rename_i hn
    push Not at hn
    split
    · rename_i h0
      obtain ⟨n, rfl⟩ := Int.eq_ofNat_of_zero_le h0
      have hn5 : n + 1 ≤ 6 := by omega
      simp only [Int.ofNat_eq_natCast, Int.toNat_natCast]
      obtain ⟨f, hf1, hf2, hf3⟩ := frac_spec (ds.drop (n + 1)) fun d h => hd d (List.mem_of_mem_drop h)
      refine ⟨⟨[], none, ds.take (n + 1), f, none⟩, ⟨by simp, fun d h => hd d (List.mem_of_mem_take h), hf1, ?_, by simp⟩, rfl, rfl, ?_, ?_⟩
      · left
        intro h
        have := congrArg List.length h
        simp [hlen] at this
      · rw [Literal.text]
        simp only [List.nil_append, signText, hf2, expText, ← List.map_drop, ← List.map_take, List.append_nil]
      · rw [Literal.number]
        simp only [hf3, expValue]
        rw [hsplit (n + 1) hn5, if_neg (by simp), one_mul, zpow_zero, mul_one]
        congr 2
        push_cast
        ring
    · rename_i h0
      push Not at h0
      obtain ⟨k, hk⟩ : ∃ k : ℕ, e = -(k : ℤ) - 1 := ⟨(-e - 1).toNat, by omega⟩
      have hk' : (-e - 1).toNat = k := by omega
      rw [hk']
      obtain ⟨ds', j, hs1, hs2⟩ := strip_spec ds hd
      have hds' : ∀ d ∈ ds', d < 10 := fun d h => hd d (by rw [hs1]; simp [h])
      have hds0 : ds' ≠ [] := by
        rintro rfl
        rw [hs1, List.nil_append, value_zeros] at hv
        omega
      refine ⟨⟨[], none, [0], some (List.replicate k 0 ++ ds'), none⟩, ⟨by simp, by simp, ?_, ?_, by simp⟩, rfl, rfl, ?_, ?_⟩
      · intro g hg d hd'
        cases hg
        rcases List.mem_append.1 hd' with h | h
        · rw [(List.mem_replicate.1 h).2]; norm_num
        · exact hds' d h
      · left; simp
      · rw [Literal.text]
        simp only [List.nil_append, signText, expText, List.append_nil, fracText, hs2, List.map_append, List.map_replicate]
        rfl
      · rw [Literal.number]
        simp only [expValue, Option.getD_some, value_concat, value_zeros, zero_mul, zero_add]
        rw [if_neg (by simp), one_mul, zpow_zero, mul_one, List.length_append, List.length_replicate, pow_add]
        have h3 := strip_value ds ds' j hs1
        rw [hv, hlen] at h3
        rw [show value 10 [0] = 0 from rfl, Nat.cast_zero, zero_add, mul_comm ((10 : ℝ) ^ k), ← div_div, h3, hk,
          show -(k : ℤ) - 1 - 5 = -((k + 6 : ℕ) : ℤ) by push_cast; ring, zpow_neg, zpow_natCast, pow_add]
        field_simp

/-- the nearest integer is nearest -/
theorem roundEven_spec (y : ℝ) (hy : 0 ≤ y) : (∀ k : ℤ, |(roundEven y : ℝ) - y| ≤ |(k : ℝ) - y|) ∧ |(roundEven y : ℝ) - y| ≤ 1 / 2
    ∧ ⌊y⌋₊ ≤ roundEven y ∧ roundEven y ≤ ⌊y⌋₊ + 1 := by
  have h1 := Nat.floor_le hy
  have h2 := Nat.lt_floor_add_one y
  have hkey : |(roundEven y : ℝ) - y| ≤ 1 / 2 ∧ |(roundEven y : ℝ) - y| ≤ y - ⌊y⌋₊ ∧ |(roundEven y : ℝ) - y| ≤ ⌊y⌋₊ + 1 - y
      ∧ ⌊y⌋₊ ≤ roundEven y ∧ roundEven y ≤ ⌊y⌋₊ + 1 := by
    unfold roundEven
    dsimp only
    split
    · rw [abs_of_nonpos (by linarith)]
      refine ⟨?_, ?_, ?_, le_rfl, by omega⟩ <;> linarith
    · split
      · push_cast
        rw [abs_of_nonneg (by linarith)]
        refine ⟨?_, ?_, ?_, by omega, le_rfl⟩ <;> linarith
      · split
        · rw [abs_of_nonpos (by linarith)]
          refine ⟨?_, ?_, ?_, le_rfl, by omega⟩ <;> linarith
        · push_cast
          rw [abs_of_nonneg (by linarith)]
          refine ⟨?_, ?_, ?_, by omega, le_rfl⟩ <;> linarith
  refine ⟨fun k => ?_, hkey.1, hkey.2.2.2⟩
  rcases le_or_gt k (⌊y⌋₊ : ℤ) with h | h
  · have hk : (k : ℝ) ≤ ⌊y⌋₊ := by exact_mod_cast h
    rw [abs_of_nonpos (a := (k : ℝ) - y) (by linarith)]
    linarith [hkey.2.1]
  · have hk : (⌊y⌋₊ : ℝ) + 1 ≤ k := by exact_mod_cast h
    rw [abs_of_nonneg (a := (k : ℝ) - y) (by linarith)]
    linarith [hkey.2.2.1]

theorem short_neg {z : ℝ} (h : Short z) : Short (-z) := by
  obtain ⟨n, e, hn, rfl⟩ := h
  exact ⟨-n, e, by rwa [abs_neg], by push_cast; ring⟩

/-- six digits are the nearest ones -/
theorem sixDigits_spec (a : ℝ) (ha : 0 < a) : 10 ^ 5 ≤ (sixDigits a).1 ∧ (sixDigits a).1 < 10 ^ 6
    ∧ Rounded a ((sixDigits a).1 * 10 ^ ((sixDigits a).2 - 5)) ∧ |(sixDigits a).1 * 10 ^ ((sixDigits a).2 - 5) - a| ≤ 5 / 10 ^ 6 * a := by
  obtain ⟨e, he⟩ : ∃ e, e = Int.log 10 a := ⟨_, rfl⟩
  have hlo : (10 : ℝ) ^ e ≤ a := by rw [he]; exact_mod_cast Int.zpow_log_le_self (b := 10) (by norm_num) ha
  have hhi : a < (10 : ℝ) ^ (e + 1) := by rw [he]; exact_mod_cast Int.lt_zpow_succ_log_self (b := 10) (by norm_num) a
  obtain ⟨u, hu⟩ : ∃ u : ℝ, u = 10 ^ (e - 5) := ⟨_, rfl⟩
  have hu0 : 0 < u := by rw [hu]; positivity
  have hu5 : (10 : ℝ) ^ e = 10 ^ 5 * u := by
    rw [hu, ← zpow_natCast, ← zpow_add₀ (by norm_num)]
    congr 1
    push_cast
    ring
  have hu6 : (10 : ℝ) ^ (e + 1) = 10 ^ 6 * u := by
    rw [hu, ← zpow_natCast, ← zpow_add₀ (by norm_num)]
    congr 1
    push_cast
    ring
  have hy1 : 10 ^ 5 ≤ a / u := by rw [le_div_iff₀ hu0, ← hu5]; exact hlo
  have hy2 : a / u < 10 ^ 6 := by rw [div_lt_iff₀ hu0, ← hu6]; exact hhi
  obtain ⟨hn, hh, hf1, hf2⟩ := roundEven_spec (a / u) (by positivity)
  generalize hm : roundEven (a / u) = m at *
  have hfl1 : 10 ^ 5 ≤ ⌊a / u⌋₊ := Nat.le_floor (by exact_mod_cast hy1)
  have hfl2 : ⌊a / u⌋₊ < 10 ^ 6 := (Nat.floor_lt (by positivity)).2 (by exact_mod_cast hy2)
  have hval : ((sixDigits a).1 : ℝ) * 10 ^ ((sixDigits a).2 - 5) = m * u := by
    unfold sixDigits
    simp only [← he, ← hu, hm]
    split
    · rename_i h
      dsimp only
      rw [h, show e + 1 - 5 = (e - 5) + 1 by ring, zpow_add_one₀ (by norm_num), ← hu]
      push_cast
      ring
    · rw [hu]
  have hb : 10 ^ 5 ≤ (sixDigits a).1 ∧ (sixDigits a).1 < 10 ^ 6 := by
    unfold sixDigits
    simp only [← he, ← hu, hm]
    split
    · dsimp only; norm_num
    · dsimp only; omega
  have herr : |(m : ℝ) * u - a| = u * |(m : ℝ) - a / u| := by
    rw [← abs_of_pos hu0, ← abs_mul, abs_of_pos hu0]
    congr 1
    field_simp
  refine ⟨hb.1, hb.2, ⟨⟨(sixDigits a).1, (sixDigits a).2 - 5, ?_, by push_cast; rfl⟩, ?_⟩, ?_⟩
  · rw [abs_of_nonneg (by positivity)]
    exact_mod_cast hb.2
  · rintro z ⟨n, q, hnb, rfl⟩
    rw [hval, herr]
    rcases le_or_gt (e - 5) q with hq | hq
    · obtain ⟨j, hj⟩ := Int.eq_ofNat_of_zero_le (sub_nonneg.2 hq)
      have hz : (n : ℝ) * 10 ^ q = ((n * 10 ^ j : ℤ) : ℝ) * u := by
        rw [show q = (e - 5) + (j : ℤ) by omega, zpow_add₀ (by norm_num), zpow_natCast, ← hu]
        push_cast
        ring
      have := hn (n * 10 ^ j)
      rw [hz, show |((n * 10 ^ j : ℤ) : ℝ) * u - a| = u * |((n * 10 ^ j : ℤ) : ℝ) - a / u| by
        rw [← abs_of_pos hu0, ← abs_mul, abs_of_pos hu0]
        congr 1
        field_simp]
      exact mul_le_mul_of_nonneg_left this hu0.le
    · have hz : (n : ℝ) * 10 ^ q ≤ 10 ^ e := by
        have h1 : (n : ℝ) ≤ 10 ^ 6 := by
          have := (abs_lt.1 hnb).2
          exact_mod_cast this.le
        have h2 : (10 : ℝ) ^ q ≤ 10 ^ (e - 6) := zpow_le_zpow_right₀ (by norm_num) (by omega)
        calc (n : ℝ) * 10 ^ q ≤ 10 ^ 6 * 10 ^ q := mul_le_mul_of_nonneg_right h1 (by positivity)
          _ ≤ 10 ^ 6 * 10 ^ (e - 6) := mul_le_mul_of_nonneg_left h2 (by positivity)
          _ = 10 ^ e := by
            rw [← zpow_natCast, ← zpow_add₀ (by norm_num)]
            congr 1
            push_cast
            ring
      have h3 := hn (10 ^ 5)
      have h4 : u * |((10 ^ 5 : ℤ) : ℝ) - a / u| = a - 10 ^ e := by
        rw [abs_of_nonpos (by push_cast; linarith), hu5]
        push_cast
        field_simp
        ring
      rw [abs_of_nonpos (by linarith : (n : ℝ) * 10 ^ q - a ≤ 0)]
      have := mul_le_mul_of_nonneg_left h3 hu0.le
      linarith
  · rw [hval, herr]
    have : u * |(m : ℝ) - a / u| ≤ u * (1 / 2) := mul_le_mul_of_nonneg_left hh hu0.le
    have h5 : 10 ^ 5 * u ≤ a := by rw [← hu5]; exact hlo
    nlinarith

/-- what is printed is the decimal number nearest to the value with six significant digits, and is written so that it can be read -/
theorem show_literal (x : ℝ) : ∃ l : Literal, l.Proper ∧ l.blanks = [] ∧ l.sign ≠ some false ∧ l.text = showReal x ∧ Rounded x l.number
    ∧ |l.number - x| ≤ 5 / 10 ^ 6 * |x| := by
  unfold showReal
  by_cases h0 : x = 0
  · refine ⟨⟨[], none, [0], none, none⟩, ⟨by simp, by simp, by simp, by simp, by simp⟩, rfl, by simp, ?_, ?_, ?_⟩
    · rw [if_pos h0]; rfl
    · have : Literal.number ⟨[], none, [0], none, none⟩ = 0 := by simp [Literal.number, value]
      rw [this, h0]
      refine ⟨⟨0, 0, by norm_num, by simp⟩, fun z _ => ?_⟩
      simp
    · have : Literal.number ⟨[], none, [0], none, none⟩ = 0 := by simp [Literal.number, value]
      rw [this, h0]
      simp
  · rw [if_neg h0]
    obtain ⟨h1, h2, h3, h4⟩ := sixDigits_spec |x| (abs_pos.2 h0)
    obtain ⟨l, hl, hb, hs, ht, hn⟩ := layout_spec _ h1 h2 (sixDigits |x|).2
    rw [← hn] at h3 h4
    rcases lt_or_ge x 0 with hx | hx
    · refine ⟨{ l with sign := some true }, hl, hb, by simp, ?_, ?_, ?_⟩
      · rw [if_pos hx, ← ht, Literal.text, Literal.text, hb, hs]
        rfl
      all_goals
        have hneg : ({ l with sign := some true } : Literal).number = -l.number := by
          rw [Literal.number, Literal.number, hs]
          simp
          ring
        rw [hneg]
        rw [abs_of_neg hx] at h3 h4
      · refine ⟨short_neg h3.1, fun z hz => ?_⟩
        have := h3.2 (-z) (short_neg hz)
        rw [show -l.number - x = -(l.number - -x) by ring, abs_neg, show z - x = -(-z - -x) by ring, abs_neg]
        exact this
      · rw [show -l.number - x = -(l.number - -x) by ring, abs_neg, abs_of_neg hx]
        exact h4
    · rw [abs_of_nonneg hx] at h3 h4
      refine ⟨l, hl, hb, by rw [hs]; simp, ?_, h3, ?_⟩
      · rw [if_neg (not_lt.2 hx), ← ht, List.nil_append]
      · rw [abs_of_nonneg hx]; exact h4

/-- C97: a number that is printed and read again is rounded to six significant digits: no number with six digits is closer, and the error is at most half a unit in
the sixth digit -/
theorem c97_print (x : ℝ) (rest : List Char) (hr : Stops rest) :
    ∃ y, readReal (showReal x ++ rest) = .number y rest ∧ Rounded x y ∧ |y - x| ≤ 5 / 10 ^ 6 * |x| := by
  obtain ⟨l, hl, -, -, ht, hn, he⟩ := show_literal x
  exact ⟨l.number, by rw [← ht]; exact c97_literal l hl rest hr, hn, he⟩

theorem stops_nil : Stops [] := fun c r h => by cases h

/-- C97: a number with six digits or less survives -/
theorem c97_exact (x : ℝ) (hx : Short x) : convertReal (showReal x) = .ok x := by
  obtain ⟨y, h1, h2, -⟩ := c97_print x [] stops_nil
  have : y = x := by
    have := h2.2 x hx
    rw [sub_self, abs_zero] at this
    exact sub_eq_zero.1 (abs_eq_zero.1 (le_antisymm this (abs_nonneg _)))
  rw [List.append_nil] at h1
  rw [convertReal, h1, this]

/-- C97: and what was read once does not change again -/
theorem c97_twice (x : ℝ) : ∃ y, convertReal (showReal x) = .ok y ∧ Rounded x y ∧ convertReal (showReal y) = .ok y := by
  obtain ⟨y, h1, h2, -⟩ := c97_print x [] stops_nil
  rw [List.append_nil] at h1
  exact ⟨y, by rw [convertReal, h1], h2, c97_exact y h2.1⟩

/-- C97: complex numbers -/
theorem c97_complex (x y : ℝ) : ∃ x' y', convertComplex (showComplex (x, y)) = .ok (x', y') ∧ Rounded x x' ∧ Rounded y y' := by
  obtain ⟨x', h1, h2, -⟩ := c97_print x (" + ".toList ++ (showReal y ++ ['i'])) (by
    intro c r h
    have : c = ' ' := by
      rw [show " + ".toList = [' ', '+', ' '] from rfl] at h
      simp at h
      exact h.1.symm
    subst this
    decide)
  obtain ⟨ly, hly, hb, -, ht, hn, -⟩ := show_literal y
  have h3 := c97_literal { ly with blanks := [' '] } (by
    obtain ⟨-, h⟩ := hly
    exact ⟨by simp, h⟩) ['i'] (by
    intro c r h
    cases h
    decide)
  have ht' : ({ ly with blanks := [' '] } : Literal).text = ' ' :: showReal y := by
    rw [← ht, Literal.text, Literal.text, hb]
    rfl
  have hn' : ({ ly with blanks := [' '] } : Literal).number = ly.number := rfl
  rw [ht', hn'] at h3
  refine ⟨x', ly.number, ?_, h2, hn⟩
  rw [convertComplex, showComplex, h1]
  rw [show " + ".toList ++ (showReal y ++ ['i']) = ' ' :: '+' :: ' ' :: (showReal y ++ ['i']) from rfl]
  have h4 : List.dropWhile Units.isSpace (' ' :: '+' :: ' ' :: (showReal y ++ ['i'])) = '+' :: ' ' :: (showReal y ++ ['i']) := by
    rw [List.dropWhile_cons, if_pos (by decide), List.dropWhile_cons, if_neg (by decide)]
  simp only [h4]
  rw [show ' ' :: (showReal y ++ ['i']) = (' ' :: showReal y) ++ ['i'] from rfl, h3]

/-- a quantity in the unit of its own -/
theorem toSI_si (q : Units.Quantity) (x : ℝ) : Units.toSI q x (Units.siUnitName q) = .ok x := by
  obtain ⟨u, h1, h2, h3⟩ := Units.c42_si q
  have h4 : Units.getUnit (Units.siUnitName q) = .ok u := h1
  rw [Units.toSI, h1, h4]
  simp only [(Units.sameQuantity_iff u u).2 rfl, Bool.not_true, Bool.false_eq_true, if_false, Units.Unit.times, h2, mul_one]

theorem siUnitName_start (q : Units.Quantity) : ∃ c r, Units.siUnitName q = c :: r ∧ c ≠ ' ' := by
  cases q <;> exact ⟨_, _, rfl, by decide⟩

/-- C97: values with a unit: what is recorded for a value is read as this value in SI units, rounded to six digits -/
theorem c97_physical (q : Units.Quantity) (x : ℝ) : ∃ y, convertPhysical q (showPhysical q x) = .ok y ∧ Rounded x y
    ∧ |y - x| ≤ 5 / 10 ^ 6 * |x| ∧ convertPhysical q (showPhysical q y) = .ok y := by
  obtain ⟨c, r, hc, hc'⟩ := siUnitName_start q
  have key : ∀ x : ℝ, ∃ y, convertPhysical q (showPhysical q x) = .ok y ∧ Rounded x y ∧ |y - x| ≤ 5 / 10 ^ 6 * |x| := by
    intro x
    obtain ⟨y, h1, h2, h3⟩ := c97_print x (' ' :: Units.siUnitName q) (by intro c r h; cases h; decide)
    refine ⟨y, ?_, h2, h3⟩
    rw [convertPhysical, splitValue, showPhysical, h1]
    have h4 : List.dropWhile (fun c => decide (c = ' ')) (' ' :: Units.siUnitName q) = Units.siUnitName q := by
      rw [List.dropWhile_cons, if_pos (by simp), hc, List.dropWhile_cons, if_neg (by simpa using hc')]
    simp only [h4]
    exact toSI_si q y
  obtain ⟨y, h1, h2, h3⟩ := key x
  obtain ⟨z, h4, h5, -⟩ := key y
  have : z = y := by
    have := h5.2 y h2.1
    rw [sub_self, abs_zero] at this
    exact sub_eq_zero.1 (abs_eq_zero.1 (le_antisymm this (abs_nonneg _)))
  rw [this] at h4
  exact ⟨y, h1, h2, h3, h4⟩

/-- C97: a value with a unit is the value times the unit -/
theorem c97_unit (q : Units.Quantity) (l : Literal) (hl : l.Proper) (k : Nat) (unit : List Char) (hu : Stops unit) (hu' : unit.head? ≠ some ' ')
    (hk : 0 < k) : convertPhysical q (l.text ++ (List.replicate k ' ' ++ unit)) = Units.toSI q l.number unit := by
  have h1 := c97_literal l hl (List.replicate k ' ' ++ unit) (by
    obtain ⟨j, rfl⟩ := Nat.exists_eq_succ_of_ne_zero hk.ne'
    intro c r h
    rw [List.replicate_succ] at h
    cases h
    decide)
  rw [convertPhysical, splitValue, h1]
  have h2 : (List.replicate k ' ' ++ unit).dropWhile (fun c => decide (c = ' ')) = unit := by
    induction k with
    | zero => omega
    | succ k ih =>
      rw [List.replicate_succ, List.cons_append, List.dropWhile_cons, if_pos (by simp)]
      rcases Nat.eq_zero_or_pos k with h | h
      · subst h
        cases unit with
        | nil => rfl
        | cons c r => simp at hu'; simp [hu']
      · exact ih h (c97_literal l hl _ (by
          obtain ⟨j, rfl⟩ := Nat.exists_eq_succ_of_ne_zero h.ne'
          intro c r h
          rw [List.replicate_succ] at h
          cases h
          decide))
  simp only [h2]

/-! ## examples -/

/-- how the text of a number is found -/
theorem show_eq (a : ℝ) (m : Nat) (e : Int) (h1 : (10 : ℝ) ^ e ≤ a) (h2 : a < 10 ^ (e + 1)) (h3 : |a / 10 ^ (e - 5) - m| < 1 / 2)
    (h4 : m ≠ 10 ^ 6) : showReal a = layout m e := by
  have ha : 0 < a := lt_of_lt_of_le (by positivity) h1
  have hlog : Int.log 10 a = e := by
    apply le_antisymm
    · have := Int.zpow_log_le_self (b := 10) (by norm_num) ha
      have h5 : (10 : ℝ) ^ (Int.log 10 a) < 10 ^ (e + 1) := lt_of_le_of_lt (by exact_mod_cast this) h2
      have := (zpow_lt_zpow_iff_right₀ (by norm_num : (1 : ℝ) < 10)).1 h5
      omega
    · have := Int.lt_zpow_succ_log_self (b := 10) (by norm_num) a
      have h5 : (10 : ℝ) ^ e < 10 ^ (Int.log 10 a + 1) := lt_of_le_of_lt h1 (by exact_mod_cast this)
      have := (zpow_lt_zpow_iff_right₀ (by norm_num : (1 : ℝ) < 10)).1 h5
      omega
  obtain ⟨-, h6, -, -⟩ := roundEven_spec (a / 10 ^ (e - 5)) (by positivity)
  have h7 : roundEven (a / 10 ^ (e - 5)) = m := by
    have h8 : |(roundEven (a / 10 ^ (e - 5)) : ℝ) - m| < 1 := by
      calc _ = |((roundEven (a / 10 ^ (e - 5)) : ℝ) - a / 10 ^ (e - 5)) + (a / 10 ^ (e - 5) - m)| := by ring_nf
        _ ≤ _ := abs_add_le _ _
        _ < 1 := by linarith
    have h9 : |((roundEven (a / 10 ^ (e - 5)) : ℤ) - (m : ℤ))| < 1 := by exact_mod_cast h8
    have := Int.abs_lt_one_iff.1 h9
    omega
  rw [showReal, if_neg ha.ne', if_neg (not_lt.2 ha.le), abs_of_pos ha, sixDigits]
  simp only [hlog, h7, if_neg h4, List.nil_append]

/-- the default wavelength loses digits when it is written -/
theorem show_wavelength : showReal (6283185307 / 10 ^ 15) = "6.28319e-06".toList := by
  rw [show_eq (6283185307 / 10 ^ 15) 628319 (-6) (by norm_num) (by norm_num) (by rw [abs_lt]; constructor <;> norm_num) (by norm_num)]
  decide

example : showReal (-1 / 2) = "-0.5".toList := by
  have : layout (sixDigits |-1 / 2|).1 (sixDigits |-1 / 2|).2 = showReal (1 / 2) := by
    rw [showReal, if_neg (by norm_num), if_neg (by norm_num), List.nil_append]
    norm_num [abs_of_pos, abs_of_neg]
  rw [showReal, if_neg (by norm_num), if_pos (by norm_num), this, show_eq (1 / 2) 500000 (-1) (by norm_num) (by norm_num) (by norm_num) (by norm_num)]
  decide

example : showReal 1234567 = "1.23457e+06".toList := by
  rw [show_eq 1234567 123457 6 (by norm_num) (by norm_num) (by rw [abs_lt]; constructor <;> norm_num) (by norm_num)]
  decide

example : convertReal "  -12.5E-1 abc".toList = .ok (-1.25) := by
  have := c97_literal ⟨[' ', ' '], some true, [1, 2], some [5], some (true, some true, [1])⟩
    ⟨by simp, by simp, by simp, by simp, by simp⟩ " abc".toList (by intro c r h; cases h; decide)
  rw [convertReal, show "  -12.5E-1 abc".toList
    = (⟨[' ', ' '], some true, [1, 2], some [5], some (true, some true, [1])⟩ : Literal).text ++ " abc".toList from rfl, this]
  simp only [Literal.number, value, expValue]
  norm_num

end Verif.Text
