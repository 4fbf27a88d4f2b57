import Verif.Model.OptionValues
import Verif.Properties.CommandLine
import Verif.Properties.Decimal

/-!
# C109: the values of command line options
-/
namespace Verif.CommandLine

open Verif.Text (Failure)
open Verif.Text.Spec
open Verif.Yaml (Str Map find assign)
open Verif.CommandLine.Spec

set_option autoImplicit false

theorem fits {n : Int} (h : |n| < 2 ^ 63) : InRange intFast32 n ∧ InRange intFast32 n.natAbs := by
  rw [abs_lt] at h
  unfold InRange intFast32
  constructor <;> simp only [if_true, reduceIte] <;> omega

theorem int_back (n : Int) (h : |n| < 2 ^ 63) : Text.stringToInteger intFast32 (Text.showInt n) = .ok n :=
  Text.c47_roundtrip intFast32 (by decide) (by decide) n (fits h).1 (fits h).2

theorem showInt_ne (n : Int) : Text.showInt n ≠ [] := by
  obtain ⟨ds, hne, -, h, -⟩ := Text.showNat_spec n.natAbs
  unfold Text.showInt
  rw [h]
  split
  · simp
  · simpa using hne

theorem literal_ne (l : Literal) (hl : l.Proper) : l.text ≠ [] := by
  intro h
  simp only [Literal.text, List.append_eq_nil_iff, List.map_eq_nil_iff] at h
  rcases hl.2.2.2.1 with h' | ⟨f, h', hf⟩
  · exact h' h.2.2.1
  · rw [h'] at h
    simp [fracText] at h

theorem showReal_ne (x : ℝ) : Text.showReal x ≠ [] := by
  obtain ⟨l, hl, -, -, h, -⟩ := Text.show_literal x
  rw [← h]
  exact literal_ne l hl

theorem literal_value (l : Literal) (hl : l.Proper) : Text.convertReal l.text = .ok l.number := by
  have h := Text.c97_literal l hl [] Text.stops_nil
  rw [List.append_nil] at h
  unfold Text.convertReal
  rw [h]

/-- C109: the value of an option without argument: true if and only if it is on the command line, with any argument -/
theorem c109_flag (options : List CommandOption) (hreg : Registered options) (name : Str) (c : Char) (default : Bool)
    (ho : flagOption name c default ∈ options) (args : List Str) (d : Map) (f : Str → Option Bool) (h : parse realText options args = .done d f) :
    ∀ items, Items args items →
      (∀ argument, Last options items (flagOption name c default) argument → getFlag d name = .ok true ∧ wasFound f name = .ok true) ∧
      (Absent options items (flagOption name c default) → getFlag d name = .ok false ∧ wasFound f name = .ok false) := by
  intro items hi
  obtain ⟨items', hi', -, hall⟩ := c46_success realText options hreg args d f h
  obtain rfl := c46_unique hi hi'
  obtain ⟨h1, h2⟩ := hall _ ho
  refine ⟨?_, ?_⟩
  · intro argument hl
    obtain ⟨v, hv, hd, hf⟩ := h1 argument hl
    have : v = Text.showBool true := hv
    change find d name = _ at hd
    change f name = _ at hf
    rw [this] at hd
    constructor
    · unfold getFlag getText
      rw [hd]
      exact Text.c48_roundtrip true
    · unfold wasFound
      rw [hf]
  · intro ha
    obtain ⟨-, v, hv, hd, hf⟩ := h2 ha
    have hv' : ∃ b, Text.convertBool (Text.showBool false) = .ok b ∧ v = Text.showBool b := hv
    obtain ⟨b, hb, hv'⟩ := hv'
    rw [Text.c48_roundtrip] at hb
    cases hb
    change find d name = _ at hd
    change f name = _ at hf
    rw [hv'] at hd
    constructor
    · unfold getFlag getText
      rw [hd]
      exact Text.c48_roundtrip false
    · unfold wasFound
      rw [hf]

theorem getInt_of {d : Map} {name : Str} {n : Int} (h : find d name = some (Text.showInt n)) (hn : |n| < 2 ^ 63) : getInt d name = .ok n := by
  unfold getInt getText
  rw [h]
  exact int_back n hn

theorem wasFound_of {f : Str → Option Bool} {name : Str} {b : Bool} (h : f name = some b) : wasFound f name = .ok b := by
  unfold wasFound
  rw [h]

/-- C109: integers that are given are returned -/
theorem c109_int_given (options : List CommandOption) (hreg : Registered options) (o : CommandOption) (ho : o ∈ options) (ht : o.argument = .int)
    (args : List Str) (d : Map) (f : Str → Option Bool) (h : parse realText options args = .done d f) :
    ∀ items, Items args items → ∀ k neg ds, ds ≠ [] → (∀ x ∈ ds, x < 10) → value 10 ds < 2 ^ 63 →
      Last options items o (lead k neg ++ ds.map digitChar) →
      getInt d o.name = .ok (signed neg (value 10 ds)) ∧ wasFound f o.name = .ok true := by
  intro items hi
  obtain ⟨items', hi', -, hall⟩ := c46_success realText options hreg args d f h
  obtain rfl := c46_unique hi hi'
  intro k neg ds hne hds hv hl
  obtain ⟨v, hg, hd, hf⟩ := (hall o ho).1 _ hl
  have hne' : lead k neg ++ ds.map digitChar ≠ [] := by simp [hne]
  have hab : |signed neg (value 10 ds : Int)| < 2 ^ 63 := by
    unfold signed
    split
    · rw [abs_neg, abs_of_nonneg (by positivity)]
      exact_mod_cast hv
    · rw [abs_of_nonneg (by positivity)]
      exact_mod_cast hv
  have hc := Text.c47_decimal intFast32 (by decide) (by decide) k neg ds hne hds [] (by simp) (by intro _; exact ⟨by decide, by decide⟩)
    (fits (by rw [abs_of_nonneg (by positivity)]; exact_mod_cast hv)).1 (fits hab).1
  rw [List.append_nil] at hc
  unfold Given at hg
  rw [ht, if_neg (by decide), if_neg hne'] at hg
  obtain ⟨n, hn, hv'⟩ := hg
  rw [hc] at hn
  cases hn
  rw [hv'] at hd
  exact ⟨getInt_of hd hab, wasFound_of hf⟩

/-- C109: the default value of an integer is returned if the option is not given, or given without an argument -/
theorem c109_int_default (options : List CommandOption) (hreg : Registered options) (name : Str) (c : Char) (n : Int) (hn : |n| < 2 ^ 63)
    (ho : intOption name c n ∈ options) (args : List Str) (d : Map) (f : Str → Option Bool) (h : parse realText options args = .done d f) :
    ∀ items, Items args items →
      (Absent options items (intOption name c n) → getInt d name = .ok n ∧ wasFound f name = .ok false) ∧
      (Last options items (intOption name c n) [] → getInt d name = .ok n ∧ wasFound f name = .ok true) := by
  intro items hi
  obtain ⟨items', hi', -, hall⟩ := c46_success realText options hreg args d f h
  obtain rfl := c46_unique hi hi'
  obtain ⟨h1, h2⟩ := hall _ ho
  refine ⟨?_, ?_⟩
  · intro ha
    obtain ⟨-, v, hv, hd, hf⟩ := h2 ha
    unfold Default at hv
    rw [if_neg (show (intOption name c n).default ≠ [] from showInt_ne n)] at hv
    obtain ⟨m, hm, rfl⟩ := hv
    change Text.stringToInteger intFast32 (Text.showInt n) = _ at hm
    rw [int_back n hn] at hm
    cases hm
    exact ⟨getInt_of hd hn, wasFound_of hf⟩
  · intro hl
    obtain ⟨v, hv, hd, hf⟩ := h1 _ hl
    change ∃ m, Text.stringToInteger intFast32 (Text.showInt n) = .ok m ∧ v = Text.showInt m at hv
    obtain ⟨m, hm, rfl⟩ := hv
    rw [int_back n hn] at hm
    cases hm
    exact ⟨getInt_of hd hn, wasFound_of hf⟩

theorem rounded_short {x y : ℝ} (hx : Short x) (h : Rounded x y) : y = x := by
  have := h.2 x hx
  rw [sub_self, abs_zero] at this
  exact sub_eq_zero.mp (abs_eq_zero.mp (le_antisymm this (abs_nonneg _)))

theorem getReal_of {d : Map} {name : Str} {x : ℝ} (h : find d name = some (Text.showReal x)) :
    ∃ y, getReal d name = .ok y ∧ Rounded x y ∧ (Short x → y = x) := by
  obtain ⟨y, hy, hr, -⟩ := Text.c97_twice x
  refine ⟨y, ?_, hr, fun hs => rounded_short hs hr⟩
  unfold getReal getText
  rw [h]
  exact hy

/-- C109: real numbers that are given are returned with six significant digits -/
theorem c109_real_given (options : List CommandOption) (hreg : Registered options) (o : CommandOption) (ho : o ∈ options) (ht : o.argument = .double)
    (args : List Str) (d : Map) (f : Str → Option Bool) (h : parse realText options args = .done d f) :
    ∀ items, Items args items → ∀ l : Literal, l.Proper → Last options items o l.text →
      (∃ y, getReal d o.name = .ok y ∧ Rounded l.number y ∧ (Short l.number → y = l.number)) ∧ wasFound f o.name = .ok true := by
  intro items hi
  obtain ⟨items', hi', -, hall⟩ := c46_success realText options hreg args d f h
  obtain rfl := c46_unique hi hi'
  intro l hl hlast
  obtain ⟨v, hg, hd, hf⟩ := (hall o ho).1 _ hlast
  unfold Given at hg
  rw [ht, if_neg (by decide), if_neg (literal_ne l hl)] at hg
  change realText l.text = .ok v at hg
  unfold realText at hg
  rw [literal_value l hl] at hg
  cases hg
  exact ⟨getReal_of hd, wasFound_of hf⟩

/-- C109: the default value of a real number is returned with six significant digits (rounded once, although it is written twice) -/
theorem c109_real_default (options : List CommandOption) (hreg : Registered options) (name : Str) (c : Char) (x : ℝ)
    (ho : realOption name c x ∈ options) (args : List Str) (d : Map) (f : Str → Option Bool) (h : parse realText options args = .done d f) :
    ∀ items, Items args items →
      (Absent options items (realOption name c x) → (∃ y, getReal d name = .ok y ∧ Rounded x y ∧ (Short x → y = x)) ∧ wasFound f name = .ok false) ∧
      (Last options items (realOption name c x) [] → (∃ y, getReal d name = .ok y ∧ Rounded x y ∧ (Short x → y = x)) ∧ wasFound f name = .ok true) := by
  intro items hi
  obtain ⟨items', hi', -, hall⟩ := c46_success realText options hreg args d f h
  obtain rfl := c46_unique hi hi'
  obtain ⟨h1, h2⟩ := hall _ ho
  obtain ⟨y, hy, hr, hyy⟩ := Text.c97_twice x
  have hget : ∀ v, realText (Text.showReal x) = .ok v → find d name = some v → getReal d name = .ok y := by
    intro v hv hd
    unfold realText at hv
    rw [hy] at hv
    cases hv
    unfold getReal getText
    rw [hd]
    exact hyy
  refine ⟨?_, ?_⟩
  · intro ha
    obtain ⟨-, v, hv, hd, hf⟩ := h2 ha
    unfold Default at hv
    rw [if_neg (show (realOption name c x).default ≠ [] from showReal_ne x)] at hv
    exact ⟨⟨y, hget v hv hd, hr, fun hs => rounded_short hs hr⟩, wasFound_of hf⟩
  · intro hl
    obtain ⟨v, hv, hd, hf⟩ := h1 _ hl
    exact ⟨⟨y, hget v hv hd, hr, fun hs => rounded_short hs hr⟩, wasFound_of hf⟩

theorem getText_of {d : Map} {name v : Str} (h : find d name = some v) : getText d name = .ok v := by
  unfold getText
  rw [h]

/-- C109: texts are returned as they are -/
theorem c109_text (options : List CommandOption) (hreg : Registered options) (o : CommandOption) (ho : o ∈ options) (ht : o.argument = .string)
    (args : List Str) (d : Map) (f : Str → Option Bool) (h : parse realText options args = .done d f) :
    ∀ items, Items args items →
      (∀ argument, argument ≠ [] → Last options items o argument → getText d o.name = .ok argument ∧ wasFound f o.name = .ok true) ∧
      (Last options items o [] → getText d o.name = .ok o.default ∧ wasFound f o.name = .ok true) ∧
      (Absent options items o → getText d o.name = .ok o.default ∧ wasFound f o.name = .ok false) := by
  intro items hi
  obtain ⟨items', hi', -, hall⟩ := c46_success realText options hreg args d f h
  obtain rfl := c46_unique hi hi'
  obtain ⟨h1, h2⟩ := hall _ ho
  refine ⟨?_, ?_, ?_⟩
  · intro argument hne hl
    obtain ⟨v, hv, hd, hf⟩ := h1 _ hl
    unfold Given at hv
    rw [ht, if_neg (by decide), if_neg hne] at hv
    cases hv
    exact ⟨getText_of hd, wasFound_of hf⟩
  · intro hl
    obtain ⟨v, hv, hd, hf⟩ := h1 _ hl
    unfold Given at hv
    rw [ht, if_neg (by decide), if_pos rfl] at hv
    cases hv
    exact ⟨getText_of hd, wasFound_of hf⟩
  · intro ha
    obtain ⟨-, v, hv, hd, hf⟩ := h2 ha
    unfold Default at hv
    rw [ht] at hv
    split at hv
    · rename_i h0
      rw [h0]
      rw [hv] at hd
      exact ⟨getText_of hd, wasFound_of hf⟩
    · cases hv
      exact ⟨getText_of hd, wasFound_of hf⟩

/-- C109: a required option was given, with an argument -/
theorem c109_required (options : List CommandOption) (hreg : Registered options) (name : Str) (c : Char) (o : CommandOption)
    (hr : o = realRequired name c ∨ o = intRequired name c ∨ o = textRequired name c) (ho : o ∈ options)
    (args : List Str) (d : Map) (f : Str → Option Bool) (h : parse realText options args = .done d f) :
    ∀ items, Items args items → (∃ argument, argument ≠ [] ∧ Last options items o argument) ∧ wasFound f name = .ok true := by
  intro items hi
  obtain ⟨items', hi', hk, hall⟩ := c46_success realText options hreg args d f h
  obtain rfl := c46_unique hi hi'
  obtain ⟨h1, h2⟩ := hall _ ho
  have hreq : o.required = true := by rcases hr with rfl | rfl | rfl <;> rfl
  have hname : o.name = name := by rcases hr with rfl | rfl | rfl <;> rfl
  rcases last_or_absent options items o with ⟨argument, hl⟩ | ha
  · obtain ⟨v, hv, hd, hf⟩ := h1 _ hl
    rw [hname] at hf
    refine ⟨⟨argument, ?_, hl⟩, wasFound_of hf⟩
    rintro rfl
    obtain ⟨v', hv', hne⟩ := known_last hk hl
    rcases hr with rfl | rfl | rfl
    · change realText [] = .ok v' at hv'
      have : Text.convertReal [] = .error .error := by
        unfold Text.convertReal
        rw [Text.c97_refused [] (by simp) (by decide)]
      unfold realText at hv'
      rw [this] at hv'
      cases hv'
    · change ∃ m, Text.stringToInteger intFast32 [] = .ok m ∧ v' = Text.showInt m at hv'
      obtain ⟨m, hm, -⟩ := hv'
      have := Text.c47_blank intFast32 0
      rw [List.replicate_zero] at this
      rw [this] at hm
      cases hm
    · exact hne hv'
  · have := (h2 ha).1
    rw [hreq] at this
    cases this

/-! ## options that were not added -/

theorem setItem_other (real : Str → Except Failure Str) (options : List CommandOption) (k : Str) (hk : ∀ o ∈ options, o.name ≠ k)
    (d : Map) (hd : Yaml.Spec.Sorted d) (i : Str × Str) :
    Yaml.Spec.Sorted (setItem real options d i) ∧ find (setItem real options d i) k = find d k := by
  unfold setItem
  split
  · exact ⟨hd, rfl⟩
  · rename_i o ho
    split
    · exact ⟨hd, rfl⟩
    · refine ⟨Yaml.assign_sorted _ _ _ hd, ?_⟩
      rw [Yaml.find_assign _ _ _ _ hd, if_neg]
      exact hk o (List.mem_of_find?_eq_some ho)

theorem items_other (real : Str → Except Failure Str) (options : List CommandOption) (k : Str) (hk : ∀ o ∈ options, o.name ≠ k)
    (items : List (Str × Str)) : ∀ d : Map, Yaml.Spec.Sorted d →
    Yaml.Spec.Sorted (items.foldl (setItem real options) d) ∧ find (items.foldl (setItem real options) d) k = find d k := by
  induction items with
  | nil => intro d hd; exact ⟨hd, rfl⟩
  | cons i items ih =>
    intro d hd
    have h := setItem_other real options k hk d hd i
    have h' := ih _ h.1
    exact ⟨h'.1, h'.2.trans h.2⟩

/-- C109: there is no value for an option that was not added, not even for a short name -/
theorem c109_unknown (options : List CommandOption) (hreg : Registered options) (name : Str) (hn : ∀ o ∈ options, o.name ≠ name)
    (args : List Str) (d : Map) (f : Str → Option Bool) (h : parse realText options args = .done d f) :
    getText d name = .error .error ∧ getReal d name = .error .error ∧ getInt d name = .error .error ∧ getFlag d name = .error .error ∧
      wasFound f name = .error .error := by
  obtain ⟨items, hi, hk, -⟩ := c46_success realText options hreg args d f h
  have hl := loop_items realText options hi [] (fun x hx => (by cases hx)) hk []
  rw [List.append_nil] at hl
  unfold parse at h
  rw [hl, parseLoop] at h
  obtain ⟨hs, hnone⟩ := items_other realText options name hn items [] List.Pairwise.nil
  have h' := ((finish_spec realText options _ (fun _ => none) (registered_names hreg).1 hs).1 d f h).2 name hn
  rw [hnone] at h'
  have hd : find d name = none := h'.1
  have ht : getText d name = .error .error := by
    unfold getText
    rw [hd]
  refine ⟨ht, ?_, ?_, ?_, ?_⟩
  · unfold getReal; rw [ht]
  · unfold getInt; rw [ht]
  · unfold getFlag; rw [ht]
  · unfold wasFound; rw [h'.2]

/-! ## help -/

/-- the options that the functions with a type add -/
inductive Added : CommandOption → Prop
  | real (name : Str) (c : Char) (x : ℝ) : Added (realOption name c x)
  | int (name : Str) (c : Char) (n : Int) (h : |n| < 2 ^ 63) : Added (intOption name c n)
  | flag (name : Str) (c : Char) (b : Bool) : Added (flagOption name c b)
  | text (name : Str) (c : Char) (s : Str) : Added (textOption name c s)
  | realRequired (name : Str) (c : Char) : Added (realRequired name c)
  | intRequired (name : Str) (c : Char) : Added (intRequired name c)
  | textRequired (name : Str) (c : Char) : Added (textRequired name c)

theorem added_default {o : CommandOption} (h : Added o) : ∃ v, o.defaultValue realText = .ok v ∧ (v = [] ↔ o.default = []) := by
  cases h with
  | real name c x =>
    obtain ⟨y, hy, -⟩ := Text.c97_twice x
    refine ⟨Text.showReal y, ?_, ?_⟩
    · unfold CommandOption.defaultValue
      rw [if_neg (show (realOption name c x).default ≠ [] from showReal_ne x)]
      change realText (Text.showReal x) = _
      unfold realText
      rw [hy]
    · exact ⟨fun h => absurd h (showReal_ne y), fun h => absurd h (showReal_ne x)⟩
  | int name c n hn =>
    refine ⟨Text.showInt n, ?_, Iff.rfl⟩
    rw [default_iff]
    unfold Default
    rw [if_neg (show (intOption name c n).default ≠ [] from showInt_ne n)]
    exact ⟨n, int_back n hn, rfl⟩
  | flag name c b => exact ⟨Text.showBool false, by rw [default_iff]; exact ⟨false, Text.c48_roundtrip false, rfl⟩, Iff.rfl⟩
  | text name c s =>
    refine ⟨s, ?_, Iff.rfl⟩
    rw [default_iff]
    unfold Default
    split
    · assumption
    · rfl
  | realRequired name c => exact ⟨[], rfl, Iff.rfl⟩
  | intRequired name c => exact ⟨[], rfl, Iff.rfl⟩
  | textRequired name c => exact ⟨[], rfl, Iff.rfl⟩

theorem added_required {o : CommandOption} (h : Added o) (hne : ∀ name c, o ≠ textOption name c []) : o.default = [] ↔ o.required = true := by
  cases h with
  | real name c x => exact ⟨fun h => absurd h (showReal_ne x), fun h => by cases h⟩
  | int name c n hn => exact ⟨fun h => absurd h (showInt_ne n), fun h => by cases h⟩
  | flag name c b =>
    constructor
    · intro h; cases h
    · intro h; cases h
  | text name c s =>
    constructor
    · intro h
      change s = [] at h
      exact absurd (by rw [h]) (hne name c)
    · intro h; cases h
  | realRequired name c => exact ⟨fun _ => rfl, fun _ => rfl⟩
  | intRequired name c => exact ⟨fun _ => rfl, fun _ => rfl⟩
  | textRequired name c => exact ⟨fun _ => rfl, fun _ => rfl⟩

theorem suffix_char {x b e : Str} {c c' : Char} (h : (b ++ [c'] ++ e) <:+ (x ++ [c] ++ e)) : c' = c := by
  obtain ⟨p, hp⟩ := h
  rw [← List.append_assoc, ← List.append_assoc] at hp
  have h2 := List.append_cancel_right hp
  exact (List.append_inj' h2 rfl).2 |> fun h => by simpa using h

/-- C109: the help text shows an option between brackets if it may be left out, and says that it is required if it may not.  (Not for a text with an empty default.) -/
theorem c109_help (o : CommandOption) (h : Added o) (hne : ∀ name c, o ≠ textOption name c []) (description : Str) :
    (∃ t, o.usage realText = .ok t ∧ (t.head? = some '[' ↔ o.required = false)) ∧
    ∃ t, o.describe realText description = .ok t ∧ (" and is required.\n".toList <:+ t ↔ o.required = true) := by
  obtain ⟨v, hv, h0⟩ := added_default h
  have hr := added_required h hne
  rw [← h0] at hr
  constructor
  · unfold CommandOption.usage
    rw [hv]
    refine ⟨_, rfl, ?_⟩
    by_cases hv0 : v = []
    · rw [if_neg (not_not.2 hv0), hr.1 hv0]
      simp
    · rw [if_pos hv0]
      have : o.required = false := by
        rcases hq : o.required with _ | _
        · rfl
        · exact absurd (hr.2 hq) hv0
      rw [this]
      simp
  · unfold CommandOption.describe
    rw [hv]
    refine ⟨_, rfl, ?_⟩
    by_cases hv0 : v = []
    · rw [if_neg (not_not.2 hv0), hr.1 hv0]
      simp only [iff_true]
      rw [List.append_assoc]
      exact List.suffix_append _ _
    · rw [if_pos hv0]
      have : o.required = false := by
        rcases hq : o.required with _ | _
        · rfl
        · exact absurd (hr.2 hq) hv0
      rw [this]
      simp only [Bool.false_eq_true, iff_false]
      have e1 : " and is required.\n".toList = " and is require".toList ++ ['d'] ++ ".\n".toList := by decide
      rw [e1]
      by_cases ha : o.argument = .none
      · rw [if_neg (not_not.2 ha), List.append_nil, ha,
          show describeArgument .none = "This command line option takes no argument".toList ++ ['s'] by decide, ← List.append_assoc]
        intro hs
        exact absurd (suffix_char hs) (by decide)
      · rw [if_pos ha, ← List.append_assoc, ← List.append_assoc]
        intro hs
        exact absurd (suffix_char hs) (by decide)

/-! ## what goes wrong -/

/-- a parser with a required real number, a flag that is true by default, an integer and a text -/
def example2 : List CommandOption :=
  [⟨"help".toList, 'h', .none, "false".toList, false⟩, realRequired "x".toList 'x', flagOption "verbose".toList 'v' true,
    intOption "number".toList 'n' (-12), textOption "output".toList 'o' []]

theorem example2_registered : Registered example2 :=
  Registered.add (o := textOption "output".toList 'o' []) (Registered.add (o := intOption "number".toList 'n' (-12))
    (Registered.add (o := flagOption "verbose".toList 'v' true) (Registered.add (o := realRequired "x".toList 'x') Registered.start rfl) rfl) rfl) rfl

/-- the number 6.283185307e-06 -/
def wavelength : Literal := ⟨[], none, [6], some [2, 8, 3, 1, 8, 5, 3, 0, 7], some (false, some true, [0, 6])⟩

theorem wavelength_proper : wavelength.Proper := ⟨by simp [wavelength], by simp [wavelength], by simp [wavelength], by simp [wavelength], by simp [wavelength]⟩

theorem wavelength_number : wavelength.number = 6283185307 / 10 ^ 15 := by
  have h : wavelength.sign ≠ some true := by simp [wavelength]
  simp only [Literal.number, if_neg h]
  simp only [value, expValue, wavelength]
  norm_num

theorem items2 : Items ["--x=6.283185307e-06".toList, "-n=-5".toList] [("x".toList, wavelength.text), ("n".toList, "-5".toList)] :=
  Items.equals (k := 1) (name := "x".toList) (v := wavelength.text) (by decide) (by decide)
    (Items.equals (k := 0) (name := "n".toList) (v := "-5".toList) (by decide) (by decide) Items.nil)

theorem first_x : First example2 "x".toList (realRequired "x".toList 'x') := by rw [← find_iff]; decide +kernel

theorem first_n : First example2 "n".toList (intOption "number".toList 'n' (-12)) := by rw [← find_iff]; decide +kernel

theorem given_x : Given realText (realRequired "x".toList 'x') wavelength.text "6.28319e-06".toList := by
  unfold Given
  rw [if_neg (by decide), if_neg (literal_ne _ wavelength_proper)]
  change realText wavelength.text = _
  unfold realText
  rw [literal_value _ wavelength_proper, wavelength_number]
  exact congrArg Except.ok Text.show_wavelength

theorem given_n : Given realText (intOption "number".toList 'n' (-12)) "-5".toList "-5".toList :=
  ⟨-5, by decide +kernel, by decide +kernel⟩

theorem known2 : Known realText example2 [("x".toList, wavelength.text), ("n".toList, "-5".toList)] := by
  intro i h
  rcases List.mem_cons.mp h with rfl | h
  · exact ⟨_, _, first_x, given_x, by decide⟩
  · rw [List.mem_singleton.mp h]
    exact ⟨_, _, first_n, given_n, by decide⟩

theorem accepted2 : ∃ d f, parse realText example2 ["--x=6.283185307e-06".toList, "-n=-5".toList] = .done d f := by
  refine c46_accepts realText example2 example2_registered _ _ items2 known2 ?_
  intro o ho ha
  have hadd : ∀ o, Added o → ∃ v, Default realText o v := by
    intro o h
    obtain ⟨v, hv, -⟩ := added_default h
    exact ⟨v, (default_iff _ _ _).1 hv⟩
  rcases List.mem_cons.mp ho with rfl | ho
  · exact ⟨rfl, Text.showBool false, false, Text.c48_roundtrip false, rfl⟩
  rcases List.mem_cons.mp ho with rfl | ho
  · exact absurd first_x (ha _ (List.mem_cons_self))
  rcases List.mem_cons.mp ho with rfl | ho
  · exact ⟨rfl, hadd _ (.flag _ _ _)⟩
  rcases List.mem_cons.mp ho with rfl | ho
  · exact ⟨rfl, hadd _ (.int _ _ _ (by norm_num))⟩
  rw [List.mem_singleton.mp ho]
  exact ⟨rfl, hadd _ (.text _ _ _)⟩

theorem last_x : Last example2 [("x".toList, wavelength.text), ("n".toList, "-5".toList)] (realRequired "x".toList 'x') wavelength.text := by
  refine ⟨[], ("x".toList, wavelength.text), [("n".toList, "-5".toList)], rfl, first_x, rfl, ?_⟩
  intro j hj hf
  rw [List.mem_singleton.mp hj] at hf
  exact absurd (first_unique hf first_n) (by decide +kernel)

/-- Violation of C109: a number on the command line is rounded to six digits -/
theorem c109_rounding_violation : ∃ d f y, parse realText example2 ["--x=6.283185307e-06".toList, "-n=-5".toList] = .done d f ∧
    getReal d "x".toList = .ok y ∧ y = 628319 / 10 ^ 11 ∧ y ≠ 6283185307 / 10 ^ 15 := by
  obtain ⟨d, f, h⟩ := accepted2
  obtain ⟨items, hi, -, hall⟩ := c46_success realText example2 example2_registered _ d f h
  obtain rfl := c46_unique hi items2
  obtain ⟨v, hv, hd, -⟩ := (hall (realRequired "x".toList 'x') (by decide +kernel)).1 _ last_x
  have hv' : v = "6.28319e-06".toList := by
    have h1 := (given_iff _ _ _ _).2 hv
    have h2 := (given_iff _ _ _ _).2 given_x
    rw [h1] at h2
    exact Except.ok.inj h2
  have hval := literal_value ⟨[], none, [6], some [2, 8, 3, 1, 9], some (false, some true, [0, 6])⟩
    ⟨by simp, by simp, by simp, by simp, by simp⟩
  refine ⟨d, f, 628319 / 10 ^ 11, h, ?_, rfl, by norm_num⟩
  unfold getReal getText
  change find d "x".toList = _ at hd
  rw [hd, hv']
  refine hval.trans ?_
  simp only [Literal.number, value, expValue]
  rw [if_neg (show ¬ (none : Option Bool) = some true by simp)]
  norm_num

/-- Violation of C109: the default value of a flag is ignored -/
theorem c109_flag_violation : ∃ d f, parse realText example2 ["--x=6.283185307e-06".toList, "-n=-5".toList] = .done d f ∧
    flagOption "verbose".toList 'v' true ∈ example2 ∧ wasFound f "verbose".toList = .ok false ∧ getFlag d "verbose".toList = .ok false := by
  obtain ⟨d, f, h⟩ := accepted2
  have hm : flagOption "verbose".toList 'v' true ∈ example2 := by decide +kernel
  have := (c109_flag example2 example2_registered "verbose".toList 'v' true hm _ d f h _ items2).2 (by
    intro i hi hf
    rcases List.mem_cons.mp hi with rfl | hi
    · exact absurd (first_unique hf first_x) (by decide +kernel)
    · rw [List.mem_singleton.mp hi] at hf
      exact absurd (first_unique hf first_n) (by decide +kernel))
  exact ⟨d, f, h, hm, this.2, this.1⟩

/-- Violation of C109: a negative number is not accepted as the next argument, only after an equals sign -/
theorem c109_negative_violation (options : List CommandOption) (k : Nat) (name : Str) (ds : List Nat) (h1 : '=' ∉ name)
    (h2 : name.head? ≠ some '-') (hds : ∀ x ∈ ds, x < 10) (hno : ∀ o ∈ options, ¬ Names o (ds.map digitChar)) (d : Map) (f : Str → Option Bool) :
    parse realText options [hyphens k ++ name, '-' :: ds.map digitChar] ≠ .done d f := by
  have hdig : ∀ c ∈ ds.map digitChar, c ≠ '-' ∧ c ≠ '=' := by
    intro c hc
    obtain ⟨x, hx, rfl⟩ := List.mem_map.mp hc
    have := hds x hx
    interval_cases x <;> decide
  have hsplit : splitArgument ('-' :: ds.map digitChar) [] = (ds.map digitChar, [], []) :=
    split_alone 0 (ds.map digitChar) [] (fun h => (hdig _ h).2 rfl)
      (by
        intro h
        exact (hdig _ (List.mem_of_mem_head? h)).1 rfl)
      (by simp)
  have hfind : options.find? (·.matches (ds.map digitChar)) = none := by
    rw [List.find?_eq_none]
    intro o ho hm
    exact hno o ho ((matches_iff o _).1 hm)
  have hsecond : ∀ m, parseLoop realText options ['-' :: ds.map digitChar] m ≠ .done d f := by
    intro m
    rw [parseLoop, hsplit, hfind]
    split
    · simp
    · split <;> simp
  unfold parse
  rw [parseLoop, split_alone k name ['-' :: ds.map digitChar] h1 h2 (by rintro b hb; cases hb; rfl)]
  split
  · simp
  split
  · simp
  split
  · simp
  split
  · simp
  split
  · simp
  exact hsecond _

/-- Violation of C109: the help text says that a text with an empty default is required, although it may be left out -/
theorem c109_help_violation (name description : Str) (c : Char) :
    (textOption name c []).required = false ∧
    ∃ t, (textOption name c []).describe realText description = .ok t ∧ " and is required.\n".toList <:+ t := by
  refine ⟨rfl, _, rfl, ?_⟩
  rw [if_neg (by decide), List.append_assoc]
  exact List.suffix_append _ _

/-- the value of the integer, and of the text that is not given -/
example : ∃ d f, parse realText example2 ["--x=6.283185307e-06".toList, "-n=-5".toList] = .done d f ∧
    getInt d "number".toList = .ok (-5) ∧ wasFound f "number".toList = .ok true ∧ getText d "output".toList = .ok [] ∧
    wasFound f "output".toList = .ok false ∧ getText d "n".toList = .error .error := by
  obtain ⟨d, f, h⟩ := accepted2
  have h1 := c109_int_given example2 example2_registered (intOption "number".toList 'n' (-12)) (by decide +kernel) rfl _ d f h _ items2 0 true [5]
    (by decide) (by decide) (by decide) ⟨[("x".toList, wavelength.text)], ("n".toList, "-5".toList), [], rfl, first_n, rfl, by simp⟩
  have h2 := (c109_text example2 example2_registered (textOption "output".toList 'o' []) (by decide +kernel) rfl _ d f h _ items2).2.2 (by
    intro i hi hf
    rcases List.mem_cons.mp hi with rfl | hi
    · exact absurd (first_unique hf first_x) (by decide +kernel)
    · rw [List.mem_singleton.mp hi] at hf
      exact absurd (first_unique hf first_n) (by decide +kernel))
  have h3 := c109_unknown example2 example2_registered "n".toList (by decide +kernel) _ d f h
  exact ⟨d, f, h, h1.1, h1.2, h2.1, h2.2, h3.1⟩

example : (intOption "number".toList 'n' (-12)).usage realText = .ok "[--number NUMBER]".toList := by
  unfold CommandOption.usage
  have h : Default realText (intOption "number".toList 'n' (-12)) "-12".toList := by
    unfold Default
    rw [if_neg (by decide +kernel)]
    exact ⟨-12, by decide +kernel, by decide +kernel⟩
  rw [(default_iff _ _ _).2 h]
  decide +kernel

end Verif.CommandLine
