import Verif.Spec.Program
import Verif.Properties.Decimal
import Verif.Properties.Yaml

/-!
# The stand-alone program: lemmas
-/
namespace Verif.Program

open Verif.Yaml
open Verif.Yaml.Spec
open Verif.Program.Spec
open Verif.Text (Failure)

set_option autoImplicit false

/-! ## a query -/

/-- the state of the dictionary after some queries with the given texts in the list of used values -/
structure Inv (m : Map) (asked : List (Str × Str)) (d : Dictionary) : Prop where
  hist : History (find m) d
  well : WellFormed d.values
  sorted : Sorted d.used
  known : ∀ k, (∃ s, (k, s) ∈ asked) → find d.values k ≠ none
  used : ∀ k, find d.used k = find asked k
  val : ∀ e ∈ asked, Value e.2

theorem inv_start (m : Map) (h : WellFormed m) : Inv m [] ⟨m, []⟩ :=
  ⟨.file h.1, h, List.Pairwise.nil, by simp, fun _ => rfl, by simp⟩

theorem value_marker : Value marker := by
  refine ⟨by decide, by decide, by decide, ?_⟩
  intro c hc
  rcases hc with h | h
  · rw [show marker.head? = some 'd' from rfl] at h
    cases h; decide
  · rw [show marker.getLast? = some 'e' from rfl] at h
    cases h; decide

theorem wellFormed_assign {m : Map} (h : WellFormed m) (k : Str) (hk : ∃ groups name, Key k groups name) {v : Str} (hv : Value v) :
    WellFormed (assign k v m) := by
  refine ⟨assign_sorted _ _ _ h.1, ?_⟩
  intro e he
  rcases mem_assign _ _ _ e he with rfl | he
  · exact ⟨hk, hv⟩
  · exact h.2 e he

theorem find_wellFormed {m : Map} (h : WellFormed m) {k v : Str} (hf : find m k = some v) : Value v := by
  unfold find at hf
  obtain ⟨e, he, rfl⟩ := Option.map_eq_some_iff.1 hf
  exact (h.2 e (List.mem_of_find?_eq_some he)).2

theorem assign_twice (k a b : Str) (m : Map) (h : Sorted m) (k' : Str) :
    find (assign k a (assign k b m)) k' = if k = k' then some a else find m k' := by
  rw [find_assign _ _ _ _ (assign_sorted _ _ _ h), find_assign _ _ _ _ h]
  split <;> rfl

/-- the dictionary after a query -/
theorem inv_step {m : Map} {asked : List (Str × Str)} {d : Dictionary} (h : Inv m asked d) (key default text : Str) (hk : ∃ groups name, Key key groups name)
    (hv : Value text) (hist : History (find m) ⟨(getStringOr key default d).2.values, assign key text (getStringOr key default d).2.used⟩) :
    Inv m ((key, text) :: asked) ⟨(getStringOr key default d).2.values, assign key text (getStringOr key default d).2.used⟩ := by
  have hs := h.hist
  have hsort := (holds_history h.hist).1
  rw [getStringOr_eq] at hist ⊢
  refine ⟨hist, ?_, ?_, ?_, ?_, ?_⟩
  · split
    · exact wellFormed_assign h.well key hk value_marker
    · exact h.well
  · split <;> exact assign_sorted _ _ _ (assign_sorted _ _ _ h.sorted)
  · rintro k ⟨s, hm⟩
    split
    · dsimp only
      rw [find_assign _ _ _ _ hsort]
      split
      · simp
      · rcases List.mem_cons.1 hm with hm | hm
        · rename_i hne; cases hm; exact absurd rfl hne
        · exact h.known k ⟨s, hm⟩
    · rename_i hn
      dsimp only
      rcases List.mem_cons.1 hm with hm | hm
      · cases hm
        push Not at hn
        exact hn.1
      · exact h.known k ⟨s, hm⟩
  · intro k
    rw [find_cons]
    split <;>
    · dsimp only
      rw [assign_twice _ _ _ _ h.sorted, h.used]
  · intro e he
    rcases List.mem_cons.1 he with rfl | he
    · exact hv
    · exact h.val e he

/-- texts of values can be written in a file -/
def Prints {α : Type} (t : DataType α) : Prop := ∀ x, Value (t.toString x)

theorem value_back {m : Map} {asked : List (Str × Str)} {d : Dictionary} (h : Inv m asked d) {α : Type} (t : DataType α) (ht : Prints t) (key : String)
    (hk : ∃ groups name, Key key.toList groups name) (default x : α) (d' : Dictionary) (hr : getValueOr t key.toList default d = .ok (x, d')) :
    Inv m ((key.toList, t.toString x) :: asked) d'
      ∧ (WellFormed m → find m key.toList ≠ some marker → Param (find m) t.convert key default x) := by
  have hist := History.valueOr t key.toList default h.hist hr
  constructor
  · unfold getValueOr at hr
    dsimp only at hr
    split at hr
    · cases hr
    · cases hr
      exact inv_step h key.toList [] _ hk (ht _) hist
  · intro hm hg
    have he : find m key.toList ≠ some [] := fun h => (find_wellFormed hm h).1 rfl
    have := c45_value_partial h.hist t key.toList default hg he
    rw [hr] at this
    dsimp only at this
    cases hf : find m key.toList with
    | none => rw [hf] at this; exact Or.inl ⟨hf, this⟩
    | some v => rw [hf] at this; exact Or.inr ⟨v, hf, this⟩

theorem physical_back {m : Map} {asked : List (Str × Str)} {d : Dictionary} (h : Inv m asked d) {α : Type} (t : DataType α) (ht : Prints t) (key : String)
    (hk : ∃ groups name, Key key.toList groups name) (text : Str) (default x : α) (hdef : t.convert text = .ok default) (d' : Dictionary)
    (hr : getPhysicalOr t key.toList text d = .ok (x, d')) :
    Inv m ((key.toList, t.toString x) :: asked) d'
      ∧ (WellFormed m → find m key.toList ≠ some marker → Param (find m) t.convert key default x) := by
  have hist := History.physicalOr t key.toList text h.hist hr
  constructor
  · unfold getPhysicalOr at hr
    dsimp only at hr
    split at hr
    · cases hr
    · cases hr
      exact inv_step h key.toList text _ hk (ht _) hist
  · intro hm hg
    have := c45_physical_partial h.hist t key.toList text hg
    rw [hr] at this
    dsimp only at this
    cases hf : find m key.toList with
    | none =>
      rw [hf, Option.getD_none, hdef] at this
      injection this with this
      exact Or.inl ⟨hf, this.symm⟩
    | some v => rw [hf] at this; exact Or.inr ⟨v, hf, this⟩

theorem value_origin {α : Type} (t : DataType α) (key : Str) (default x : α) (d d' : Dictionary) (hr : getValueOr t key default d = .ok (x, d')) :
    x = default ∨ ∃ text, t.convert text = .ok x := by
  unfold getValueOr at hr
  dsimp only at hr
  split at hr
  · cases hr
  · rename_i y hy
    cases hr
    split at hy
    · cases hy; exact Or.inl rfl
    · exact Or.inr ⟨_, hy⟩

theorem value_forth {m : Map} {asked : List (Str × Str)} {d : Dictionary} (h : Inv m asked d) {α : Type} (t : DataType α) (ht : Prints t) (key : String)
    (hk : ∃ groups name, Key key.toList groups name) (default x : α) (hm : WellFormed m) (hg : find m key.toList ≠ some marker)
    (hp : Param (find m) t.convert key default x) :
    ∃ d', getValueOr t key.toList default d = .ok (x, d') ∧ Inv m ((key.toList, t.toString x) :: asked) d' := by
  have he : find m key.toList ≠ some [] := fun h => (find_wellFormed hm h).1 rfl
  have := c45_value_partial h.hist t key.toList default hg he
  cases hr : getValueOr t key.toList default d with
  | error e =>
    rw [hr] at this
    obtain ⟨v, h1, h2⟩ := this
    rcases hp with ⟨h3, -⟩ | ⟨w, h3, h4⟩
    · rw [h3] at h1; cases h1
    · rw [h3] at h1; cases h1; rw [h4] at h2; cases h2
  | ok r =>
    obtain ⟨y, d'⟩ := r
    have hy := value_back h t ht key hk default y d' hr
    have : y = x := by
      rcases hy.2 hm hg with ⟨h1, h2⟩ | ⟨v, h1, h2⟩ <;> rcases hp with ⟨h3, h4⟩ | ⟨w, h3, h4⟩
      · rw [h2, h4]
      · rw [h1] at h3; cases h3
      · rw [h1] at h3; cases h3
      · rw [h1] at h3; cases h3; rw [h2] at h4; cases h4; rfl
    subst this
    exact ⟨d', rfl, hy.1⟩

theorem physical_forth {m : Map} {asked : List (Str × Str)} {d : Dictionary} (h : Inv m asked d) {α : Type} (t : DataType α) (ht : Prints t) (key : String)
    (hk : ∃ groups name, Key key.toList groups name) (text : Str) (default x : α) (hdef : t.convert text = .ok default) (hm : WellFormed m)
    (hg : find m key.toList ≠ some marker) (hp : Param (find m) t.convert key default x) :
    ∃ d', getPhysicalOr t key.toList text d = .ok (x, d') ∧ Inv m ((key.toList, t.toString x) :: asked) d' := by
  have := c45_physical_partial h.hist t key.toList text hg
  cases hr : getPhysicalOr t key.toList text d with
  | error e =>
    rw [hr] at this
    dsimp only at this
    rcases hp with ⟨h3, -⟩ | ⟨w, h3, h4⟩
    · rw [h3, Option.getD_none, hdef] at this; cases this
    · rw [h3, Option.getD_some, h4] at this; cases this
  | ok r =>
    obtain ⟨y, d'⟩ := r
    have hy := physical_back h t ht key hk text default y hdef d' hr
    have : y = x := by
      rcases hy.2 hm hg with ⟨h1, h2⟩ | ⟨v, h1, h2⟩ <;> rcases hp with ⟨h3, h4⟩ | ⟨w, h3, h4⟩
      · rw [h2, h4]
      · rw [h1] at h3; cases h3
      · rw [h1] at h3; cases h3
      · rw [h1] at h3; cases h3; rw [h2] at h4; cases h4; rfl
    subst this
    exact ⟨d', rfl, hy.1⟩

/-! ## the texts of values -/

/-- the characters of numbers -/
def numeric : List Char := "0123456789.eE+-".toList

theorem mem_numeric {d : Nat} (h : d < 10) : Text.Spec.digitChar d ∈ numeric := by
  revert h; revert d
  decide

theorem text_numeric (l : Text.Spec.Literal) (hl : l.Proper) (hb : l.blanks = []) : ∀ c ∈ l.text, c ∈ numeric := by
  obtain ⟨-, hw, hf, -, he⟩ := hl
  have hsign : ∀ s, ∀ c ∈ Text.Spec.signText s, c ∈ numeric := by
    intro s c hc
    cases s with
    | none => cases hc
    | some b => cases b <;> simp [Text.Spec.signText] at hc <;> subst hc <;> decide
  have hdig : ∀ ds : List Nat, (∀ d ∈ ds, d < 10) → ∀ c ∈ ds.map Text.Spec.digitChar, c ∈ numeric := by
    intro ds hds c hc
    obtain ⟨d, hd, rfl⟩ := List.mem_map.1 hc
    exact mem_numeric (hds d hd)
  intro c hc
  rw [Text.Spec.Literal.text, hb, List.nil_append] at hc
  rcases List.mem_append.1 hc with hc | hc
  · exact hsign _ c hc
  rcases List.mem_append.1 hc with hc | hc
  · exact hdig _ hw c hc
  rcases List.mem_append.1 hc with hc | hc
  · cases hx : l.frac with
    | none => rw [hx] at hc; cases hc
    | some f =>
      rw [hx, Text.Spec.fracText] at hc
      rcases List.mem_cons.1 hc with rfl | hc
      · decide
      · exact hdig _ (hf f hx) c hc
  · cases hx : l.exp with
    | none => rw [hx] at hc; cases hc
    | some x =>
      obtain ⟨u, s, ds⟩ := x
      rw [hx, Text.Spec.expText] at hc
      rcases List.mem_cons.1 hc with rfl | hc
      · cases u <;> decide
      rcases List.mem_append.1 hc with hc | hc
      · exact hsign _ c hc
      · exact hdig _ (he u s ds hx).2 c hc

theorem show_numeric (x : ℝ) : Text.showReal x ≠ [] ∧ ∀ c ∈ Text.showReal x, c ∈ numeric := by
  obtain ⟨l, hl, hb, -, ht, -⟩ := Text.show_literal x
  rw [← ht]
  refine ⟨?_, text_numeric l hl hb⟩
  intro h0
  have := Text.c97_literal l hl [] Text.stops_nil
  rw [h0] at this
  have h2 : Text.readReal ([] ++ []) = .none := by
    have : Text.readReal [] = .none := by
      unfold Text.readReal
      simp [Text.takeSign, Text.isSpecial, Text.takeDigits, Text.takeFraction]
    exact this
  rw [h2] at this
  cases this

theorem value_of_chars {s : Str} (hne : s ≠ []) (h : ∀ c ∈ s, c ≠ '#' ∧ c ≠ '\n') (h1 : ∀ c, s.head? = some c → c ≠ ' ' ∧ c ≠ '\t')
    (h2 : ∀ c, s.getLast? = some c → c ≠ ' ' ∧ c ≠ '\t') : Value s :=
  ⟨hne, fun hc => (h _ hc).1 rfl, fun hc => (h _ hc).2 rfl, fun c hc => hc.elim (h1 c) (h2 c)⟩

theorem numeric_clean : ∀ c ∈ numeric, c ≠ '#' ∧ c ≠ '\n' ∧ c ≠ ' ' ∧ c ≠ '\t' := by decide

theorem value_numeric {s : Str} (hne : s ≠ []) (h : ∀ c ∈ s, c ∈ numeric) : Value s :=
  value_of_chars hne (fun c hc => ⟨(numeric_clean c (h c hc)).1, (numeric_clean c (h c hc)).2.1⟩)
    (fun c hc => (numeric_clean c (h c (List.mem_of_mem_head? hc))).2.2)
    (fun c hc => (numeric_clean c (h c (List.mem_of_getLast? hc))).2.2)

theorem prints_real : Prints realType := fun x => value_numeric (show_numeric x).1 (show_numeric x).2

theorem prints_bool : Prints boolType := by
  intro b
  refine value_of_chars ?_ ?_ ?_ ?_ <;> cases b <;> simp [boolType, Text.showBool]

theorem prints_complex : Prints complexType := by
  intro z
  have h1 := show_numeric z.1
  have h2 := show_numeric z.2
  show Value (Text.showReal z.1 ++ (" + ".toList ++ (Text.showReal z.2 ++ ['i'])))
  refine value_of_chars (by simp) ?_ ?_ ?_
  · intro c hc
    rcases List.mem_append.1 hc with hc | hc
    · exact ⟨(numeric_clean c (h1.2 c hc)).1, (numeric_clean c (h1.2 c hc)).2.1⟩
    rcases List.mem_append.1 hc with hc | hc
    · rw [show " + ".toList = [' ', '+', ' '] from rfl] at hc
      fin_cases hc <;> decide
    rcases List.mem_append.1 hc with hc | hc
    · exact ⟨(numeric_clean c (h2.2 c hc)).1, (numeric_clean c (h2.2 c hc)).2.1⟩
    · rw [List.mem_singleton.1 hc]; decide
  · intro c hc
    rw [List.head?_append_of_ne_nil _ h1.1] at hc
    exact (numeric_clean c (h1.2 c (List.mem_of_mem_head? hc))).2.2
  · intro c hc
    rw [← List.append_assoc, ← List.append_assoc, List.getLast?_concat] at hc
    cases hc
    decide

theorem prints_physical (q : Units.Quantity) : Prints (physicalType q) := by
  intro x
  have h1 := show_numeric x
  have hu : (∀ c ∈ Units.siUnitName q, c ≠ '#' ∧ c ≠ '\n') ∧ Units.siUnitName q ≠ [] ∧ ∀ c, (Units.siUnitName q).getLast? = some c → c ≠ ' ' ∧ c ≠ '\t' := by
    have : (∀ c ∈ Units.siUnitName q, c ≠ '#' ∧ c ≠ '\n') ∧ Units.siUnitName q ≠ [] ∧ ∀ c ∈ (Units.siUnitName q).getLast?, c ≠ ' ' ∧ c ≠ '\t' := by
      cases q <;> decide
    exact ⟨this.1, this.2.1, fun c hc => this.2.2 c hc⟩
  show Value (Text.showReal x ++ (' ' :: Units.siUnitName q))
  refine value_of_chars (by simp) ?_ ?_ ?_
  · intro c hc
    rcases List.mem_append.1 hc with hc | hc
    · exact ⟨(numeric_clean c (h1.2 c hc)).1, (numeric_clean c (h1.2 c hc)).2.1⟩
    rcases List.mem_cons.1 hc with rfl | hc
    · decide
    · exact hu.1 c hc
  · intro c hc
    rw [List.head?_append_of_ne_nil _ h1.1] at hc
    exact (numeric_clean c (h1.2 c (List.mem_of_mem_head? hc))).2.2
  · intro c hc
    rw [List.getLast?_append_of_ne_nil _ (by simp), List.getLast?_cons_of_ne_nil hu.2.1] at hc
    exact hu.2.2 c hc

theorem showNat_numeric (n : Nat) : Text.showNat n ≠ [] ∧ ∀ c ∈ Text.showNat n, c ∈ numeric := by
  obtain ⟨ds, hne, hd, ht, -, -⟩ := Text.showNat_spec n
  rw [ht]
  refine ⟨by simpa using hne, ?_⟩
  intro c hc
  obtain ⟨d, h, rfl⟩ := List.mem_map.1 hc
  exact mem_numeric (hd d h)

theorem prints_count : Prints countType := by
  intro n
  have h := showNat_numeric n.natAbs
  show Value (Text.showInt n)
  unfold Text.showInt
  split
  · refine value_numeric (by simp) ?_
    intro c hc
    rcases List.mem_cons.1 hc with rfl | hc
    · decide
    · exact h.2 c hc
  · exact value_numeric h.1 h.2

/-! ## units of the defaults -/

theorem getUnit_name (name : List Char) (u : Units.Unit) (h : Units.singleUnit name = .ok u)
    (hk : Units.Known [(name, 1)] [(u, 1)]) : ∃ r, Units.getUnit name = .ok r ∧ r.value = u.value ∧ Units.Spec.dim r = Units.Spec.dim u := by
  have hw : Units.Spec.Writes ([] ++ (name ++ [])) [(name, 1)] :=
    .plain [] name [] [] (by intro c hc; cases hc) (Or.inl rfl) (.nil [] (by intro c hc; cases hc))
  rw [List.nil_append, List.append_nil] at hw
  obtain ⟨r, r1, r2⟩ := Units.c42_parse name _ _ (by simp) hw hk
  refine ⟨r, r1, ?_, ?_⟩
  · rw [r2.1]; simp
  · rw [r2.2]; simp

theorem toSI_length (x : ℝ) : Units.toSI .length x "micron".toList = .ok (x / 10 ^ 6) := by
  obtain ⟨r, r1, r2, r3⟩ := getUnit_name "micron".toList ⟨1e-6, 1, 0, 0, 0, 0, 0⟩ rfl (.cons ⟨rfl, rfl, by decide, by decide, by decide⟩ .nil)
  obtain ⟨u, h1, h2, h3⟩ := Units.c42_si .length
  rw [Units.toSI, h1, r1]
  have : u.sameQuantity r = true := by
    rw [Units.sameQuantity_iff, h3, r3]
    funext i; fin_cases i <;> rfl
  simp only [this, Bool.not_true, Bool.false_eq_true, if_false, Units.Unit.times, r2]
  congr 1
  norm_num
  ring

theorem toSI_angle (x : ℝ) : Units.toSI .angle x "degrees".toList = .ok (x * (Real.pi / 180)) := by
  obtain ⟨r, r1, r2, r3⟩ := getUnit_name "degrees".toList ⟨Real.pi / 180, 0, 0, 0, 0, 0, 1⟩ rfl (.cons ⟨rfl, rfl, by decide, by decide, by decide⟩ .nil)
  obtain ⟨u, h1, h2, h3⟩ := Units.c42_si .angle
  rw [Units.toSI, h1, r1]
  have : u.sameQuantity r = true := by
    rw [Units.sameQuantity_iff, h3, r3]
    funext i; fin_cases i <;> rfl
  simp only [this, Bool.not_true, Bool.false_eq_true, if_false, Units.Unit.times, r2]

/-- whole numbers with a point -/
theorem default_text (q : Units.Quantity) (ds fs : List Nat) (hds : ds ≠ []) (h : ∀ d ∈ ds, d < 10) (hf : ∀ d ∈ fs, d < 10) (unit : List Char)
    (hu : Text.Spec.Stops unit) (hu' : unit.head? ≠ some ' ') :
    Text.convertPhysical q (ds.map Text.Spec.digitChar ++ '.' :: (fs.map Text.Spec.digitChar ++ ' ' :: unit))
      = Units.toSI q (Text.Spec.value 10 ds + Text.Spec.value 10 fs / 10 ^ fs.length) unit := by
  have := Text.c97_unit q ⟨[], none, ds, some fs, none⟩ ⟨by simp, h, by simpa using hf, Or.inl hds, by simp⟩ 1 unit hu hu' (by norm_num)
  simp only [Text.Spec.Literal.text, Text.Spec.signText, Text.Spec.fracText, Text.Spec.expText, Text.Spec.Literal.number, Text.Spec.expValue] at this
  simp only [List.nil_append, List.append_nil, List.append_assoc, List.cons_append, List.replicate_one, Option.getD_some] at this
  rw [this, if_neg (by simp), one_mul, zpow_zero, mul_one]

theorem stops_micron : Text.Spec.Stops "micron".toList := by
  intro c r h
  rw [show "micron".toList = 'm' :: "icron".toList from rfl] at h
  cases h
  decide

theorem stops_degrees : Text.Spec.Stops "degrees".toList := by
  intro c r h
  rw [show "degrees".toList = 'd' :: "egrees".toList from rfl] at h
  cases h
  decide

theorem default_size : (physicalType .length).convert "10. micron".toList = .ok (10 / 10 ^ 6) := by
  rw [show ∀ q s, (physicalType q).convert s = Text.convertPhysical q s from fun _ _ => rfl]
  have := default_text .length [1, 0] [] (by simp) (by simp) (by simp) "micron".toList stops_micron (by decide)
  rw [show "10. micron".toList = [1, 0].map Text.Spec.digitChar ++ '.' :: (([] : List Nat).map Text.Spec.digitChar ++ ' ' :: "micron".toList) from rfl, this,
    toSI_length]
  norm_num [Text.Spec.value]

theorem default_wavelength : (physicalType .length).convert "6.283185307 micron".toList = .ok (6.283185307 / 10 ^ 6) := by
  rw [show ∀ q s, (physicalType q).convert s = Text.convertPhysical q s from fun _ _ => rfl]
  have := default_text .length [6] [2, 8, 3, 1, 8, 5, 3, 0, 7] (by simp) (by simp) (by simp) "micron".toList stops_micron (by decide)
  rw [show "6.283185307 micron".toList = [6].map Text.Spec.digitChar ++ '.' :: (([2, 8, 3, 1, 8, 5, 3, 0, 7] : List Nat).map Text.Spec.digitChar
    ++ ' ' :: "micron".toList) from rfl, this, toSI_length]
  norm_num [Text.Spec.value]

theorem default_angle (ds : List Nat) (hne : ds ≠ []) (h : ∀ d ∈ ds, d < 10) :
    Text.convertPhysical .angle (ds.map Text.Spec.digitChar ++ ". degrees".toList) = .ok (Text.Spec.value 10 ds * (Real.pi / 180)) := by
  have := default_text .angle ds [] hne h (by simp) "degrees".toList stops_degrees (by decide)
  rw [show ". degrees".toList = '.' :: (([] : List Nat).map Text.Spec.digitChar ++ ' ' :: "degrees".toList) from rfl, this, toSI_angle]
  norm_num [Text.Spec.value]

theorem angle145 : (physicalType .angle).convert "145. degrees".toList = .ok (145 * (Real.pi / 180)) := by
  rw [show ∀ q s, (physicalType q).convert s = Text.convertPhysical q s from fun _ _ => rfl]
  rw [show "145. degrees".toList = [1, 4, 5].map Text.Spec.digitChar ++ ". degrees".toList from rfl, default_angle _ (by simp) (by simp)]
  norm_num [Text.Spec.value]
theorem angle52 : (physicalType .angle).convert "52. degrees".toList = .ok (52 * (Real.pi / 180)) := by
  rw [show ∀ q s, (physicalType q).convert s = Text.convertPhysical q s from fun _ _ => rfl]
  rw [show "52. degrees".toList = [5, 2].map Text.Spec.digitChar ++ ". degrees".toList from rfl, default_angle _ (by simp) (by simp)]
  norm_num [Text.Spec.value]
theorem angle56 : (physicalType .angle).convert "56. degrees".toList = .ok (56 * (Real.pi / 180)) := by
  rw [show ∀ q s, (physicalType q).convert s = Text.convertPhysical q s from fun _ _ => rfl]
  rw [show "56. degrees".toList = [5, 6].map Text.Spec.digitChar ++ ". degrees".toList from rfl, default_angle _ (by simp) (by simp)]
  norm_num [Text.Spec.value]
theorem angle114 : (physicalType .angle).convert "114. degrees".toList = .ok (114 * (Real.pi / 180)) := by
  rw [show ∀ q s, (physicalType q).convert s = Text.convertPhysical q s from fun _ _ => rfl]
  rw [show "114. degrees".toList = [1, 1, 4].map Text.Spec.digitChar ++ ". degrees".toList from rfl, default_angle _ (by simp) (by simp)]
  norm_num [Text.Spec.value]
theorem angle65 : (physicalType .angle).convert "65. degrees".toList = .ok (65 * (Real.pi / 180)) := by
  rw [show ∀ q s, (physicalType q).convert s = Text.convertPhysical q s from fun _ _ => rfl]
  rw [show "65. degrees".toList = [6, 5].map Text.Spec.digitChar ++ ". degrees".toList from rfl, default_angle _ (by simp) (by simp)]
  norm_num [Text.Spec.value]
theorem angle128 : (physicalType .angle).convert "128. degrees".toList = .ok (128 * (Real.pi / 180)) := by
  rw [show ∀ q s, (physicalType q).convert s = Text.convertPhysical q s from fun _ _ => rfl]
  rw [show "128. degrees".toList = [1, 2, 8].map Text.Spec.digitChar ++ ". degrees".toList from rfl, default_angle _ (by simp) (by simp)]
  norm_num [Text.Spec.value]

/-! ## all queries -/

/-- the texts in the list of used values -/
noncomputable def texts (p : Params) (equal : Bool) : List (Str × Str) :=
  [("Radiation:outgoing phi".toList, Text.showPhysical .angle p.phiOut),
   ("Radiation:outgoing theta".toList, Text.showPhysical .angle p.thetaOut),
   ("Radiation:incoming phi".toList, Text.showPhysical .angle p.phiIn),
   ("Radiation:incoming theta".toList, Text.showPhysical .angle p.thetaIn),
   ("DustParticle:beta angle".toList, Text.showPhysical .angle p.beta),
   ("DustParticle:alpha angle".toList, Text.showPhysical .angle p.alpha),
   ("Calculation:maximum number of Gauss Legendre points".toList, Text.showInt p.maximumPoints),
   ("Calculation:maximum order".toList, Text.showInt p.maximumOrder),
   ("Calculation:Gauss Legendre factor".toList, Text.showInt p.factor),
   ("Calculation:tolerance".toList, Text.showReal p.tolerance),
   ("Radiation:incoming wavelength".toList, Text.showPhysical .length p.wavelength),
   ("DustParticle:axis ratio".toList, Text.showReal p.axisRatio),
   ("DustParticle:refractive index".toList, Text.showComplex p.index),
   ("DustParticle:is equal volume sphere radius".toList, Text.showBool equal),
   ("DustParticle:size".toList, Text.showPhysical .length p.size)]

theorem key_of (a b : String) (h : (':' ∉ a.toList ∧ ':' ∉ b.toList) ∧ ('#' ∉ a.toList ++ b.toList ∧ '\n' ∉ a.toList ++ b.toList)
    ∧ (∀ c ∈ a.toList.head?, c ≠ ' ' ∧ c ≠ '\t') ∧ (∀ c ∈ a.toList.getLast?, c ≠ ' ' ∧ c ≠ '\t') ∧ (∀ c ∈ b.toList.head?, c ≠ ' ' ∧ c ≠ '\t')
    ∧ (∀ c ∈ b.toList.getLast?, c ≠ ' ' ∧ c ≠ '\t')) : ∃ groups name, Key (a.toList ++ ':' :: b.toList) groups name := by
  obtain ⟨⟨h1, h2⟩, ⟨h3, h4⟩, h5, h6, h7, h8⟩ := h
  refine ⟨[a.toList], b.toList, ?_, ?_⟩
  · simp [List.intercalate]
  · intro p hp
    simp only [List.singleton_append, List.mem_cons, List.not_mem_nil, or_false] at hp
    rw [List.mem_append] at h3 h4
    push Not at h3 h4
    rcases hp with rfl | rfl
    · exact ⟨h1, h3.1, h4.1, fun c hc => hc.elim (h5 c) (h6 c)⟩
    · exact ⟨h2, h3.2, h4.2, fun c hc => hc.elim (h7 c) (h8 c)⟩

theorem key_size : ∃ g n, Key "DustParticle:size".toList g n := key_of "DustParticle" "size" (by decide)
theorem key_equal : ∃ g n, Key "DustParticle:is equal volume sphere radius".toList g n := key_of "DustParticle" "is equal volume sphere radius" (by decide)
theorem key_index : ∃ g n, Key "DustParticle:refractive index".toList g n := key_of "DustParticle" "refractive index" (by decide)
theorem key_axis : ∃ g n, Key "DustParticle:axis ratio".toList g n := key_of "DustParticle" "axis ratio" (by decide)
theorem key_wavelength : ∃ g n, Key "Radiation:incoming wavelength".toList g n := key_of "Radiation" "incoming wavelength" (by decide)
theorem key_tolerance : ∃ g n, Key "Calculation:tolerance".toList g n := key_of "Calculation" "tolerance" (by decide)
theorem key_factor : ∃ g n, Key "Calculation:Gauss Legendre factor".toList g n := key_of "Calculation" "Gauss Legendre factor" (by decide)
theorem key_order : ∃ g n, Key "Calculation:maximum order".toList g n := key_of "Calculation" "maximum order" (by decide)
theorem key_points : ∃ g n, Key "Calculation:maximum number of Gauss Legendre points".toList g n :=
  key_of "Calculation" "maximum number of Gauss Legendre points" (by decide)
theorem key_alpha : ∃ g n, Key "DustParticle:alpha angle".toList g n := key_of "DustParticle" "alpha angle" (by decide)
theorem key_beta : ∃ g n, Key "DustParticle:beta angle".toList g n := key_of "DustParticle" "beta angle" (by decide)
theorem key_thetaIn : ∃ g n, Key "Radiation:incoming theta".toList g n := key_of "Radiation" "incoming theta" (by decide)
theorem key_phiIn : ∃ g n, Key "Radiation:incoming phi".toList g n := key_of "Radiation" "incoming phi" (by decide)
theorem key_thetaOut : ∃ g n, Key "Radiation:outgoing theta".toList g n := key_of "Radiation" "outgoing theta" (by decide)
theorem key_phiOut : ∃ g n, Key "Radiation:outgoing phi".toList g n := key_of "Radiation" "outgoing phi" (by decide)

/-- values of an unsigned type are in its range -/
theorem count_range (n : Int) (h : ∃ text, countType.convert text = .ok n) : 0 ≤ n ∧ n < 2 ^ 64 := by
  obtain ⟨text, h⟩ := h
  have h : Text.stringToInteger ⟨64, false⟩ text = .ok n := h
  have key : ∀ a b : Int, ∀ n, Text.IntType.mul ⟨64, false⟩ a b = .ok n → 0 ≤ n ∧ n < 2 ^ 64 := by
    intro a b n h
    unfold Text.IntType.mul at h
    rw [if_neg (by simp), if_neg (by simp)] at h
    injection h with h
    rw [← h, Text.IntType.wrap, if_neg (by simp)]
    exact ⟨Int.emod_nonneg _ (by norm_num), Int.emod_lt_of_pos _ (by norm_num)⟩
  unfold Text.stringToInteger at h
  split at h
  · cases h
  · dsimp only at h
    split at h
    · cases h
    · simp only [bind, Except.bind] at h
      split at h <;> split at h <;> split at h <;> first | exact key _ _ _ h | cases h

theorem params_back (m : Map) (hm : WellFormed m) (p : Params) (d : Dictionary) (h : readParams ⟨m, []⟩ = .ok (p, d)) :
    (∃ b, p.ratio = (if b then 1 else 1 / 10) ∧ Inv m (texts p b) d) ∧ ((∀ k, find m k ≠ some marker) → Parameters (find m) p)
      ∧ (0 ≤ p.factor ∧ p.factor < 2 ^ 64) ∧ (0 ≤ p.maximumOrder ∧ p.maximumOrder < 2 ^ 64) ∧ (0 ≤ p.maximumPoints ∧ p.maximumPoints < 2 ^ 64) := by
  have h0 := inv_start m hm
  unfold readParams at h
  split at h
  · cases h
  rename_i size d1 e1
  have i1 := physical_back h0 _ (prints_physical _) _ key_size _ _ _ default_size _ e1
  split at h
  · cases h
  rename_i equal d2 e2
  have i2 := value_back i1.1 _ prints_bool _ key_equal _ _ _ e2
  split at h
  · cases h
  rename_i index d3 e3
  have i3 := value_back i2.1 _ prints_complex _ key_index _ _ _ e3
  split at h
  · cases h
  rename_i axisRatio d4 e4
  have i4 := value_back i3.1 _ prints_real _ key_axis _ _ _ e4
  split at h
  · cases h
  rename_i wavelength d5 e5
  have i5 := physical_back i4.1 _ (prints_physical _) _ key_wavelength _ _ _ default_wavelength _ e5
  split at h
  · cases h
  rename_i tolerance d6 e6
  have i6 := value_back i5.1 _ prints_real _ key_tolerance _ _ _ e6
  split at h
  · cases h
  rename_i factor d7 e7
  have i7 := value_back i6.1 _ prints_count _ key_factor _ _ _ e7
  split at h
  · cases h
  rename_i maximumOrder d8 e8
  have i8 := value_back i7.1 _ prints_count _ key_order _ _ _ e8
  split at h
  · cases h
  rename_i maximumPoints d9 e9
  have i9 := value_back i8.1 _ prints_count _ key_points _ _ _ e9
  split at h
  · cases h
  rename_i alpha d10 e10
  have i10 := physical_back i9.1 _ (prints_physical _) _ key_alpha _ _ _ angle145 _ e10
  split at h
  · cases h
  rename_i beta d11 e11
  have i11 := physical_back i10.1 _ (prints_physical _) _ key_beta _ _ _ angle52 _ e11
  split at h
  · cases h
  rename_i thetaIn d12 e12
  have i12 := physical_back i11.1 _ (prints_physical _) _ key_thetaIn _ _ _ angle56 _ e12
  split at h
  · cases h
  rename_i phiIn d13 e13
  have i13 := physical_back i12.1 _ (prints_physical _) _ key_phiIn _ _ _ angle114 _ e13
  split at h
  · cases h
  rename_i thetaOut d14 e14
  have i14 := physical_back i13.1 _ (prints_physical _) _ key_thetaOut _ _ _ angle65 _ e14
  split at h
  · cases h
  rename_i phiOut d15 e15
  have i15 := physical_back i14.1 _ (prints_physical _) _ key_phiOut _ _ _ angle128 _ e15
  injection h with h
  injection h with hp hd
  subst hd
  subst hp
  have range : ∀ {n dflt : Int}, 0 ≤ dflt ∧ dflt < 2 ^ 64 → (n = dflt ∨ ∃ text, countType.convert text = .ok n) → 0 ≤ n ∧ n < 2 ^ 64 := by
    rintro n dflt h1 (rfl | h2)
    · exact h1
    · exact count_range n h2
  refine ⟨⟨equal, by cases equal <;> simp [ratioOf], i15.1⟩, fun hg => ?_, range (by norm_num) (value_origin _ _ _ _ _ _ e7),
    range (by norm_num) (value_origin _ _ _ _ _ _ e8), range (by norm_num) (value_origin _ _ _ _ _ _ e9)⟩
  exact
    { size := i1.2 hm (hg _)
      ratio := ⟨equal, i2.2 hm (hg _), by cases equal <;> simp [ratioOf]⟩
      index := by have := i3.2 hm (hg _); norm_num at this ⊢; exact this
      axisRatio := by have := i4.2 hm (hg _); norm_num at this ⊢; exact this
      wavelength := i5.2 hm (hg _)
      tolerance := by have := i6.2 hm (hg _); norm_num at this ⊢; exact this
      factor := i7.2 hm (hg _)
      maximumOrder := i8.2 hm (hg _)
      maximumPoints := i9.2 hm (hg _)
      alpha := i10.2 hm (hg _)
      beta := i11.2 hm (hg _)
      thetaIn := i12.2 hm (hg _)
      phiIn := i13.2 hm (hg _)
      thetaOut := i14.2 hm (hg _)
      phiOut := i15.2 hm (hg _) }

theorem params_forth (m : Map) (hm : WellFormed m) (hg : ∀ k, find m k ≠ some marker) (p : Params) (h : Parameters (find m) p) :
    ∃ d, readParams ⟨m, []⟩ = .ok (p, d) := by
  have h0 := inv_start m hm
  obtain ⟨b, hb, hr⟩ := h.ratio
  obtain ⟨d1, e1, i1⟩ := physical_forth h0 (physicalType .length) (prints_physical _) _ key_size _ _ _ default_size hm (hg _) h.size
  obtain ⟨d2, e2, i2⟩ := value_forth i1 boolType prints_bool _ key_equal _ _ hm (hg _) hb
  obtain ⟨d3, e3, i3⟩ := value_forth i2 complexType prints_complex _ key_index _ _ hm (hg _) h.index
  obtain ⟨d4, e4, i4⟩ := value_forth i3 realType prints_real _ key_axis _ _ hm (hg _) h.axisRatio
  obtain ⟨d5, e5, i5⟩ := physical_forth i4 (physicalType .length) (prints_physical _) _ key_wavelength _ _ _ default_wavelength hm (hg _) h.wavelength
  obtain ⟨d6, e6, i6⟩ := value_forth i5 realType prints_real _ key_tolerance _ _ hm (hg _) h.tolerance
  obtain ⟨d7, e7, i7⟩ := value_forth i6 countType prints_count _ key_factor _ _ hm (hg _) h.factor
  obtain ⟨d8, e8, i8⟩ := value_forth i7 countType prints_count _ key_order _ _ hm (hg _) h.maximumOrder
  obtain ⟨d9, e9, i9⟩ := value_forth i8 countType prints_count _ key_points _ _ hm (hg _) h.maximumPoints
  obtain ⟨d10, e10, i10⟩ := physical_forth i9 (physicalType .angle) (prints_physical _) _ key_alpha _ _ _ angle145 hm (hg _) h.alpha
  obtain ⟨d11, e11, i11⟩ := physical_forth i10 (physicalType .angle) (prints_physical _) _ key_beta _ _ _ angle52 hm (hg _) h.beta
  obtain ⟨d12, e12, i12⟩ := physical_forth i11 (physicalType .angle) (prints_physical _) _ key_thetaIn _ _ _ angle56 hm (hg _) h.thetaIn
  obtain ⟨d13, e13, i13⟩ := physical_forth i12 (physicalType .angle) (prints_physical _) _ key_phiIn _ _ _ angle114 hm (hg _) h.phiIn
  obtain ⟨d14, e14, i14⟩ := physical_forth i13 (physicalType .angle) (prints_physical _) _ key_thetaOut _ _ _ angle65 hm (hg _) h.thetaOut
  obtain ⟨d15, e15, -⟩ := physical_forth i14 (physicalType .angle) (prints_physical _) _ key_phiOut _ _ _ angle128 hm (hg _) h.phiOut
  have c3 : ((15 / 10, 2 / 100) : ℝ × ℝ) = (1.5, 0.02) := by norm_num
  have c4 : (1 / 2 : ℝ) = 0.5 := by norm_num
  have c6 : (1 / 10 ^ 4 : ℝ) = 0.0001 := by norm_num
  refine ⟨d15, ?_⟩
  unfold readParams
  simp only [c3, c4, c6, e1, e2, e3, e4, e5, e6, e7, e8, e9, e10, e11, e12, e13, e14, e15]
  have : ratioOf b = p.ratio := by rw [hr]; cases b <;> simp [ratioOf]
  rw [this]

end Verif.Program
