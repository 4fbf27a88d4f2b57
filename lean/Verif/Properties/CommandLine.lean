import Verif.Spec.CommandLine
import Verif.Proofs.Yaml
import Mathlib.Data.List.Induction
import Mathlib.Data.List.Pairwise

/-!
# Command line parsing (C46)
-/
namespace Verif.CommandLine

open Spec
open Verif.Text (Failure cut)
open Verif.Yaml (Str Map find assign find_assign assign_sorted cut_spec cut_none find_nil)

/-! ## options and values -/

theorem matches_iff (o : CommandOption) (name : Str) : o.matches name = true ↔ Names o name := by
  unfold CommandOption.matches Names
  simp

theorem find_iff (options : List CommandOption) (name : Str) (o : CommandOption) :
    options.find? (·.matches name) = some o ↔ First options name o := by
  rw [List.find?_eq_some_iff_append]
  unfold First
  constructor
  · rintro ⟨h1, a, b, h2, h3⟩
    refine ⟨a, b, h2, (matches_iff _ _).mp h1, ?_⟩
    intro x hx hn
    have := h3 x hx
    rw [(matches_iff x name).mpr hn] at this
    simp at this
  · rintro ⟨a, b, h1, h2, h3⟩
    refine ⟨(matches_iff _ _).mpr h2, a, b, h1, ?_⟩
    intro x hx
    have := h3 x hx
    rw [← matches_iff] at this
    simpa using this

theorem first_unique {options : List CommandOption} {name : Str} {o o' : CommandOption} (h : First options name o)
    (h' : First options name o') : o = o' := by
  rw [← find_iff] at h h'
  rw [h] at h'
  injection h'

theorem first_mem {options : List CommandOption} {name : Str} {o : CommandOption} (h : First options name o) : o ∈ options := by
  obtain ⟨a, b, rfl, _⟩ := h
  simp

theorem normal_iff (real : Str → Except Failure Str) (t : ArgumentType) (s v : Str) : normal real t s = .ok v ↔ Normal real t s v := by
  unfold normal Normal
  cases t with
  | none =>
    dsimp only
    cases Text.convertBool s with
    | error e => simp
    | ok b => simp [eq_comm]
  | int =>
    dsimp only
    cases Text.stringToInteger intFast32 s with
    | error e => simp
    | ok b => simp [eq_comm]
  | double => exact Iff.rfl
  | string => simp [eq_comm]

theorem given_iff (real : Str → Except Failure Str) (o : CommandOption) (argument v : Str) :
    o.parseArgument real argument = .ok v ↔ Given real o argument v := by
  unfold CommandOption.parseArgument Given
  cases ho : o.argument with
  | none => simp [eq_comm]
  | _ =>
    dsimp only
    conv_rhs => rw [if_neg (by simp)]
    by_cases ha : argument = []
    · subst ha
      rw [if_neg (by simp), if_pos rfl]
      exact normal_iff _ _ _ _
    · rw [if_neg ha, if_pos ha]
      exact normal_iff _ _ _ _

theorem default_iff (real : Str → Except Failure Str) (o : CommandOption) (v : Str) : o.defaultValue real = .ok v ↔ Default real o v := by
  unfold CommandOption.defaultValue Default
  split
  · simp [eq_comm]
  · exact normal_iff _ _ _ _

/-- the names of the options are different, and only the first is the help option -/
theorem registered_names {options : List CommandOption} (h : Registered options) :
    options.Pairwise (fun a b => a.name ≠ b.name) ∧ options.head? = some ⟨"help".toList, 'h', .none, "false".toList, false⟩ := by
  induction h with
  | start => exact ⟨List.pairwise_singleton _ _, rfl⟩
  | @add options options' o _ ho ih =>
    unfold addOption at ho
    split at ho
    · cases ho
    · split at ho
      · injection ho with ho
        rw [← ho]
        exact ih
      · rename_i hany
        injection ho with ho
        subst ho
        refine ⟨?_, ?_⟩
        · rw [List.pairwise_append]
          refine ⟨ih.1, by simp, ?_⟩
          intro a ha b hb e
          rw [List.mem_singleton.mp hb] at e
          apply hany
          rw [List.any_eq_true]
          exact ⟨a, ha, by simpa using e⟩
        · rw [List.head?_append, ih.2]
          rfl

theorem names_eq {options : List CommandOption} (h : options.Pairwise (fun a b => a.name ≠ b.name)) {o o' : CommandOption}
    (ho : o ∈ options) (ho' : o' ∈ options) (e : o.name = o'.name) : o = o' := by
  by_contra hne
  have hs : Std.Symm (fun a b : CommandOption => a.name ≠ b.name) := ⟨fun a b h => Ne.symm h⟩
  exact h.forall ho ho' hne e

/-! ## the arguments -/

theorem drop_hyphens (k : Nat) (name : Str) (h : name.head? ≠ some '-') : (hyphens k ++ name).dropWhile (· = '-') = name := by
  unfold hyphens
  rw [List.dropWhile_append_of_pos (by
    intro c hc
    rw [List.eq_of_mem_replicate hc]
    rfl)]
  cases name with
  | nil => rfl
  | cons c r =>
    rw [List.dropWhile_cons, if_neg]
    intro e
    rw [decide_eq_true_eq] at e
    exact h (by rw [e]; rfl)

theorem not_mem_hyphens (k : Nat) (name : Str) (h : '=' ∉ name) : '=' ∉ hyphens k ++ name := by
  intro hm
  rcases List.mem_append.mp hm with hm | hm
  · exact absurd (List.eq_of_mem_replicate hm) (by decide)
  · exact h hm

theorem head_hyphens (k : Nat) (s : Str) : (hyphens k ++ s).head? = some '-' := rfl

theorem split_equals (k : Nat) (name v : Str) (rest : List Str) (h1 : '=' ∉ name) (h2 : name.head? ≠ some '-') :
    splitArgument (hyphens k ++ name ++ ['='] ++ v) rest = (name, v, rest) := by
  unfold splitArgument
  rw [List.append_assoc (hyphens k ++ name), List.singleton_append, cut_spec '=' _ _ (not_mem_hyphens k name h1)]
  dsimp only
  rw [drop_hyphens k name h2]

theorem split_separate (k : Nat) (name b : Str) (rest : List Str) (h1 : '=' ∉ name) (h2 : name.head? ≠ some '-')
    (h3 : b.head? ≠ some '-') : splitArgument (hyphens k ++ name) (b :: rest) = (name, b, rest) := by
  unfold splitArgument
  rw [cut_none '=' _ (not_mem_hyphens k name h1)]
  dsimp only
  rw [if_pos h3, drop_hyphens k name h2]

theorem split_alone (k : Nat) (name : Str) (rest : List Str) (h1 : '=' ∉ name) (h2 : name.head? ≠ some '-')
    (h3 : ∀ b, rest.head? = some b → b.head? = some '-') : splitArgument (hyphens k ++ name) rest = (name, [], rest) := by
  unfold splitArgument
  rw [cut_none '=' _ (not_mem_hyphens k name h1)]
  cases rest with
  | nil =>
    dsimp only
    rw [drop_hyphens k name h2]
  | cons b r =>
    dsimp only
    rw [if_neg (by rw [h3 b rfl]; simp), drop_hyphens k name h2]

/-- every text that starts with a hyphen -/
theorem hyphens_split (s : Str) (h : s.head? = some '-') : ∃ k name, s = hyphens k ++ name ∧ name.head? ≠ some '-' := by
  have hs := List.takeWhile_append_dropWhile (p := (fun c : Char => decide (c = '-'))) (l := s)
  have hrep : ∀ c ∈ s.takeWhile (fun c => decide (c = '-')), c = '-' := fun c hc => by
    have := List.mem_takeWhile_imp hc
    simpa using this
  have hne : s.takeWhile (fun c => decide (c = '-')) ≠ [] := by
    cases s with
    | nil => cases h
    | cons c r =>
      injection h with h
      rw [h]
      simp
  have hlen := List.length_pos_of_ne_nil hne
  refine ⟨(s.takeWhile (fun c => decide (c = '-'))).length - 1, s.dropWhile (fun c => decide (c = '-')), ?_, ?_⟩
  · conv_lhs => rw [← hs]
    congr 1
    unfold hyphens
    rw [Nat.sub_add_cancel hlen]
    exact List.eq_replicate_of_mem hrep
  · intro e
    have hd : s.dropWhile (fun c => decide (c = '-')) ≠ [] := by
      intro e'
      rw [e'] at e
      cases e
    have := List.head_dropWhile_not (fun c : Char => decide (c = '-')) hd
    rw [List.head?_eq_some_head hd] at e
    injection e with e
    rw [e] at this
    simp at this

/-- the first argument, if it is an option and not a request for help -/
theorem items_cons (a : Str) (rest : List Str) (items : List (Str × Str)) (h1 : a.head? = some '-')
    (h2 : ¬ (a = "--help".toList ∨ a = "-h".toList)) (h3 : Items (splitArgument a rest).2.2 items) :
    Items (a :: rest) (((splitArgument a rest).1, (splitArgument a rest).2.1) :: items) := by
  rw [not_or] at h2
  by_cases he : '=' ∈ a
  · obtain ⟨u, v, rfl, hu⟩ : ∃ u v, a = u ++ '=' :: v ∧ '=' ∉ u := by
      have hc := List.takeWhile_append_dropWhile (p := (fun c : Char => decide (c ≠ '='))) (l := a)
      have hd : a.dropWhile (fun c => decide (c ≠ '=')) ≠ [] := by
        rw [Ne, List.dropWhile_eq_nil_iff]
        intro hx
        have := hx '=' he
        simp at this
      obtain ⟨x, v, hxv⟩ := List.exists_cons_of_ne_nil hd
      have hx := List.head_dropWhile_not (fun c : Char => decide (c ≠ '=')) hd
      simp only [hxv, List.head_cons] at hx
      have hx' : x = '=' := by simpa using hx
      refine ⟨a.takeWhile (fun c => decide (c ≠ '=')), v, ?_, ?_⟩
      · conv_lhs => rw [← hc, hxv, hx']
      · intro hm
        have := List.mem_takeWhile_imp hm
        simp at this
    have hu1 : u.head? = some '-' := by
      cases u with
      | nil => simp at h1
      | cons c r => exact h1
    obtain ⟨k, name, rfl, hname⟩ := hyphens_split u hu1
    have hn : '=' ∉ name := fun hm => hu (List.mem_append_right _ hm)
    have e : hyphens k ++ name ++ '=' :: v = hyphens k ++ name ++ ['='] ++ v := by simp
    rw [e] at h3 ⊢
    rw [split_equals k name v rest hn hname] at h3 ⊢
    exact Items.equals hn hname h3
  · obtain ⟨k, name, rfl, hname⟩ := hyphens_split a h1
    have hn : '=' ∉ name := fun hm => he (List.mem_append_right _ hm)
    cases rest with
    | nil =>
      have h4 : ∀ b, ([] : List Str).head? = some b → b.head? = some '-' := fun b hb => by cases hb
      rw [split_alone k name [] hn hname h4] at h3 ⊢
      exact Items.alone hn hname h2.1 h2.2 h4 h3
    | cons b r =>
      by_cases hb : b.head? = some '-'
      · have h4 : ∀ x, (b :: r).head? = some x → x.head? = some '-' := fun x hx => by
          injection hx with hx
          rw [← hx]
          exact hb
        rw [split_alone k name (b :: r) hn hname h4] at h3 ⊢
        exact Items.alone hn hname h2.1 h2.2 h4 h3
      · rw [split_separate k name b r hn hname hb] at h3 ⊢
        exact Items.separate hn hname h2.1 h2.2 hb h3

/-! ## the loop -/

/-- what an item does to the dictionary -/
def setItem (real : Str → Except Failure Str) (options : List CommandOption) (d : Map) (i : Str × Str) : Map :=
  match options.find? (·.matches i.1) with
  | none => d
  | some o =>
    match o.parseArgument real i.2 with
    | .error _ => d
    | .ok v => assign o.name v d

/-- all options before an option, or before the end -/
theorem loop_items (real : Str → Except Failure Str) (options : List CommandOption) {a : List Str} {items : List (Str × Str)}
    (h : Items a items) (b : List Str) (hb : ∀ x, b.head? = some x → x.head? = some '-') (hk : Known real options items) :
    ∀ d, parseLoop real options (a ++ b) d = parseLoop real options b (items.foldl (setItem real options) d) := by
  have step : ∀ (x : Str) (rest rest' : List Str) (i : Str × Str) (d : Map), x.head? = some '-' →
      ¬ (x = "--help".toList ∨ x = "-h".toList) → splitArgument x rest = (i.1, i.2, rest') →
      (∃ o v, First options i.1 o ∧ Given real o i.2 v ∧ v ≠ []) →
      parseLoop real options (x :: rest) d = parseLoop real options rest' (setItem real options d i) := by
    intro x rest rest' i d h1 h2 h3 h4
    obtain ⟨o, v, h4, h5, h6⟩ := h4
    rw [parseLoop, if_neg (by simpa using h1), if_neg h2, h3]
    dsimp only
    unfold setItem
    rw [(find_iff _ _ _).mpr h4]
    dsimp only
    rw [(given_iff _ _ _ _).mpr h5]
    dsimp only
    rw [if_neg h6]
  induction h with
  | nil => intro d; rfl
  | @equals k name v rest items h1 h2 _ ih =>
    intro d
    rw [List.cons_append, step _ (rest ++ b) (rest ++ b) (name, v) d rfl ?_ (split_equals k name v _ h1 h2) (hk _ List.mem_cons_self)]
    · exact ih (fun i hi => hk i (List.mem_cons_of_mem _ hi)) _
    · rintro (e | e)
      · have : '=' ∈ "--help".toList := by rw [← e]; simp
        revert this
        decide
      · have : '=' ∈ "-h".toList := by rw [← e]; simp
        revert this
        decide
  | @separate k name x rest items h1 h2 h3 h4 h5 _ ih =>
    intro d
    rw [List.cons_append, List.cons_append, step _ (x :: (rest ++ b)) (rest ++ b) (name, x) d rfl (not_or.mpr ⟨h3, h4⟩)
      (split_separate k name x _ h1 h2 h5) (hk _ List.mem_cons_self)]
    exact ih (fun i hi => hk i (List.mem_cons_of_mem _ hi)) _
  | @alone k name rest items h1 h2 h3 h4 h5 _ ih =>
    intro d
    have h6 : ∀ x, (rest ++ b).head? = some x → x.head? = some '-' := by
      intro x hx
      cases rest with
      | nil => exact hb x hx
      | cons y r => exact h5 x hx
    rw [List.cons_append, step _ (rest ++ b) (rest ++ b) (name, []) d rfl (not_or.mpr ⟨h3, h4⟩)
      (split_alone k name _ h1 h2 h6) (hk _ List.mem_cons_self)]
    exact ih (fun i hi => hk i (List.mem_cons_of_mem _ hi)) _

/-- the two ways in which the loop can end without an error -/
theorem loop_cases (real : Str → Except Failure Str) (options : List CommandOption) (args : List Str) : ∀ d : Map,
    (∃ items, Items args items ∧ Known real options items) ∨
    (∃ a x b items, args = a ++ x :: b ∧ (x = "--help".toList ∨ x = "-h".toList) ∧ Items a items ∧ Known real options items) ∨
    parseLoop real options args d = .exit 1 ∨ ∃ e, parseLoop real options args d = .failed e := by
  generalize hL : args.length = L
  induction L using Nat.strong_induction_on generalizing args with
  | _ L ih =>
    intro d
    cases args with
    | nil => exact Or.inl ⟨[], Items.nil, fun i hi => (by cases hi)⟩
    | cons x rest =>
      rw [parseLoop]
      by_cases h1 : x.head? = some '-'
      · rw [if_neg (by simpa using h1)]
        by_cases h2 : x = "--help".toList ∨ x = "-h".toList
        · exact Or.inr (Or.inl ⟨[], x, rest, [], rfl, h2, Items.nil, fun i hi => (by cases hi)⟩)
        · rw [if_neg h2]
          cases h3 : options.find? (·.matches (splitArgument x rest).1) with
          | none => exact Or.inr (Or.inr (Or.inl rfl))
          | some o =>
            dsimp only
            cases h4 : o.parseArgument real (splitArgument x rest).2.1 with
            | error e => exact Or.inr (Or.inr (Or.inr ⟨e, rfl⟩))
            | ok v =>
              dsimp only
              by_cases h5 : v = []
              · rw [if_pos h5]
                exact Or.inr (Or.inr (Or.inl rfl))
              · rw [if_neg h5]
                have hknown : ∀ items, Known real options items →
                    Known real options (((splitArgument x rest).1, (splitArgument x rest).2.1) :: items) := by
                  intro items hk i hi
                  rcases List.mem_cons.mp hi with rfl | hi
                  · exact ⟨o, v, (find_iff _ _ _).mp h3, (given_iff _ _ _ _).mp h4, h5⟩
                  · exact hk i hi
                have hlen := splitArgument_length x rest
                rcases ih _ (by rw [← hL, List.length_cons]; omega) (splitArgument x rest).2.2 rfl (assign o.name v d) with
                  ⟨items, i1, i2⟩ | ⟨a, y, b, items, i1, i2, i3, i4⟩ | i1
                · exact Or.inl ⟨_, items_cons x rest items h1 h2 i1, hknown _ i2⟩
                · right; left
                  -- the arguments before the request
                  have hy : y.head? = some '-' := by rcases i2 with rfl | rfl <;> rfl
                  by_cases hr : (splitArgument x rest).2.2 = rest
                  · refine ⟨x :: a, y, b, _, by rw [← hr, i1]; rfl, i2, ?_, hknown _ i4⟩
                    have hs : splitArgument x a = ((splitArgument x rest).1, (splitArgument x rest).2.1, a) := by
                      rw [hr] at i1
                      unfold splitArgument at hr ⊢
                      cases hcut : cut '=' x with
                      | mk p q =>
                        cases q with
                        | some v => rfl
                        | none =>
                          rw [hcut] at hr
                          dsimp only at hr ⊢
                          cases a with
                          | nil =>
                            rw [List.nil_append] at i1
                            rw [i1]
                            dsimp only
                            rw [if_neg (by simpa using hy)]
                          | cons z a =>
                            rw [List.cons_append] at i1
                            rw [i1] at hr ⊢
                            dsimp only at hr ⊢
                            split at hr
                            · exfalso
                              have := congrArg List.length hr
                              simp at this
                            · rename_i hz
                              rw [if_neg hz, if_neg hz]
                    have := items_cons x a items h1 h2 (by rw [hs]; exact i3)
                    rw [hs] at this
                    exact this
                  · -- one argument was taken
                    obtain ⟨z, r, hz1, hz2, hz3⟩ : ∃ z r, rest = z :: r ∧ (∀ t, splitArgument x (z :: t) = ((splitArgument x rest).1, (splitArgument x rest).2.1, t)) ∧
                        (splitArgument x rest).2.2 = r := by
                      unfold splitArgument at hr ⊢
                      cases hcut : cut '=' x with
                      | mk p q =>
                        cases q with
                        | some v => rw [hcut] at hr; exact absurd rfl hr
                        | none =>
                          rw [hcut] at hr
                          dsimp only at hr ⊢
                          cases rest with
                          | nil => exact absurd rfl hr
                          | cons z r =>
                            dsimp only at hr ⊢
                            refine ⟨z, r, rfl, ?_⟩
                            split at hr
                            · rename_i hz
                              refine ⟨?_, by rw [if_pos hz]⟩
                              intro t
                              rw [if_pos hz, if_pos hz]
                            · exact absurd rfl hr
                    refine ⟨x :: z :: a, y, b, _, by rw [hz1, ← hz3, i1]; rfl, i2, ?_, hknown _ i4⟩
                    have := items_cons x (z :: a) items h1 h2 (by rw [hz2]; exact i3)
                    rw [hz2] at this
                    exact this
                · exact Or.inr (Or.inr i1)
      · rw [if_pos h1]
        exact Or.inr (Or.inr (Or.inl rfl))

/-! ## the values -/

theorem setItem_find (real : Str → Except Failure Str) (options : List CommandOption)
    (hn : options.Pairwise (fun a b => a.name ≠ b.name)) (d : Map) (hd : Yaml.Spec.Sorted d) (i : Str × Str) (o : CommandOption)
    (ho : o ∈ options) :
    Yaml.Spec.Sorted (setItem real options d i) ∧
    (∀ v, First options i.1 o → Given real o i.2 v → find (setItem real options d i) o.name = some v) ∧
    (¬ First options i.1 o → find (setItem real options d i) o.name = find d o.name) := by
  unfold setItem
  cases hf : options.find? (·.matches i.1) with
  | none =>
    refine ⟨hd, ?_, fun _ => rfl⟩
    intro v h
    rw [← find_iff, hf] at h
    cases h
  | some o' =>
    have hf' := (find_iff _ _ _).mp hf
    dsimp only
    cases hp : o'.parseArgument real i.2 with
    | error e =>
      refine ⟨hd, ?_, fun _ => rfl⟩
      intro v h hg
      rw [← first_unique hf' h] at hg
      rw [← given_iff, hp] at hg
      cases hg
    | ok v' =>
      refine ⟨assign_sorted _ _ _ hd, ?_, ?_⟩
      · intro v h hg
        have e := first_unique hf' h
        subst e
        rw [← given_iff, hp] at hg
        injection hg with hg
        dsimp only
        rw [find_assign _ _ _ _ hd, if_pos rfl, hg]
      · intro h
        dsimp only
        rw [find_assign _ _ _ _ hd, if_neg]
        intro e
        have := names_eq hn (first_mem hf') ho e
        rw [this] at hf'
        exact h hf'

theorem items_find (real : Str → Except Failure Str) (options : List CommandOption)
    (hn : options.Pairwise (fun a b => a.name ≠ b.name)) (o : CommandOption) (ho : o ∈ options) (items : List (Str × Str)) :
    Yaml.Spec.Sorted (items.foldl (setItem real options) []) ∧
    (∀ argument v, Last options items o argument → Given real o argument v →
      find (items.foldl (setItem real options) []) o.name = some v) ∧
    (Absent options items o → find (items.foldl (setItem real options) []) o.name = none) := by
  induction items using List.reverseRecOn with
  | nil =>
    refine ⟨List.Pairwise.nil, ?_, fun _ => rfl⟩
    rintro argument v ⟨a, i, b, h, _⟩
    simp at h
  | append_singleton items i ih =>
    rw [List.foldl_append, List.foldl_cons, List.foldl_nil]
    obtain ⟨s1, s2, s3⟩ := setItem_find real options hn _ ih.1 i o ho
    refine ⟨s1, ?_, ?_⟩
    · rintro argument v ⟨a, j, b, h1, h2, h3, h4⟩ hg
      by_cases hi : First options i.1 o
      · have hb : b = [] := by
          by_contra hne
          have : i ∈ b := by
            have := congrArg List.getLast? h1
            rw [List.getLast?_concat, List.getLast?_append, List.getLast?_cons] at this
            cases hl : b.getLast? with
            | none => exact absurd (List.getLast?_eq_none_iff.mp hl) hne
            | some x =>
              rw [hl] at this
              simp at this
              rw [this]
              exact List.mem_of_getLast? hl
          exact h4 i this hi
        subst hb
        obtain ⟨_, h1'⟩ := List.append_inj' h1 rfl
        injection h1' with h1'
        rw [← h1'] at h3
        rw [← h3] at hg
        exact s2 v hi hg
      · rw [s3 hi]
        refine ih.2.1 argument v ?_ hg
        -- the last element is not the one
        cases hb : b using List.reverseRecOn with
        | nil =>
          subst hb
          obtain ⟨_, h1'⟩ := List.append_inj' h1 rfl
          injection h1' with h1'
          rw [h1'] at hi
          exact absurd h2 hi
        | append_singleton b' x =>
          subst hb
          rw [← List.cons_append, ← List.append_assoc] at h1
          obtain ⟨h1', _⟩ := List.append_inj' h1 rfl
          exact ⟨a, j, b', h1', h2, h3, fun y hy => h4 y (List.mem_append_left _ hy)⟩
    · intro ha
      rw [s3 (ha i (by simp))]
      exact ih.2.2 (fun j hj => ha j (List.mem_append_left _ hj))

theorem finish_spec (real : Str → Except Failure Str) (os : List CommandOption) : ∀ (d : Map) (f : Str → Option Bool),
    os.Pairwise (fun a b => a.name ≠ b.name) → Yaml.Spec.Sorted d →
    (∀ d' f', finish real os d f = .done d' f' →
      (∀ o ∈ os, (∀ v, find d o.name = some v → find d' o.name = some v ∧ f' o.name = some true) ∧
        (find d o.name = none → o.required = false ∧ ∃ v, Default real o v ∧ find d' o.name = some v ∧ f' o.name = some false)) ∧
      ∀ k, (∀ o ∈ os, o.name ≠ k) → find d' k = find d k ∧ f' k = f k) ∧
    ((∀ o ∈ os, find d o.name = none → o.required = false ∧ ∃ v, Default real o v) → ∃ d' f', finish real os d f = .done d' f') ∧
    finish real os d f ≠ .exit 0 := by
  induction os with
  | nil =>
    intro d f _ _
    refine ⟨?_, fun _ => ⟨d, f, rfl⟩, by intro h; cases h⟩
    intro d' f' h
    injection h with h1 h2
    rw [← h1, ← h2]
    exact ⟨fun o ho => (by cases ho), fun k _ => ⟨rfl, rfl⟩⟩
  | cons o os ih =>
    intro d f hn hd
    rw [List.pairwise_cons] at hn
    have hother : ∀ x ∈ os, x.name ≠ o.name := fun x hx => Ne.symm (hn.1 x hx)
    unfold finish
    cases hfo : find d o.name with
    | none =>
      rw [if_pos rfl]
      cases hr : o.required with
      | true =>
        rw [if_pos rfl]
        refine ⟨fun d' f' h => (by cases h), ?_, by intro h; cases h⟩
        intro h
        have := (h o List.mem_cons_self hfo).1
        rw [hr] at this
        cases this
      | false =>
        rw [if_neg (by simp)]
        cases hv : o.defaultValue real with
        | error e =>
          dsimp only
          refine ⟨fun d' f' h => (by cases h), ?_, by intro h; cases h⟩
          intro h
          obtain ⟨_, v, hv'⟩ := h o List.mem_cons_self hfo
          rw [← default_iff, hv] at hv'
          cases hv'
        | ok v =>
          dsimp only
          obtain ⟨i1, i2, i3⟩ := ih (assign o.name v d) (fun k => if k = o.name then some false else f k) hn.2 (assign_sorted _ _ _ hd)
          refine ⟨?_, ?_, i3⟩
          · intro d' f' h
            obtain ⟨j1, j2⟩ := i1 d' f' h
            constructor
            · intro x hx
              rcases List.mem_cons.mp hx with rfl | hx
              · obtain ⟨k1, k2⟩ := j2 x.name hother
                rw [find_assign _ _ _ _ hd, if_pos rfl] at k1
                rw [if_pos rfl] at k2
                refine ⟨fun v' hv' => (by rw [hfo] at hv'; cases hv'), fun _ => ⟨hr, v, (default_iff _ _ _).mp hv, k1, k2⟩⟩
              · have := j1 x hx
                rw [find_assign _ _ _ _ hd, if_neg (Ne.symm (hother x hx))] at this
                exact this
            · intro k hk
              obtain ⟨k1, k2⟩ := j2 k (fun x hx => hk x (List.mem_cons_of_mem _ hx))
              have hne := hk o List.mem_cons_self
              rw [find_assign _ _ _ _ hd, if_neg hne] at k1
              rw [if_neg (Ne.symm hne)] at k2
              exact ⟨k1, k2⟩
          · intro h
            apply i2
            intro x hx hxn
            rw [find_assign _ _ _ _ hd, if_neg (Ne.symm (hother x hx))] at hxn
            exact h x (List.mem_cons_of_mem _ hx) hxn
    | some v =>
      rw [if_neg (by simp)]
      obtain ⟨i1, i2, i3⟩ := ih d (fun k => if k = o.name then some true else f k) hn.2 hd
      refine ⟨?_, ?_, i3⟩
      · intro d' f' h
        obtain ⟨j1, j2⟩ := i1 d' f' h
        constructor
        · intro x hx
          rcases List.mem_cons.mp hx with rfl | hx
          · obtain ⟨k1, k2⟩ := j2 x.name hother
            rw [if_pos rfl] at k2
            refine ⟨fun v' hv' => ⟨by rw [k1]; exact hv', k2⟩, fun hx => (by rw [hfo] at hx; cases hx)⟩
          · exact j1 x hx
        · intro k hk
          obtain ⟨k1, k2⟩ := j2 k (fun x hx => hk x (List.mem_cons_of_mem _ hx))
          rw [if_neg (Ne.symm (hk o List.mem_cons_self))] at k2
          exact ⟨k1, k2⟩
      · intro h
        apply i2
        intro x hx hxn
        exact h x (List.mem_cons_of_mem _ hx) hxn

/-! ## the results -/

/-- An option is on the command line, or it is not. -/
theorem last_or_absent (options : List CommandOption) (items : List (Str × Str)) (o : CommandOption) :
    (∃ argument, Last options items o argument) ∨ Absent options items o := by
  induction items using List.reverseRecOn with
  | nil => exact Or.inr (fun i hi => by cases hi)
  | append_singleton items i ih =>
    by_cases hi : First options i.1 o
    · exact Or.inl ⟨i.2, items, i, [], rfl, hi, rfl, fun j hj => (by cases hj)⟩
    · rcases ih with ⟨argument, a, j, b, h1, h2, h3, h4⟩ | h
      · left
        refine ⟨argument, a, j, b ++ [i], by rw [h1]; simp, h2, h3, ?_⟩
        intro x hx
        rcases List.mem_append.mp hx with hx | hx
        · exact h4 x hx
        · rw [List.mem_singleton.mp hx]
          exact hi
      · right
        intro x hx
        rcases List.mem_append.mp hx with hx | hx
        · exact h x hx
        · rw [List.mem_singleton.mp hx]
          exact hi

theorem known_last {real : Str → Except Failure Str} {options : List CommandOption} {items : List (Str × Str)} {o : CommandOption}
    {argument : Str} (hk : Known real options items) (h : Last options items o argument) : ∃ v, Given real o argument v ∧ v ≠ [] := by
  obtain ⟨a, i, b, h1, h2, h3, _⟩ := h
  obtain ⟨o', v, k1, k2, k3⟩ := hk i (by rw [h1]; simp)
  rw [← first_unique h2 k1, h3] at k2
  exact ⟨v, k2, k3⟩

/-- **C46** If the parser returns, the command line consists of known options with their arguments, and every registered option has the
value of its last occurrence or, if it does not occur, its default; required options occur. -/
theorem c46_success (real : Str → Except Failure Str) (options : List CommandOption) (hreg : Registered options) (args : List Str)
    (d : Map) (f : Str → Option Bool) (h : parse real options args = .done d f) :
    ∃ items, Items args items ∧ Known real options items ∧ ∀ o ∈ options,
      (∀ argument, Last options items o argument → ∃ v, Given real o argument v ∧ find d o.name = some v ∧ f o.name = some true) ∧
      (Absent options items o → o.required = false ∧ ∃ v, Default real o v ∧ find d o.name = some v ∧ f o.name = some false) := by
  obtain ⟨hn, _⟩ := registered_names hreg
  unfold parse at h
  rcases loop_cases real options args [] with ⟨items, h1, h2⟩ | ⟨a, x, b, items, h1, h2, h3, h4⟩ | h1 | ⟨e, h1⟩
  · refine ⟨items, h1, h2, ?_⟩
    have hl := loop_items real options h1 [] (fun x hx => by cases hx) h2 []
    rw [List.append_nil, h, parseLoop] at hl
    intro o ho
    obtain ⟨s1, s2, s3⟩ := items_find real options hn o ho items
    obtain ⟨f1, _⟩ := finish_spec real options _ (fun _ => none) hn s1
    obtain ⟨g1, g2⟩ := (f1 d f hl.symm).1 o ho
    constructor
    · intro argument hlast
      obtain ⟨v, hv, _⟩ := known_last h2 hlast
      obtain ⟨r1, r2⟩ := g1 v (s2 argument v hlast hv)
      exact ⟨v, hv, r1, r2⟩
    · intro habs
      exact g2 (s3 habs)
  · exfalso
    have hx : x.head? = some '-' := by rcases h2 with rfl | rfl <;> rfl
    have hl := loop_items real options h3 (x :: b) (fun y hy => by injection hy with hy; rw [← hy]; exact hx) h4 []
    rw [← h1, h, parseLoop, if_neg (by simpa using hx), if_pos h2] at hl
    cases hl
  · rw [h] at h1
    cases h1
  · rw [h] at h1
    cases h1

/-- **C46** Conversely, a command line with known options, usable arguments and all required options is accepted. -/
theorem c46_accepts (real : Str → Except Failure Str) (options : List CommandOption) (hreg : Registered options) (args : List Str)
    (items : List (Str × Str)) (h1 : Items args items) (h2 : Known real options items)
    (h3 : ∀ o ∈ options, Absent options items o → o.required = false ∧ ∃ v, Default real o v) :
    ∃ d f, parse real options args = .done d f := by
  obtain ⟨hn, hh⟩ := registered_names hreg
  have hl := loop_items real options h1 [] (fun x hx => by cases hx) h2 []
  rw [List.append_nil] at hl
  unfold parse
  rw [hl, parseLoop]
  have hs : Yaml.Spec.Sorted (items.foldl (setItem real options) []) := by
    cases options with
    | nil => cases hh
    | cons o os => exact (items_find real (o :: os) hn o List.mem_cons_self items).1
  refine (finish_spec real options _ _ hn hs).2.1 ?_
  intro o ho hnone
  refine h3 o ho ?_
  rcases last_or_absent options items o with ⟨argument, hlast⟩ | habs
  · obtain ⟨v, hv, _⟩ := known_last h2 hlast
    rw [(items_find real options hn o ho items).2.1 argument v hlast hv] at hnone
    cases hnone
  · exact habs

/-- **C46** The program ends with code 0 exactly if help is requested after known options only. -/
theorem c46_help (real : Str → Except Failure Str) (options : List CommandOption) (hreg : Registered options) (args : List Str) :
    parse real options args = .exit 0 ↔
      ∃ a x b items, args = a ++ x :: b ∧ (x = "--help".toList ∨ x = "-h".toList) ∧ Items a items ∧ Known real options items := by
  obtain ⟨hn, hh⟩ := registered_names hreg
  unfold parse
  constructor
  · intro h
    rcases loop_cases real options args [] with ⟨items, h1, h2⟩ | h1 | h1 | ⟨e, h1⟩
    · exfalso
      have hl := loop_items real options h1 [] (fun x hx => by cases hx) h2 []
      rw [List.append_nil, h, parseLoop] at hl
      have hs : Yaml.Spec.Sorted (items.foldl (setItem real options) []) := by
        cases options with
        | nil => cases hh
        | cons o os => exact (items_find real (o :: os) hn o List.mem_cons_self items).1
      exact (finish_spec real options _ (fun _ => none) hn hs).2.2 hl.symm
    · exact h1
    · rw [h] at h1
      injection h1 with h1
      cases h1
    · rw [h] at h1
      cases h1
  · rintro ⟨a, x, b, items, h1, h2, h3, h4⟩
    have hx : x.head? = some '-' := by rcases h2 with rfl | rfl <;> rfl
    have hl := loop_items real options h3 (x :: b) (fun y hy => by injection hy with hy; rw [← hy]; exact hx) h4 []
    rw [h1, hl, parseLoop, if_neg (by simpa using hx), if_pos h2]

/-- **C46** All other command lines end the program with code 1, or with the error message of a conversion. -/
theorem c46_rejects (real : Str → Except Failure Str) (options : List CommandOption) (args : List Str)
    (h1 : ¬ ∃ items, Items args items ∧ Known real options items)
    (h2 : ¬ ∃ a x b items, args = a ++ x :: b ∧ (x = "--help".toList ∨ x = "-h".toList) ∧ Items a items ∧ Known real options items) :
    parse real options args = .exit 1 ∨ ∃ e, parse real options args = .failed e := by
  rcases loop_cases real options args [] with h | h | h | h
  · exact absurd h h1
  · exact absurd h h2
  · exact Or.inl h
  · exact Or.inr h

/-- **C46** An orphan argument at the start ends the program. -/
theorem c46_orphan (real : Str → Except Failure Str) (options : List CommandOption) (x : Str) (rest : List Str)
    (h : x.head? ≠ some '-') : parse real options (x :: rest) = .exit 1 := by
  unfold parse
  rw [parseLoop, if_pos h]

/-- **C46** A missing required option ends the program, unless an argument cannot be converted. -/
theorem c46_required (real : Str → Except Failure Str) (options : List CommandOption) (hreg : Registered options) (args : List Str)
    (items : List (Str × Str)) (h1 : Items args items) (h2 : Known real options items) (o : CommandOption) (ho : o ∈ options)
    (hr : o.required = true) (ha : Absent options items o) :
    parse real options args = .exit 1 ∨ ∃ e, parse real options args = .failed e := by
  obtain ⟨hn, _⟩ := registered_names hreg
  have hl := loop_items real options h1 [] (fun x hx => by cases hx) h2 []
  rw [List.append_nil, parseLoop] at hl
  -- the end of the loop over the options
  have hfin : ∀ (os : List CommandOption) (d : Map) (f : Str → Option Bool), os.Pairwise (fun a b => a.name ≠ b.name) → Yaml.Spec.Sorted d →
      o ∈ os → find d o.name = none → finish real os d f = .exit 1 ∨ ∃ e, finish real os d f = .failed e := by
    intro os
    induction os with
    | nil => intro d f _ _ ho; cases ho
    | cons x os ih =>
      intro d f hn hd ho hfo
      rw [List.pairwise_cons] at hn
      unfold finish
      rcases List.mem_cons.mp ho with rfl | ho'
      · rw [if_pos hfo, if_pos hr]
        exact Or.inl rfl
      · split
        · split
          · exact Or.inl rfl
          · cases x.defaultValue real with
            | error e => exact Or.inr ⟨e, rfl⟩
            | ok v =>
              exact ih _ _ hn.2 (assign_sorted _ _ _ hd) ho' (by rw [find_assign _ _ _ _ hd, if_neg (hn.1 o ho')]; exact hfo)
        · exact ih _ _ hn.2 hd ho' hfo
  obtain ⟨s1, _, s3⟩ := items_find real options hn o ho items
  unfold parse
  rw [hl]
  exact hfin options _ _ hn s1 ho (s3 ha)

/-- **C46** An option without an argument swallows a following text without a hyphen: the text has no effect. -/
theorem c46_swallowed (real : Str → Except Failure Str) (options : List CommandOption) (k : Nat) (name b : Str) (rest : List Str)
    (o : CommandOption) (h1 : First options name o) (h2 : o.argument = .none) (h3 : '=' ∉ name) (h4 : name.head? ≠ some '-')
    (h5 : b.head? ≠ some '-') (h6 : ∀ x, rest.head? = some x → x.head? = some '-') :
    parse real options ((hyphens k ++ name) :: b :: rest) = parse real options ((hyphens k ++ name) :: rest) := by
  unfold parse
  have hg : ∀ argument, o.parseArgument real argument = .ok "true".toList := by
    intro argument
    unfold CommandOption.parseArgument
    rw [h2]
  rw [parseLoop, parseLoop, split_separate k name b rest h3 h4 h5, split_alone k name rest h3 h4 h6]
  dsimp only
  rw [(find_iff _ _ _).mpr h1]
  dsimp only
  rw [hg, hg]

/-- **C46** Only the help option can be called `help` or `h`. -/
theorem c46_reserved (options : List CommandOption) (h : Registered options) (o : CommandOption) (ho : o ∈ options)
    (hn : o.name = "help".toList ∨ o.abbreviation = 'h') : o = ⟨"help".toList, 'h', .none, "false".toList, false⟩ := by
  induction h with
  | start => exact List.mem_singleton.mp ho
  | @add options options' x _ hx ih =>
    unfold addOption at hx
    split at hx
    · cases hx
    · rename_i hne
      split at hx
      · injection hx with hx
        rw [← hx] at ho
        exact ih ho
      · injection hx with hx
        rw [← hx] at ho
        rcases List.mem_append.mp ho with ho | ho
        · exact ih ho
        · rw [List.mem_singleton.mp ho] at hn
          exact absurd hn hne

/-- C46: a command line can be read in one way only -/
theorem c46_unique {args : List Str} {items items' : List (Str × Str)} (h : Items args items) (h' : Items args items') : items = items' := by
  have key : ∀ (a : Str) (rest : List Str) (its : List (Str × Str)), Items (a :: rest) its →
      ∃ tail, its = ((splitArgument a rest).1, (splitArgument a rest).2.1) :: tail ∧ Items (splitArgument a rest).2.2 tail := by
    intro a rest its hi
    cases hi with
    | equals h1 h2 h3 => rw [split_equals _ _ _ _ h1 h2]; exact ⟨_, rfl, h3⟩
    | separate h1 h2 _ _ h3 h4 => rw [split_separate _ _ _ _ h1 h2 h3]; exact ⟨_, rfl, h4⟩
    | alone h1 h2 _ _ h3 h4 => rw [split_alone _ _ _ h1 h2 h3]; exact ⟨_, rfl, h4⟩
  generalize hn : args.length = n
  induction n using Nat.strong_induction_on generalizing args items items' with
  | _ n ih =>
    cases args with
    | nil => cases h; cases h'; rfl
    | cons a rest =>
      obtain ⟨t, e, ht⟩ := key a rest items h
      obtain ⟨t', e', ht'⟩ := key a rest items' h'
      have hl := splitArgument_length a rest
      rw [List.length_cons] at hn
      rw [e, e', ih _ (by omega) ht ht' rfl]

/-- a parser with a required number and a flag -/
def example1 : List CommandOption := [⟨"help".toList, 'h', .none, "false".toList, false⟩, ⟨"number".toList, 'n', .int, [], true⟩,
  ⟨"verbose".toList, 'v', .none, "false".toList, false⟩]

theorem example1_registered : Registered example1 :=
  Registered.add (o := ⟨"verbose".toList, 'v', .none, "false".toList, false⟩)
    (Registered.add (o := ⟨"number".toList, 'n', .int, [], true⟩) Registered.start rfl) rfl

/-- a command line with two values for the number: the last one is used -/
example : ∃ d f, parse (fun s => .ok s) example1 ["-n=3".toList, "--number".toList, "12".toList] = .done d f ∧
    find d "number".toList = some "12".toList := by
  have hi : Items ["-n=3".toList, "--number".toList, "12".toList] [("n".toList, "3".toList), ("number".toList, "12".toList)] :=
    Items.equals (k := 0) (name := "n".toList) (v := "3".toList) (by decide) (by decide)
      (Items.separate (k := 1) (name := "number".toList) (b := "12".toList) (by decide) (by decide) (by decide) (by decide) (by decide) Items.nil)
  have f1 : First example1 "n".toList ⟨"number".toList, 'n', .int, [], true⟩ := by rw [← find_iff]; decide
  have f2 : First example1 "number".toList ⟨"number".toList, 'n', .int, [], true⟩ := by rw [← find_iff]; decide
  have g1 : Given (fun s => .ok s) ⟨"number".toList, 'n', .int, [], true⟩ "3".toList "3".toList := by rw [← given_iff]; decide +kernel
  have g2 : Given (fun s => .ok s) ⟨"number".toList, 'n', .int, [], true⟩ "12".toList "12".toList := by rw [← given_iff]; decide +kernel
  have hk : Known (fun s => .ok s) example1 [("n".toList, "3".toList), ("number".toList, "12".toList)] := by
    intro i h
    rcases List.mem_cons.mp h with rfl | h
    · exact ⟨_, _, f1, g1, by decide⟩
    · rw [List.mem_singleton.mp h]
      exact ⟨_, _, f2, g2, by decide⟩
  have hlast : Last example1 [("n".toList, "3".toList), ("number".toList, "12".toList)] ⟨"number".toList, 'n', .int, [], true⟩ "12".toList :=
    ⟨[("n".toList, "3".toList)], ("number".toList, "12".toList), [], rfl, f2, rfl, fun j hj => (by cases hj)⟩
  obtain ⟨d, f, h⟩ := c46_accepts (fun s => .ok s) example1 example1_registered _ _ hi hk (by
    intro o ho ha
    rcases List.mem_cons.mp ho with rfl | ho
    · exact ⟨rfl, "false".toList, by rw [← default_iff]; decide +kernel⟩
    · rcases List.mem_cons.mp ho with rfl | ho
      · exact absurd f2 (ha ("number".toList, "12".toList) (by simp))
      · rw [List.mem_singleton.mp ho]
        exact ⟨rfl, "false".toList, by rw [← default_iff]; decide +kernel⟩)
  have hl := loop_items (fun s => .ok s) example1 hi [] (fun x hx => (by cases hx)) hk []
  have hs := items_find (fun s => .ok s) example1 (registered_names example1_registered).1 ⟨"number".toList, 'n', .int, [], true⟩
    (by decide) [("n".toList, "3".toList), ("number".toList, "12".toList)]
  have hv := hs.2.1 _ _ hlast g2
  rw [List.append_nil] at hl
  unfold parse at h
  refine ⟨d, f, h, ?_⟩
  rw [hl, parseLoop] at h
  exact (((finish_spec (fun s => .ok s) example1 _ (fun _ => none) (registered_names example1_registered).1 hs.1).1 d f h).1 _ (by decide)).1 _ hv |>.1

end Verif.CommandLine
