import Verif.Spec.YamlNested
import Verif.Properties.Yaml

/-!
# Nested parameter files (C71)
-/
namespace Verif.Yaml

open Spec
open Verif.Text (Failure cut)

theorem blanks_iff {s : Str} : Blanks s ↔ ∀ c ∈ s, isBlank c = true := by
  unfold Blanks
  constructor
  · intro h c hc
    exact (isBlank_iff c).mpr (h c hc)
  · intro h c hc
    exact (isBlank_iff c).mp (h c hc)

theorem blanks_ne {s : Str} (h : Blanks s) (x : Char) (hx : x ≠ ' ' ∧ x ≠ '\t') : x ∉ s := by
  intro hm
  rcases h x hm with h | h
  · exact hx.1 h
  · exact hx.2 h

/-- what is read from a line -/
theorem line_read {n : Nat} {name value l : Str} (h : Line n name value l) (s : Stack × Map) (stack : Stack)
    (hi : indent n s.1 = .ok stack) (h0 : n = 0 → stack.groups = []) :
    readLine s l = if value = [] then .ok (⟨stack.groups ++ [name], stack.levels⟩, s.2)
      else .ok (stack, assign (joined stack.groups ++ name) value s.2) := by
  obtain ⟨a, b, c, d, comment, ha, hb, hc, hd, hn, hne, hcol, hname, hvalue, hcom, rfl⟩ := h
  obtain ⟨x, r, hxr⟩ := List.exists_cons_of_ne_nil hne
  have hxb : isBlank x = false := trimmed_head (by rw [← hxr]; exact hname.2.2)
  have hx : x ≠ '#' := by
    intro e
    exact hname.1 (by rw [hxr, e]; exact List.mem_cons_self)
  have hstrip : stripComments (a ++ name ++ b ++ [':'] ++ c ++ value ++ d ++ comment) = a ++ name ++ b ++ [':'] ++ c ++ value ++ d := by
    have hno : '#' ∉ a ++ name ++ b ++ [':'] ++ c ++ value ++ d := by
      simp only [List.mem_append, not_or]
      exact ⟨⟨⟨⟨⟨⟨blanks_ne ha _ (by decide), hname.1⟩, blanks_ne hb _ (by decide)⟩, by decide⟩, blanks_ne hc _ (by decide)⟩, hvalue.1⟩,
        blanks_ne hd _ (by decide)⟩
    rcases hcom with rfl | hcom
    · rw [List.append_nil]
      exact (stripComments_clean _ [] hno).2
    · cases comment with
      | nil => cases hcom
      | cons y t =>
        injection hcom with hcom
        subst hcom
        exact (stripComments_clean _ t hno).1
  have hdrop : ∀ t, (a ++ (x :: t)).dropWhile isBlank = x :: t := by
    intro t
    apply dropWhile_trimmed _ _ (blanks_iff.mp ha)
    intro y hy
    injection hy with hy
    rw [← hy]
    exact hxb
  have htake : ∀ t, (a ++ (x :: t)).takeWhile isBlank = a := by
    intro t
    rw [List.takeWhile_append_of_pos (blanks_iff.mp ha), List.takeWhile_cons, hxb]
    simp
  have hform : ∀ t, a ++ name ++ b ++ [':'] ++ c ++ value ++ d ++ t = a ++ (x :: (r ++ b ++ [':'] ++ c ++ value ++ d ++ t)) := by
    intro t
    rw [hxr]
    simp
  have hcont : Contents (a ++ name ++ b ++ [':'] ++ c ++ value ++ d ++ comment) := by
    rw [contents_iff, hform]
    unfold isCommentLine isEmptyLine
    rw [hdrop]
    simpa using hx
  have hind : indentation (a ++ name ++ b ++ [':'] ++ c ++ value ++ d ++ comment) = n := by
    rw [indentation_eq, hform, htake, hn]
  have hpair : readPair (a ++ name ++ b ++ [':'] ++ c ++ value ++ d) = .ok (name, value) := by
    unfold readPair
    have e : a ++ name ++ b ++ [':'] ++ c ++ value ++ d = (a ++ (name ++ b)) ++ ':' :: (c ++ (value ++ d)) := by simp
    rw [e, cut_spec ':' _ _ (by
      simp only [List.mem_append, not_or]
      exact ⟨blanks_ne ha _ (by decide), hcol, blanks_ne hb _ (by decide)⟩)]
    dsimp only
    rw [stripBlanks_spec a b name (blanks_iff.mp ha) (blanks_iff.mp hb) hname.2.2,
      stripBlanks_spec c d value (blanks_iff.mp hc) (blanks_iff.mp hd) hvalue.2.2]
  unfold readLine
  rw [if_pos ((contents_iff _).mp hcont)]
  dsimp only
  rw [indentation_strip _ hcont, hind, hstrip, hpair]
  dsimp only
  rw [hi]
  dsimp only
  by_cases hv : value = []
  · rw [if_pos hv, if_pos hv]
  · rw [if_neg hv, if_neg hv, fullKey_eq]
    by_cases h0' : n > 0
    · rw [if_pos h0']
    · rw [if_neg h0', h0 (by omega)]
      rfl

/-! ## levels -/

/-- the indentation of a block -/
def lastLevel (L : List Nat) : Nat := L.getLast?.getD 0

/-- ascending and positive -/
def Ascending (L : List Nat) : Prop := L.Pairwise (· < ·) ∧ ∀ l ∈ L, 0 < l

theorem popLevels_back (n : Nat) (P : List Str) (L : List Nat) (hL : L.getLast? = some n) (B : List Nat) : ∀ (A : List Str),
    A.length = B.length → (∀ b ∈ B, n < b) → popLevels n ⟨P ++ A, L ++ B⟩ = .ok ⟨P, L⟩ := by
  induction B using List.reverseRecOn with
  | nil =>
    intro A hA _
    rw [List.length_eq_zero_iff.mp hA, List.append_nil, List.append_nil, popLevels]
    split
    · rename_i h
      rw [hL] at h
      cases h
    · rename_i back h
      rw [hL] at h
      injection h with h
      rw [if_neg (by omega)]
  | append_singleton B b ih =>
    intro A hA hb
    have hAne : A ≠ [] := by
      intro e
      rw [e] at hA
      simp at hA
    rw [popLevels]
    have hlast : (L ++ (B ++ [b])).getLast? = some b := by
      rw [← List.append_assoc, List.getLast?_concat]
    split
    · rename_i h
      change (L ++ (B ++ [b])).getLast? = none at h
      rw [hlast] at h
      cases h
    · rename_i back h
      change (L ++ (B ++ [b])).getLast? = some back at h
      rw [hlast] at h
      injection h with h
      subst h
      rw [if_pos (hb b (by simp)), if_neg (by simp [hAne])]
      dsimp only
      rw [List.dropLast_append_of_ne_nil hAne, ← List.append_assoc, List.dropLast_concat]
      exact ih A.dropLast (by rw [List.length_dropLast, hA]; simp) (fun x hx => hb x (by simp [hx]))

/-- back to the level of a block after its inner blocks -/
theorem indent_back (P : List Str) (L : List Nat) (A : List Str) (B : List Nat) (hPL : P.length = L.length) (hAB : A.length = B.length)
    (ha : Ascending (L ++ B)) : indent (lastLevel L) ⟨P ++ A, L ++ B⟩ = .ok ⟨P, L⟩ := by
  unfold indent
  cases hl : L.getLast? with
  | none =>
    have hLe : L = [] := List.getLast?_eq_none_iff.mp hl
    subst hLe
    have hPe : P = [] := List.length_eq_zero_iff.mp hPL
    subst hPe
    rw [if_neg (by simp [lastLevel]), if_neg (by simp [hAB])]
    dsimp only
    rw [List.nil_append, List.nil_append, clearLevels_spec _ A B hAB rfl]
  | some n =>
    have hne : L ≠ [] := by
      intro e
      rw [e] at hl
      cases hl
    have hn : lastLevel L = n := by
      unfold lastLevel
      rw [hl]
      rfl
    have hmem : n ∈ L := List.mem_of_getLast? hl
    have hpos : 0 < n := ha.2 n (List.mem_append_left _ hmem)
    have hB : ∀ b ∈ B, n < b := fun b hb => (List.pairwise_append.mp ha.1).2.2 n hmem b hb
    have henter : enter n ⟨P ++ A, L ++ B⟩ = .ok ⟨P, L⟩ := by
      unfold enter
      dsimp only
      have hback : ∃ back, (L ++ B).getLast? = some back ∧ n ≤ back := by
        cases hb : B.getLast? with
        | none =>
          rw [List.getLast?_eq_none_iff.mp hb, List.append_nil]
          exact ⟨n, hl, le_refl _⟩
        | some b =>
          refine ⟨b, ?_, (hB b (List.mem_of_getLast? hb)).le⟩
          rw [List.getLast?_append, hb]
          rfl
      obtain ⟨back, h1, h2⟩ := hback
      rw [h1]
      dsimp only
      rw [if_neg (by omega)]
      exact popLevels_back n P L hl B A hAB hB
    rw [hn, if_pos hpos, henter]
    dsimp only
    rw [if_neg (by simp [hPL])]

/-- the start of an inner block -/
theorem indent_inner (Q : List Str) (L : List Nat) (n : Nat) (h : Q.length = L.length + 1) (hn : lastLevel L < n) :
    indent n ⟨Q, L⟩ = .ok ⟨Q, L ++ [n]⟩ := by
  have henter : enter n ⟨Q, L⟩ = .ok ⟨Q, L ++ [n]⟩ := by
    unfold enter
    dsimp only
    cases hl : L.getLast? with
    | none => rfl
    | some back =>
      dsimp only
      have : lastLevel L = back := by
        unfold lastLevel
        rw [hl]
        rfl
      rw [if_pos (by omega)]
  unfold indent
  rw [if_pos (by omega), henter]
  dsimp only
  rw [if_neg (by simp [h])]

/-- all assignments -/
def assignAll (es : List (Str × Str)) (m : Map) : Map := es.foldl (fun m e => assign e.1 e.2 m) m

/-- reading a block -/
theorem block_read {P : List Str} {n : Nat} {ls : List Str} {es : List (Str × Str)} (h : Block P n ls es) :
    ∀ (L : List Nat) (s : Stack) (m : Map), P.length = L.length → Ascending L → lastLevel L = n → indent n s = .ok ⟨P, L⟩ →
    ∃ s', readLines (s, m) ls = .ok (s', assignAll es m) ∧ (es = [] → s' = s) ∧
      (es ≠ [] → ∃ A B, s' = ⟨P ++ A, L ++ B⟩ ∧ A.length = B.length ∧ Ascending (L ++ B)) := by
  induction h with
  | nil =>
    intro L s m _ _ _ _
    exact ⟨s, rfl, fun _ => rfl, fun h => absurd rfl h⟩
  | skip hc _ ih =>
    intro L s m h1 h2 h3 h4
    obtain ⟨s', r1, r2, r3⟩ := ih L s m h1 h2 h3 h4
    refine ⟨s', ?_, r2, r3⟩
    rw [readLines]
    have : ∀ l, ¬ Contents l → readLine (s, m) l = .ok (s, m) := by
      intro l hc
      unfold readLine
      rw [if_neg (fun hx => hc ((contents_iff l).mpr hx))]
    rw [this _ hc]
    exact r1
  | @entry P n name value l ls es hl hv _ ih =>
    intro L s m h1 h2 h3 h4
    have hback := indent_back P L [] [] h1 rfl (by rw [List.append_nil]; exact h2)
    rw [List.append_nil, List.append_nil, h3] at hback
    obtain ⟨s', r1, r2, r3⟩ := ih L ⟨P, L⟩ (assign (joined P ++ name) value m) h1 h2 h3 hback
    have h0 : n = 0 → P = [] := by
      intro e
      cases hL : L with
      | nil =>
        rw [hL] at h1
        exact List.length_eq_zero_iff.mp h1
      | cons x t =>
        exfalso
        have hne : L ≠ [] := by rw [hL]; simp
        have : lastLevel L ∈ L := by
          unfold lastLevel
          rw [List.getLast?_eq_some_getLast hne]
          exact List.getLast_mem hne
        have := h2.2 _ this
        omega
    refine ⟨s', ?_, fun h => (by cases h), ?_⟩
    · rw [readLines, line_read hl (s, m) ⟨P, L⟩ h4 h0, if_neg hv, intercalate_eq]
      exact r1
    · intro _
      by_cases he : es = []
      · exact ⟨[], [], by rw [r2 he, List.append_nil, List.append_nil], rfl, by rw [List.append_nil]; exact h2⟩
      · exact r3 he
  | @group P n name l n' inner es1 ls es2 hl hn' _ hne _ ih1 ih2 =>
    intro L s m h1 h2 h3 h4
    have h0 : n = 0 → P = [] := by
      intro e
      cases hL : L with
      | nil =>
        rw [hL] at h1
        exact List.length_eq_zero_iff.mp h1
      | cons x t =>
        exfalso
        have hne : L ≠ [] := by rw [hL]; simp
        have : lastLevel L ∈ L := by
          unfold lastLevel
          rw [List.getLast?_eq_some_getLast hne]
          exact List.getLast_mem hne
        have := h2.2 _ this
        omega
    have hasc : Ascending (L ++ [n']) := by
      refine ⟨?_, ?_⟩
      · rw [List.pairwise_append]
        refine ⟨h2.1, by simp, ?_⟩
        intro a ha b hb
        rw [List.mem_singleton.mp hb]
        -- every level is at most the last one
        have hLne : L ≠ [] := by
          intro e
          rw [e] at ha
          cases ha
        have hdec : L = L.dropLast ++ [lastLevel L] := by
          unfold lastLevel
          rw [List.getLast?_eq_some_getLast hLne]
          exact (List.dropLast_append_getLast hLne).symm
        have hp := h2.1
        rw [hdec] at ha hp
        rcases List.mem_append.mp ha with ha | ha
        · have := (List.pairwise_append.mp hp).2.2 a ha (lastLevel L) (by simp)
          omega
        · rw [List.mem_singleton.mp ha]
          omega
      · intro x hx
        rcases List.mem_append.mp hx with hx | hx
        · exact h2.2 x hx
        · rw [List.mem_singleton.mp hx]
          omega
    have hlast : lastLevel (L ++ [n']) = n' := by
      unfold lastLevel
      rw [List.getLast?_concat]
      rfl
    obtain ⟨s1, r1, _, r3⟩ := ih1 (L ++ [n']) ⟨P ++ [name], L⟩ m (by simp [h1]) hasc hlast
      (indent_inner (P ++ [name]) L n' (by simp [h1]) (by omega))
    obtain ⟨A, B, hs1, hAB, hasc1⟩ := r3 hne
    have e1 : P ++ [name] ++ A = P ++ ([name] ++ A) := by simp
    have e2 : L ++ [n'] ++ B = L ++ ([n'] ++ B) := by simp
    rw [e1, e2] at hs1
    rw [e2] at hasc1
    have hback := indent_back P L ([name] ++ A) ([n'] ++ B) h1 (by simp [hAB]) hasc1
    rw [h3, ← hs1] at hback
    obtain ⟨s', q1, q2, q3⟩ := ih2 L s1 (assignAll es1 m) h1 h2 h3 hback
    refine ⟨s', ?_, fun h => absurd (List.append_eq_nil_iff.mp h).1 hne, ?_⟩
    · rw [readLines, line_read hl (s, m) ⟨P, L⟩ h4 h0, if_pos rfl]
      dsimp only
      rw [readLines_append _ _ _ _ r1, q1]
      unfold assignAll
      rw [List.foldl_append]
    · intro _
      by_cases he : es2 = []
      · exact ⟨_, _, by rw [q2 he, hs1], by simp [hAB], hasc1⟩
      · exact q3 he

theorem find_assignAll (es : List (Str × Str)) : ∀ (m : Map), Sorted m → Sorted (assignAll es m) ∧
    ∀ key, find (assignAll es m) key = (lastValue es key).or (find m key) := by
  induction es with
  | nil => intro m hm; exact ⟨hm, fun key => rfl⟩
  | cons e es ih =>
    intro m hm
    obtain ⟨h1, h2⟩ := ih (assign e.1 e.2 m) (assign_sorted _ _ _ hm)
    refine ⟨h1, ?_⟩
    intro key
    rw [show assignAll (e :: es) m = assignAll es (assign e.1 e.2 m) from rfl, h2, find_assign _ _ _ _ hm]
    unfold lastValue
    rw [List.reverse_cons, List.find?_append]
    cases es.reverse.find? (fun e => decide (e.1 = key)) with
    | some x => rfl
    | none =>
      by_cases hk : e.1 = key
      · simp [hk]
      · simp [hk]

/-- **C71** A text whose lines form nested blocks is read, with any indentations, blanks and comments: every key consists of the
names of its groups and its own name, and has the last value given for it. -/
theorem c71_nested (text : Str) (es : List (Str × Str)) (h : Block [] 0 (lines text) es) :
    ∃ m, read text = .ok m ∧ ∀ key, find m key = lastValue es key := by
  obtain ⟨s', h1, _⟩ := block_read h [] ⟨[], []⟩ [] rfl ⟨List.Pairwise.nil, fun l hl => by cases hl⟩ rfl rfl
  refine ⟨assignAll es [], ?_, ?_⟩
  · unfold read
    rw [h1]
  · intro key
    rw [(find_assignAll es [] List.Pairwise.nil).2 key, find_nil, Option.or_none]

/-- **C71** Lines that are comments, and lines with blanks only, do not matter anywhere in any text. -/
theorem c71_comments (s : Stack × Map) (a : List Str) (l : Str) (b : List Str) (h : ¬ Contents l) :
    readLines s (a ++ l :: b) = readLines s (a ++ b) := by
  induction a generalizing s with
  | nil =>
    rw [List.nil_append, List.nil_append, readLines]
    have : readLine s l = .ok s := by
      unfold readLine
      rw [if_neg (fun hx => h ((contents_iff l).mpr hx))]
    rw [this]
  | cons x a ih =>
    rw [List.cons_append, List.cons_append, readLines, readLines]
    cases readLine s x with
    | error e => rfl
    | ok s1 => exact ih s1

/-- **C71** A line without a colon is an error. -/
theorem c71_no_colon (s : Stack × Map) (l : Str) (h : Contents l) (hc : ':' ∉ stripComments l) : readLine s l = .error .error := by
  unfold readLine
  rw [if_pos ((contents_iff l).mp h)]
  dsimp only
  unfold readPair
  rw [cut_none _ _ hc]

/-- **C71** An indented line that does not belong to a group is an error. -/
theorem c71_orphan (P : List Str) (L : List Nat) (m : Map) (name value l : Str) (n : Nat) (hl : Line n name value l)
    (hPL : P.length = L.length) (hn : lastLevel L < n) : readLine (⟨P, L⟩, m) l = .error .error := by
  have henter : enter n ⟨P, L⟩ = .ok ⟨P, L ++ [n]⟩ := by
    unfold enter
    dsimp only
    cases hl : L.getLast? with
    | none => rfl
    | some back =>
      dsimp only
      have : lastLevel L = back := by
        unfold lastLevel
        rw [hl]
        rfl
      rw [if_pos (by omega)]
  have hind : indent n ⟨P, L⟩ = .error .error := by
    unfold indent
    rw [if_pos (by omega), henter]
    dsimp only
    rw [if_pos (by simp [hPL])]
  obtain ⟨a, b, c, d, comment, ha, hb, hc, hd, hn', hne, hcol, hname, hvalue, hcom, hle⟩ := hl
  obtain ⟨x, r, hxr⟩ := List.exists_cons_of_ne_nil hne
  have hxb : isBlank x = false := trimmed_head (by rw [← hxr]; exact hname.2.2)
  have hx : x ≠ '#' := by
    intro e
    exact hname.1 (by rw [hxr, e]; exact List.mem_cons_self)
  have hform : l = a ++ (x :: (r ++ b ++ [':'] ++ c ++ value ++ d ++ comment)) := by
    rw [hle, hxr]
    simp
  have hdrop : l.dropWhile isBlank = x :: (r ++ b ++ [':'] ++ c ++ value ++ d ++ comment) := by
    rw [hform]
    apply dropWhile_trimmed _ _ (blanks_iff.mp ha)
    intro y hy
    injection hy with hy
    rw [← hy]
    exact hxb
  have htake : l.takeWhile isBlank = a := by
    rw [hform, List.takeWhile_append_of_pos (blanks_iff.mp ha), List.takeWhile_cons, hxb]
    simp
  have hcont : Contents l := by
    rw [contents_iff]
    unfold isCommentLine isEmptyLine
    rw [hdrop]
    simpa using hx
  unfold readLine
  rw [if_pos ((contents_iff _).mp hcont)]
  dsimp only
  rw [indentation_strip _ hcont, indentation_eq, htake, hn', hind]
  unfold readPair
  split
  · rename_i e he
    split at he
    · injection he with he
      rw [he]
    · cases he
  · rfl

instance (s : Str) : Decidable (Blanks s) := by
  unfold Blanks
  infer_instance

/-- two groups with different indentations, a comment, tabs, and a key that is given twice -/
example : Block [] 0 (lines "g:\n   # c\n   x: 1\n   h : # d\n\t\t\t\ty:2\n   x: 3\nz: 4".toList)
    [("g:x".toList, "1".toList), ("g:h:y".toList, "2".toList), ("g:x".toList, "3".toList), ("z".toList, "4".toList)] := by
  have hl : lines "g:\n   # c\n   x: 1\n   h : # d\n\t\t\t\ty:2\n   x: 3\nz: 4".toList =
    "g:".toList :: (["   # c".toList, "   x: 1".toList, "   h : # d".toList, "\t\t\t\ty:2".toList, "   x: 3".toList] ++ ["z: 4".toList]) := by
    decide
  have clean : ∀ c : Char, c ≠ '#' → c ≠ '\n' → c ≠ ' ' → c ≠ '\t' → Clean [c] := by
    intro c h1 h2 h3 h4
    refine ⟨by simpa using Ne.symm h1, by simpa using Ne.symm h2, ?_⟩
    intro x hx
    have : x = c := by
      rcases hx with hx | hx
      · injection hx with hx
        exact hx.symm
      · injection hx with hx
        exact hx.symm
    rw [this]
    exact ⟨h3, h4⟩
  have empty : Clean [] := ⟨by simp, by simp, by intro x hx; rcases hx with hx | hx <;> cases hx⟩
  rw [hl]
  refine Block.group (name := "g".toList) (n' := 3) (es1 := [("g:x".toList, "1".toList), ("g:h:y".toList, "2".toList), ("g:x".toList, "3".toList)])
    ?_ (by decide) ?_ (by decide) ?_
  · exact ⟨[], [], [], [], [], by decide, by decide, by decide, by decide, rfl, by decide, by decide, clean 'g' (by decide) (by decide)
      (by decide) (by decide), empty, Or.inl rfl, rfl⟩
  · refine Block.skip (by rw [contents_iff]; decide) (Block.entry (name := "x".toList) (value := "1".toList) ?_ (by decide) ?_)
    · exact ⟨"   ".toList, [], " ".toList, [], [], by decide, by decide, by decide, by decide, rfl, by decide, by decide,
        clean 'x' (by decide) (by decide) (by decide) (by decide), clean '1' (by decide) (by decide) (by decide) (by decide), Or.inl rfl, rfl⟩
    · refine Block.group (inner := ["\t\t\t\ty:2".toList]) (ls := ["   x: 3".toList]) (name := "h".toList) (n' := 4)
        (es1 := [("g:h:y".toList, "2".toList)]) ?_ (by decide) ?_ (by decide) ?_
      · exact ⟨"   ".toList, " ".toList, " ".toList, [], "# d".toList, by decide, by decide, by decide, by decide, rfl, by decide, by decide,
          clean 'h' (by decide) (by decide) (by decide) (by decide), empty, Or.inr rfl, rfl⟩
      · refine Block.entry (name := "y".toList) (value := "2".toList) ?_ (by decide) Block.nil
        exact ⟨"\t\t\t\t".toList, [], [], [], [], by decide, by decide, by decide, by decide, rfl, by decide, by decide,
          clean 'y' (by decide) (by decide) (by decide) (by decide), clean '2' (by decide) (by decide) (by decide) (by decide), Or.inl rfl, rfl⟩
      · refine Block.entry (name := "x".toList) (value := "3".toList) ?_ (by decide) Block.nil
        exact ⟨"   ".toList, [], " ".toList, [], [], by decide, by decide, by decide, by decide, rfl, by decide, by decide,
          clean 'x' (by decide) (by decide) (by decide) (by decide), clean '3' (by decide) (by decide) (by decide) (by decide), Or.inl rfl, rfl⟩
  · refine Block.entry (name := "z".toList) (value := "4".toList) ?_ (by decide) Block.nil
    exact ⟨[], [], " ".toList, [], [], by decide, by decide, by decide, by decide, rfl, by decide, by decide,
      clean 'z' (by decide) (by decide) (by decide) (by decide), clean '4' (by decide) (by decide) (by decide) (by decide), Or.inl rfl, rfl⟩

end Verif.Yaml
