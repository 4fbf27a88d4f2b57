import Verif.Model.TableFile
import Verif.Spec.TableFile
import Verif.Properties.Decimal

/-!
# Tables from text files (C105)
-/
namespace Verif.TableFile

open Verif.Text Verif.Text.Spec Verif.TableFile.Spec

set_option autoImplicit false

theorem blank_more (c : Char) (h : blank c) : Units.isSpace c = true ∧ isDigit c = false ∧ c ≠ '.' ∧ c ≠ 'e' ∧ c ≠ 'E' ∧ c ≠ '+' ∧ c ≠ '-' ∧ c ≠ '#' := by
  unfold blank at h
  fin_cases h <;> decide

theorem Apart.stops {s : List Char} (h : Apart s) : Stops s := by
  intro c r hs
  have := h c r hs
  unfold blank at this
  fin_cases this <;> decide

theorem collect_stop (d p s : Bool) (rest : List Char) (h : Apart rest) : collect d p s rest = ([], rest) := by
  cases rest with
  | nil => rw [collect]
  | cons c r =>
    obtain ⟨-, h1, h2, h3, h4, -, -, -⟩ := blank_more c (h c r rfl)
    rw [collect.eq_def]
    simp [h1, h2, h3, h4]

theorem digitChar_isDigit (d : Nat) (h : d < 10) : isDigit (digitChar d) = true := (isDigit_iff _).2 (digitChar_more d h).2.2.2.2.1

theorem collect_digits (ds : List Nat) (h : ∀ d ∈ ds, d < 10) (g p s : Bool) (rest : List Char) :
    collect g p s (ds.map digitChar ++ rest) = (ds.map digitChar ++ (collect (g || decide (ds ≠ [])) p s rest).1, (collect (g || decide (ds ≠ [])) p s rest).2) := by
  induction ds generalizing g with
  | nil => simp
  | cons d ds ih =>
    rw [List.map_cons, List.cons_append, collect.eq_def]
    simp only [digitChar_isDigit d (h d (by simp)), if_true]
    rw [ih (fun x hx => h x (by simp [hx])) true]
    simp [push]

theorem collect_exp (e : Option (Bool × Option Bool × List Nat)) (h : ∀ u s ds, e = some (u, s, ds) → ds ≠ [] ∧ ∀ d ∈ ds, d < 10) (p : Bool)
    (rest : List Char) (hr : Apart rest) : collect true p false (expText e ++ rest) = (expText e, rest) := by
  cases e with
  | none => exact collect_stop _ _ _ _ hr
  | some x =>
    obtain ⟨u, s, ds⟩ := x
    obtain ⟨hne, hd⟩ := h u s ds rfl
    have hD : ∀ g, collect g p true (ds.map digitChar ++ rest) = (ds.map digitChar, rest) := by
      intro g
      rw [collect_digits ds hd, collect_stop _ _ _ _ hr]
      simp
    have he : isDigit (if u then 'E' else 'e') = false ∧ (if u then 'E' else 'e') ≠ '.' ∧ ((if u then 'E' else 'e') = 'e' ∨ (if u then 'E' else 'e') = 'E') := by
      cases u <;> decide
    generalize hc : (if u then 'E' else 'e') = c at he
    simp only [expText, hc, List.cons_append]
    rw [collect.eq_def]
    simp only [he.1, he.2.1, he.2.2, Bool.false_eq_true, if_false, false_and, true_and, and_self, if_true]
    cases s with
    | none =>
      cases ds with
      | nil => exact absurd rfl hne
      | cons d ds =>
        have hm := digitChar_more d (hd d (by simp))
        have := hD true
        simp only [List.map_cons, List.cons_append] at this
        simp only [signText, List.nil_append, List.map_cons, List.cons_append, hm.2.1, hm.2.2.1, or_self, if_false, this, push]
    | some b =>
      cases b <;> simp [signText, hD, push]

/-- all characters of a number are collected, and nothing else -/
theorem collect_literal (l : Literal) (hl : l.Proper) (rest : List Char) (hr : Apart rest) :
    collectSigned (({ l with blanks := [] } : Literal).text ++ rest) = (({ l with blanks := [] } : Literal).text, rest) := by
  obtain ⟨-, hw, hf, hne, he⟩ := hl
  -- after the sign
  have hbody : collect false false false (l.whole.map digitChar ++ (fracText l.frac ++ (expText l.exp ++ rest)))
      = (l.whole.map digitChar ++ (fracText l.frac ++ expText l.exp), rest) := by
    rw [collect_digits _ hw]
    have : ∀ g : Bool, g = decide (l.whole ≠ []) → collect g false false (fracText l.frac ++ (expText l.exp ++ rest)) = (fracText l.frac ++ expText l.exp, rest) := by
      intro g hg
      cases hF : l.frac with
      | none =>
        rw [hF] at hne
        have : g = true := by
          rcases hne with h | ⟨f, h, -⟩
          · simpa [hg] using h
          · cases h
        subst this
        exact collect_exp _ he _ _ hr
      | some f =>
        simp only [fracText, List.cons_append]
        rw [collect.eq_def]
        simp only [show isDigit '.' = false by decide, Bool.false_eq_true, if_false, true_and, and_self, if_true]
        rw [collect_digits _ (hf f hF)]
        have : (g || decide (f ≠ [])) = true := by
          rcases hne with h | ⟨f', h, h'⟩
          · simp [hg, h]
          · rw [hF] at h; cases h; simp [h']
        rw [this, collect_exp _ he _ _ hr]
        simp [push]
    rw [this _ (by simp)]
  have htext : ({ l with blanks := [] } : Literal).text ++ rest
      = signText l.sign ++ (l.whole.map digitChar ++ (fracText l.frac ++ (expText l.exp ++ rest))) := by
    simp [Literal.text]
  rw [htext]
  have htext' : ({ l with blanks := [] } : Literal).text = signText l.sign ++ (l.whole.map digitChar ++ (fracText l.frac ++ expText l.exp)) := by
    simp [Literal.text]
  rw [htext']
  rcases hs : l.sign with _ | b
  · simp only [signText, List.nil_append]
    rw [← hbody]
    cases hB : l.whole.map digitChar ++ (fracText l.frac ++ (expText l.exp ++ rest)) with
    | nil => simp [collectSigned, collect]
    | cons c r =>
      have hc : c ≠ '+' ∧ c ≠ '-' := by
        cases hW : l.whole with
        | cons d ds =>
          rw [hW] at hB hw
          cases hB
          have := digitChar_more d (hw d (by simp))
          exact ⟨this.2.1, this.2.2.1⟩
        | nil =>
          rw [hW] at hB hne
          rcases hne with h | ⟨f, h, -⟩
          · exact absurd rfl h
          · rw [h] at hB
            simp only [List.map_nil, List.nil_append, fracText, List.cons_append] at hB
            cases hB
            decide
      simp [collectSigned, hc.1, hc.2]
  · cases b <;> simp [signText, collectSigned, hbody, push]

/-- one number is read from a stream -/
theorem extract_literal (l : Literal) (hl : l.Proper) (rest : List Char) (hr : Apart rest) :
    extract (l.text ++ rest) = some (l.number, rest) := by
  have hp : ({ l with blanks := [] } : Literal).Proper := ⟨by simp, hl.2⟩
  have h1 : (l.text ++ rest).dropWhile Units.isSpace = ({ l with blanks := [] } : Literal).text ++ rest := by
    have : l.text ++ rest = l.blanks ++ (({ l with blanks := [] } : Literal).text ++ rest) := by simp [Literal.text]
    rw [this, List.dropWhile_append_of_pos fun c hc => (isSpace_iff c).2 (hl.1 c hc)]
    -- the first character is not blank
    obtain ⟨-, hw, hf, hne, -⟩ := hl
    have : ∃ c r, ({ l with blanks := [] } : Literal).text = c :: r ∧ Units.isSpace c = false := by
      simp only [Literal.text, List.nil_append]
      rcases hs : l.sign with _ | b
      · cases hW : l.whole with
        | cons d ds => exact ⟨_, _, rfl, (digitChar_more d (hw d (by simp [hW]))).1⟩
        | nil =>
          rcases hne with h | ⟨f, h, -⟩
          · exact absurd hW h
          · rw [h]; exact ⟨_, _, rfl, by decide⟩
      · cases b <;> exact ⟨_, _, rfl, by decide⟩
    obtain ⟨c, r, h, h'⟩ := this
    rw [h, List.cons_append, List.dropWhile_cons_of_neg (by simp [h'])]
  have h2 : readReal ({ l with blanks := [] } : Literal).text = .number l.number [] := by
    have := c97_literal { l with blanks := [] } hp [] (by intro c r h; cases h)
    rw [List.append_nil] at this
    exact this
  rw [extract]
  simp only [h1, collect_literal l hl rest hr, h2]

theorem columns_none (n : Nat) : columns n none = List.replicate n 0 := by
  induction n with
  | zero => rfl
  | succ n ih => rw [columns, ih, List.replicate_succ]

/-- the numbers of a line are the first elements of its row -/
theorem columns_literals (ls : List Literal) (more : List Char) (k : Nat) (hl : ∀ l ∈ ls, l.Proper ∧ '\n' ∉ l.blanks) (hb : ∀ l ∈ ls.tail, l.blanks ≠ [])
    (hm : Apart more) :
    columns (ls.length + k) (some (ls.flatMap Literal.text ++ more)) = ls.map Literal.number ++ columns k (some more) := by
  induction ls with
  | nil => simp
  | cons l ls ih =>
    have hr : Apart (ls.flatMap Literal.text ++ more) := by
      cases ls with
      | nil => exact hm
      | cons l' ls =>
        have h1 := hb l' (by simp)
        obtain ⟨h2, h3⟩ := hl l' (by simp)
        cases hx : l'.blanks with
        | nil => exact absurd hx h1
        | cons b bs =>
          intro c r h
          simp only [List.flatMap_cons, Literal.text, hx, List.cons_append, List.append_assoc] at h
          obtain rfl : b = c := (List.cons.inj h).1
          have h4 := h2.1 b (by rw [hx]; simp)
          rw [hx] at h3
          have h5 : b ≠ '\n' := by rintro rfl; exact h3 (by simp)
          unfold blank
          revert h4 h5
          simp only [List.mem_cons, List.not_mem_nil, or_false]
          tauto
    rw [List.length_cons, show ls.length + 1 + k = (ls.length + k) + 1 by omega, List.flatMap_cons, List.append_assoc, columns,
      extract_literal l (hl l (by simp)).1 _ hr]
    simp only [List.map_cons, List.cons_append]
    rw [ih (fun x hx => hl x (by simp [hx])) (fun x hx => hb x (by simp only [List.tail_cons]; exact List.mem_of_mem_tail hx))]

/-- a stream fails if there is no number: nothing but blanks, or something else than a digit, a sign or a point -/
theorem extract_none (s : List Char) (h : ∀ c, (s.dropWhile Units.isSpace).head? = some c → c ∉ "0123456789+-.".toList) : extract s = none := by
  have hc : (collectSigned (s.dropWhile Units.isSpace)).1 = [] := by
    cases hs : s.dropWhile Units.isSpace with
    | nil => rfl
    | cons c r =>
      rw [hs] at h
      have h1 := h c rfl
      have hd : isDigit c = false := by
        rw [Bool.eq_false_iff]
        intro h2
        rw [isDigit_iff] at h2
        apply h1
        rw [show "0123456789+-.".toList = "0123456789".toList ++ ['+', '-', '.'] from rfl]
        exact List.mem_append_left _ h2
      have hp : c ≠ '+' ∧ c ≠ '-' ∧ c ≠ '.' := by
        refine ⟨?_, ?_, ?_⟩ <;> rintro rfl <;> exact h1 (by decide)
      rw [collectSigned, if_neg (by simp [hp.1, hp.2.1]), collect.eq_def]
      simp [hd, hp.2.2]
  rw [extract]
  simp only [hc]
  rfl

/-! ## lines -/

theorem getlines_line (line acc : List Char) (h : '\n' ∉ line) (rest : List Char) :
    getlines acc (line ++ '\n' :: rest) = (acc.reverse ++ line) :: getlines [] rest := by
  induction line generalizing acc with
  | nil => simp [getlines]
  | cons c l ih =>
    have hc : c ≠ '\n' := fun e => h (by simp [e])
    rw [List.cons_append, getlines, if_neg hc, ih (c :: acc) (fun e => h (by simp [e]))]
    simp

theorem getlines_last (line acc : List Char) (h : '\n' ∉ line) (hne : acc ≠ [] ∨ line ≠ []) : getlines acc line = [acc.reverse ++ line] := by
  induction line generalizing acc with
  | nil =>
    rcases hne with h | h
    · simp [getlines, h]
    · exact absurd rfl h
  | cons c l ih =>
    have hc : c ≠ '\n' := fun e => h (by simp [e])
    rw [getlines, if_neg hc, ih (c :: acc) (fun e => h (by simp [e])) (Or.inl (by simp))]
    simp

theorem literal_newline (l : Literal) (hl : l.Proper) (h : '\n' ∉ l.blanks) : '\n' ∉ l.text := by
  obtain ⟨-, hw, hf, -, he⟩ := hl
  have hD : ∀ ds : List Nat, (∀ d ∈ ds, d < 10) → '\n' ∉ ds.map digitChar := by
    intro ds hds hx
    rw [List.mem_map] at hx
    obtain ⟨d, hd, hx⟩ := hx
    have := (digitChar_more d (hds d hd)).1
    rw [hx] at this
    exact absurd this (by decide)
  have hS : ∀ s, '\n' ∉ signText s := by
    intro s
    rcases s with _ | _ | _ <;> simp [signText]
  simp only [Literal.text, List.mem_append, not_or]
  refine ⟨h, hS _, hD _ hw, ?_, ?_⟩
  · cases hF : l.frac with
    | none => simp [fracText]
    | some f =>
      simp only [fracText, List.mem_cons, not_or]
      exact ⟨by decide, hD _ (hf f hF)⟩
  · cases hE : l.exp with
    | none => simp [expText]
    | some x =>
      obtain ⟨u, s, ds⟩ := x
      simp only [expText, List.mem_cons, List.mem_append, not_or]
      exact ⟨by cases u <;> decide, hS _, hD _ (he u s ds hE).2⟩

theorem Line.newline {ncol : Nat} {l : Line} (h : l.Proper ncol) : '\n' ∉ l.text := by
  cases l with
  | comment t =>
    simp only [Line.text, List.mem_cons, not_or]
    exact ⟨by decide, h⟩
  | numbers ls more =>
    obtain ⟨-, h1, -, -, h2⟩ := h
    simp only [Line.text, List.mem_append, List.mem_flatMap, not_or, not_exists, not_and]
    exact ⟨fun l hl => literal_newline l (h1 l hl).1 (h1 l hl).2, h2⟩

/-- a number does not start with the sign of a comment -/
theorem literal_first (l : Literal) (hl : l.Proper) (rest : List Char) : here (l.text ++ rest) ≠ '#' ∧ l.text ≠ [] := by
  obtain ⟨hb, hw, hf, hne, -⟩ := hl
  simp only [Literal.text]
  cases hB : l.blanks with
  | cons b bs =>
    have := hb b (by simp [hB])
    refine ⟨?_, by simp⟩
    simp only [List.cons_append, here]
    rintro rfl
    exact absurd this (by decide)
  | nil =>
    rcases hs : l.sign with _ | b
    · cases hW : l.whole with
      | cons d ds =>
        refine ⟨?_, by simp⟩
        simp only [signText, List.nil_append, List.map_cons, List.cons_append, here]
        intro h
        have := (digitChar_more d (hw d (by simp [hW]))).2.2.2.2.1
        rw [h] at this
        exact absurd this (by decide)
      | nil =>
        rcases hne with h | ⟨f, h, -⟩
        · exact absurd hW h
        · rw [h]
          refine ⟨?_, by simp [fracText]⟩
          simp [signText, fracText, here]
    · cases b <;> exact ⟨by simp [signText, here], by simp [signText]⟩

theorem getlines_file (ncol : Nat) (newline : Bool) (hn : 0 < ncol) (ls : List Line) (h : ∀ l ∈ ls, l.Proper ncol) : getlines [] (fileText newline ls) = ls.map Line.text := by
  induction ls with
  | nil => simp [fileText, getlines]
  | cons l ls ih =>
    have h1 := Line.newline (h l (by simp))
    cases ls with
    | nil =>
      cases newline with
      | true =>
        simp only [fileText, if_true, List.map_cons, List.map_nil]
        rw [getlines_line _ _ h1]
        simp [getlines]
      | false =>
        simp only [fileText, Bool.false_eq_true, if_false, List.append_nil, List.map_cons, List.map_nil]
        rw [getlines_last _ _ h1]
        · simp
        · right
          cases l with
          | comment t => simp [Line.text]
          | numbers ls more =>
            obtain ⟨h2, h3, -⟩ := h (.numbers ls more) (by simp)
            cases ls with
            | nil => simp at h2; omega
            | cons l ls =>
              have := (literal_first l (h3 l (by simp)).1 []).2
              simp [Line.text, this]
    | cons l' ls =>
      rw [fileText, getlines_line _ _ h1, ih (fun x hx => h x (by simp [hx]))]
      · simp
      · simp

theorem readLines_spec (ncol : Nat) (lines : List (List Char)) (rows : List (List ℝ)) :
    readLines ncol lines rows = rows ++ (lines.filter fun l => here l ≠ '#').map fun l => columns ncol (some l) := by
  induction lines generalizing rows with
  | nil => simp [readLines]
  | cons l ls ih =>
    rw [readLines]
    split_ifs with h
    · rw [ih, List.filter_cons_of_pos (by simpa using h)]
      simp
    · rw [ih, List.filter_cons_of_neg (by simpa using h)]

/-- C105: a file with lines of numbers and lines of comments is read as the rows with exactly these numbers, in the order of the lines; they are put
behind the rows the table has already -/
theorem c105_read (ncol : Nat) (hn : 0 < ncol) (rows : List (List ℝ)) (lines : List Line) (newline : Bool) (h : ∀ l ∈ lines, l.Proper ncol) :
    fromAscii ncol rows (some (fileText newline lines)) = .ok (rows ++ lines.filterMap Line.row) := by
  rw [fromAscii]
  rw [getlines_file ncol newline hn lines h, readLines_spec]
  congr 2
  induction lines with
  | nil => rfl
  | cons l ls ih =>
    have ih := ih fun x hx => h x (by simp [hx])
    have hl := h l (by simp)
    rw [List.map_cons]
    cases l with
    | comment t =>
      rw [List.filter_cons_of_neg (by simp [Line.text, here]), ih]
      rfl
    | numbers l more =>
      obtain ⟨h1, h2, h3, h4, -⟩ := hl
      have hc := columns_literals l more 0 h2 h3 h4
      rw [Nat.add_zero, h1] at hc
      rw [List.filter_cons_of_pos, List.map_cons, ih]
      · rw [Line.text, hc]
        simp [columns, Line.row]
      · cases l with
        | nil => simp at h1; omega
        | cons x l =>
          have := (literal_first x (h2 x (by simp)).1 (l.flatMap Literal.text ++ more)).1
          simpa [Line.text] using this

/-- C105: a file that can not be opened is a fatal error, never an empty table -/
theorem c105_missing (ncol : Nat) (rows : List (List ℝ)) : fromAscii ncol rows none = .error .error := rfl

/-- C105: whatever is in the file, there is one row of the right length for each line which does not start with `#` -/
theorem c105_count (ncol : Nat) (rows : List (List ℝ)) (hr : ∀ r ∈ rows, r.length = ncol) (lines : List (List Char)) (h : ∀ l ∈ lines, '\n' ∉ l) :
    ∃ rs, fromAscii ncol rows (some (lines.flatMap fun l => l ++ ['\n'])) = .ok rs ∧ (∀ r ∈ rs, r.length = ncol)
      ∧ rs.length = rows.length + (lines.filter fun l => l.head? ≠ some '#').length := by
  have hg : getlines [] (lines.flatMap fun l => l ++ ['\n']) = lines := by
    induction lines with
    | nil => rfl
    | cons l ls ih =>
      rw [List.flatMap_cons, List.append_assoc]
      simp only [List.singleton_append]
      rw [getlines_line _ _ (h l (by simp)), ih fun x hx => h x (by simp [hx])]
      rfl
  refine ⟨_, rfl, ?_, ?_⟩
  · rw [hg, readLines_spec]
    intro r hx
    rw [List.mem_append, List.mem_map] at hx
    rcases hx with hx | ⟨l, -, rfl⟩
    · exact hr r hx
    · have : ∀ (n : Nat) s, (columns n s).length = n := by
        intro n
        induction n with
        | zero => intro s; cases s <;> rfl
        | succ n ih =>
          intro s
          cases s with
          | none => simp [columns, ih]
          | some s => rw [columns]; cases extract s <;> simp [ih]
      exact this _ _
  · rw [hg, readLines_spec, List.length_append, List.length_map]
    congr 2
    apply List.filter_congr
    intro l _
    cases l with
    | nil => simp [here]
    | cons c l => by_cases hc : c = '#' <;> simp [here, hc]

/-- the second line of `callindex.out_CpaD03_0.10` would be read: `" 1.0E-03 -2.5"` after a comment -/
example : fromAscii 2 [] (some "# x\n 1.0E-03 -2.5".toList) = .ok [[1 / 1000, -5 / 2]] := by
  have h := c105_read 2 (by decide) [] [.comment [' ', 'x'], .numbers [⟨[' '], none, [1], some [0], some (true, some true, [0, 3])⟩, ⟨[' '], some true, [2], some [5], none⟩] []]
    false (by
      intro l hl
      fin_cases hl
      · show '\n' ∉ _; decide
      · refine ⟨rfl, ?_, ?_, ?_, by decide⟩
        · intro l hl
          fin_cases hl <;> refine ⟨⟨by decide, by decide, ?_, by decide, ?_⟩, by decide⟩
          · rintro f h; cases h; decide
          · rintro u s ds h; cases h; decide
          · rintro f h; cases h; decide
          · rintro u s ds h; cases h
        · intro l hl; fin_cases hl; decide
        · rintro c r h; cases h)
  have ht : fileText false [.comment [' ', 'x'], .numbers [⟨[' '], none, [1], some [0], some (true, some true, [0, 3])⟩, ⟨[' '], some true, [2], some [5], none⟩] []]
      = "# x\n 1.0E-03 -2.5".toList := by decide
  rw [ht] at h
  rw [h]
  have h0 : ¬ (none : Option Bool) = some true := by decide
  norm_num [List.filterMap_cons, List.filterMap_nil, Line.row, Literal.number, value, expValue, h0]

/-! ## files which are not read as they should -/

/-- C105 (violated): numbers which are missing, or which can not be read, are not noticed: they are zero, together with everything behind them -/
theorem c105_short_violation (ncol : Nat) (ls : List Literal) (more : List Char) (hl : ∀ l ∈ ls, l.Proper ∧ '\n' ∉ l.blanks)
    (hb : ∀ l ∈ ls.tail, l.blanks ≠ []) (hm : Apart more) (hn : ls.length ≤ ncol)
    (hbad : ∀ c, (more.dropWhile Units.isSpace).head? = some c → c ∉ "0123456789+-.".toList) :
    columns ncol (some (ls.flatMap Literal.text ++ more)) = ls.map Literal.number ++ List.replicate (ncol - ls.length) 0 := by
  have h := columns_literals ls more (ncol - ls.length) hl hb hm
  rw [show ls.length + (ncol - ls.length) = ncol by omega] at h
  rw [h]
  congr 1
  cases hk : ncol - ls.length with
  | zero => rfl
  | succ k => rw [columns, extract_none more hbad]; simp [columns_none, List.replicate_succ]

/-- a comma between the numbers -/
example : columns 3 (some "1, 2, 3".toList) = [1, 0, 0] := by
  have e1 : extract "1, 2, 3".toList = some (1, ", 2, 3".toList) := by
    have hc : collectSigned ("1, 2, 3".toList.dropWhile Units.isSpace) = (['1'], ", 2, 3".toList) := by
      rw [show "1, 2, 3".toList.dropWhile Units.isSpace = '1' :: ", 2, 3".toList by decide]
      rw [collectSigned, if_neg (by decide), collect.eq_def]
      simp only [show isDigit '1' = true by decide, if_true]
      rw [show ", 2, 3".toList = ',' :: " 2, 3".toList by decide, collect.eq_def]
      simp [isDigit, push]
    have hr := c97_literal ⟨[], none, [1], none, none⟩ ⟨by decide, by decide, by simp, by decide, by simp⟩ [] (by rintro c r h; cases h)
    rw [extract]
    simp only [hc]
    rw [List.append_nil, show (⟨[], none, [1], none, none⟩ : Literal).text = ['1'] by decide] at hr
    rw [hr]
    have h0 : ¬ (none : Option Bool) = some true := by decide
    norm_num [Literal.number, value, expValue, h0]
  rw [columns, e1]
  simp only
  rw [columns, extract_none _ (by decide)]
  simp [columns]

theorem dropWhile_blanks (s rest : List Char) (hs : ∀ c ∈ s, blank c) : (s ++ rest).dropWhile Units.isSpace = rest.dropWhile Units.isSpace :=
  List.dropWhile_append_of_pos fun c hc => (blank_more c (hs c hc)).1

/-- C105 (violated): an empty line, a line of blanks and a comment with blanks in front are rows of zeros -/
theorem c105_blank_violation (ncol : Nat) (rows : List (List ℝ)) (s t : List Char) (hs : ∀ c ∈ s, blank c) (ht : '\n' ∉ t) :
    fromAscii ncol rows (some (s ++ ['\n'])) = .ok (rows ++ [List.replicate ncol 0])
    ∧ (s ≠ [] → fromAscii ncol rows (some (s ++ '#' :: t ++ ['\n'])) = .ok (rows ++ [List.replicate ncol 0])) := by
  have hsn : '\n' ∉ s := by
    intro h
    have := hs _ h
    exact absurd this (by unfold blank; decide)
  have hfirst : ∀ r, (s = [] → here r ≠ '#') → here (s ++ r) ≠ '#' := by
    intro r hr
    cases s with
    | nil => exact hr rfl
    | cons c s => exact (blank_more c (hs c (by simp))).2.2.2.2.2.2.2
  have hz : ∀ r : List Char, (∀ c, (r.dropWhile Units.isSpace).head? = some c → c ∉ "0123456789+-.".toList) →
      columns ncol (some (s ++ r)) = List.replicate ncol 0 := by
    intro r hr
    cases ncol with
    | zero => rfl
    | succ n =>
      rw [columns, extract_none (s ++ r) (by rw [dropWhile_blanks _ _ hs]; exact hr)]
      simp [columns_none, List.replicate_succ]
  constructor
  · rw [fromAscii]
    rw [getlines_line s [] hsn, readLines_spec]
    have h1 := hfirst [] (by intro _; simp [here])
    have h2 := hz [] (by simp)
    rw [List.append_nil] at h1 h2
    simp only [List.reverse_nil, List.nil_append, getlines, if_true]
    rw [List.filter_cons_of_pos (by simpa using h1)]
    simp [h2]
  · intro hne
    rw [fromAscii]
    have hline : '\n' ∉ s ++ '#' :: t := by
      simp only [List.mem_append, List.mem_cons, not_or]
      exact ⟨hsn, by decide, ht⟩
    rw [getlines_line _ [] hline, readLines_spec]
    have h1 := hfirst ('#' :: t) (fun h => absurd h hne)
    have h2 := hz ('#' :: t) (by
      intro c hc
      rw [List.dropWhile_cons_of_neg (by decide)] at hc
      cases hc
      decide)
    simp only [List.reverse_nil, List.nil_append, getlines, if_true]
    rw [List.filter_cons_of_pos (by simpa using h1)]
    simp [h2]

end Verif.TableFile
