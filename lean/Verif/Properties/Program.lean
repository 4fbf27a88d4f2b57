import Verif.Proofs.Program
import Verif.Properties.Matrix
import Verif.Properties.DirectScatter
import Verif.Properties.CommandLine
import Verif.Properties.Calculator

/-!
# The stand-alone program (C98)
-/
namespace Verif.Program

open Verif.Yaml
open Verif.Yaml.Spec
open Verif.Program.Spec
open Verif.Text (Failure)
open Verif.TMatrix (TRes)

set_option autoImplicit false

/-! ## parameters -/

/-- C98: the parameters of a run are the values in the file, in SI units, and the documented default for every key that is not in the file; a file for which this is
not possible leads to an error.  (A file with the text `default value` as a value is excluded, see C45.) -/
theorem c98_parameters (text : Str) (m : Map) (hm : read text = .ok m) (hg : ∀ k, find m k ≠ some "default value".toList) (p : Params) :
    (∃ d, readParams ⟨m, []⟩ = .ok (p, d)) ↔ Parameters (find m) p :=
  ⟨fun ⟨d, h⟩ => (params_back m (c43_read_wellformed text m hm) p d h).2.1 hg, params_forth m (c43_read_wellformed text m hm) hg p⟩

/-- the parameters are unique -/
theorem param_unique {α : Type} {file : Str → Option Str} {convert : Str → Except Failure α} {key : String} {default x y : α}
    (hx : Param file convert key default x) (hy : Param file convert key default y) : x = y := by
  rcases hx with ⟨h1, h2⟩ | ⟨v, h1, h2⟩ <;> rcases hy with ⟨h3, h4⟩ | ⟨w, h3, h4⟩
  · rw [h2, h4]
  · rw [h1] at h3; cases h3
  · rw [h1] at h3; cases h3
  · rw [h1] at h3; cases h3; rw [h2] at h4; cases h4; rfl

/-! ## the file with the used values -/

theorem padded_numeric (n : Nat) : ∀ c ∈ padded n, c ∈ numeric := by
  intro c hc
  unfold padded at hc
  rcases List.mem_append.1 hc with hc | hc
  · split at hc
    · rw [List.mem_singleton.1 hc]; decide
    · cases hc
  · exact (showNat_numeric n).2 c hc

theorem stamp_line (t : Time) : '\n' ∉ timestamp t := by
  intro h
  have hn : ∀ n, '\n' ∉ padded n := fun n h => (numeric_clean _ (padded_numeric n _ h)).2.1 rfl
  have hs : ∀ n, '\n' ∉ Text.showNat n := fun n h => (numeric_clean _ ((showNat_numeric n).2 _ h)).2.1 rfl
  unfold timestamp at h
  simp only [List.mem_append] at h
  rcases h with (((((((((h | h) | h) | h) | h) | h) | h) | h) | h) | h) | h
  · exact hn _ h
  · revert h; decide
  · exact hn _ h
  · revert h; decide
  · exact hs _ h
  · revert h; decide
  · exact hn _ h
  · revert h; decide
  · exact hn _ h
  · revert h; decide
  · exact hn _ h

theorem read_comment (s text : Str) (h : '\n' ∉ s) : read ('#' :: s ++ '\n' :: text) = read text := by
  have h1 : '\n' ∉ '#' :: s := by simp [h]
  unfold Yaml.read
  rw [lines_append _ _ h1, readLines]
  have : readLine (⟨[], []⟩, []) ('#' :: s) = .ok (⟨[], []⟩, []) := by
    unfold readLine
    have : isCommentLine ('#' :: s) = true := by simp [isCommentLine, isBlank]
    simp [this]
  rw [this]

theorem read_usedFile (t : Time) (d : Dictionary) : read (usedFile t d) = read (printUsed d.used d.values) := by
  have : usedFile t d = '#' :: (" file written on ".toList ++ timestamp t ++ ".".toList) ++ '\n' :: printUsed d.used d.values := by
    unfold usedFile
    rw [show "# file written on ".toList = '#' :: " file written on ".toList from rfl, show ".\n".toList = ".".toList ++ ['\n'] from rfl]
    simp
  rw [this, read_comment]
  have := stamp_line t
  intro h
  simp only [List.mem_append] at h
  rcases h with (h | h) | h
  · revert h; decide
  · exact this h
  · revert h; decide

theorem find_map (m : Map) (f : Str → Str) (k : Str) : find (m.map fun e => (e.1, f e.1)) k = (find m k).map fun _ => f k := by
  induction m with
  | nil => rfl
  | cons e m ih =>
    rw [List.map_cons, find_cons, find_cons, ih]
    split
    · rename_i h; rw [h]; rfl
    · rfl

/-- what the file with the used values contains -/
theorem used_contents (m : Map) (asked : List (Str × Str)) (d : Dictionary) (h : Inv m asked d) (t : Time) :
    ∃ m', read (usedFile t d) = .ok m' ∧ WellFormed m' ∧ (∀ e ∈ asked, find m' e.1 = find asked e.1) ∧
      ∀ k v, find m' k = some v → v = "value not used".toList ∨ find asked k = some v := by
  have hval : ∀ k u, find d.used k = some u → Value u := by
    intro k u hu
    rw [h.used] at hu
    unfold find at hu
    obtain ⟨e, he, rfl⟩ := Option.map_eq_some_iff.1 hu
    exact h.val e (List.mem_of_find?_eq_some he)
  have hr := c43_used d.values d.used h.well fun e _ u hu => hval e.1 u hu
  rw [← read_usedFile t d] at hr
  refine ⟨_, hr, c43_read_wellformed _ _ hr, ?_, ?_⟩
  · intro e he
    rw [find_map d.values (fun k => (find d.used k).getD "value not used".toList) e.1, h.used]
    have h1 := h.known e.1 ⟨e.2, he⟩
    cases hf : find d.values e.1 with
    | none => exact absurd hf h1
    | some v =>
      have : find asked e.1 ≠ none := by
        clear hr hf h1
        have := he
        induction asked with
        | nil => cases he
        | cons a as ih =>
          rw [find_cons]
          split
          · simp
          · rename_i hne
            rcases List.mem_cons.1 he with rfl | he
            · exact absurd rfl hne
            · unfold find
              rw [Option.map_eq_none_iff.ne]
              intro hn
              rw [List.find?_eq_none] at hn
              exact hn e he (by simp)
      cases hg : find asked e.1 with
      | none => exact absurd hg this
      | some w => rfl
  · intro k v hv
    rw [find_map d.values (fun k => (find d.used k).getD "value not used".toList) k, h.used] at hv
    cases hf : find d.values k with
    | none => rw [hf] at hv; cases hv
    | some w =>
      rw [hf, Option.map_some, Option.some.injEq] at hv
      cases hg : find asked k with
      | none => rw [hg] at hv; exact Or.inl hv.symm
      | some u => rw [hg] at hv; exact Or.inr (by rw [← hv]; rfl)

/-- texts of values are not mistaken for a missing value -/
theorem not_marker (p : Params) (b : Bool) : ∀ e ∈ texts p b, e.2 ≠ marker := by
  have hn : ∀ s : Str, s ≠ [] → (∀ c ∈ s, c ∈ numeric) → ∀ r, s ++ r ≠ marker := by
    intro s h1 h2 r h
    obtain ⟨c, s', rfl⟩ := List.exists_cons_of_ne_nil h1
    rw [show marker = 'd' :: "efault value".toList from rfl, List.cons_append] at h
    injection h with h _
    have := h2 c (by simp)
    rw [h] at this
    revert this
    decide
  have hreal : ∀ x r, Text.showReal x ++ r ≠ marker := fun x r => hn _ (show_numeric x).1 (show_numeric x).2 r
  have hphys : ∀ q x, Text.showPhysical q x ≠ marker := fun q x => hreal x _
  have hint : ∀ n, Text.showInt n ≠ marker := by
    intro n h
    have := showNat_numeric n.natAbs
    unfold Text.showInt at h
    split at h
    · rw [show marker = 'd' :: "efault value".toList from rfl] at h
      injection h with h _
      revert h
      decide
    · exact hn _ this.1 this.2 [] (by rw [List.append_nil]; exact h)
  intro e he
  simp only [texts, List.mem_cons, List.not_mem_nil, or_false] at he
  rcases he with rfl | rfl | rfl | rfl | rfl | rfl | rfl | rfl | rfl | rfl | rfl | rfl | rfl | rfl | rfl
  · exact hphys _ _
  · exact hphys _ _
  · exact hphys _ _
  · exact hphys _ _
  · exact hphys _ _
  · exact hphys _ _
  · exact hint _
  · exact hint _
  · exact hint _
  · have := hreal p.tolerance []
    rwa [List.append_nil] at this
  · exact hphys _ _
  · have := hreal p.axisRatio []
    rwa [List.append_nil] at this
  · exact hreal _ _
  · cases b <;> decide
  · exact hphys _ _

/-- reading the texts of the values -/
theorem rerun_params (p : Params) (b : Bool) (hb : p.ratio = if b then 1 else 1 / 10) (h1 : 0 ≤ p.factor ∧ p.factor < 2 ^ 64)
    (h2 : 0 ≤ p.maximumOrder ∧ p.maximumOrder < 2 ^ 64) (h3 : 0 ≤ p.maximumPoints ∧ p.maximumPoints < 2 ^ 64) (file : Str → Option Str)
    (hf : ∀ e ∈ texts p b, file e.1 = find (texts p b) e.1) (p' : Params)
    (hp : RoundedParams p p')
    (hphys : ∀ q x y, (q, x, y) ∈ [(Units.Quantity.length, p.size, p'.size), (.length, p.wavelength, p'.wavelength), (.angle, p.alpha, p'.alpha),
      (.angle, p.beta, p'.beta), (.angle, p.thetaIn, p'.thetaIn), (.angle, p.phiIn, p'.phiIn), (.angle, p.thetaOut, p'.thetaOut),
      (.angle, p.phiOut, p'.phiOut)] → Text.convertPhysical q (Text.showPhysical q x) = .ok y)
    (hreal : ∀ x y, (x, y) ∈ [(p.axisRatio, p'.axisRatio), (p.tolerance, p'.tolerance)] → Text.convertReal (Text.showReal x) = .ok y)
    (hcomplex : Text.convertComplex (Text.showComplex p.index) = .ok p'.index) : Parameters file p' := by
  have hi : ∀ n : Int, 0 ≤ n ∧ n < 2 ^ 64 → Text.stringToInteger ⟨64, false⟩ (Text.showInt n) = .ok n := by
    intro n hn
    refine Text.c47_roundtrip ⟨64, false⟩ (by norm_num) (by norm_num) n ?_ ?_
    · unfold Text.Spec.InRange; simpa using hn
    · unfold Text.Spec.InRange
      rw [if_neg (by simp)]
      constructor
      · positivity
      · have := hn.2
        have h0 := hn.1
        show ((n.natAbs : ℕ) : ℤ) < 2 ^ 64
        omega
  have hk : ∀ (key : String) (text : Str), (key.toList, text) ∈ texts p b → find (texts p b) key.toList = some text → file key.toList = some text :=
    fun key text h h' => (hf _ h).trans h'
  have pm : ∀ {α : Type} (convert : Str → Except Failure α) (key : String) (default x : α) (text : Str), (key.toList, text) ∈ texts p b →
      find (texts p b) key.toList = some text → convert text = .ok x → Param file convert key default x :=
    fun convert key default x text h h' hc => Or.inr ⟨text, hk key text h h', hc⟩
  exact
    { size := pm _ _ _ _ (Text.showPhysical .length p.size) (by simp [texts]) rfl (hphys _ _ _ (by simp))
      ratio := ⟨b, pm _ _ _ _ (Text.showBool b) (by simp [texts]) rfl (Text.c48_roundtrip b), by rw [hp.ratio, hb]⟩
      index := pm _ _ _ _ (Text.showComplex p.index) (by simp [texts]) rfl hcomplex
      axisRatio := pm _ _ _ _ (Text.showReal p.axisRatio) (by simp [texts]) rfl (hreal _ _ (by simp))
      wavelength := pm _ _ _ _ (Text.showPhysical .length p.wavelength) (by simp [texts]) rfl (hphys _ _ _ (by simp))
      tolerance := pm _ _ _ _ (Text.showReal p.tolerance) (by simp [texts]) rfl (hreal _ _ (by simp))
      factor := pm _ _ _ _ (Text.showInt p.factor) (by simp [texts]) rfl (by rw [hp.factor]; exact hi _ h1)
      maximumOrder := pm _ _ _ _ (Text.showInt p.maximumOrder) (by simp [texts]) rfl (by rw [hp.maximumOrder]; exact hi _ h2)
      maximumPoints := pm _ _ _ _ (Text.showInt p.maximumPoints) (by simp [texts]) rfl (by rw [hp.maximumPoints]; exact hi _ h3)
      alpha := pm _ _ _ _ (Text.showPhysical .angle p.alpha) (by simp [texts]) rfl (hphys _ _ _ (by simp))
      beta := pm _ _ _ _ (Text.showPhysical .angle p.beta) (by simp [texts]) rfl (hphys _ _ _ (by simp))
      thetaIn := pm _ _ _ _ (Text.showPhysical .angle p.thetaIn) (by simp [texts]) rfl (hphys _ _ _ (by simp))
      phiIn := pm _ _ _ _ (Text.showPhysical .angle p.phiIn) (by simp [texts]) rfl (hphys _ _ _ (by simp))
      thetaOut := pm _ _ _ _ (Text.showPhysical .angle p.thetaOut) (by simp [texts]) rfl (hphys _ _ _ (by simp))
      phiOut := pm _ _ _ _ (Text.showPhysical .angle p.phiOut) (by simp [texts]) rfl (hphys _ _ _ (by simp)) }

theorem rounded_refl {x y : ℝ} (h : Text.Spec.Rounded x y) : Text.Spec.Rounded y y :=
  ⟨h.1, fun z _ => by rw [sub_self, abs_zero]; exact abs_nonneg _⟩

theorem complex_twice (z : ℝ × ℝ) : ∃ z', Text.convertComplex (Text.showComplex z) = .ok z' ∧ Text.Spec.Rounded z.1 z'.1 ∧ Text.Spec.Rounded z.2 z'.2
    ∧ Text.convertComplex (Text.showComplex z') = .ok z' := by
  obtain ⟨x, y, h1, h2, h3⟩ := Text.c97_complex z.1 z.2
  obtain ⟨x', y', h4, h5, h6⟩ := Text.c97_complex x y
  have key : ∀ {a b : ℝ}, Text.Spec.Short a → Text.Spec.Rounded a b → b = a := by
    intro a b ha hb
    have := hb.2 a ha
    rw [sub_self, abs_zero] at this
    exact sub_eq_zero.1 (abs_eq_zero.1 (le_antisymm this (abs_nonneg _)))
  rw [key h2.1 h5, key h3.1 h6] at h4
  exact ⟨(x, y), h1, h2, h3, h4⟩

/-- C98: the file with the used values is a parameter file for the same run, but real numbers are rounded to six significant digits; the file that is written by
that second run leads to the parameters of the second run, exactly -/
theorem c98_rerun_partial (text : Str) (m : Map) (hm : read text = .ok m) (p : Params) (d : Dictionary) (h : readParams ⟨m, []⟩ = .ok (p, d)) (t t' : Time) :
    ∃ m' p' d', read (usedFile t d) = .ok m' ∧ readParams ⟨m', []⟩ = .ok (p', d') ∧ RoundedParams p p'
      ∧ ∃ m'' d'', read (usedFile t' d') = .ok m'' ∧ readParams ⟨m'', []⟩ = .ok (p', d'') := by
  have general : ∀ (m : Map) (p : Params) (d : Dictionary) (t : Time), WellFormed m → readParams ⟨m, []⟩ = .ok (p, d) →
      ∃ m', read (usedFile t d) = .ok m' ∧ WellFormed m' ∧ ∀ p', RoundedParams p p' →
        (∀ q x y, (q, x, y) ∈ [(Units.Quantity.length, p.size, p'.size), (.length, p.wavelength, p'.wavelength), (.angle, p.alpha, p'.alpha),
          (.angle, p.beta, p'.beta), (.angle, p.thetaIn, p'.thetaIn), (.angle, p.phiIn, p'.phiIn), (.angle, p.thetaOut, p'.thetaOut),
          (.angle, p.phiOut, p'.phiOut)] → Text.convertPhysical q (Text.showPhysical q x) = .ok y) →
        (∀ x y, (x, y) ∈ [(p.axisRatio, p'.axisRatio), (p.tolerance, p'.tolerance)] → Text.convertReal (Text.showReal x) = .ok y) →
        Text.convertComplex (Text.showComplex p.index) = .ok p'.index → ∃ d', readParams ⟨m', []⟩ = .ok (p', d') := by
    intro m p d t hm h
    obtain ⟨⟨b, hb, hinv⟩, -, h1, h2, h3⟩ := params_back m hm p d h
    obtain ⟨m', hr, hw, hf, hall⟩ := used_contents m _ d hinv t
    refine ⟨m', hr, hw, fun p' hp h4 h5 h6 => ?_⟩
    refine params_forth m' hw ?_ p' (rerun_params p b hb h1 h2 h3 (find m') hf p' hp h4 h5 h6)
    intro k hk
    rcases hall k _ hk with h7 | h7
    · revert h7; decide
    · unfold find at h7
      obtain ⟨e, he, he2⟩ := Option.map_eq_some_iff.1 h7
      exact not_marker p b e (List.mem_of_find?_eq_some he) he2
  obtain ⟨m', hr, hw, hp⟩ := general m p d t (c43_read_wellformed text m hm) h
  -- the values of the second run
  obtain ⟨size, s1, s2, -, s3⟩ := Text.c97_physical .length p.size
  obtain ⟨wavelength, w1, w2, -, w3⟩ := Text.c97_physical .length p.wavelength
  obtain ⟨alpha, a1, a2, -, a3⟩ := Text.c97_physical .angle p.alpha
  obtain ⟨beta, b1, b2, -, b3⟩ := Text.c97_physical .angle p.beta
  obtain ⟨thetaIn, c1, c2, -, c3⟩ := Text.c97_physical .angle p.thetaIn
  obtain ⟨phiIn, d1, d2, -, d3⟩ := Text.c97_physical .angle p.phiIn
  obtain ⟨thetaOut, e1, e2, -, e3⟩ := Text.c97_physical .angle p.thetaOut
  obtain ⟨phiOut, f1, f2, -, f3⟩ := Text.c97_physical .angle p.phiOut
  obtain ⟨axisRatio, g1, g2, g3⟩ := Text.c97_twice p.axisRatio
  obtain ⟨tolerance, i1, i2, i3⟩ := Text.c97_twice p.tolerance
  obtain ⟨index, j1, j2, j2', j3⟩ := complex_twice p.index
  obtain ⟨p', hp'⟩ : ∃ p' : Params, p' = ⟨size, p.ratio, index, axisRatio, wavelength, tolerance, p.factor, p.maximumOrder, p.maximumPoints, alpha, beta,
    thetaIn, phiIn, thetaOut, phiOut⟩ := ⟨_, rfl⟩
  have hround : RoundedParams p p' := by
    subst hp'
    exact ⟨s2, rfl, ⟨j2, j2'⟩, g2, w2, i2, rfl, rfl, rfl, a2, b2, c2, d2, e2, f2⟩
  have hsame : RoundedParams p' p' := by
    subst hp'
    exact ⟨rounded_refl s2, rfl, ⟨rounded_refl j2, rounded_refl j2'⟩, rounded_refl g2, rounded_refl w2, rounded_refl i2, rfl, rfl, rfl, rounded_refl a2,
      rounded_refl b2, rounded_refl c2, rounded_refl d2, rounded_refl e2, rounded_refl f2⟩
  obtain ⟨d', hd'⟩ := hp p' hround (by
    subst hp'
    intro q x y hq
    simp only [List.mem_cons, List.not_mem_nil, or_false, Prod.mk.injEq] at hq
    rcases hq with ⟨rfl, rfl, rfl⟩ | ⟨rfl, rfl, rfl⟩ | ⟨rfl, rfl, rfl⟩ | ⟨rfl, rfl, rfl⟩ | ⟨rfl, rfl, rfl⟩ | ⟨rfl, rfl, rfl⟩ | ⟨rfl, rfl, rfl⟩ | ⟨rfl, rfl, rfl⟩
    · exact s1
    · exact w1
    · exact a1
    · exact b1
    · exact c1
    · exact d1
    · exact e1
    · exact f1) (by
    subst hp'
    intro x y hq
    simp only [List.mem_cons, List.not_mem_nil, or_false, Prod.mk.injEq] at hq
    rcases hq with ⟨rfl, rfl⟩ | ⟨rfl, rfl⟩
    · exact g1
    · exact i1) (by subst hp'; exact j1)
  obtain ⟨m'', hr'', -, hp''⟩ := general m' p' d' t' hw hd'
  obtain ⟨d'', hd''⟩ := hp'' p' hsame (by
    subst hp'
    intro q x y hq
    simp only [List.mem_cons, List.not_mem_nil, or_false, Prod.mk.injEq] at hq
    rcases hq with ⟨rfl, rfl, rfl⟩ | ⟨rfl, rfl, rfl⟩ | ⟨rfl, rfl, rfl⟩ | ⟨rfl, rfl, rfl⟩ | ⟨rfl, rfl, rfl⟩ | ⟨rfl, rfl, rfl⟩ | ⟨rfl, rfl, rfl⟩ | ⟨rfl, rfl, rfl⟩
    · exact s3
    · exact w3
    · exact a3
    · exact b3
    · exact c3
    · exact d3
    · exact e3
    · exact f3) (by
    subst hp'
    intro x y hq
    simp only [List.mem_cons, List.not_mem_nil, or_false, Prod.mk.injEq] at hq
    rcases hq with ⟨rfl, rfl⟩ | ⟨rfl, rfl⟩
    · exact g3
    · exact i3) (by subst hp'; exact j3)
  exact ⟨m', p', d', hr, hd', hround, m'', d'', hr'', hd''⟩

/-! ## the defaults -/

/-- the parameters of a run with an empty file -/
noncomputable def defaults : Params :=
  ⟨10 / 10 ^ 6, 1, (1.5, 0.02), 0.5, 6.283185307 / 10 ^ 6, 0.0001, 2, 200, 500, 145 * (Real.pi / 180), 52 * (Real.pi / 180), 56 * (Real.pi / 180),
    114 * (Real.pi / 180), 65 * (Real.pi / 180), 128 * (Real.pi / 180)⟩

theorem read_empty : read "".toList = .ok [] := by decide

theorem defaults_spec : ∃ d, readParams ⟨[], []⟩ = .ok (defaults, d) := by
  refine (c98_parameters [] [] read_empty (by intro k h; cases h) defaults).2 ?_
  have h : ∀ k : Str, find [] k = none := fun _ => rfl
  exact ⟨Or.inl ⟨h _, rfl⟩, ⟨true, Or.inl ⟨h _, rfl⟩, rfl⟩, Or.inl ⟨h _, rfl⟩, Or.inl ⟨h _, rfl⟩, Or.inl ⟨h _, rfl⟩, Or.inl ⟨h _, rfl⟩, Or.inl ⟨h _, rfl⟩,
    Or.inl ⟨h _, rfl⟩, Or.inl ⟨h _, rfl⟩, Or.inl ⟨h _, rfl⟩, Or.inl ⟨h _, rfl⟩, Or.inl ⟨h _, rfl⟩, Or.inl ⟨h _, rfl⟩, Or.inl ⟨h _, rfl⟩, Or.inl ⟨h _, rfl⟩⟩

/-- C98: the file with the used values does not reproduce the run exactly: with the defaults of the program, the wavelength of the second run is a different one -/
theorem c98_violated_rerun (t : Time) : ∃ p d m' p' d', read "".toList = .ok [] ∧ readParams ⟨[], []⟩ = .ok (p, d) ∧ read (usedFile t d) = .ok m'
    ∧ readParams ⟨m', []⟩ = .ok (p', d') ∧ p.wavelength = 6.283185307 / 10 ^ 6 ∧ p'.wavelength = 6.28319 / 10 ^ 6 := by
  obtain ⟨d, hd⟩ := defaults_spec
  obtain ⟨m', p', d', h1, h2, h3, -⟩ := c98_rerun_partial _ [] read_empty defaults d hd t t
  refine ⟨defaults, d, m', p', d', read_empty, hd, h1, h2, rfl, ?_⟩
  have h4 := h3.wavelength
  have hshort : Text.Spec.Short (6.28319 / 10 ^ 6) := ⟨628319, -11, by norm_num, by norm_num⟩
  -- the only number with six digits that is close enough
  have h5 := h4.2 _ hshort
  obtain ⟨⟨n, e, hn, hy⟩, -⟩ := h4
  have h6 : |p'.wavelength - 6.283185307 / 10 ^ 6| ≤ 4.693e-12 := le_trans h5 (by
    show |(6.28319 / 10 ^ 6 : ℝ) - 6.283185307 / 10 ^ 6| ≤ _
    rw [abs_of_pos (by norm_num)]
    norm_num)
  rw [abs_le] at h6
  have hlo : 6.28318e-6 < p'.wavelength := by norm_num at h6 ⊢; linarith
  have hhi : p'.wavelength ≤ 6.28319e-6 := by norm_num at h6 ⊢; linarith
  have he : -11 ≤ e := by
    by_contra hc
    have h7 : (10 : ℝ) ^ e ≤ 10 ^ (-12 : ℤ) := zpow_le_zpow_right₀ (by norm_num) (by omega)
    have h8 : (n : ℝ) ≤ 10 ^ 6 := by exact_mod_cast (abs_lt.1 hn).2.le
    have h9 : (n : ℝ) * 10 ^ e ≤ 10 ^ 6 * 10 ^ (-12 : ℤ) := by
      calc (n : ℝ) * 10 ^ e ≤ 10 ^ 6 * 10 ^ e := mul_le_mul_of_nonneg_right h8 (by positivity)
        _ ≤ _ := mul_le_mul_of_nonneg_left h7 (by norm_num)
    rw [← hy] at h9
    norm_num at h9 hlo
    linarith
  obtain ⟨k, hk⟩ := Int.eq_ofNat_of_zero_le (sub_nonneg.2 he)
  have hz : p'.wavelength = ((n * 10 ^ k : ℤ) : ℝ) * 10 ^ (-11 : ℤ) := by
    rw [hy, show e = (k : ℤ) + (-11) by omega, zpow_add₀ (by norm_num), zpow_natCast]
    push_cast
    ring
  have hN : n * 10 ^ k = 628319 := by
    generalize n * 10 ^ k = N at hz
    rw [hz] at hlo hhi
    have h7 : (628318 : ℝ) < N := by norm_num at hlo ⊢; linarith
    have h8 : (N : ℝ) ≤ 628319 := by norm_num at hhi ⊢; linarith
    have h7' : (628318 : ℤ) < N := by exact_mod_cast h7
    have h8' : N ≤ (628319 : ℤ) := by exact_mod_cast h8
    omega
  rw [hz, hN]
  norm_num

/-! ## the run -/

theorem parse_step (real : Str → Except Failure Str) (s a : Str) (o : CommandLine.CommandOption) (hs : s.head? = some '-') (h1 : s ≠ "--help".toList)
    (h2 : s ≠ "-h".toList) (hcut : Text.cut '=' s = (s, none)) (hfind : options.find? (·.matches (s.dropWhile (· = '-'))) = some o)
    (ho : o.argument = .string) (ha : a ≠ []) (ha' : a.head? ≠ some '-') (rest : List Str) (d : Map) :
    CommandLine.parseLoop real options (s :: a :: rest) d = CommandLine.parseLoop real options rest (assign o.name a d) := by
  have hsplit : CommandLine.splitArgument s (a :: rest) = (s.dropWhile (· = '-'), a, rest) := by
    unfold CommandLine.splitArgument
    rw [hcut]
    simp only [if_pos ha']
  have harg : o.parseArgument real a = .ok a := by
    unfold CommandLine.CommandOption.parseArgument
    rw [ho]
    simp only [if_pos ha, CommandLine.normal]
  rw [CommandLine.parseLoop, if_neg (by rw [hs]; simp), if_neg (by tauto), hsplit]
  simp only [hfind, harg, if_neg ha]

theorem parse_run (real : Str → Except Failure Str) (long : Bool) (a b : Str) (ha : a ≠ []) (hb : b ≠ []) (ha' : a.head? ≠ some '-')
    (hb' : b.head? ≠ some '-') : ∃ o f, CommandLine.parse real options [if long then "--params".toList else "-p".toList, a,
      if long then "--output".toList else "-o".toList, b] = .done o f ∧ find o "params".toList = some a ∧ find o "output".toList = some b := by
  have h1 : CommandLine.parse real options [if long then "--params".toList else "-p".toList, a, if long then "--output".toList else "-o".toList, b]
      = CommandLine.finish real options [("output".toList, b), ("params".toList, a)] (fun _ => none) := by
    unfold CommandLine.parse
    rw [parse_step real _ a ⟨"params".toList, 'p', .string, [], true⟩ (by cases long <;> rfl) (by cases long <;> decide) (by cases long <;> decide)
        (by cases long <;> decide) (by cases long <;> decide) rfl ha ha',
      parse_step real _ b ⟨"output".toList, 'o', .string, [], true⟩ (by cases long <;> rfl) (by cases long <;> decide) (by cases long <;> decide)
        (by cases long <;> decide) (by cases long <;> decide) rfl hb hb', CommandLine.parseLoop]
    have : assign "output".toList b (assign "params".toList a []) = [("output".toList, b), ("params".toList, a)] := by
      show assign "output".toList b [("params".toList, a)] = _
      rw [assign, if_pos (show "output".toList < "params".toList by decide)]
    rw [this]
  have hdef : CommandLine.CommandOption.defaultValue real ⟨"help".toList, 'h', .none, "false".toList, false⟩ = .ok "false".toList := rfl
  have h2 : find [("output".toList, b), ("params".toList, a)] "help".toList = none := rfl
  have h3 : assign "help".toList "false".toList [("output".toList, b), ("params".toList, a)]
      = [("help".toList, "false".toList), ("output".toList, b), ("params".toList, a)] := by
    rw [assign, if_pos (show "help".toList < "output".toList by decide)]
  have h4 : find [("help".toList, "false".toList), ("output".toList, b), ("params".toList, a)] "params".toList = some a := rfl
  have h5 : find [("help".toList, "false".toList), ("output".toList, b), ("params".toList, a)] "output".toList = some b := rfl
  refine ⟨[("help".toList, "false".toList), ("output".toList, b), ("params".toList, a)], ?_⟩
  have h6 : ∃ f, CommandLine.finish real options [("output".toList, b), ("params".toList, a)] (fun _ => none)
      = .done [("help".toList, "false".toList), ("output".toList, b), ("params".toList, a)] f := by
    rw [show options = [⟨"help".toList, 'h', .none, "false".toList, false⟩, ⟨"params".toList, 'p', .string, [], true⟩,
      ⟨"output".toList, 'o', .string, [], true⟩] from rfl]
    rw [CommandLine.finish]
    simp only [h2, if_true, Bool.false_eq_true, if_false, hdef, h3]
    rw [CommandLine.finish]
    simp only [h4, reduceCtorEq, if_false]
    rw [CommandLine.finish]
    simp only [h5, reduceCtorEq, if_false]
    rw [CommandLine.finish]
    exact ⟨_, rfl⟩
  obtain ⟨f, h6⟩ := h6
  exact ⟨f, h1.trans h6, h4, h5⟩

theorem radiusV_eq (p : Params) (h : p.ratio = 1 ∨ p.ratio = 1 / 10) : radiusV p = radius p := by
  unfold radiusV radius
  rcases h with h | h <;> rw [h] <;> norm_num

theorem ratioOf_cases (b : Bool) : ratioOf b = 1 ∨ ratioOf b = 1 / 10 := by cases b <;> [right; left] <;> simp [ratioOf]

theorem readParams_ratio (d d' : Dictionary) (p : Params) (h : readParams d = .ok (p, d')) : p.ratio = 1 ∨ p.ratio = 1 / 10 := by
  unfold readParams at h
  repeat' split at h
  all_goals first | cases h | skip
  exact ratioOf_cases _

section
variable (make : ℝ → ℂ → ℝ → ℝ → Nat → Nat → TRes ℂ ℝ) (complete : TRes ℂ ℝ → TRes ℂ ℝ) (real : Str → Except Failure Str) (enc : ℝ → List Nat)
  (files : Str → Option Str)

/-- the shape of the matrix -/
theorem extinction_shape (o : Direct.Obj ℝ ℂ) (α β θ φ : ℝ) :
    (Direct.extinctionMatrix o α β θ φ).rows = 4 ∧ (Direct.extinctionMatrix o α β θ φ).cols = 4 := ⟨rfl, rfl⟩

/-- C98: a run with two arguments, the name of a parameter file and the name of an output file, writes the extinction matrix of the particle that is described by
the parameters, for the orientation and the direction of the incoming radiation in the file: four rows and columns, eight bytes for every element, row by row -/
theorem c98_run (henc : ∀ x, (enc x).length = 8) (now : Time) (long : Bool) (a b : Str) (ha : a ≠ []) (hb : b ≠ []) (ha' : a.head? ≠ some '-')
    (hb' : b.head? ≠ some '-') (text : Str) (hfile : files a = some text) (m : Map) (hm : read text = .ok m)
    (hg : ∀ k, find m k ≠ some "default value".toList) (p : Params) (hp : Parameters (find m) p) (T : TRes ℂ ℝ)
    (hT : Calculator.calculate (make p.wavelength ⟨p.index.1, p.index.2⟩ (radius p) p.axisRatio) complete
      (Calculator.startOrder Spheroid.sphereRatio p.ratio p.axisRatio p.size p.wavelength) p.maximumOrder.toNat p.factor.toNat p.maximumPoints.toNat
      p.tolerance = .ok T) :
    ∃ used dump, main make complete real enc files now [if long then "--params".toList else "-p".toList, a,
        if long then "--output".toList else "-o".toList, b] = .done used b dump
      ∧ dump.length = 12 + 16 * 8 ∧ Matrix.readRows dump = 4 ∧ Matrix.readCols dump = 4 ∧ Matrix.readSize dump = 8
      ∧ (∀ i j, i < 4 → j < 4 → Matrix.readElem dump i j
          = enc ((Direct.extinctionMatrix (object p.wavelength T) p.alpha p.beta p.thetaIn p.phiIn).get i j))
      ∧ ∃ d, readParams ⟨m, []⟩ = .ok (p, d) ∧ used = usedFile now d := by
  obtain ⟨d, hd⟩ := (c98_parameters text m hm hg p).2 hp
  obtain ⟨o, f, h1, h2, h3⟩ := parse_run real long a b ha hb ha' hb'
  have hc : compute make complete p = .done (Direct.extinctionMatrix (object p.wavelength T) p.alpha p.beta p.thetaIn p.phiIn) := by
    unfold compute
    rw [radiusV_eq p (by obtain ⟨b, -, h⟩ := hp.ratio; rw [h]; cases b <;> simp), hT]
  have hdump := Matrix.c54_dump (Direct.extinctionMatrix (object p.wavelength T) p.alpha p.beta p.thetaIn p.phiIn) 8 enc henc
    (by rw [(extinction_shape _ _ _ _ _).1]; norm_num) (by rw [(extinction_shape _ _ _ _ _).2]; norm_num) (by norm_num)
  rw [(extinction_shape _ _ _ _ _).1, (extinction_shape _ _ _ _ _).2] at hdump
  refine ⟨usedFile now d, Matrix.binaryDump (Direct.extinctionMatrix (object p.wavelength T) p.alpha p.beta p.thetaIn p.phiIn) 8 enc, ?_, ?_,
    hdump.2.1, hdump.2.2.1, hdump.2.2.2.1, hdump.2.2.2.2, d, hd, rfl⟩
  · unfold main
    rw [h1]
    simp only [h2, hfile, hm, hd, hc, h3]
  · rw [hdump.1]

/-- C98: and the program only writes an output file for such a run: whenever it does, the parameter file could be read, and its contents are the parameters of the
T-matrix calculation and of the matrix that is written -/
theorem c98_only (now : Time) (args : List Str) (used output : Str) (dump : List Nat)
    (h : main make complete real enc files now args = .done used output dump) :
    ∃ o f name text m p d T, CommandLine.parse real options args = .done o f ∧ find o "params".toList = some name ∧ find o "output".toList = some output
      ∧ files name = some text ∧ read text = .ok m ∧ readParams ⟨m, []⟩ = .ok (p, d) ∧ used = usedFile now d
      ∧ Calculator.calculate (make p.wavelength ⟨p.index.1, p.index.2⟩ (radius p) p.axisRatio) complete
        (Calculator.startOrder Spheroid.sphereRatio p.ratio p.axisRatio p.size p.wavelength) p.maximumOrder.toNat p.factor.toNat p.maximumPoints.toNat
        p.tolerance = .ok T
      ∧ dump = Matrix.binaryDump (Direct.extinctionMatrix (object p.wavelength T) p.alpha p.beta p.thetaIn p.phiIn) 8 enc := by
  unfold main at h
  split at h
  · cases h
  · cases h
  rename_i o f ho
  split at h
  · cases h
  rename_i name hname
  split at h
  · cases h
  rename_i text htext
  split at h
  · cases h
  rename_i m hm
  split at h
  · cases h
  rename_i p d hp
  split at h
  · cases h
  · cases h
  rename_i K hK
  split at h
  · cases h
  rename_i out hout
  cases h
  unfold compute at hK
  split at hK
  · cases hK
  · cases hK
  rename_i T hT
  cases hK
  rw [radiusV_eq p (readParams_ratio _ _ _ hp)] at hT
  exact ⟨o, f, name, text, m, p, d, T, ho, hname, hout, htext, hm, hp, rfl, hT, rfl⟩

/-- C98: without a parameter file or without an output file, the program ends with an error -/
theorem c98_required (now : Time) (args : List Str) (items : List (Str × Str)) (h1 : CommandLine.Spec.Items args items)
    (h2 : CommandLine.Spec.Known real options items) (n : CommandLine.CommandOption) (hn : n ∈ options) (hr : n.required = true)
    (ha : CommandLine.Spec.Absent options items n) : ∀ used output dump, main make complete real enc files now args ≠ .done used output dump := by
  intro used output dump h
  obtain ⟨o, f, -, -, -, -, -, -, ho, -⟩ := c98_only make complete real enc files now args used output dump h
  have hreg : CommandLine.Spec.Registered options :=
    .add (o := ⟨"output".toList, 'o', .string, [], true⟩) (.add (o := ⟨"params".toList, 'p', .string, [], true⟩) .start rfl) rfl
  rcases CommandLine.c46_required real options hreg args items h1 h2 n hn hr ha with h3 | ⟨e, h3⟩ <;> rw [h3] at ho <;> cases ho

end

/-- the parameters with the name of a file: the hypotheses of `c98_run` are met by the empty file -/
example : Parameters (find []) defaults := by
  obtain ⟨d, hd⟩ := defaults_spec
  exact (c98_parameters [] [] read_empty (by intro k h; cases h) defaults).1 ⟨d, hd⟩

theorem defaults_order : Calculator.startOrder Spheroid.sphereRatio defaults.ratio defaults.axisRatio defaults.size defaults.wavelength ≤ 100 := by
  unfold Calculator.startOrder
  dsimp only
  have e1 : defaults.ratio = 1 := rfl
  have e2 : defaults.size = 10 / 10 ^ 6 := rfl
  have e3 : defaults.wavelength = 6.283185307 / 10 ^ 6 := rfl
  rw [e1, e2, e3, if_neg (by norm_num)]
  have hpi := Real.pi_lt_d2
  have hpi' := Real.pi_pos
  have hx : 2 * Real.pi * (1 * (10 / 10 ^ 6)) / (6.283185307 / 10 ^ 6) ≤ (11 : ℝ) := by
    rw [div_le_iff₀ (by norm_num)]
    norm_num
    linarith
  have hx0 : (0 : ℝ) ≤ 2 * Real.pi * (1 * (10 / 10 ^ 6)) / (6.283185307 / 10 ^ 6) := by positivity
  generalize 2 * Real.pi * (1 * (10 / 10 ^ 6)) / (6.283185307 / 10 ^ 6 : ℝ) = x at hx hx0
  have hp : x ^ ((1 : ℝ) / 3) ≤ 11 := by
    calc x ^ ((1 : ℝ) / 3) ≤ 11 ^ ((1 : ℝ) / 3) := Real.rpow_le_rpow hx0 hx (by norm_num)
      _ ≤ 11 ^ (1 : ℝ) := Real.rpow_le_rpow_of_exponent_le (by norm_num) (by norm_num)
      _ = 11 := Real.rpow_one _
  refine Nat.floor_le_of_le (max_le (by norm_num) ?_)
  push_cast
  nlinarith

/-- a run with an empty parameter file, for T-matrices that converge: files are written -/
example (enc : ℝ → List Nat) (henc : ∀ x, (enc x).length = 8) (now : Time) : ∃ used dump,
    main (fun _ _ _ _ => Calculator.constant) id (fun s => .ok s) enc (fun n => if n = "in".toList then some [] else none) now
      ["-p".toList, "in".toList, "-o".toList, "out".toList] = .done used "out".toList dump ∧ dump.length = 140 := by
  obtain ⟨d, hd⟩ := defaults_spec
  have hp : Parameters (find []) defaults := (c98_parameters [] [] read_empty (by intro k h; cases h) defaults).1 ⟨d, hd⟩
  have h0 := defaults_order
  have h4 : 4 ≤ Calculator.startOrder Spheroid.sphereRatio defaults.ratio defaults.axisRatio defaults.size defaults.wavelength := Calculator.c38_start ..
  generalize hn : Calculator.startOrder Spheroid.sphereRatio defaults.ratio defaults.axisRatio defaults.size defaults.wavelength = n at h0 h4
  have htol : defaults.tolerance = 1 / 10 ^ 4 := by
    show (0.0001 : ℝ) = 1 / 10 ^ 4
    norm_num
  have hT : Calculator.calculate Calculator.constant id n 200 2 500 defaults.tolerance = .ok (Calculator.constant (n + 1) (2 * n + 3)) := by
    rw [htol]
    refine (Calculator.c38_success Calculator.constant id n 200 2 500 (1 / 10 ^ 4) (by norm_num) (by omega) (by omega) _).mpr
      ⟨n + 1, 2 * n + 3, ⟨by omega, ?_, ?_⟩, by omega, ⟨by omega, ?_, by omega⟩, by omega, rfl⟩
    · unfold Calculator.Spec.OrderMeets Calculator.Spec.before Calculator.Spec.orderFactors
      rw [if_neg (by omega), (Calculator.constant_factors (by omega)).1, (Calculator.constant_factors (by omega)).2,
        (Calculator.constant_factors (by omega)).1, (Calculator.constant_factors (by omega)).2]
      unfold Calculator.Spec.Close
      norm_num
    · intro k h1 h2
      obtain rfl : k = n := by omega
      unfold Calculator.Spec.OrderMeets Calculator.Spec.before Calculator.Spec.orderFactors
      rw [if_pos rfl, (Calculator.constant_factors (by omega)).1, (Calculator.constant_factors (by omega)).2]
      unfold Calculator.Spec.Close
      norm_num
    · unfold Calculator.Spec.PointsMeet
      rw [(Calculator.constant_factors (by omega)).1, (Calculator.constant_factors (by omega)).2,
        (Calculator.constant_factors (by omega)).1, (Calculator.constant_factors (by omega)).2]
      unfold Calculator.Spec.Close
      norm_num
  obtain ⟨used, dump, h1, h2, -⟩ := c98_run (fun _ _ _ _ => Calculator.constant) id (fun s => .ok s) enc
    (fun n => if n = "in".toList then some [] else none) henc now false "in".toList "out".toList (by decide) (by decide) (by decide) (by decide) []
    (if_pos rfl) [] read_empty (by intro k h; cases h) defaults hp _ (by rw [hn]; exact hT)
  exact ⟨used, dump, h1, h2⟩

/-- without `-o`: no output file -/
example (make : ℝ → ℂ → ℝ → ℝ → Nat → Nat → TRes ℂ ℝ) (enc : ℝ → List Nat) (files : Str → Option Str) (now : Time) (used output : Str) (dump : List Nat) :
    main make id (fun s => .ok s) enc files now ["-p".toList, "in".toList] ≠ .done used output dump := by
  refine c98_required make id (fun s => .ok s) enc files now _ [("p".toList, "in".toList)] ?_ ?_ ⟨"output".toList, 'o', .string, [], true⟩ ?_ rfl ?_ used output dump
  · exact .separate (k := 0) (name := "p".toList) (by decide) (by decide) (by decide) (by decide) (by decide) .nil
  · intro i hi
    rw [List.mem_singleton] at hi
    subst hi
    refine ⟨⟨"params".toList, 'p', .string, [], true⟩, "in".toList, ⟨CommandLine.initial, _, rfl, Or.inr rfl, ?_⟩, ?_, by decide⟩
    · intro x hx
      obtain rfl := List.mem_singleton.1 hx
      rintro (h | h) <;> revert h <;> decide
    · unfold CommandLine.Spec.Given
      rw [if_neg (by decide), if_neg (by decide)]
      rfl
  · decide
  · intro i hi
    rw [List.mem_singleton] at hi
    subst hi
    rintro ⟨a, b, -, h | h, -⟩ <;> revert h <;> decide

end Verif.Program
