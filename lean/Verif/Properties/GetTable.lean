import Verif.Spec.GetTable
import Verif.Properties.Table
import Verif.Properties.Content
import Verif.Properties.Numpy

/-!
# `get_table` from the call to the returned arrays (C99)
-/
namespace Verif.GetTable

open Verif.GetTable.Spec
open Verif.Graph
open Verif.Content
open Verif.Exec Verif.Store Verif.Api
open Verif.Special (realOps)
open Verif.Table (Ret columns)

set_option autoImplicit false

/-! ## the calculation -/

theorem sorted_pairwise {α : Type} [LinearOrder α] (l : List α) : (l.mergeSort (· ≤ ·)).Pairwise (· ≤ ·) := by
  have := List.pairwise_mergeSort (le := fun a b : α => decide (a ≤ b)) (by simpa using fun a b c => le_trans)
    (by simpa using fun a b => le_total a b) l
  simpa using this

/-- the calculation of the model is the one that was asked for -/
theorem c99_problem (j : Job) (slots : Nat) (gl : Nat → (Nat → ℝ) × (Nat → ℝ))
    (jdj ydy jdjm : Nat → ℂ → (Nat → ℂ) × (Nat → ℂ) → (Nat → ℂ) × (Nat → ℂ)) :
    ∃ sizes wls : List ℝ, sizes.Perm j.sizes ∧ sizes.Pairwise (· ≤ ·) ∧ wls.Perm j.wavelengths ∧ wls.Pairwise (· ≤ ·)
      ∧ Describes j sizes wls (j.problem slots gl jdj ydy jdjm) := by
  have hg : ∀ {α : Type} (l : List α) (d : α) (i : Nat), ∀ a ∈ l[i]?, l.getD i d = a := by
    intro α l d i a ha
    rw [List.getD_eq_getElem?_getD, Option.mem_def.1 ha]
    rfl
  refine ⟨Table.sortedSizes (j.request slots), Table.sortedWls (j.request slots), List.mergeSort_perm _ _, ?_, List.mergeSort_perm _ _, ?_, ?_⟩
  · exact sorted_pairwise (j.request slots).sizes
  · exact sorted_pairwise (j.request slots).wls
  refine ⟨rfl, rfl, rfl, rfl, rfl, rfl, rfl, rfl, rfl, rfl, fun p a ha => hg _ _ _ _ ha, fun p a ha => hg _ _ _ _ ha, ?_, fun _ _ => rfl, fun _ _ => rfl, ?_, rfl,
    fun i x hx => hg _ _ _ _ hx, rfl, rfl⟩
  · intro p t ht a ha w hw
    show j.dust _ _ _ = _
    rw [hg _ _ _ _ ht, hg _ _ _ _ ha, hg _ _ _ _ hw]
  · intro c a ha hc
    constructor
    · show j.alignment.aligned _ _ = _
      rw [hg _ _ _ _ ha]
    · show j.alignment.coeff _ _ = _
      rw [hg _ _ _ _ ha]

/-- C99: for sizes and wavelengths in ascending order, the positions in the table are those in the arguments -/
theorem c99_user_order_partial (j : Job) (slots : Nat) (gl : Nat → (Nat → ℝ) × (Nat → ℝ))
    (jdj ydy jdjm : Nat → ℂ → (Nat → ℂ) × (Nat → ℂ) → (Nat → ℂ) × (Nat → ℂ)) (hs : j.sizes.Pairwise (· ≤ ·)) (hw : j.wavelengths.Pairwise (· ≤ ·)) :
    Describes j j.sizes j.wavelengths (j.problem slots gl jdj ydy jdjm) := by
  obtain ⟨sizes, wls, p1, p2, p3, p4, hd⟩ := c99_problem j slots gl jdj ydy jdjm
  have e1 : sizes = j.sizes := p1.eq_of_pairwise (fun a b _ _ => le_antisymm) p2 hs
  have e2 : wls = j.wavelengths := p3.eq_of_pairwise (fun a b _ _ => le_antisymm) p4 hw
  rw [e1, e2] at hd
  exact hd

/-- C99: for sizes in another order they are not: some entry is computed for another size than the one at its position -/
theorem c99_violated_order (j : Job) (slots : Nat) (gl : Nat → (Nat → ℝ) × (Nat → ℝ))
    (jdj ydy jdjm : Nat → ℂ → (Nat → ℂ) × (Nat → ℂ) → (Nat → ℂ) × (Nat → ℂ)) (hs : ¬ j.sizes.Pairwise (· ≤ ·)) :
    ∃ is, ∃ a ∈ j.sizes[is]?, ∀ ic il, (j.problem slots gl jdj ydy jdjm).radius ⟨ic, is, il⟩ ≠ a := by
  obtain ⟨sizes, wls, p1, p2, p3, p4, hd⟩ := c99_problem j slots gl jdj ydy jdjm
  by_contra hcon
  push Not at hcon
  refine hs ?_
  have : sizes = j.sizes := by
    refine List.ext_getElem? fun i => ?_
    by_cases hi : i < j.sizes.length
    · obtain ⟨ic, il, h⟩ := hcon i _ (Option.mem_def.2 (List.getElem?_eq_getElem hi))
      have h2 := hd.radius ⟨ic, i, il⟩ _ (Option.mem_def.2 (List.getElem?_eq_getElem (by rw [p1.length_eq]; exact hi)))
      rw [h] at h2
      rw [List.getElem?_eq_getElem hi, List.getElem?_eq_getElem (by rw [p1.length_eq]; exact hi), h2]
    · rw [List.getElem?_eq_none (by rw [p1.length_eq]; omega), List.getElem?_eq_none (by omega)]
  rw [← this]
  exact p2

/-! ## the returned value -/

section
variable {j : Job} {H : Problem} {B : Nat → Bessel} {mem : Place Loc → Val}

theorem stored_coef {t : Int} {p : Par} (ht : t.toNat = p.ic) {g : Nat → Nat} {T : Nat → Nat → Nat → Int → Nat → Nat → ℂ} {c : Qty × Nat}
    (hc : c ∈ [(Qty.abs, 0), (.abs, 1), (.ext, 0), (.ext, 1), (.ext, 2)]) (he : IsEntry H p g T c.1 (mem (.inl (.result c.1 p)))) (i : Nat) :
    ∃ v, (stored mem).coef ⟨c.1, t, p.is, p.il⟩ i c.2 = some v ∧ IsCoefficient H p g T i v c := by
  simp only [List.mem_cons, List.not_mem_nil, or_false] at hc
  have hp : (⟨t.toNat, p.is, p.il⟩ : Par) = p := by rw [ht]
  rcases hc with rfl | rfl | rfl | rfl | rfl <;> obtain ⟨E, e1, e2⟩ := he <;> simp only [stored, hp, e1] <;> exact ⟨_, rfl, E, e2, rfl⟩

theorem columns_mem {want : Qty → Bool} {k : Nat} {c : Qty × Nat} (h : c ∈ (columns want)[k]?) :
    c ∈ [(Qty.abs, 0), (.abs, 1), (.ext, 0), (.ext, 1), (.ext, 2)] ∧ want c.1 = true := by
  have h := List.mem_of_getElem? (Option.mem_def.1 h)
  unfold columns at h
  rw [List.mem_append] at h
  rcases h with h | h <;> split_ifs at h with hw <;> simp only [List.mem_cons, List.not_mem_nil, or_false] at h
  · rcases h with rfl | rfl <;> exact ⟨by decide, hw⟩
  · rcases h with rfl | rfl | rfl <;> exact ⟨by decide, hw⟩

theorem answer (h1 : j.minOrder < j.maxOrder) {slots : Nat} (h2 : 0 < slots) {Good : Qty → Par → Prop}
    (hmem : ∀ q p, j.want q = true → p.ic < j.types.length → p.is < j.sizes.length → p.il < j.wavelengths.length → Good q p →
      ∃ g T, Grains H B p g T ∧ IsEntry H p g T q (mem (.inl (.result q p)))) :
    ∃ ret, returned j slots mem = some ret ∧ Answer j H Good (Grains H B) ret := by
  have hl1 : (j.positions slots).types.length = j.types.length := by simp [Job.positions]
  have hl2 : (j.positions slots).sizes.length = j.sizes.length := by simp [Job.positions]
  have hl3 : (j.positions slots).wls.length = j.wavelengths.length := by simp [Job.positions]
  have hg1 : ∀ i < j.types.length, (j.positions slots).types[i]? = some (i : Int) := by
    intro i hi
    simp [Job.positions, hi]
  have hg2 : ∀ i < j.sizes.length, (j.positions slots).sizes[i]? = some i := by
    intro i hi
    simp [Job.positions, hi]
  have hg3 : ∀ i < j.wavelengths.length, (j.positions slots).wls[i]? = some i := by
    intro i hi
    simp [Job.positions, hi]
  obtain ⟨ret, r1, r2⟩ := Table.c21_user_order_partial (β := Option ℝ) (j.positions slots) (stored mem) ⟨h1, h2⟩
    (List.pairwise_le_range) (List.pairwise_le_range)
  have hA : ∀ a, Table.CoefTable (j.positions slots) (j.positions slots).sizes (j.positions slots).wls (stored mem) a → Coefficients j H Good (Grains H B) a := by
    intro a ha
    unfold Table.CoefTable at ha
    rw [hl1, hl2, hl3] at ha
    refine ⟨ha.1, fun it hit is his il hil k c hc hgood => ?_⟩
    obtain ⟨hc1, hc2⟩ := columns_mem hc
    obtain ⟨g, T, hG, hE⟩ := hmem c.1 ⟨it, is, il⟩ hc2 hit his hil hgood
    refine ⟨g, T, hG, fun ith hith => ?_⟩
    obtain ⟨v, v1, v2⟩ := stored_coef (t := (it : Int)) (p := ⟨it, is, il⟩) rfl hc1 hE ith
    refine ⟨v, ?_, v2⟩
    rw [← v1]
    exact ha.2 it is il ith k it (hg1 it hit) is (hg2 is his) il (hg3 il hil) hith c hc
  have hM : j.want .scat = true → ∀ a, Table.MatTable (j.positions slots) (j.positions slots).sizes (j.positions slots).wls (stored mem) a →
      Matrices j H Good (Grains H B) a := by
    intro hw a ha
    unfold Table.MatTable at ha
    rw [hl1, hl2, hl3] at ha
    refine ⟨ha.1, fun it hit is his il hil hgood => ?_⟩
    obtain ⟨g, T, hG, Z, e1, e2⟩ := hmem .scat ⟨it, is, il⟩ hw hit his hil hgood
    refine ⟨g, T, Z, hG, e2, fun ith hith ip hip r hr c hc => ?_⟩
    have := ha.2 it is il ith ip r c it (hg1 it hit) is (hg2 is his) il (hg3 il hil) hith hip hr hc
    refine this.trans ?_
    show some (match Qty.scat, mem (.inl (.result .scat ⟨it, is, il⟩)) with
      | .scat, .scat Z => some (Z _ r c)
      | _, _ => none) = _
    rw [e1]
    rfl
  refine ⟨ret, r1, ?_⟩
  cases ret with
  | both a b =>
    obtain ⟨x1, x2, x3, x4⟩ := r2
    exact ⟨x1, x2, hA a x3, hM x2 b x4⟩
  | one a =>
    rcases r2 with ⟨x1, x2, x3⟩ | ⟨x1, x2, x3, x4⟩
    · exact Or.inl ⟨x1, x2, hA a x3⟩
    · exact Or.inr ⟨x1, x2, x3, hM x3 a x4⟩
  | null => exact r2

/-- C99: whatever the schedule, the calculation ends, and `get_table` returns the tables that were asked for, in which the entry for composition number `it`, size number
`is` and wavelength number `il` (sizes and wavelengths in ascending order) is the quantity for the grains with that composition, size and wavelength -/
theorem c99_values (hj : j.minOrder < j.maxOrder) (slots : Nat) (hnt : 0 < slots) (gl : Nat → (Nat → ℝ) × (Nat → ℝ))
    (jdj ydy jdjm : Nat → ℂ → (Nat → ℂ) × (Nat → ℂ) → (Nat → ℂ) × (Nat → ℂ)) (hH : H = j.problem slots gl jdj ydy jdjm) {l : List Call}
    (h : generate H.P = some l) (m0 : Place Loc → Val) (hc : AllClean H.P (clean H) m0)
    (hv : ∀ c, m0 (.inl (.conv c)) = .ctl Ctl.new) (ty : Tk → Nat) (pl : Tk → List Nat) (hpl : ∀ t, (pl t).length ≤ 8000) (J Jp : Junk)
    (hist : List (Op × Junk)) (hh : hist.map Prod.fst = toOps ty pl l) (nth : Nat) (hth : (nth : Int) ≤ j.threads) (hq : 0 < j.threads) (weight0 : Nat → Int) :
    ∃ sizes wls : List ℝ, sizes.Perm j.sizes ∧ sizes.Pairwise (· ≤ ·) ∧ wls.Perm j.wavelengths ∧ wls.Pairwise (· ≤ ·) ∧ Describes j sizes wls H ∧
    ∃ s r, exec (hist ++ [(.prepare, Jp)]) (init J) = some s ∧ prepareOf s j.threads.toNat weight0 = some r ∧
      ∀ pr x, XReach _ (bodyOf l (placed H.P (code realOps H))) ⟨startOf s j.threads.toNat nth r, m0, pr⟩ x →
        ((∃ th, x.st.pc th = .exited) →
          ∃ ret, returned j slots x.mem = some ret ∧ Answer j H (fun q p => Proper H B p ∧ Directions H q) (Grains H B) ret) ∧
        ∃ x', XReach _ (bodyOf l (placed H.P (code realOps H))) x x' ∧ Sched.AllExited x'.st := by
  obtain ⟨sizes, wls, p1, p2, p3, p4, hd⟩ := c99_problem j slots gl jdj ydy jdjm
  rw [← hH] at hd
  refine ⟨sizes, wls, p1, p2, p3, p4, hd, ?_⟩
  have hnt' : H.P.nt = slots := by rw [hH]; rfl
  obtain ⟨s, r, k1, k2, k3⟩ := c84_values (H := H) ⟨by rw [hnt']; exact hnt, by rw [hd.orders]; omega, by rw [hd.orders, hd.maxOrder]; omega⟩ h m0 hc hv ty pl hpl J Jp
    hist hh j.threads.toNat nth (by omega) (by omega) weight0
  refine ⟨s, r, k1, k2, fun pr x hx => ⟨fun hex => ?_, (k3 pr x hx).2⟩⟩
  refine answer hj hnt fun q p hq' h1 h2 h3 hgood => (k3 pr x hx).1 hex q p ?_ ?_ B hgood.1 hgood.2
  · rw [hd.want, hq']
  · rw [Table.mem_pars, hd.ncompositions, hd.nsizes, hd.nwavelengths, p1.length_eq, p3.length_eq]
    exact ⟨h1, h2, h3⟩

/-- C99: if nothing is asked for, a null pointer is returned, without an exception -/
theorem c99_violated_nothing (hj : j.minOrder < j.maxOrder) (slots : Nat) (hnt : 0 < slots) (hw : ∀ q, j.want q = false) (mem : Place Loc → Val) :
    returned j slots mem = some .null := by
  obtain ⟨ret, h1, h2⟩ := answer (j := j) (H := exH) (B := exB) (mem := mem) hj hnt (Good := fun _ _ => False) (fun _ _ _ _ _ _ h => h.elim)
  rw [h1]
  cases ret with
  | both a b => exact absurd h2.2.1 (by rw [hw]; decide)
  | one a =>
    rcases h2 with ⟨x, -, -⟩ | ⟨-, -, x, -⟩
    · rcases x with x | x <;> exact absurd x (by rw [hw]; decide)
    · exact absurd x (by rw [hw]; decide)
  | null => rfl

end

/-! ## the arguments -/

theorem shows_unique {a : Numpy.NdArray} {l m : List Numpy.Num} (h : a.Shows l) (h' : a.Shows m) : l = m := by
  refine List.ext_getElem? fun i => ?_
  by_cases hi : i < a.count
  · rw [← h.2 i hi, h'.2 i hi]
  · rw [List.getElem?_eq_none (by rw [h.1]; omega), List.getElem?_eq_none (by rw [h'.1]; omega)]

theorem unpack_double {a : Numpy.NdArray} {l : List Numpy.Num} (h : IsArray a .f8 l) : Numpy.unpack .double a = some l := by
  obtain ⟨h1, h2, h3, h4⟩ := h
  obtain ⟨m, m1, m2, -⟩ := (Numpy.c86_unpack_partial h1 h2).1 h3
  rw [m2, shows_unique h4 m1]

theorem unpack_int {a : Numpy.NdArray} {l : List Numpy.Num} (h : IsArray a .i8 l) : Numpy.unpack .int a = some l := by
  obtain ⟨h1, h2, h3, h4⟩ := h
  obtain ⟨m, m1, m2⟩ := (Numpy.c86_unpack_partial h1 h2).2 h3
  rw [m2, shows_unique h4 m1]

theorem reals_fin (q : List Rat) : reals (q.map .fin) = some (q.map fun x : Rat => (x : ℝ)) := by
  unfold reals
  induction q with
  | nil => rfl
  | cons x q ih => rw [List.map_cons, List.mapM_cons, ih]; rfl

theorem ints_fin (q : List Int) : ints (q.map fun t : Int => .fin t) = some q := by
  unfold ints
  induction q with
  | nil => rfl
  | cons x q ih => rw [List.map_cons, List.mapM_cons, ih]; rfl

theorem unsigned32_eq {d x : Nat} {o : Option Int} (h : (x : Int) = o.getD d) (hx : x < 2 ^ 32) : unsigned32 d o = x := by
  cases o with
  | none =>
    have h : (x : Int) = d := h
    show d = x
    omega
  | some y =>
    obtain rfl : y = (x : Int) := h.symm
    show ((x : Int) % 2 ^ 32).toNat = x
    omega

theorem unsigned64_eq {d x : Nat} {o : Option Int} (h : (x : Int) = o.getD d) (hx : x < 2 ^ 64) : unsigned64 d o = x := by
  cases o with
  | none =>
    have h : (x : Int) = d := h
    show d = x
    omega
  | some y =>
    obtain rfl : y = (x : Int) := h.symm
    show ((x : Int) % 2 ^ 64).toNat = x
    omega

/-- C99: a call with arrays and objects of the right types and numbers that fit in the variables leads to the calculation that was asked for, with the documented
defaults -/
theorem c99_arguments_partial (a : Arguments) (j : Job) (h : Asks a j) (hf : Fits j) : parse a = .job j := by
  obtain ⟨qs, s1, s2⟩ := h.sizes
  obtain ⟨qw, w1, w2⟩ := h.wavelengths
  obtain ⟨qt, t1, t2⟩ := h.thetas
  have hthr : signed32 4 a.threads = some j.threads := by
    have := h.threads
    have h2 := hf.threads
    cases ha : a.threads with
    | none => rw [ha] at this; rw [this]; rfl
    | some x =>
      rw [ha] at this
      obtain rfl : j.threads = x := this
      exact if_pos h2
  unfold parse
  rw [hthr, h.shapes, h.alignment, h.dust]
  dsimp only
  rw [unpack_int h.types, unpack_double s1, unpack_double w1, unpack_double t1]
  dsimp only
  rw [ints_fin, reals_fin, reals_fin, reals_fin]
  dsimp only
  rw [unsigned32_eq (d := 10) h.minOrder hf.minOrder, unsigned32_eq (d := 100) h.maxOrder hf.maxOrder, unsigned32_eq (d := 2) h.factor hf.factor,
    unsigned32_eq (d := 20) h.angles hf.angles, unsigned64_eq (d := 10 ^ 10) (by simpa using h.memory) hf.memory, ← s2, ← w2, ← t2, ← h.account]
  have htol : a.tolerance.getD (1 / 10 ^ 4) = j.tol := by
    rw [h.tolerance]
    congr 1
    norm_num
  have hw : wanted a = j.want := by
    funext q
    cases q
    · exact h.extinction.symm
    · exact h.absorption.symm
    · exact h.scattering.symm
  rw [htol, hw]

/-- C99: orders outside the range are not refused but reduced modulo `2^32`: a negative minimum order is a very large one -/
theorem c99_violated_range (a : Arguments) (j : Job) (h : parse a = .job j) (k : Int) :
    (∀ x, a.minimumOrder = some x → parse { a with minimumOrder := some (x + k * 2 ^ 32) } = .job j)
      ∧ parse { a with minimumOrder := some (-1) } = .job { j with minOrder := 4294967295 } := by
  have key : ∀ y, parse { a with minimumOrder := some y } = .job { j with minOrder := (y % 2 ^ 32).toNat } := by
    intro y
    unfold parse at h ⊢
    repeat' split at h
    all_goals first | cases h | skip
    rename_i h1 _ _ _ _ _ _ h2 h3 h4 _ _ _ _ _ _ _ _ h5 h6 h7 h8 _ _ _ _ _ _ _ _ h9 h10 h11 h12
    dsimp only
    rw [h1, h2, h3, h4]
    dsimp only
    rw [h5, h6, h7, h8]
    dsimp only
    rw [h9, h10, h11, h12]
    rfl
  refine ⟨fun x hx => ?_, ?_⟩
  · rw [key, Int.add_mul_emod_self_right]
    have := key x
    rw [show { a with minimumOrder := some x } = a by rw [← hx], h] at this
    exact this.symm
  · rw [key]
    rfl

/-- C99: objects of another class, and objects that have not been initialised, are not refused: their use is undefined -/
theorem c99_violated_objects (a : Arguments) (ht : ∀ x, a.threads = some x → -2 ^ 31 ≤ x ∧ x < 2 ^ 31)
    (h : (∀ s, a.shapes ≠ .shapes (some s)) ∨ (∀ s, a.alignment ≠ .alignment (some s)) ∨ ∀ s, a.dust ≠ .dust (some s)) : parse a = .ub := by
  unfold parse
  have : ∃ n, signed32 4 a.threads = some n := by
    cases ha : a.threads with
    | none => exact ⟨_, rfl⟩
    | some x => exact ⟨x, if_pos (ht x ha)⟩
  obtain ⟨n, hn⟩ := this
  rw [hn]
  dsimp only
  split
  · rename_i h1 h2 h3
    rcases h with h | h | h
    · exact absurd h1 (h _)
    · exact absurd h2 (h _)
    · exact absurd h3 (h _)
  · rfl

/-! ## a concrete case -/

/-- one composition, one size, one wavelength; two shapes; all quantities -/
noncomputable def exJ : Job where
  types := [0]
  sizes := [1 / 10]
  wavelengths := [2]
  thetas := [0, Real.pi / 2]
  shapes := ⟨2, fun _ => 1, fun s => s + 1⟩
  alignment := ⟨fun _ _ => true, fun _ _ => ⟨3, fun N => if N = 0 then 1 else if N = 2 then 1 / 2 else 0, true⟩⟩
  dust _ _ _ := 2
  minOrder := 1
  maxOrder := 2
  factor := 1
  tol := 1 / 10 ^ 4
  ngrid := 2
  memory := 10 ^ 10
  threads := 4
  want _ := true
  account := true

noncomputable def exP : Problem := exJ.problem 1 exH.gl exH.jdj exH.ydy exH.jdjm

theorem exP_radius : exP.radius ⟨0, 0, 0⟩ = 1 / 10 := by
  show (List.mergeSort [(1 / 10 : ℝ)] _).getD 0 0 = 1 / 10
  rw [List.mergeSort_singleton]
  rfl

theorem exP_wavelength : exP.wavelength ⟨0, 0, 0⟩ = 2 := by
  show (List.mergeSort [(2 : ℝ)] _).getD 0 0 = 2
  rw [List.mergeSort_singleton]
  rfl

theorem exP_x (s g i : Nat) : xAt exP ⟨⟨0, 0, 0⟩, s⟩ g i = xAt exH ⟨⟨0, 0, 0⟩, s⟩ g i := by
  unfold xAt waveK
  dsimp only
  rw [exP_radius, exP_wavelength]
  rfl

theorem exP_k : waveK exP ⟨0, 0, 0⟩ = waveK exH ⟨0, 0, 0⟩ := by
  unfold waveK
  rw [exP_wavelength]
  rfl

theorem exP_proper : Proper exP exB ⟨0, 0, 0⟩ where
  first := le_rfl
  orders := (ex_proper ⟨0, 0, 0⟩).orders
  inside := (ex_proper ⟨0, 0, 0⟩).inside
  points := (ex_proper ⟨0, 0, 0⟩).points
  weights := (ex_proper ⟨0, 0, 0⟩).weights
  ratio _ _ := one_pos
  shapes := (ex_proper ⟨0, 0, 0⟩).shapes
  bessel := (ex_proper ⟨0, 0, 0⟩).bessel
  workspace s _ _ g hg := by
    obtain rfl : g = 0 := Nat.lt_one_iff.1 hg.1
    exact ⟨by decide, show (2 : Int) < 3 by decide⟩
  solvable s hs g hg m hm := by
    have h := (ex_proper ⟨0, 0, 0⟩).solvable s hs g hg m hm
    have e1 : factorA exP ⟨0, 0, 0⟩ = factorA exH ⟨0, 0, 0⟩ := by
      unfold factorA
      rw [exP_k]
      rfl
    have e2 : factorB exP ⟨0, 0, 0⟩ = factorB exH ⟨0, 0, 0⟩ := by
      unfold factorB
      rw [exP_k]
    have e3 : outAt exP exB ⟨⟨0, 0, 0⟩, s⟩ g = outAt exH exB ⟨⟨0, 0, 0⟩, s⟩ g := by
      unfold outAt
      simp only [exP_x]
    have e4 : insideAt exP exB ⟨⟨0, 0, 0⟩, s⟩ g = insideAt exH exB ⟨⟨0, 0, 0⟩, s⟩ g := by
      unfold insideAt
      simp only [exP_x]
      rfl
    unfold Solvable at h ⊢
    dsimp only at h ⊢
    rw [e1, e2, e3, e4]
    exact h

theorem exP_directions (q : Qty) : Directions exP q := by
  have h1 : ∀ it < 2, Scatter.Regular (exP.theta it) := by
    intro it hit
    have := ex_directions .ext it hit
    interval_cases it <;> exact this
  have h := ex_directions q
  cases q with
  | ext => exact h1
  | abs => exact ⟨h1, h.2⟩
  | scat => exact h

/-- the hypotheses of `c99_values` are met -/
example : exJ.minOrder < exJ.maxOrder ∧ (∃ l, generate exP.P = some l) ∧ 0 < exJ.threads
    ∧ (∃ m0, AllClean exP.P (clean exP) m0 ∧ ∀ c, m0 (.inl (.conv c)) = .ctl Ctl.new) ∧ Proper exP exB ⟨0, 0, 0⟩ ∧ ∀ q, Directions exP q := by
  refine ⟨by decide, c19_total (by decide), by decide, ⟨fun x => match x with
    | .inl (.conv _) => .ctl Ctl.new
    | .inl x => clean exP x
    | _ => .unused, ?_, fun _ => rfl⟩, exP_proper, exP_directions⟩
  intro s hs
  obtain rfl : s = 0 := Nat.lt_one_iff.1 hs
  exact ⟨rfl, fun _ _ => ⟨rfl, fun _ _ => rfl⟩⟩

/-- a call with the arrays `[1, 2]` (compositions) and `[1.5, -2, 0.1]` and no options -/
noncomputable def exA : Arguments :=
  ⟨Numpy.exInts, Numpy.exArr, Numpy.exArr, Numpy.exArr, .shapes (some exJ.shapes), .alignment (some exJ.alignment), .dust (some exJ.dust), none, none, none, none, none, none, none,
    none, none, none, none⟩

example : Asks exA ⟨[1, 2], [3 / 2, -2, 3602879701896397 / 2 ^ 55], [3 / 2, -2, 3602879701896397 / 2 ^ 55], [3 / 2, -2, 3602879701896397 / 2 ^ 55], exJ.shapes, exJ.alignment,
    exJ.dust, 10, 100, 2, 0.0001, 20, 10 ^ 10, 4, fun q => q = .abs, false⟩ := by
  have hr : IsReals Numpy.exArr [3 / 2, -2, 3602879701896397 / 2 ^ 55] := by
    refine ⟨[3 / 2, -2, 3602879701896397 / 2 ^ 55], ⟨Numpy.exArr_ok, by decide, rfl, rfl, by decide +kernel⟩, ?_⟩
    norm_num
  refine ⟨⟨Numpy.exInts_ok, by decide, rfl, rfl, by decide +kernel⟩, hr, hr, hr, rfl, rfl, rfl, rfl, rfl, rfl, rfl, rfl, ?_, rfl, rfl, rfl, rfl, rfl⟩
  norm_num [exA]

end Verif.GetTable
