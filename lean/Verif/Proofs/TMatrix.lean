import Verif.Model.TMatrix
import Verif.Spec.TMatrix
import Verif.Proofs.Matrix
import Mathlib.Tactic.LinearCombination

/-! Proofs about the T-matrix tasks -/
namespace Verif.TMatrix

open Finset Verif.Matrix

section

variable {K : Type} [Field K]

/-! ## accumulation -/

theorem incr_get (m : Mat K) {i j r c : Nat} (v : K) (hj : j < m.cols) (hc : c < m.cols) :
    (incr m i j v).get r c = m.get r c + if r = i ∧ c = j then v else 0 := by
  unfold incr
  rw [get_set m (m.get i j + v) hj hc]
  by_cases h : r = i ∧ c = j
  · rw [if_pos h, if_pos h, h.1, h.2]
  · rw [if_neg h, if_neg h, add_zero]

@[simp] theorem incr_cols (m : Mat K) (i j : Nat) (v : K) : (incr m i j v).cols = m.cols := rfl
@[simp] theorem incr_rows (m : Mat K) (i j : Nat) (v : K) : (incr m i j v).rows = m.rows := rfl

/-- `m'` is `m` plus `f`, element by element -/
structure Adds (m m' : Mat K) (f : Nat → Nat → K) : Prop where
  rows : m'.rows = m.rows
  cols : m'.cols = m.cols
  get : ∀ r c, c < m.cols → m'.get r c = m.get r c + f r c

theorem Adds.refl (m : Mat K) : Adds m m fun _ _ => 0 := ⟨rfl, rfl, fun _ _ _ => (add_zero _).symm⟩

theorem Adds.congr {m m' : Mat K} {f g : Nat → Nat → K} (h : Adds m m' f) (e : ∀ r c, c < m.cols → f r c = g r c) :
    Adds m m' g := ⟨h.rows, h.cols, fun r c hc => by rw [h.get r c hc, e r c hc]⟩

theorem Adds.trans {m m' m'' : Mat K} {f g : Nat → Nat → K} (h : Adds m m' f) (h' : Adds m' m'' g) :
    Adds m m'' fun r c => f r c + g r c :=
  ⟨h'.rows.trans h.rows, h'.cols.trans h.cols, fun r c hc => by
    rw [h'.get r c (by rw [h.cols]; exact hc), h.get r c hc, add_assoc]⟩

theorem Adds.incr (m : Mat K) {i j : Nat} (v : K) (hj : j < m.cols) :
    Adds m (incr m i j v) fun r c => if r = i ∧ c = j then v else 0 :=
  ⟨rfl, rfl, fun _ _ hc => incr_get m v hj hc⟩

/-- a loop over pairs of matrices adds the sum -/
theorem loop_adds {lo hi C : Nat} (h : lo ≤ hi) (body : Nat → Pair K → Pair K) (f g : Nat → Nat → Nat → K) (s : Pair K)
    (hC : s.1.cols = C ∧ s.2.cols = C)
    (hb : ∀ k s, lo ≤ k → k < hi → s.1.cols = C → s.2.cols = C → Adds s.1 (body k s).1 (f k) ∧ Adds s.2 (body k s).2 (g k)) :
    Adds s.1 (loop lo hi body s).1 (fun r c => ∑ k ∈ Ico lo hi, f k r c)
    ∧ Adds s.2 (loop lo hi body s).2 (fun r c => ∑ k ∈ Ico lo hi, g k r c) := by
  refine loop_inv (fun q s' => Adds s.1 s'.1 (fun r c => ∑ k ∈ Ico lo q, f k r c)
    ∧ Adds s.2 s'.2 (fun r c => ∑ k ∈ Ico lo q, g k r c)) h body s ?_ ?_
  · simp only [Ico_self, sum_empty]
    exact ⟨Adds.refl _, Adds.refl _⟩
  · rintro k s' h1 h2 ⟨a1, a2⟩
    obtain ⟨b1, b2⟩ := hb k s' h1 h2 (a1.cols.trans hC.1) (a2.cols.trans hC.2)
    refine ⟨(a1.trans b1).congr fun r c _ => ?_, (a2.trans b2).congr fun r c _ => ?_⟩
    · rw [sum_Ico_succ_top h1]
    · rw [sum_Ico_succ_top h1]

/-- the four elements of a pair of orders: position `i * nm + (n - n0)` -/
def spread (nm n0 : Nat) (q : Nat → Nat → K) (n1 n2 r c : Nat) : K :=
  ∑ i ∈ range 2, ∑ i' ∈ range 2, if r = i * nm + (n1 - n0) ∧ c = i' * nm + (n2 - n0) then q i i' else 0

theorem pos_block {nm p p' i i' : Nat} (hp : p < nm) (hp' : p' < nm) (h : i * nm + p = i' * nm + p') :
    i = i' ∧ p = p' := by
  have hc : 0 < nm := by omega
  have e1 : (i * nm + p) / nm = i := by
    rw [Nat.mul_comm, Nat.mul_add_div hc, Nat.div_eq_of_lt hp]; simp
  have e2 : (i' * nm + p') / nm = i' := by
    rw [Nat.mul_comm, Nat.mul_add_div hc, Nat.div_eq_of_lt hp']; simp
  have : i = i' := by rw [← e1, ← e2, h]
  subst this
  exact ⟨rfl, by omega⟩

/-- collecting the contributions of all pairs of orders -/
theorem spread_sum (nm n0 : Nat) (q : Nat → Nat → Nat → Nat → K) {i i' n n' : Nat} (hi : i < 2) (hi' : i' < 2)
    (hn : n0 ≤ n ∧ n < n0 + nm) (hn' : n0 ≤ n' ∧ n' < n0 + nm) :
    ∑ n1 ∈ Ico n0 (n0 + nm), ∑ n2 ∈ Ico n0 (n0 + nm),
      spread nm n0 (fun i i' => q i n1 i' n2) n1 n2 (i * nm + (n - n0)) (i' * nm + (n' - n0)) = q i n i' n' := by
  rw [sum_eq_single n]
  · rw [sum_eq_single n']
    · unfold spread
      rw [sum_eq_single i, sum_eq_single i', if_pos ⟨rfl, rfl⟩]
      · intro b _ hb
        rw [if_neg]
        rintro ⟨_, h⟩
        exact hb (pos_block (by omega) (by omega) h).1.symm
      · intro h; exact absurd (mem_range.mpr hi') h
      · intro b _ hb
        refine sum_eq_zero fun b' _ => ?_
        rw [if_neg]
        rintro ⟨h, _⟩
        exact hb (pos_block (by omega) (by omega) h).1.symm
      · intro h; exact absurd (mem_range.mpr hi) h
    · intro b hb hbn
      rw [mem_Ico] at hb
      unfold spread
      refine sum_eq_zero fun j _ => sum_eq_zero fun j' _ => ?_
      rw [if_neg]
      rintro ⟨_, h⟩
      exact hbn (by have := (pos_block (by omega) (by omega) h).2; omega)
    · intro h; exact absurd (mem_Ico.mpr ⟨hn'.1, hn'.2⟩) h
  · intro b hb hbn
    rw [mem_Ico] at hb
    refine sum_eq_zero fun b2 _ => ?_
    unfold spread
    refine sum_eq_zero fun j _ => sum_eq_zero fun j' _ => ?_
    rw [if_neg]
    rintro ⟨h, _⟩
    exact hbn (by have := (pos_block (by omega) (by omega) h).2; omega)
  · intro h; exact absurd (mem_Ico.mpr ⟨hn.1, hn.2⟩) h

/-! ## the contribution of one quadrature point -/

variable (im : K) (cs : Consts K) (it : Inter K) (pt : Points K)

/-- what the tasks add for one quadrature point (radial function `z`, `dz` of the first wave) -/
def term (z dz : Nat → Nat → K) (m ig i n1 i' n2 : Nat) : K :=
  let p1 := (m : K) * pt.sinv ig * pt.w m ig (n1 - 1)
  let p2 := (m : K) * pt.sinv ig * pt.w m ig (n2 - 1)
  let d1 := pt.w m ig (n1 - 1)
  let d2 := pt.w m ig (n2 - 1)
  let t1 := pt.dw m ig (n1 - 1)
  let t2 := pt.dw m ig (n2 - 1)
  let N1 : K := (n1 : K) * ((n1 : K) + 1)
  let N2 : K := (n2 : K) * ((n2 : K) + 1)
  let g := pt.weight ig * pt.r2 ig * cs.ann n1 n2
  let z1 := z ig (n1 - 1)
  let y1 := dz ig (n1 - 1)
  let z2 := it.jm ig (n2 - 1)
  let y2 := it.djm ig (n2 - 1)
  let s := pt.drr ig
  let J11 := g * im * (p1 * t2 + t1 * p2) * z1 * z2
  let J22 := g * im * ((p1 * t2 + t1 * p2) * y1 * y2 + s * N1 * d1 * p2 * z1 * it.krinv ig * y2
    + s * N2 * p1 * d2 * y1 * z2 * it.krmrinv ig)
  let J12 := -(g * ((p1 * p2 + t1 * t2) * y1 * z2 + s * N1 * d1 * t2 * z1 * it.krinv ig * z2))
  let J21 := g * ((p1 * p2 + t1 * t2) * z1 * y2 + s * N2 * t1 * d2 * z1 * z2 * it.krmrinv ig)
  if (n1 + n2) % 2 = 0 then
    if i = 0 ∧ i' = 0 then cs.k2mr * J21 + cs.k2 * J12
    else if i = 0 then 0 else if i' = 0 then 0 else cs.k2mr * J12 + cs.k2 * J21
  else
    if i = 0 ∧ i' = 0 then 0
    else if i = 0 then cs.k2mr * J11 + cs.k2 * J22
    else if i' = 0 then cs.k2mr * J22 + cs.k2 * J11 else 0

/-- outgoing radial function: spherical Hankel function of the first kind -/
def hank : (Nat → Nat → K) × (Nat → Nat → K) :=
  (fun ig n => it.j ig n + im * it.y ig n, fun ig n => it.dj ig n + im * it.dy ig n)

theorem m0Body_adds {nmax ig n1 n2 : Nat} (h1 : 1 ≤ n1 ∧ n1 < nmax + 1) (h2 : 1 ≤ n2 ∧ n2 < nmax + 1) (s : Pair K)
    (hc1 : 2 * nmax ≤ s.1.cols) (hc2 : 2 * nmax ≤ s.2.cols) :
    Adds s.1 (m0Body im cs it pt nmax ig n1 n2 s).1
      (spread nmax 1 (fun i i' => term im cs it pt (hank im it).1 (hank im it).2 0 ig i n1 i' n2) n1 n2)
    ∧ Adds s.2 (m0Body im cs it pt nmax ig n1 n2 s).2
      (spread nmax 1 (fun i i' => term im cs it pt it.j it.dj 0 ig i n1 i' n2) n1 n2) := by
  unfold m0Body
  by_cases h : (n1 + n2) % 2 = 0
  · simp only [h, if_true]
    refine ⟨((Adds.incr s.1 _ (by omega)).trans (Adds.incr _ _ (by simp only [incr_cols]; omega))).congr ?_,
      ((Adds.incr s.2 _ (by omega)).trans (Adds.incr _ _ (by simp only [incr_cols]; omega))).congr ?_⟩
    all_goals
      intro r c _
      unfold spread
      simp only [sum_range_succ, sum_range_zero, zero_add, term, h, hank, one_ne_zero, and_true, and_false, if_true, if_false,
        zero_mul, one_mul, add_zero, ite_self, Nat.cast_zero]
      congr 1
      · refine if_congr (by omega) ?_ rfl
        ring
      · refine if_congr (by omega) ?_ rfl
        ring
  · simp only [h, if_false]
    refine ⟨(Adds.refl s.1).congr ?_, (Adds.refl s.2).congr ?_⟩
    all_goals
      intro r c _
      unfold spread
      simp [term, h]

theorem mAllBody_adds {m nmax ig n1 n2 : Nat} (hs2 : pt.s2inv ig = pt.sinv ig * pt.sinv ig) (hm : m ≤ nmax)
    (h1 : m ≤ n1 ∧ n1 < nmax + 1) (h2 : m ≤ n2 ∧ n2 < nmax + 1) (s : Pair K)
    (hc1 : 2 * (nmax + 1 - m) ≤ s.1.cols) (hc2 : 2 * (nmax + 1 - m) ≤ s.2.cols) :
    Adds s.1 (mAllBody im cs it pt m (nmax + 1 - m) ig n1 n2 s).1
      (spread (nmax + 1 - m) m (fun i i' => term im cs it pt (hank im it).1 (hank im it).2 m ig i n1 i' n2) n1 n2)
    ∧ Adds s.2 (mAllBody im cs it pt m (nmax + 1 - m) ig n1 n2 s).2
      (spread (nmax + 1 - m) m (fun i i' => term im cs it pt it.j it.dj m ig i n1 i' n2) n1 n2) := by
  unfold mAllBody
  by_cases h : (n1 + n2) % 2 = 0
  · simp only [ne_eq, h, not_true, if_false]
    refine ⟨((Adds.incr s.1 _ (by omega)).trans (Adds.incr _ _ (by simp only [incr_cols]; omega))).congr ?_,
      ((Adds.incr s.2 _ (by omega)).trans (Adds.incr _ _ (by simp only [incr_cols]; omega))).congr ?_⟩
    all_goals
      intro r c _
      unfold spread
      simp only [sum_range_succ, sum_range_zero, zero_add, term, h, hank, one_ne_zero, and_true, and_false, if_true, if_false,
        zero_mul, one_mul, add_zero, ite_self, hs2, Nat.cast_mul]
      congr 1
      · refine if_congr (by omega) ?_ rfl
        ring
      · refine if_congr (by omega) ?_ rfl
        ring
  · simp only [ne_eq, h, not_false_eq_true, if_true]
    refine ⟨((Adds.incr s.1 _ (by omega)).trans (Adds.incr _ _ (by simp only [incr_cols]; omega))).congr ?_,
      ((Adds.incr s.2 _ (by omega)).trans (Adds.incr _ _ (by simp only [incr_cols]; omega))).congr ?_⟩
    all_goals
      intro r c _
      unfold spread
      simp only [sum_range_succ, sum_range_zero, zero_add, term, h, hank, one_ne_zero, and_true, and_false, if_true, if_false,
        zero_mul, one_mul, add_zero, ite_self]
      congr 1
      · refine if_congr (by omega) ?_ rfl
        ring
      · refine if_congr (by omega) ?_ rfl
        ring

/-- the assembled matrices: element `(i, n), (i', n')` -/
def Assembled (m nm n0 ngauss : Nat) (s : Pair K) (z dz : Nat → Nat → K) (pick : Pair K → Mat K) : Prop :=
  ∀ i i' n n', i < 2 → i' < 2 → n0 ≤ n → n < n0 + nm → n0 ≤ n' → n' < n0 + nm →
    (pick s).get (i * nm + (n - n0)) (i' * nm + (n' - n0)) = ∑ ig ∈ range ngauss, term im cs it pt z dz m ig i n i' n'

theorem block_lt {nm n0 i n : Nat} (hi : i < 2) (h : n0 ≤ n ∧ n < n0 + nm) : i * nm + (n - n0) < 2 * nm := by
  have : i * nm ≤ 1 * nm := Nat.mul_le_mul_right _ (by omega)
  omega

theorem m0Assemble_spec {nmax ngauss : Nat} (s : Pair K) (hc1 : 2 * nmax ≤ s.1.cols) (hc2 : s.2.cols = s.1.cols)
    (h0 : ∀ r c, r < 2 * nmax → c < 2 * nmax → s.1.get r c = 0 ∧ s.2.get r c = 0) :
    let s' := m0Assemble im cs it pt nmax ngauss s
    Assembled im cs it pt 0 nmax 1 ngauss s' (hank im it).1 (hank im it).2 (·.1)
    ∧ Assembled im cs it pt 0 nmax 1 ngauss s' it.j it.dj (·.2)
    ∧ s'.1.rows = s.1.rows ∧ s'.1.cols = s.1.cols ∧ s'.2.rows = s.2.rows ∧ s'.2.cols = s.2.cols := by
  intro s'
  obtain ⟨a1, a2⟩ := loop_adds (C := s.1.cols) (show 1 ≤ ngauss + 1 by omega)
    (fun ig s => loop 1 (nmax + 1) (fun n1 s => loop 1 (nmax + 1) (fun n2 s => m0Body im cs it pt nmax (ig - 1) n1 n2 s) s) s)
    (fun ig r c => ∑ n1 ∈ Ico 1 (nmax + 1), ∑ n2 ∈ Ico 1 (nmax + 1),
      spread nmax 1 (fun i i' => term im cs it pt (hank im it).1 (hank im it).2 0 (ig - 1) i n1 i' n2) n1 n2 r c)
    (fun ig r c => ∑ n1 ∈ Ico 1 (nmax + 1), ∑ n2 ∈ Ico 1 (nmax + 1),
      spread nmax 1 (fun i i' => term im cs it pt it.j it.dj 0 (ig - 1) i n1 i' n2) n1 n2 r c)
    s ⟨rfl, hc2⟩ (fun ig s hl hh hs1 hs2 => loop_adds (C := _) (by omega) _ (fun n1 r c => _) (fun n1 r c => _) s ⟨hs1, hs2⟩
      (fun n1 s hl1 hh1 hs1 hs2 => loop_adds (C := _) (by omega) _ (fun n2 r c => _) (fun n2 r c => _) s ⟨hs1, hs2⟩
        (fun n2 s hl2 hh2 hs1 hs2 => m0Body_adds im cs it pt ⟨hl1, hh1⟩ ⟨hl2, hh2⟩ s (by omega) (by omega))))
  have eq : ∀ (f : Nat → K), ∑ ig ∈ Ico 1 (ngauss + 1), f (ig - 1) = ∑ ig ∈ range ngauss, f ig := by
    intro f
    rw [sum_Ico_eq_sum_range]
    simp
  refine ⟨?_, ?_, a1.rows, a1.cols, a2.rows, a2.cols⟩
  · intro i i' n n' hi hi' hn hn2 hn' hn2'
    have hb := block_lt (nm := nmax) hi ⟨hn, hn2⟩
    have hb' := block_lt (nm := nmax) hi' ⟨hn', hn2'⟩
    have := a1.get (i * nmax + (n - 1)) (i' * nmax + (n' - 1)) (by omega)
    dsimp only at this ⊢
    change (m0Assemble im cs it pt nmax ngauss s).1.get _ _ = _
    unfold m0Assemble
    rw [this, (h0 _ _ hb hb').1, zero_add, ← eq]
    refine sum_congr rfl fun ig _ => ?_
    rw [Nat.add_comm nmax 1]
    exact spread_sum nmax 1 (fun i n1 i' n2 => term im cs it pt (hank im it).1 (hank im it).2 0 (ig - 1) i n1 i' n2) hi hi'
      ⟨hn, hn2⟩ ⟨hn', hn2'⟩
  · intro i i' n n' hi hi' hn hn2 hn' hn2'
    have hb := block_lt (nm := nmax) hi ⟨hn, hn2⟩
    have hb' := block_lt (nm := nmax) hi' ⟨hn', hn2'⟩
    have := a2.get (i * nmax + (n - 1)) (i' * nmax + (n' - 1)) (by omega)
    dsimp only at this ⊢
    change (m0Assemble im cs it pt nmax ngauss s).2.get _ _ = _
    unfold m0Assemble
    rw [this, (h0 _ _ hb hb').2, zero_add, ← eq]
    refine sum_congr rfl fun ig _ => ?_
    rw [Nat.add_comm nmax 1]
    exact spread_sum nmax 1 (fun i n1 i' n2 => term im cs it pt it.j it.dj 0 (ig - 1) i n1 i' n2) hi hi'
      ⟨hn, hn2⟩ ⟨hn', hn2'⟩

theorem mAllAssemble_spec {m nmax ngauss : Nat} (hm : m ≤ nmax)
    (hs2 : ∀ ig < ngauss, pt.s2inv ig = pt.sinv ig * pt.sinv ig) (s : Pair K)
    (hc1 : 2 * (nmax + 1 - m) ≤ s.1.cols) (hc2 : s.2.cols = s.1.cols)
    (h0 : ∀ r c, r < 2 * (nmax + 1 - m) → c < 2 * (nmax + 1 - m) → s.1.get r c = 0 ∧ s.2.get r c = 0) :
    let s' := mAllAssemble im cs it pt m nmax ngauss s
    Assembled im cs it pt m (nmax + 1 - m) m ngauss s' (hank im it).1 (hank im it).2 (·.1)
    ∧ Assembled im cs it pt m (nmax + 1 - m) m ngauss s' it.j it.dj (·.2)
    ∧ s'.1.rows = s.1.rows ∧ s'.1.cols = s.1.cols ∧ s'.2.rows = s.2.rows ∧ s'.2.cols = s.2.cols := by
  intro s'
  obtain ⟨a1, a2⟩ := loop_adds (C := s.1.cols) (Nat.zero_le ngauss)
    (fun ig s => loop m (nmax + 1) (fun n1 s => loop m (nmax + 1)
      (fun n2 s => mAllBody im cs it pt m (nmax + 1 - m) ig n1 n2 s) s) s)
    (fun ig r c => ∑ n1 ∈ Ico m (nmax + 1), ∑ n2 ∈ Ico m (nmax + 1),
      spread (nmax + 1 - m) m (fun i i' => term im cs it pt (hank im it).1 (hank im it).2 m ig i n1 i' n2) n1 n2 r c)
    (fun ig r c => ∑ n1 ∈ Ico m (nmax + 1), ∑ n2 ∈ Ico m (nmax + 1),
      spread (nmax + 1 - m) m (fun i i' => term im cs it pt it.j it.dj m ig i n1 i' n2) n1 n2 r c)
    s ⟨rfl, hc2⟩ (fun ig s hl hh hs1 hs2' => loop_adds (C := _) (by omega) _ (fun n1 r c => _) (fun n1 r c => _) s ⟨hs1, hs2'⟩
      (fun n1 s hl1 hh1 hs1 hs2' => loop_adds (C := _) (by omega) _ (fun n2 r c => _) (fun n2 r c => _) s ⟨hs1, hs2'⟩
        (fun n2 s hl2 hh2 hs1 hs2' => mAllBody_adds im cs it pt (hs2 ig hh) hm ⟨hl1, hh1⟩ ⟨hl2, hh2⟩ s (by omega) (by omega))))
  have e1 : nmax + 1 = m + (nmax + 1 - m) := by omega
  refine ⟨?_, ?_, a1.rows, a1.cols, a2.rows, a2.cols⟩
  · intro i i' n n' hi hi' hn hn2 hn' hn2'
    have hb := block_lt (nm := nmax + 1 - m) hi ⟨hn, hn2⟩
    have hb' := block_lt (nm := nmax + 1 - m) hi' ⟨hn', hn2'⟩
    have := a1.get (i * (nmax + 1 - m) + (n - m)) (i' * (nmax + 1 - m) + (n' - m)) (by omega)
    dsimp only at this ⊢
    change (mAllAssemble im cs it pt m nmax ngauss s).1.get _ _ = _
    unfold mAllAssemble
    rw [this, (h0 _ _ hb hb').1, zero_add, range_eq_Ico]
    refine sum_congr rfl fun ig _ => ?_
    have := spread_sum (nmax + 1 - m) m (fun i n1 i' n2 => term im cs it pt (hank im it).1 (hank im it).2 m ig i n1 i' n2) hi hi'
      ⟨hn, hn2⟩ ⟨hn', hn2'⟩
    rw [← e1] at this
    exact this
  · intro i i' n n' hi hi' hn hn2 hn' hn2'
    have hb := block_lt (nm := nmax + 1 - m) hi ⟨hn, hn2⟩
    have hb' := block_lt (nm := nmax + 1 - m) hi' ⟨hn', hn2'⟩
    have := a2.get (i * (nmax + 1 - m) + (n - m)) (i' * (nmax + 1 - m) + (n' - m)) (by omega)
    dsimp only at this ⊢
    change (mAllAssemble im cs it pt m nmax ngauss s).2.get _ _ = _
    unfold mAllAssemble
    rw [this, (h0 _ _ hb hb').2, zero_add, range_eq_Ico]
    refine sum_congr rfl fun ig _ => ?_
    have := spread_sum (nmax + 1 - m) m (fun i n1 i' n2 => term im cs it pt it.j it.dj m ig i n1 i' n2) hi hi'
      ⟨hn, hn2⟩ ⟨hn', hn2'⟩
    rw [← e1] at this
    exact this

/-! ## the multiplication -/

theorem loop_adds1 {lo hi C : Nat} (h : lo ≤ hi) (body : Nat → Mat K → Mat K) (f : Nat → Nat → Nat → K) (s : Mat K)
    (hC : s.cols = C) (hb : ∀ k s, lo ≤ k → k < hi → s.cols = C → Adds s (body k s) (f k)) :
    Adds s (loop lo hi body s) (fun r c => ∑ k ∈ Ico lo hi, f k r c) := by
  refine loop_inv (fun q s' => Adds s s' (fun r c => ∑ k ∈ Ico lo q, f k r c)) h body s ?_ ?_
  · simp only [Ico_self, sum_empty]
    exact Adds.refl _
  · rintro k s' h1 h2 a1
    refine (a1.trans (hb k s' h1 h2 (a1.cols.trans hC))).congr fun r c _ => ?_
    rw [sum_Ico_succ_top h1]

/-- value of one element of `-RgQ · Q` -/
def prodVal (nm : Nat) (RgQ Q : Mat K) (r c : Nat) : K := -∑ k ∈ range (2 * nm), RgQ.get r k * Q.get k c

theorem multBody_spec {nm i j : Nat} (hi : i < nm) (hj : j < nm) (RgQ Q T : Mat K) (hc : 2 * nm ≤ T.cols) :
    (multBody nm RgQ Q i j T).rows = T.rows ∧ (multBody nm RgQ Q i j T).cols = T.cols
    ∧ ∀ r c, c < T.cols → (multBody nm RgQ Q i j T).get r c =
      if (r = i ∨ r = nm + i) ∧ (c = j ∨ c = nm + j) then prodVal nm RgQ Q r c else T.get r c := by
  unfold multBody
  dsimp only
  generalize hZ : (((T.set i j 0).set (nm + i) j 0).set i (nm + j) 0).set (nm + i) (nm + j) 0 = Z
  have hZr : Z.rows = T.rows := by rw [← hZ]; rfl
  have hZc : Z.cols = T.cols := by rw [← hZ]; rfl
  have hZg : ∀ r c, c < T.cols → Z.get r c = if (r = i ∨ r = nm + i) ∧ (c = j ∨ c = nm + j) then 0 else T.get r c := by
    intro r c hcc
    rw [← hZ, get_set _ _ (by simp only [set_cols]; omega) (by simpa only [set_cols] using hcc),
      get_set _ _ (by simp only [set_cols]; omega) (by simpa only [set_cols] using hcc),
      get_set _ _ (by simp only [set_cols]; omega) (by simpa only [set_cols] using hcc),
      get_set _ _ (by omega) hcc]
    by_cases h1 : r = i ∨ r = nm + i
    · by_cases h2 : c = j ∨ c = nm + j
      · rw [if_pos (show (r = i ∨ r = nm + i) ∧ (c = j ∨ c = nm + j) from ⟨h1, h2⟩)]
        rcases h1 with rfl | rfl <;> rcases h2 with rfl | rfl <;> simp
      · rw [if_neg (show ¬((r = i ∨ r = nm + i) ∧ (c = j ∨ c = nm + j)) from fun h => h2 h.2), if_neg (by omega), if_neg (by omega), if_neg (by omega), if_neg (by omega)]
    · rw [if_neg (show ¬((r = i ∨ r = nm + i) ∧ (c = j ∨ c = nm + j)) from fun h => h1 h.1), if_neg (by omega), if_neg (by omega), if_neg (by omega), if_neg (by omega)]
  have a := loop_adds1 (C := T.cols) (Nat.zero_le (2 * nm)) (fun k T =>
    let T := T.set i j (T.get i j - RgQ.get i k * Q.get k j)
    let T := T.set (nm + i) j (T.get (nm + i) j - RgQ.get (nm + i) k * Q.get k j)
    let T := T.set i (nm + j) (T.get i (nm + j) - RgQ.get i k * Q.get k (nm + j))
    T.set (nm + i) (nm + j) (T.get (nm + i) (nm + j) - RgQ.get (nm + i) k * Q.get k (nm + j)))
    (fun k r c => if (r = i ∨ r = nm + i) ∧ (c = j ∨ c = nm + j) then -(RgQ.get r k * Q.get k c) else 0) Z hZc (by
      intro k s _ _ hs
      simp only [sub_eq_add_neg]
      refine ((((Adds.incr s _ (i := i) (j := j) (by omega)).trans
        (Adds.incr _ _ (i := nm + i) (j := j) (by simp only [incr_cols]; omega))).trans
        (Adds.incr _ _ (i := i) (j := nm + j) (by simp only [incr_cols]; omega))).trans
        (Adds.incr _ _ (i := nm + i) (j := nm + j) (by simp only [incr_cols]; omega))).congr ?_
      intro r c hcc
      by_cases h1 : r = i ∨ r = nm + i
      · by_cases h2 : c = j ∨ c = nm + j
        · rw [if_pos (show (r = i ∨ r = nm + i) ∧ (c = j ∨ c = nm + j) from ⟨h1, h2⟩)]
          have e1 : ¬(i = nm + i) := by omega
          have e2 : ¬(j = nm + j) := by omega
          have e3 : ¬(nm = 0) := by omega
          rcases h1 with rfl | rfl <;> rcases h2 with rfl | rfl <;> simp [e1, e2, e3]
        · rw [if_neg (show ¬((r = i ∨ r = nm + i) ∧ (c = j ∨ c = nm + j)) from fun h => h2 h.2), if_neg (by omega), if_neg (by omega), if_neg (by omega), if_neg (by omega)]
          simp
      · rw [if_neg (show ¬((r = i ∨ r = nm + i) ∧ (c = j ∨ c = nm + j)) from fun h => h1 h.1), if_neg (by omega), if_neg (by omega), if_neg (by omega), if_neg (by omega)]
        simp)
  refine ⟨a.rows.trans hZr, a.cols.trans hZc, ?_⟩
  intro r c hcc
  rw [a.get r c (by omega), hZg r c hcc]
  by_cases h : (r = i ∨ r = nm + i) ∧ (c = j ∨ c = nm + j)
  · simp only [h, and_self, if_true, zero_add]
    rw [sum_neg_distrib, ← range_eq_Ico]
    rfl
  · simp only [h, if_false, sum_const_zero, add_zero]

theorem mult_spec {nm : Nat} (RgQ Q T : Mat K) (hc : 2 * nm ≤ T.cols) :
    (mult nm RgQ Q T).rows = T.rows ∧ (mult nm RgQ Q T).cols = T.cols
    ∧ (∀ r c, r < 2 * nm → c < 2 * nm → (mult nm RgQ Q T).get r c = prodVal nm RgQ Q r c)
    ∧ ∀ r c, c < T.cols → ¬(r < 2 * nm ∧ c < 2 * nm) → (mult nm RgQ Q T).get r c = T.get r c := by
  have row : ∀ (i : Nat) (S : Mat K), i < nm → 2 * nm ≤ S.cols →
      (loop 0 nm (fun j T => multBody nm RgQ Q i j T) S).rows = S.rows
      ∧ (loop 0 nm (fun j T => multBody nm RgQ Q i j T) S).cols = S.cols
      ∧ ∀ r c, c < S.cols → (loop 0 nm (fun j T => multBody nm RgQ Q i j T) S).get r c =
        if (r = i ∨ r = nm + i) ∧ c < 2 * nm then prodVal nm RgQ Q r c else S.get r c := by
    intro i S hi hS
    have := loop_inv (fun q S' => S'.rows = S.rows ∧ S'.cols = S.cols ∧ ∀ r c, c < S.cols → S'.get r c =
      if (r = i ∨ r = nm + i) ∧ (c < q ∨ (nm ≤ c ∧ c < nm + q)) then prodVal nm RgQ Q r c else S.get r c)
      (Nat.zero_le nm) (fun j T => multBody nm RgQ Q i j T) S
      ⟨rfl, rfl, fun r c _ => by rw [if_neg (by omega)]⟩
      (by
        rintro q S' _ hq ⟨h1, h2, h3⟩
        obtain ⟨g1, g2, g3⟩ := multBody_spec hi hq RgQ Q S' (by omega)
        refine ⟨g1.trans h1, g2.trans h2, fun r c hcc => ?_⟩
        rw [g3 r c (by omega)]
        by_cases hb : (r = i ∨ r = nm + i) ∧ (c = q ∨ c = nm + q)
        · rw [if_pos hb, if_pos ⟨hb.1, by omega⟩]
        · rw [if_neg hb, h3 r c hcc]
          exact if_congr (by omega) rfl rfl)
    obtain ⟨h1, h2, h3⟩ := this
    refine ⟨h1, h2, fun r c hcc => ?_⟩
    rw [h3 r c hcc]
    exact if_congr (by omega) rfl rfl
  have := loop_inv (fun q S => S.rows = T.rows ∧ S.cols = T.cols ∧ ∀ r c, c < T.cols → S.get r c =
    if (r < q ∨ (nm ≤ r ∧ r < nm + q)) ∧ c < 2 * nm then prodVal nm RgQ Q r c else T.get r c)
    (Nat.zero_le nm) (fun i T => loop 0 nm (fun j T => multBody nm RgQ Q i j T) T) T
    ⟨rfl, rfl, fun r c _ => by rw [if_neg (by omega)]⟩
    (by
      rintro q S _ hq ⟨h1, h2, h3⟩
      obtain ⟨g1, g2, g3⟩ := row q S hq (by omega)
      refine ⟨g1.trans h1, g2.trans h2, fun r c hcc => ?_⟩
      rw [g3 r c (by omega)]
      by_cases hb : (r = q ∨ r = nm + q) ∧ c < 2 * nm
      · rw [if_pos hb, if_pos ⟨by omega, hb.2⟩]
      · rw [if_neg hb, h3 r c hcc]
        exact if_congr (by omega) rfl rfl)
  obtain ⟨h1, h2, h3⟩ := this
  refine ⟨h1, h2, fun r c hr hcc => ?_, fun r c hcc hn => ?_⟩
  · change (loop 0 nm _ T).get r c = _
    rw [h3 r c (by omega), if_pos ⟨by omega, hcc⟩]
  · change (loop 0 nm _ T).get r c = _
    rw [h3 r c hcc, if_neg (by omega)]

/-! ## the specification: half of the points are enough -/

open Spec

section

variable (S : Surface K) (Z Z' : Radial K)

theorem triple00 (m ig n n' : Nat) :
    dot (normal S ig) (cross (wave im S 0 (-1) Z m ig n) (wave im S 0 1 Z' m ig n')) =
      S.r2 ig * im * ((m : K) * S.d m ig n * S.sinInv ig * S.τ m ig n' + S.τ m ig n * ((m : K) * S.d m ig n' * S.sinInv ig))
        * Z.z ig n * Z'.z ig n' := by
  simp only [wave, if_true, dot, cross, normal, waveM, πf]
  ring

theorem triple11 (m ig n n' : Nat) :
    dot (normal S ig) (cross (wave im S 1 (-1) Z m ig n) (wave im S 1 1 Z' m ig n')) =
      S.r2 ig * im * (((m : K) * S.d m ig n * S.sinInv ig * S.τ m ig n' + S.τ m ig n * ((m : K) * S.d m ig n' * S.sinInv ig))
        * Z.dz ig n * Z'.dz ig n'
      + S.slope ig * ((n : K) * ((n : K) + 1)) * S.d m ig n * ((m : K) * S.d m ig n' * S.sinInv ig) * Z.z ig n * Z.xinv ig * Z'.dz ig n'
      + S.slope ig * ((n' : K) * ((n' : K) + 1)) * ((m : K) * S.d m ig n * S.sinInv ig) * S.d m ig n' * Z.dz ig n * Z'.z ig n' * Z'.xinv ig) := by
  simp only [wave, one_ne_zero, if_false, dot, cross, normal, waveN, πf]
  ring

theorem triple10 (him : im * im = -1) (m ig n n' : Nat) :
    dot (normal S ig) (cross (wave im S 1 (-1) Z m ig n) (wave im S 0 1 Z' m ig n')) =
      -(S.r2 ig * (((m : K) * S.d m ig n * S.sinInv ig * ((m : K) * S.d m ig n' * S.sinInv ig) + S.τ m ig n * S.τ m ig n')
        * Z.dz ig n * Z'.z ig n'
      + S.slope ig * ((n : K) * ((n : K) + 1)) * S.d m ig n * S.τ m ig n' * Z.z ig n * Z.xinv ig * Z'.z ig n')) := by
  simp only [wave, one_ne_zero, if_false, if_true, dot, cross, normal, waveM, waveN, πf]
  linear_combination (S.r2 ig * (m : K) * S.d m ig n * S.sinInv ig * ((m : K) * S.d m ig n' * S.sinInv ig) * Z.dz ig n * Z'.z ig n') * him

theorem triple01 (him : im * im = -1) (m ig n n' : Nat) :
    dot (normal S ig) (cross (wave im S 0 (-1) Z m ig n) (wave im S 1 1 Z' m ig n')) =
      S.r2 ig * (((m : K) * S.d m ig n * S.sinInv ig * ((m : K) * S.d m ig n' * S.sinInv ig) + S.τ m ig n * S.τ m ig n')
        * Z.z ig n * Z'.dz ig n'
      + S.slope ig * ((n' : K) * ((n' : K) + 1)) * S.τ m ig n * S.d m ig n' * Z.z ig n * Z'.z ig n' * Z'.xinv ig) := by
  simp only [wave, one_ne_zero, if_false, if_true, dot, cross, normal, waveM, waveN, πf]
  linear_combination (-(S.r2 ig * (m : K) * S.d m ig n * S.sinInv ig * ((m : K) * S.d m ig n' * S.sinInv ig) * Z.z ig n * Z'.dz ig n')) * him

end

/-- a sum over all points is a sum over pairs of mirror images -/
theorem sum_mirror (ng : Nat) (f : Nat → K) :
    ∑ ig ∈ range (2 * ng), f ig = ∑ ig ∈ range ng, (f ig + f (2 * ng - 1 - ig)) := by
  rw [sum_add_distrib, Nat.two_mul, sum_range_add, add_right_inj]
  rw [← sum_range_reflect]
  refine sum_congr rfl fun k hk => ?_
  rw [mem_range] at hk
  congr 1
  omega

/-- the tables the tasks read contain the functions of the surface, for the degree `m` and half of the points; the sign
of the Wigner functions of a point may be wrong -/
structure Reads (pt : Points K) (S : Surface K) (m nmax ngauss : Nat) : Prop where
  weight : ∀ ig < ngauss, pt.weight ig = S.weight ig
  sinv : ∀ ig < ngauss, pt.sinv ig = S.sinInv ig
  s2inv : ∀ ig < ngauss, pt.s2inv ig = S.sinInv ig * S.sinInv ig
  r2 : ∀ ig < ngauss, pt.r2 ig = S.r2 ig
  drr : ∀ ig < ngauss, pt.drr ig = S.slope ig
  w : ∀ ig < ngauss, ∃ ε : K, ε * ε = 1 ∧ ∀ n, 1 ≤ n → m ≤ n → n ≤ nmax →
    pt.w m ig (n - 1) = ε * S.d m ig n ∧ pt.dw m ig (n - 1) = ε * S.τ m ig n

/-- the rows of the interaction resource contain the radial function `Z` -/
structure ReadsRadial (z dz : Nat → Nat → K) (xinv : Nat → K) (Z : Radial K) (nmax ngauss : Nat) : Prop where
  z : ∀ ig < ngauss, ∀ n, 1 ≤ n → n ≤ nmax → z ig (n - 1) = Z.z ig n
  dz : ∀ ig < ngauss, ∀ n, 1 ≤ n → n ≤ nmax → dz ig (n - 1) = Z.dz ig n
  xinv : ∀ ig < ngauss, xinv ig = Z.xinv ig

theorem neg_one_pow_add_mul (a b m : Nat) : ((-1 : K)) ^ (a + m) * (-1) ^ (b + m) = (-1) ^ (a + b) := by
  rw [← pow_add, show a + m + (b + m) = a + b + 2 * m by ring, pow_add, pow_mul]
  simp

/-- the point term of the specification -/
theorem spec_pair (him : im * im = -1) (S : Surface K) (Z Z' : Radial K) {m nmax ng : Nat}
    (z dz : Nat → Nat → K) (hr : Reads pt S m nmax ng) (hz : ReadsRadial z dz it.krinv Z nmax ng)
    (hz' : ReadsRadial it.jm it.djm it.krmrinv Z' nmax ng) (hM : Mirror S (2 * ng) [Z, Z'])
    {ig i n i' n' : Nat} (hig : ig < ng) (hi : i < 2) (hi' : i' < 2) (hn : 1 ≤ n ∧ m ≤ n ∧ n ≤ nmax)
    (hn' : 1 ≤ n' ∧ m ≤ n' ∧ n' ≤ nmax) :
    let P := fun κ κ' g => S.weight g * cs.ann n n'
      * dot (normal S g) (cross (wave im S κ (-1) Z m g n) (wave im S κ' 1 Z' m g n'))
    let F := fun g => if i = 0 ∧ i' = 0 then cs.k2mr * P 0 1 g + cs.k2 * P 1 0 g
      else if i = 0 then cs.k2mr * P 0 0 g + cs.k2 * P 1 1 g
      else if i' = 0 then cs.k2mr * P 1 1 g + cs.k2 * P 0 0 g
      else cs.k2mr * P 1 0 g + cs.k2 * P 0 1 g
    F ig + F (2 * ng - 1 - ig) = 2 * term im cs it pt z dz m ig i n i' n' := by
  have hg : ig < 2 * ng := by omega
  have m1 := hM.weight ig hg
  have m2 := hM.sinInv ig hg
  have m3 := hM.r2 ig hg
  have m4 := hM.slope ig hg
  have d1 := hM.d ig hg m n hn.2.1 hn.1
  have d2 := hM.d ig hg m n' hn'.2.1 hn'.1
  have t1 := hM.τ ig hg m n hn.2.1 hn.1
  have t2 := hM.τ ig hg m n' hn'.2.1 hn'.1
  have z1 := hM.z Z (by simp) ig hg n hn.1
  have z2 := hM.z Z' (by simp) ig hg n' hn'.1
  have y1 := hM.dz Z (by simp) ig hg n hn.1
  have y2 := hM.dz Z' (by simp) ig hg n' hn'.1
  have x1 := hM.xinv Z (by simp) ig hg
  have x2 := hM.xinv Z' (by simp) ig hg
  obtain ⟨ε, he, hw⟩ := hr.w ig hig
  obtain ⟨w1, v1⟩ := hw n hn.1 hn.2.1 hn.2.2
  obtain ⟨w2, v2⟩ := hw n' hn'.1 hn'.2.1 hn'.2.2
  have r1 := hr.weight ig hig
  have r2 := hr.sinv ig hig
  have r3 := hr.r2 ig hig
  have r4 := hr.drr ig hig
  have q1 := hz.z ig hig n hn.1 hn.2.2
  have q2 := hz.dz ig hig n hn.1 hn.2.2
  have q3 := hz.xinv ig hig
  have p1 := hz'.z ig hig n' hn'.1 hn'.2.2
  have p2 := hz'.dz ig hig n' hn'.1 hn'.2.2
  have p3 := hz'.xinv ig hig
  have hs := neg_one_pow_add_mul (K := K) n n' m
  generalize ha : ((-1 : K)) ^ (n + m) = a at *
  generalize hb : ((-1 : K)) ^ (n' + m) = b at *
  intro P F
  have key : ∀ σ : K, a * b = σ → σ * σ = 1 →
      P 0 1 (2 * ng - 1 - ig) = σ * P 0 1 ig ∧ P 1 0 (2 * ng - 1 - ig) = σ * P 1 0 ig
      ∧ P 0 0 (2 * ng - 1 - ig) = -σ * P 0 0 ig ∧ P 1 1 (2 * ng - 1 - ig) = -σ * P 1 1 ig := by
    intro σ hσ _
    simp only [P, triple00, triple11, triple10 im S Z Z' him, triple01 im S Z Z' him, m1, m2, m3, m4, d1, d2, t1, t2, z1, z2, y1,
      y2, x1, x2, ← hσ]
    refine ⟨by ring, by ring, by ring, by ring⟩
  have hP : P 0 1 ig = S.weight ig * cs.ann n n' * dot (normal S ig) (cross (wave im S 0 (-1) Z m ig n) (wave im S 1 1 Z' m ig n'))
      ∧ P 1 0 ig = S.weight ig * cs.ann n n' * dot (normal S ig) (cross (wave im S 1 (-1) Z m ig n) (wave im S 0 1 Z' m ig n'))
      ∧ P 0 0 ig = S.weight ig * cs.ann n n' * dot (normal S ig) (cross (wave im S 0 (-1) Z m ig n) (wave im S 0 1 Z' m ig n'))
      ∧ P 1 1 ig = S.weight ig * cs.ann n n' * dot (normal S ig) (cross (wave im S 1 (-1) Z m ig n) (wave im S 1 1 Z' m ig n')) :=
    ⟨rfl, rfl, rfl, rfl⟩
  rw [triple00, triple11, triple10 im S Z Z' him, triple01 im S Z Z' him] at hP
  obtain ⟨h01, h10, h00, h11⟩ := hP
  have hε : ∀ x y : K, ε * x * (ε * y) = x * y := fun x y => by linear_combination x * y * he
  rcases Nat.mod_two_eq_zero_or_one (n + n') with hpar | hpar
  · have hσ : a * b = 1 := by rw [hs]; exact Even.neg_one_pow (Nat.even_iff.mpr hpar)
    obtain ⟨k01, k10, k00, k11⟩ := key 1 hσ (by ring)
    simp only [F, k01, k10, k00, k11, term, hpar, if_true, w1, w2, v1, v2, r1, r2, r3, r4, q1, q2, q3, p1, p2, p3]
    split_ifs
    · rw [h01, h10]; linear_combination 2 * (cs.ann n n' * S.weight ig * S.r2 ig) * (
        cs.k2 * (((m : K) * S.d m ig n * S.sinInv ig * ((m : K) * S.d m ig n' * S.sinInv ig) + S.τ m ig n * S.τ m ig n')
        * Z.dz ig n * Z'.z ig n'
      + S.slope ig * ((n : K) * ((n : K) + 1)) * S.d m ig n * S.τ m ig n' * Z.z ig n * Z.xinv ig * Z'.z ig n')
        - cs.k2mr * (((m : K) * S.d m ig n * S.sinInv ig * ((m : K) * S.d m ig n' * S.sinInv ig) + S.τ m ig n * S.τ m ig n')
        * Z.z ig n * Z'.dz ig n'
      + S.slope ig * ((n' : K) * ((n' : K) + 1)) * S.τ m ig n * S.d m ig n' * Z.z ig n * Z'.z ig n' * Z'.xinv ig)) * he
    · ring
    · ring
    · rw [h01, h10]; linear_combination 2 * (cs.ann n n' * S.weight ig * S.r2 ig) * (
        cs.k2mr * (((m : K) * S.d m ig n * S.sinInv ig * ((m : K) * S.d m ig n' * S.sinInv ig) + S.τ m ig n * S.τ m ig n')
        * Z.dz ig n * Z'.z ig n'
      + S.slope ig * ((n : K) * ((n : K) + 1)) * S.d m ig n * S.τ m ig n' * Z.z ig n * Z.xinv ig * Z'.z ig n')
        - cs.k2 * (((m : K) * S.d m ig n * S.sinInv ig * ((m : K) * S.d m ig n' * S.sinInv ig) + S.τ m ig n * S.τ m ig n')
        * Z.z ig n * Z'.dz ig n'
      + S.slope ig * ((n' : K) * ((n' : K) + 1)) * S.τ m ig n * S.d m ig n' * Z.z ig n * Z'.z ig n' * Z'.xinv ig)) * he
  · have hσ : a * b = -1 := by rw [hs]; exact Odd.neg_one_pow (Nat.odd_iff.mpr hpar)
    obtain ⟨k01, k10, k00, k11⟩ := key (-1) hσ (by ring)
    have hne : ¬((n + n') % 2 = 0) := by omega
    simp only [F, k01, k10, k00, k11, term, hne, if_false, w1, w2, v1, v2, r1, r2, r3, r4, q1, q2, q3, p1, p2, p3]
    split_ifs
    · ring
    · rw [h00, h11]; linear_combination -2 * (cs.ann n n' * S.weight ig * S.r2 ig * im) * (
        cs.k2mr * ((m : K) * S.d m ig n * S.sinInv ig * S.τ m ig n' + S.τ m ig n * ((m : K) * S.d m ig n' * S.sinInv ig))
        * Z.z ig n * Z'.z ig n'
        + cs.k2 * (((m : K) * S.d m ig n * S.sinInv ig * S.τ m ig n' + S.τ m ig n * ((m : K) * S.d m ig n' * S.sinInv ig))
        * Z.dz ig n * Z'.dz ig n'
      + S.slope ig * ((n : K) * ((n : K) + 1)) * S.d m ig n * ((m : K) * S.d m ig n' * S.sinInv ig) * Z.z ig n * Z.xinv ig * Z'.dz ig n'
      + S.slope ig * ((n' : K) * ((n' : K) + 1)) * ((m : K) * S.d m ig n * S.sinInv ig) * S.d m ig n' * Z.dz ig n * Z'.z ig n' * Z'.xinv ig)) * he
    · rw [h00, h11]; linear_combination -2 * (cs.ann n n' * S.weight ig * S.r2 ig * im) * (
        cs.k2 * ((m : K) * S.d m ig n * S.sinInv ig * S.τ m ig n' + S.τ m ig n * ((m : K) * S.d m ig n' * S.sinInv ig))
        * Z.z ig n * Z'.z ig n'
        + cs.k2mr * (((m : K) * S.d m ig n * S.sinInv ig * S.τ m ig n' + S.τ m ig n * ((m : K) * S.d m ig n' * S.sinInv ig))
        * Z.dz ig n * Z'.dz ig n'
      + S.slope ig * ((n : K) * ((n : K) + 1)) * S.d m ig n * ((m : K) * S.d m ig n' * S.sinInv ig) * Z.z ig n * Z.xinv ig * Z'.dz ig n'
      + S.slope ig * ((n' : K) * ((n' : K) + 1)) * ((m : K) * S.d m ig n * S.sinInv ig) * S.d m ig n' * Z.dz ig n * Z'.z ig n' * Z'.xinv ig)) * he
    · ring

/-- the element of the specification is twice the sum of the tasks -/
theorem spec_half (him : im * im = -1) (S : Surface K) (Z Z' : Radial K) {m nmax ng : Nat}
    (z dz : Nat → Nat → K) (hr : Reads pt S m nmax ng) (hz : ReadsRadial z dz it.krinv Z nmax ng)
    (hz' : ReadsRadial it.jm it.djm it.krmrinv Z' nmax ng) (hM : Mirror S (2 * ng) [Z, Z'])
    {i n i' n' : Nat} (hi : i < 2) (hi' : i' < 2) (hn : 1 ≤ n ∧ m ≤ n ∧ n ≤ nmax)
    (hn' : 1 ≤ n' ∧ m ≤ n' ∧ n' ≤ nmax) :
    Spec.Q im S (2 * ng) cs.ann cs.k2mr cs.k2 Z Z' m i n i' n'
      = 2 * ∑ ig ∈ range ng, term im cs it pt z dz m ig i n i' n' := by
  have : ∀ g, g ∈ range ng → _ := fun g hg => spec_pair im cs it pt him S Z Z' z dz hr hz hz' hM (mem_range.mp hg) hi hi' hn hn'
  rw [mul_sum, ← sum_congr rfl this, ← sum_mirror]
  unfold Spec.Q Spec.J
  split_ifs <;> dsimp only <;> rw [mul_sum, mul_sum, sum_add_distrib]

end

end Verif.TMatrix
