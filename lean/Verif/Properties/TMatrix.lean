import Verif.Proofs.TMatrix
import Verif.Properties.Matrix

/-!
# T-matrix tasks: C29, C37, C60
-/
namespace Verif.TMatrix

open Finset Verif.Matrix Spec

section

variable {K R Γ : Type} [Field K]

/-! ## C29: storage -/

theorem index_eq {nmax m i n : Nat} (hn : max 1 m ≤ n) (hn' : n ≤ nmax) :
    TRes.index nmax m i n = i * (nmax + 1 - max 1 m) + (n - max 1 m) := by
  unfold TRes.index
  by_cases hm : m > 0
  · rw [if_pos hm, show max 1 m = m by omega]
    generalize i * (nmax + 1 - m) = q
    omega
  · rw [if_neg hm, show m = 0 by omega]
    simp only [show max 1 0 = 1 by rfl, Nat.add_sub_cancel]
    generalize i * nmax = q
    omega

theorem index_lt {nmax m i n : Nat} (hi : i < 2) (hn : max 1 m ≤ n) (hn' : n ≤ nmax) :
    TRes.index nmax m i n < 2 * (nmax + 1 - max 1 m) := by
  rw [index_eq hn hn']
  exact block_lt hi ⟨hn, by omega⟩

/-- shape of the storage of a resource with maximum order `maxOrder` -/
def TRes.Shape (maxOrder : Nat) (t : TRes K R) : Prop :=
  ∀ m ≤ maxOrder, (t.T m).rows = 2 * (maxOrder + 1 - m) ∧ (t.T m).cols = 2 * (maxOrder + 1 - m)

theorem shape_new [Field R] (maxOrder : Nat) : (TRes.new maxOrder : TRes K R).Shape maxOrder :=
  fun _ _ => ⟨rfl, rfl⟩

/-- the arguments `operator()` accepts (TMatrixResource.hpp:194-200), for a T-matrix of order `nmax` -/
structure Valid (nmax i n m : Nat) : Prop where
  i : i < 2
  one : 1 ≤ n
  m : m ≤ n
  n : n ≤ nmax

theorem Valid.max {nmax i n m : Nat} (h : Valid nmax i n m) : max 1 m ≤ n := Nat.max_le.mpr ⟨h.one, h.m⟩

/-- **C29** every element `(i, n, m, i', n', m)` with `m ≤ n, n' ≤ nmax` of a T-matrix whose order does not exceed the
maximum order lies inside the storage of its degree (so also at a flat position inside the array) ... -/
theorem c29_in_bounds {maxOrder : Nat} (t : TRes K R) (hs : t.Shape maxOrder) (ho : t.nmax ≤ maxOrder)
    {i n i' n' m : Nat} (h : Valid t.nmax i n m) (h' : Valid t.nmax i' n' m) :
    TRes.index t.nmax m i n < (t.T m).rows ∧ TRes.index t.nmax m i' n' < (t.T m).cols
    ∧ pos (t.T m) (TRes.index t.nmax m i n) (TRes.index t.nmax m i' n') < (t.T m).rows * (t.T m).cols := by
  have a := index_lt h.i h.max h.n
  have b := index_lt h'.i h'.max h'.n
  have := h.n
  have := h.m
  have := h.one
  obtain ⟨s1, s2⟩ := hs m (by omega)
  have r : TRes.index t.nmax m i n < (t.T m).rows := by omega
  have c : TRes.index t.nmax m i' n' < (t.T m).cols := by omega
  refine ⟨r, c, ?_⟩
  unfold pos
  calc _ < TRes.index t.nmax m i n * (t.T m).cols + (t.T m).cols := by omega
    _ = (TRes.index t.nmax m i n + 1) * (t.T m).cols := by ring
    _ ≤ _ := Nat.mul_le_mul_right _ r

/-- ... what `set_element` stores is what `operator()` returns, and no other element of the T-matrix changes -/
theorem c29_get_set {maxOrder : Nat} (t : TRes K R) (hs : t.Shape maxOrder) (ho : t.nmax ≤ maxOrder)
    {i n i' n' m : Nat} (h : Valid t.nmax i n m) (h' : Valid t.nmax i' n' m) (v : K) :
    (t.setElement i n m i' n' v).get i n m i' n' = v
    ∧ (t.setElement i n m i' n' v).Shape maxOrder ∧ (t.setElement i n m i' n' v).nmax = t.nmax
    ∧ ∀ j k j' k' l, Valid t.nmax j k l → Valid t.nmax j' k' l → (j, k, j', k', l) ≠ (i, n, i', n', m) →
      (t.setElement i n m i' n' v).get j k l j' k' = t.get j k l j' k' := by
  obtain ⟨_, b2, _⟩ := c29_in_bounds t hs ho h h'
  refine ⟨?_, ?_, rfl, ?_⟩
  · simp only [TRes.get, TRes.setElement, Function.update_self]
    rw [get_set _ _ b2 b2, if_pos ⟨rfl, rfl⟩]
  · intro l hl
    simp only [TRes.setElement]
    by_cases hlm : l = m
    · subst hlm
      rw [Function.update_self]
      exact hs l hl
    · rw [Function.update_of_ne hlm]
      exact hs l hl
  · intro j k j' k' l g g' hne
    simp only [TRes.get, TRes.setElement]
    by_cases hlm : l = m
    · subst hlm
      obtain ⟨_, c2, _⟩ := c29_in_bounds t hs ho g g'
      rw [Function.update_self, get_set _ _ b2 c2, if_neg]
      rintro ⟨e1, e2⟩
      rw [index_eq g.max g.n, index_eq h.max h.n] at e1
      rw [index_eq g'.max g'.n, index_eq h'.max h'.n] at e2
      have g1 := g.n; have g2 := g.max; have h1 := h.n; have h2 := h.max
      have g1' := g'.n; have g2' := g'.max; have h1' := h'.n; have h2' := h'.max
      obtain ⟨e3, e4⟩ := pos_block (by omega) (by omega) e1
      obtain ⟨e5, e6⟩ := pos_block (by omega) (by omega) e2
      exact hne (by rw [e3, e5, show k = n by omega, show k' = n' by omega])
    · rw [Function.update_of_ne hlm]

/-- a write for one degree leaves the matrices of the other degrees alone: tasks for different `m` touch different storage -/
theorem c29_other_degree (t : TRes K R) (i n i' n' m l : Nat) (v : K) (h : l ≠ m) :
    (t.setElement i n m i' n' v).T l = t.T l := by
  simp only [TRes.setElement]
  rw [Function.update_of_ne h]

/-- a concrete resource: order 3 stored in a resource of maximum order 5 -/
example : Valid 3 1 3 2 ∧ Valid 3 0 2 2 := ⟨⟨by omega, by omega, by omega, by omega⟩, ⟨by omega, by omega, by omega, by omega⟩⟩

/-! ## C60: the transition matrix -/

variable [LinearOrder Γ] (absv : K → Γ) (im : K)

theorem sum_blocks (nm n0 : Nat) (f : Nat → K) :
    ∑ k ∈ range (2 * nm), f k = ∑ i ∈ range 2, ∑ n ∈ Ico n0 (n0 + nm), f (i * nm + (n - n0)) := by
  have e : ∀ i : Nat, ∑ n ∈ Ico n0 (n0 + nm), f (i * nm + (n - n0)) = ∑ k ∈ range nm, f (i * nm + k) := by
    intro i
    rw [sum_Ico_eq_sum_range]
    simp
  rw [sum_congr rfl fun i _ => e i, Nat.two_mul, sum_range_add]
  simp [sum_range_succ]

theorem mirror_mono {S : Surface K} {npts : Nat} {L L' : List (Radial K)} (hM : Mirror S npts L) (h : L' ⊆ L) :
    Mirror S npts L' :=
  ⟨hM.1, hM.2, hM.3, hM.4, hM.5, hM.6, fun Y hY => hM.7 Y (h hY), fun Y hY => hM.8 Y (h hY), fun Y hY => hM.9 Y (h hY)⟩

/-- inversion and multiplication: `A` and `B` are proportional to `Q` and `Rg Q`, and `U` is `-B A⁻¹` -/
theorem solve_gen (habs : ∀ x : K, x ≠ 0 → absv 0 < absv x) (S : Surface K) (h j j' : Radial K) {m nmax ng : Nat}
    {γ : Nat → Nat → K} {a b : K} (hm : max 1 m ≤ nmax)
    (hdet : (QMatrix im S (2 * ng) γ a b h j' m nmax).det ≠ 0)
    {nm n0 : Nat} (hn0 : max 1 m = n0) (hnm : nmax + 1 - max 1 m = nm)
    (A B : Mat K) (piv : Nat → Nat) (work : Nat → K) (hQ : 2 * nm ≤ A.cols) (μ : K)
    (eQ : ∀ i n i' n', i < 2 → i' < 2 → n0 ≤ n → n < n0 + nm → n0 ≤ n' → n' < n0 + nm →
      Spec.Q im S (2 * ng) γ a b h j' m i n i' n' = μ * A.get (i * nm + (n - n0)) (i' * nm + (n' - n0)))
    (eR : ∀ i n i' n', i < 2 → i' < 2 → n0 ≤ n → n < n0 + nm → n0 ≤ n' → n' < n0 + nm →
      Spec.Q im S (2 * ng) γ a b j j' m i n i' n' = μ * B.get (i * nm + (n - n0)) (i' * nm + (n' - n0)))
    (U : Nat → Nat → K)
    (hmul : ∀ r c, r < 2 * nm → c < 2 * nm → U r c = prodVal nm B (pluInverse absv (2 * nm) A piv work) r c) :
    IsTransition im S (2 * ng) γ a b h j j' m nmax (fun i n i' n' => U (i * nm + (n - n0)) (i' * nm + (n' - n0))) := by
  have hd : (block (2 * nm) A).det ≠ 0 := by
    intro h0
    subst hnm hn0
    apply hdet
    have : QMatrix im S (2 * ng) γ a b h j' m nmax
        = μ • ((block (2 * (nmax + 1 - max 1 m)) A).submatrix finProdFinEquiv finProdFinEquiv) := by
      ext x y
      have e1 := x.1.2
      have e2 := y.1.2
      have e3 := x.2.2
      have e4 := y.2.2
      rw [QMatrix, eQ x.1 (max 1 m + x.2) y.1 (max 1 m + y.2) e1 e2 (by omega) (by omega) (by omega) (by omega)]
      rw [_root_.Matrix.smul_apply, _root_.Matrix.submatrix_apply, smul_eq_mul]
      simp only [block, finProdFinEquiv_apply_val, Nat.add_sub_cancel_left]
      rw [Nat.mul_comm (x.1 : Nat), Nat.mul_comm (y.1 : Nat), Nat.add_comm (x.2 : Nat), Nat.add_comm (y.2 : Nat)]
    rw [this, _root_.Matrix.det_smul, _root_.Matrix.det_submatrix_equiv_self, h0, mul_zero]
  obtain ⟨_, hinv, _, _, _, _⟩ := c28_inverse absv habs (2 * nm) A piv work hQ hd
  have hinv' : ∀ r c, r < 2 * nm → c < 2 * nm →
      ∑ k ∈ range (2 * nm), (pluInverse absv (2 * nm) A piv work).get r k * A.get k c = if r = c then 1 else 0 := by
    intro r c hr' hc'
    have := congrFun (congrFun hinv ⟨r, hr'⟩) ⟨c, hc'⟩
    rw [_root_.Matrix.mul_apply, _root_.Matrix.one_apply] at this
    rw [Finset.sum_range]
    simp only [block] at this
    rw [this]
    simp only [Fin.mk.injEq]
  have hTQ : ∀ r c, r < 2 * nm → c < 2 * nm → ∑ k ∈ range (2 * nm), U r k * A.get k c = -B.get r c := by
    intro r c hr' hc'
    have e1 : ∀ k ∈ range (2 * nm), U r k * A.get k c
        = -∑ l ∈ range (2 * nm), B.get r l * ((pluInverse absv (2 * nm) A piv work).get l k * A.get k c) := by
      intro k hk
      rw [hmul r k hr' (mem_range.mp hk), prodVal, neg_mul, sum_mul]
      congr 1
      exact sum_congr rfl fun l _ => by ring
    rw [sum_congr rfl e1, sum_neg_distrib, sum_comm]
    congr 1
    have e2 : ∀ l ∈ range (2 * nm), ∑ k ∈ range (2 * nm), B.get r l * ((pluInverse absv (2 * nm) A piv work).get l k * A.get k c)
        = if l = c then B.get r l else 0 := by
      intro l hl
      rw [← mul_sum, hinv' l c (mem_range.mp hl) hc']
      by_cases h : l = c <;> simp [h]
    rw [sum_congr rfl e2, sum_ite_eq' (range (2 * nm)) c, if_pos (mem_range.mpr hc')]
  intro i n i' n' b1 b2 b3 b4 b5 b6
  rw [hn0] at b3 b5
  have hnn : nmax + 1 = n0 + nm := by omega
  have hb := block_lt (nm := nm) b1 ⟨b3, by omega⟩
  have hb' := block_lt (nm := nm) b2 ⟨b5, by omega⟩
  have := hTQ _ _ hb hb'
  rw [sum_blocks nm n0] at this
  rw [hn0, hnn, eR i n i' n' b1 b2 b3 (by omega) b5 (by omega), ← mul_neg, ← this, mul_sum]
  refine sum_congr rfl fun i'' hi'' => ?_
  rw [mul_sum]
  refine sum_congr rfl fun n'' hn'' => ?_
  rw [mem_range] at hi''
  rw [mem_Ico] at hn''
  rw [eQ i'' n'' i' n' hi'' b2 hn''.1 hn''.2 b5 (by omega)]
  ring

/-- the part the two tasks share: inversion and multiplication -/
theorem solve (habs : ∀ x : K, x ≠ 0 → absv 0 < absv x) (him : im * im = -1) (h2 : (2 : K) ≠ 0)
    (cs : Consts K) (it : Inter K) (pt : Points K) (S : Surface K) (h j j' : Radial K) {m nmax ng : Nat}
    (hr : Reads pt S m nmax ng) (hh : ReadsRadial (hank im it).1 (hank im it).2 it.krinv h nmax ng)
    (hj : ReadsRadial it.j it.dj it.krinv j nmax ng) (hj' : ReadsRadial it.jm it.djm it.krmrinv j' nmax ng)
    (hM : Mirror S (2 * ng) [h, j, j']) (hm : max 1 m ≤ nmax)
    (hdet : (QMatrix im S (2 * ng) cs.ann cs.k2mr cs.k2 h j' m nmax).det ≠ 0)
    {nm n0 : Nat} (hn0 : max 1 m = n0) (hnm : nmax + 1 - max 1 m = nm)
    (p : Pair K) (piv : Nat → Nat) (work : Nat → K) (T : Mat K)
    (hQ : 2 * nm ≤ p.1.cols) (hT : 2 * nm ≤ T.cols)
    (ha : Assembled im cs it pt m nm n0 ng p (hank im it).1 (hank im it).2 (·.1))
    (ha' : Assembled im cs it pt m nm n0 ng p it.j it.dj (·.2)) :
    IsTransition im S (2 * ng) cs.ann cs.k2mr cs.k2 h j j' m nmax (fun i n i' n' =>
      (mult nm p.2 (pluInverse absv (2 * nm) p.1 piv work) T).get (i * nm + (n - n0)) (i' * nm + (n' - n0))) := by
  have hM1 : Mirror S (2 * ng) [h, j'] := mirror_mono hM (by simp)
  have hM2 : Mirror S (2 * ng) [j, j'] := mirror_mono hM (by simp)
  have hmn : m ≤ n0 ∧ 1 ≤ n0 := by omega
  have eQ : ∀ i n i' n', i < 2 → i' < 2 → n0 ≤ n → n < n0 + nm → n0 ≤ n' → n' < n0 + nm →
      Spec.Q im S (2 * ng) cs.ann cs.k2mr cs.k2 h j' m i n i' n' = 2 * p.1.get (i * nm + (n - n0)) (i' * nm + (n' - n0)) := by
    intro i n i' n' b1 b2 b3 b4 b5 b6
    rw [spec_half im cs it pt him S h j' (hank im it).1 (hank im it).2 hr hh hj' hM1 b1 b2 (by omega) (by omega),
      ha i i' n n' b1 b2 b3 b4 b5 b6]
  have eR : ∀ i n i' n', i < 2 → i' < 2 → n0 ≤ n → n < n0 + nm → n0 ≤ n' → n' < n0 + nm →
      Spec.Q im S (2 * ng) cs.ann cs.k2mr cs.k2 j j' m i n i' n' = 2 * p.2.get (i * nm + (n - n0)) (i' * nm + (n' - n0)) := by
    intro i n i' n' b1 b2 b3 b4 b5 b6
    rw [spec_half im cs it pt him S j j' it.j it.dj hr hj hj' hM2 b1 b2 (by omega) (by omega),
      ha' i i' n n' b1 b2 b3 b4 b5 b6]
  obtain ⟨_, _, hmul, _⟩ := mult_spec p.2 (pluInverse absv (2 * nm) p.1 piv work) T hT
  exact solve_gen absv im habs S h j j' hm hdet hn0 hnm p.1 p.2 piv work hQ 2 eQ eR
    (fun r c => (mult nm p.2 (pluInverse absv (2 * nm) p.1 piv work) T).get r c) hmul

/-- shape of an auxiliary space -/
def Aux.Shape (maxOrder : Nat) (a : Aux K) : Prop :=
  a.Q.rows = 2 * maxOrder ∧ a.Q.cols = 2 * maxOrder ∧ a.RgQ.rows = 2 * maxOrder ∧ a.RgQ.cols = 2 * maxOrder

theorem reset_shape (m : Mat K) : m.reset.rows = m.rows ∧ m.reset.cols = m.cols := by
  unfold Mat.reset
  exact loop_inv (σ := Mat K) (fun _ s => s.rows = m.rows ∧ s.cols = m.cols) (Nat.zero_le _) _ m ⟨rfl, rfl⟩ fun _ _ _ _ h => h

theorem reset_zero {maxOrder : Nat} {a : Aux K} (ha : a.Shape maxOrder) {q : Nat} (hq : q ≤ 2 * maxOrder) :
    a.reset.Shape maxOrder ∧ ∀ r c, r < q → c < q → a.reset.Q.get r c = 0 ∧ a.reset.RgQ.get r c = 0 := by
  obtain ⟨h1, h2, h3, h4⟩ := ha
  obtain ⟨q1, q2⟩ := reset_shape a.Q
  obtain ⟨r1, r2⟩ := reset_shape a.RgQ
  refine ⟨⟨q1.trans h1, q2.trans h2, r1.trans h3, r2.trans h4⟩, fun r c hr hc => ⟨?_, ?_⟩⟩
  · exact (c27_reset a.Q r c (by omega) (by omega)).1
  · exact (c27_reset a.RgQ r c (by omega) (by omega)).1

theorem transition_congr {S : Surface K} {npts : Nat} {γ : Nat → Nat → K} {a b : K} {h j j' : Radial K} {m nmax : Nat}
    {T T' : Nat → Nat → Nat → Nat → K} (hT : IsTransition im S npts γ a b h j j' m nmax T)
    (e : ∀ i n i' n', i < 2 → i' < 2 → max 1 m ≤ n → n ≤ nmax → max 1 m ≤ n' → n' ≤ nmax → T' i n i' n' = T i n i' n') :
    IsTransition im S npts γ a b h j j' m nmax T' := by
  intro i n i' n' b1 b2 b3 b4 b5 b6
  rw [← hT i n i' n' b1 b2 b3 b4 b5 b6]
  refine sum_congr rfl fun i'' hi'' => sum_congr rfl fun n'' hn'' => ?_
  rw [mem_range] at hi''
  rw [mem_Ico] at hn''
  rw [e i n i'' n'' b1 hi'' b3 b4 hn''.1 (by omega)]

/-- when `Q` is regular there is only one transition matrix -/
theorem transition_unique {S : Surface K} {npts : Nat} {γ : Nat → Nat → K} {a b : K} {h j j' : Radial K} {m nmax : Nat}
    (hdet : (QMatrix im S npts γ a b h j' m nmax).det ≠ 0) {T T' : Nat → Nat → Nat → Nat → K}
    (hT : IsTransition im S npts γ a b h j j' m nmax T) (hT' : IsTransition im S npts γ a b h j j' m nmax T')
    {i n i' n' : Nat} (hi : i < 2) (hi' : i' < 2) (hn : max 1 m ≤ n) (hn2 : n ≤ nmax) (hn' : max 1 m ≤ n') (hn2' : n' ≤ nmax) :
    T i n i' n' = T' i n i' n' := by
  have key : ∀ U, IsTransition im S npts γ a b h j j' m nmax U →
      (_root_.Matrix.of fun x y : Fin 2 × Fin (nmax + 1 - max 1 m) => U x.1 (max 1 m + x.2) y.1 (max 1 m + y.2))
        * QMatrix im S npts γ a b h j' m nmax = -QMatrix im S npts γ a b j j' m nmax := by
    intro U hU
    ext x y
    have e1 := x.2.2
    have e2 := y.2.2
    have := hU x.1 (max 1 m + x.2) y.1 (max 1 m + y.2) x.1.2 y.1.2 (by omega) (by omega) (by omega) (by omega)
    rw [_root_.Matrix.mul_apply, Fintype.sum_prod_type, _root_.Matrix.neg_apply, QMatrix, ← this, Finset.sum_range]
    refine sum_congr rfl fun i'' _ => ?_
    rw [sum_Ico_eq_sum_range, Finset.sum_range]
    rfl
  have hu : IsUnit (QMatrix im S npts γ a b h j' m nmax) := (_root_.Matrix.isUnit_iff_isUnit_det _).mpr (isUnit_iff_ne_zero.mpr hdet)
  have := hu.mul_right_cancel ((key T hT).trans (key T' hT').symm)
  have := congrFun (congrFun this (⟨i, hi⟩, ⟨n - max 1 m, by omega⟩)) (⟨i', hi'⟩, ⟨n' - max 1 m, by omega⟩)
  simp only [_root_.Matrix.of_apply] at this
  rwa [Nat.add_sub_cancel' hn, Nat.add_sub_cancel' hn'] at this

/-- the tables the tasks read describe the surface `S` and the radial functions `h`, `j`, `j'`, which are symmetric, and
the matrix `Q` is regular -/
structure Setting (cs : Consts K) (it : Inter K) (pt : Points K) (S : Surface K) (h j j' : Radial K) (m nmax ng : Nat) :
    Prop where
  reads : Reads pt S m nmax ng
  outgoing : ReadsRadial (hank im it).1 (hank im it).2 it.krinv h nmax ng
  regular : ReadsRadial it.j it.dj it.krinv j nmax ng
  inside : ReadsRadial it.jm it.djm it.krmrinv j' nmax ng
  mirror : Mirror S (2 * ng) [h, j, j']
  det : (QMatrix im S (2 * ng) cs.ann cs.k2mr cs.k2 h j' m nmax).det ≠ 0

/-- the size of a loop: nothing in the body changes the shape -/
theorem loop_any {σ : Type} (P : σ → Prop) {lo hi : Nat} (body : Nat → σ → σ) (s : σ) (h0 : P s)
    (hs : ∀ k s, P s → P (body k s)) : P (loop lo hi body s) := by
  by_cases h : lo ≤ hi
  · exact loop_inv (fun _ s => P s) h body s h0 fun k s _ _ => hs k s
  · unfold loop
    rw [show hi - lo = 0 by omega]
    exact h0

/-- the inversion never changes the shape -/
theorem pluInverse_shape (n : Nat) (m : Mat K) (piv : Nat → Nat) (work : Nat → K) :
    (pluInverse absv n m piv work).rows = m.rows ∧ (pluInverse absv n m piv work).cols = m.cols := by
  let P : Mat K → Prop := fun s => s.rows = m.rows ∧ s.cols = m.cols
  have hset : ∀ s i j v, P s → P (s.set i j v) := fun _ _ _ _ h => h
  have h1 : P (step1 absv n m piv).1 := by
    refine loop_any (fun s : Mat K × (Nat → Nat) => P s.1) _ _ ⟨rfl, rfl⟩ fun k s hs => ?_
    refine loop_any P _ _ (loop_any P _ _ ?_ fun _ _ h => hset _ _ _ _ h) fun _ _ h => loop_any P _ _ h fun _ _ h => hset _ _ _ _ h
    unfold swapRows
    split_ifs
    · exact loop_any P _ _ hs fun _ _ h => hset _ _ _ _ (hset _ _ _ _ h)
    · exact hs
  have h2 : ∀ s, P s → P (step2 n s) := fun s hs =>
    loop_any P _ _ hs fun _ _ h => loop_any P _ _ (hset _ _ _ _ h) fun _ _ h => hset _ _ _ _ h
  have h3 : ∀ s, P s → P (step3 n s work).1 := by
    intro s hs
    exact loopDown_inv (fun _ (s : Mat K × (Nat → K)) => P s.1) _ n (s, work) hs fun _ _ _ h =>
      loop_any P _ _ h fun _ _ h => hset _ _ _ _ h
  have h4 : ∀ s q, P s → P (step4 n s q) := by
    intro s q hs
    refine loopDown_inv (fun _ (s : Mat K) => P s) _ n s hs fun k s _ h => ?_
    unfold swapCols
    split_ifs
    · exact loop_any P _ _ h fun _ _ h => hset _ _ _ _ (hset _ _ _ _ h)
    · exact h
  exact h4 _ _ (h3 _ (h2 _ h1))

/-- **C60** (degree `m > 0`) After `TMatrixMAllTask::execute` for degree `m` the elements of degree `m` returned by
`operator()` are the transition matrix of the extended boundary condition method, evaluated with all `2·ngauss` quadrature
points of the converged iteration, whatever the auxiliary space and the T-matrix contained before; nothing else in the
T-matrix changes. -/
theorem c60_mAll (habs : ∀ x : K, x ≠ 0 → absv 0 < absv x) (him : im * im = -1) (h2 : (2 : K) ≠ 0)
    {maxOrder m : Nat} (cs : Consts K) (it : Inter K) (pt : Points K) (S : Surface K) (h j j' : Radial K)
    (c : Conv K R) (hp : c.points = some pt) (hm1 : 1 ≤ m) (hm : m ≤ c.nmax) (ho : c.nmax ≤ maxOrder)
    (hs : Setting im cs it pt S h j j' m c.nmax c.ngauss) (a : Aux K) (ha : a.Shape maxOrder)
    (t : TRes K R) (ht : t.Shape maxOrder) (htn : t.nmax = c.nmax) :
    ∃ a' t', executeMAll absv im m cs it c (a, t) = some (a', t')
      ∧ IsTransition im S (2 * c.ngauss) cs.ann cs.k2mr cs.k2 h j j' m c.nmax (fun i n i' n' => t'.get i n m i' n')
      ∧ a'.Shape maxOrder ∧ t'.Shape maxOrder ∧ (∀ l, l ≠ m → t'.T l = t.T l) ∧ t' = { t with T := t'.T } := by
  unfold executeMAll
  simp only [hp, if_neg (show ¬(m > c.nmax) by omega)]
  refine ⟨_, _, rfl, ?_⟩
  obtain ⟨hsh, hz⟩ := reset_zero ha (show 2 * (c.nmax + 1 - m) ≤ 2 * maxOrder by omega)
  obtain ⟨k1, k2, k3, k4⟩ := hsh
  obtain ⟨g1, g2, g3, g4, g5, g6⟩ := mAllAssemble_spec im cs it pt hm
    (fun ig hg => by rw [hs.reads.s2inv ig hg, hs.reads.sinv ig hg]) (a.reset.Q, a.reset.RgQ)
    (by dsimp only; omega) (k4.trans k2.symm) hz
  have hmax : max 1 m = m := by omega
  obtain ⟨t1, t2⟩ := ht m (by omega)
  generalize hpe : mAllAssemble im cs it pt m c.nmax c.ngauss (a.reset.Q, a.reset.RgQ) = p at *
  dsimp only at g3 g4 g5 g6
  have hQc : 2 * (c.nmax + 1 - m) ≤ p.1.cols := by omega
  have hTc : 2 * (c.nmax + 1 - m) ≤ (t.T m).cols := by omega
  have sol := solve absv im habs him h2 cs it pt S h j j' hs.reads hs.outgoing hs.regular hs.inside hs.mirror (by omega) hs.det
    hmax (by rw [hmax]) p a.reset.piv a.reset.work (t.T m) hQc hTc g1 g2
  have hd := mult_spec p.2 (pluInverse absv (2 * (c.nmax + 1 - m)) p.1 a.reset.piv a.reset.work) (t.T m) hTc
  refine ⟨?_, ?_, ?_, ?_, ?_⟩
  · refine transition_congr im sol fun i n i' n' b1 b2 b3 b4 b5 b6 => ?_
    simp only [TRes.get, htn, Function.update_self]
    rw [index_eq b3 b4, index_eq b5 b6, hmax]
  · have := pluInverse_shape absv (2 * (c.nmax + 1 - m)) p.1 a.reset.piv a.reset.work
    exact ⟨this.1.trans (g3.trans k1), this.2.trans (g4.trans k2), g5.trans k3, g6.trans k4⟩
  · intro l hl
    by_cases hlm : l = m
    · subst hlm
      simp only [Function.update_self]
      exact ⟨hd.1.trans t1, hd.2.1.trans t2⟩
    · simp only [Function.update_of_ne hlm]
      exact ht l hl
  · intro l hl
    exact Function.update_of_ne hl _ _
  · rfl

end

section

variable {K R Γ : Type} [Field K] [Field R] [LinearOrder R] [LinearOrder Γ] (absv : K → Γ) (im : K) (norm re : K → R)

theorem bookkeeping_T (pt : Points K) (nmax ngauss : Nat) (tol : R) (t : TRes K R) (c : Conv K R) :
    (bookkeeping norm re pt nmax ngauss tol t c).1.T = t.T
    ∧ (bookkeeping norm re pt nmax ngauss tol t c).1.nmax = nmax
    ∧ (bookkeeping norm re pt nmax ngauss tol t c).1.ngauss = ngauss
    ∧ (bookkeeping norm re pt nmax ngauss tol t c).2.nmax = nmax
    ∧ (bookkeeping norm re pt nmax ngauss tol t c).2.ngauss = ngauss
    ∧ (bookkeeping norm re pt nmax ngauss tol t c).2.points = some pt
    ∧ (bookkeeping norm re pt nmax ngauss tol t c).2.iteration = c.iteration + 1 := by
  unfold bookkeeping
  dsimp only
  split_ifs <;> exact ⟨rfl, rfl, rfl, rfl, rfl, rfl, rfl⟩

/-- **C60** (degree 0) After `TMatrixM0Task::execute` in a calculation that has not converged, the elements of degree 0
returned by `operator()` are the transition matrix of the extended boundary condition method of order `nmax`, whatever the
auxiliary space and the T-matrix contained before; the order and the number of quadrature points are recorded, both in the
T-matrix and in the converged size; the other degrees do not change. -/
theorem c60_m0 (habs : ∀ x : K, x ≠ 0 → absv 0 < absv x) (him : im * im = -1) (h2 : (2 : K) ≠ 0)
    {maxOrder nmax ngauss : Nat} (cs : Consts K) (it : Inter K) (pt : Points K) (S : Surface K) (h j j' : Radial K)
    (tol : R) (c : Conv K R) (hc : c.converged = false) (hn : 1 ≤ nmax) (ho : nmax ≤ maxOrder)
    (hs : Setting im cs it pt S h j j' 0 nmax ngauss) (a : Aux K) (ha : a.Shape maxOrder)
    (t : TRes K R) (ht : t.Shape maxOrder) :
    let s := executeM0 absv im norm re cs it pt nmax ngauss tol (a, t, c)
    IsTransition im S (2 * ngauss) cs.ann cs.k2mr cs.k2 h j j' 0 nmax (fun i n i' n' => s.2.1.get i n 0 i' n')
    ∧ s.1.Shape maxOrder ∧ s.2.1.Shape maxOrder ∧ (∀ l, l ≠ 0 → s.2.1.T l = t.T l)
    ∧ s.2.1.nmax = nmax ∧ s.2.1.ngauss = ngauss ∧ s.2.2.nmax = nmax ∧ s.2.2.ngauss = ngauss ∧ s.2.2.points = some pt
    ∧ s.2.2.iteration = c.iteration + 1 := by
  intro s
  obtain ⟨hsh, hz⟩ := reset_zero ha (show 2 * nmax ≤ 2 * maxOrder by omega)
  obtain ⟨k1, k2, k3, k4⟩ := hsh
  obtain ⟨g1, g2, g3, g4, g5, g6⟩ := m0Assemble_spec im cs it pt (ngauss := ngauss) (a.reset.Q, a.reset.RgQ)
    (by dsimp only; omega) (k4.trans k2.symm) hz
  obtain ⟨t1, t2⟩ := ht 0 (by omega)
  have hse : s = executeM0 absv im norm re cs it pt nmax ngauss tol (a, t, c) := rfl
  unfold executeM0 at hse
  simp only [hc, Bool.false_eq_true, if_false] at hse
  generalize hpe : m0Assemble im cs it pt nmax ngauss (a.reset.Q, a.reset.RgQ) = p at *
  dsimp only at g3 g4 g5 g6
  have hQc : 2 * nmax ≤ p.1.cols := by omega
  have hTc : 2 * nmax ≤ (t.T 0).cols := by omega
  have sol := solve absv im habs him h2 cs it pt S h j j' hs.reads hs.outgoing hs.regular hs.inside hs.mirror (by omega) hs.det
    (n0 := 1) (nm := nmax) rfl (by simp) p a.reset.piv a.reset.work (t.T 0) hQc hTc g1 g2
  have hd := mult_spec p.2 (pluInverse absv (2 * nmax) p.1 a.reset.piv a.reset.work) (t.T 0) hTc
  obtain ⟨b1, b2, b3, b4, b5, b6, b7⟩ := bookkeeping_T norm re pt nmax ngauss tol { t with
      T := Function.update t.T 0 (mult nmax p.2 (pluInverse absv (2 * nmax) p.1 a.reset.piv a.reset.work) (t.T 0)) } c
  generalize bookkeeping norm re pt nmax ngauss tol { t with
      T := Function.update t.T 0 (mult nmax p.2 (pluInverse absv (2 * nmax) p.1 a.reset.piv a.reset.work) (t.T 0)) } c = b at *
  rw [hse]
  refine ⟨?_, ?_, ?_, ?_, b2, b3, b4, b5, b6, b7⟩
  · refine transition_congr im sol fun i n i' n' e1 e2 e3 e4 e5 e6 => ?_
    simp only [TRes.get, b1, b2, Function.update_self]
    rw [index_eq e3 e4, index_eq e5 e6]
    simp
  · have := pluInverse_shape absv (2 * nmax) p.1 a.reset.piv a.reset.work
    exact ⟨this.1.trans (g3.trans k1), this.2.trans (g4.trans k2), g5.trans k3, g6.trans k4⟩
  · intro l hl
    dsimp only
    rw [b1]
    by_cases hlm : l = 0
    · subst hlm
      simp only [Function.update_self]
      exact ⟨hd.1.trans t1, hd.2.1.trans t2⟩
    · simp only [Function.update_of_ne hlm]
      exact ht l hl
  · intro l hl
    dsimp only
    rw [b1]
    exact Function.update_of_ne hl _ _

/-! ## C37: convergence -/

/-- the cross sections (up to a factor) derived from the diagonal elements of degree 0, as sums over the orders -/
def scatteringSum (t : TRes K R) : R :=
  ∑ n ∈ Ico 1 (t.nmax + 1), (2 * (n : R) + 1) * (norm (t.get 0 n 0 0 n) + norm (t.get 1 n 0 1 n))

def extinctionSum (t : TRes K R) : R :=
  ∑ n ∈ Ico 1 (t.nmax + 1), (2 * (n : R) + 1) * (re (t.get 0 n 0 0 n) + re (t.get 1 n 0 1 n))

theorem crossSections_eq (nmax : Nat) (T : Mat K) :
    crossSections norm re nmax T = (∑ n ∈ Ico 1 (nmax + 1),
        (2 * (n : R) + 1) * (norm (T.get (n - 1) (n - 1)) + norm (T.get (nmax + n - 1) (nmax + n - 1))),
      ∑ n ∈ Ico 1 (nmax + 1), (2 * (n : R) + 1) * (re (T.get (n - 1) (n - 1)) + re (T.get (nmax + n - 1) (nmax + n - 1)))) := by
  unfold crossSections
  refine loop_inv (fun k s => s = (∑ n ∈ Ico 1 k,
        (2 * (n : R) + 1) * (norm (T.get (n - 1) (n - 1)) + norm (T.get (nmax + n - 1) (nmax + n - 1))),
      ∑ n ∈ Ico 1 k, (2 * (n : R) + 1) * (re (T.get (n - 1) (n - 1)) + re (T.get (nmax + n - 1) (nmax + n - 1)))))
    (by omega) _ _ ?_ ?_
  · simp
  · rintro k s h1 h2 rfl
    rw [sum_Ico_succ_top h1, sum_Ico_succ_top h1]

theorem crossSections_sums (nmax : Nat) (t : TRes K R) (ht : t.nmax = nmax) :
    crossSections norm re nmax (t.T 0) = (scatteringSum norm t, extinctionSum re t) := by
  rw [crossSections_eq]
  unfold scatteringSum extinctionSum
  subst ht
  congr 1
  all_goals
    refine sum_congr rfl fun n hn => ?_
    rw [mem_Ico] at hn
    simp only [TRes.get, TRes.index, gt_iff_lt, lt_irrefl, if_false, zero_mul, zero_add, one_mul, Nat.sub_zero]

/-- one order of the iteration: quadrature points, geometry and Wigner functions for that order, and the auxiliary space of the thread that
happens to execute the `m = 0` task of that order -/
structure Iter (K : Type) where
  nmax : Nat
  ngauss : Nat
  pt : Points K
  a : Aux K

/-- everything the tasks of one particle and wavelength write -/
structure Work (K R : Type) where
  it : Inter K
  t : TRes K R
  c : Conv K R

variable (jdj ydy jdjm : Nat → K → (Nat → K) × (Nat → K) → (Nat → K) × (Nat → K)) (cs : Consts K) (tol : R)

/-- the tasks of one order: `InteractionTask`, then `TMatrixM0Task` (TaskManager.cpp creates them in this order, with a
dependency) -/
def iterStep (w : Work K R) (q : Iter K) : Work K R :=
  let it := executeInteraction jdj ydy jdjm cs q.pt q.nmax q.ngauss w.c w.it
  let s := executeM0 absv im norm re cs it q.pt q.nmax q.ngauss tol (q.a, w.t, w.c)
  ⟨it, s.2.1, s.2.2⟩

/-- the tasks of all orders -/
def runIters (qs : List (Iter K)) (w : Work K R) : Work K R :=
  qs.foldl (iterStep absv im norm re jdj ydy jdjm cs tol) w

/-- once the calculation has converged, no later order changes anything -/
theorem c37_frozen (qs : List (Iter K)) (w : Work K R) (h : w.c.converged = true) :
    runIters absv im norm re jdj ydy jdjm cs tol qs w = w := by
  induction qs with
  | nil => rfl
  | cons q qs ih =>
    have : iterStep absv im norm re jdj ydy jdjm cs tol w q = w := by
      unfold iterStep executeInteraction executeM0
      simp only [h, if_true]
    change runIters absv im norm re jdj ydy jdjm cs tol qs (iterStep absv im norm re jdj ydy jdjm cs tol w q) = w
    rw [this]
    exact ih

/-- a freshly reset work space: `ResetTMatrixResourceTask` has run and the converged size is new -/
def Fresh (w : Work K R) : Prop := w.c = Conv.new ∧ w.t.Qs = 0 ∧ w.t.Qe = 0 ∧ w.t.dQs = -2 ∧ w.t.dQe = -2

/-- relative change of the cross sections in iteration `k` (with respect to iteration `k - 1`), as computed from the
elements of degree 0 of the T-matrices after `k - 1` and `k` iterations -/
def relS (qs : List (Iter K)) (w : Work K R) (k : Nat) : R :=
  let S := fun k => scatteringSum norm (runIters absv im norm re jdj ydy jdjm cs tol (qs.take k) w).t
  |(S (k - 1) - S k) / S k|

def relE (qs : List (Iter K)) (w : Work K R) (k : Nat) : R :=
  let S := fun k => extinctionSum re (runIters absv im norm re jdj ydy jdjm cs tol (qs.take k) w).t
  |(S (k - 1) - S k) / S k|

/-- iteration `k` meets the criterion -/
def Meets (qs : List (Iter K)) (w : Work K R) (k : Nat) : Prop :=
  2 ≤ k ∧ relS absv im norm re jdj ydy jdjm cs tol qs w k ≤ tol ∧ relE absv im norm re jdj ydy jdjm cs tol qs w k ≤ tol
    ∧ relS absv im norm re jdj ydy jdjm cs tol qs w k ≠ 0

theorem iterStep_spec (w : Work K R) (q : Iter K) (h : w.c.converged = false) :
    let w' := iterStep absv im norm re jdj ydy jdjm cs tol w q
    w'.t.nmax = q.nmax ∧ w'.t.ngauss = q.ngauss ∧ w'.c.nmax = q.nmax ∧ w'.c.ngauss = q.ngauss ∧ w'.c.points = some q.pt
    ∧ w'.c.iteration = w.c.iteration + 1
    ∧ w'.t.Qs = scatteringSum norm w'.t ∧ w'.t.Qe = extinctionSum re w'.t
    ∧ w'.t.dQs = (if w.t.dQs = -2 then -1 else |(w.t.Qs - w'.t.Qs) / w'.t.Qs|)
    ∧ w'.t.dQe = (if w.t.dQs = -2 then -1 else |(w.t.Qe - w'.t.Qe) / w'.t.Qe|)
    ∧ (w'.c.converged = true ↔ 0 < w'.t.dQs ∧ w'.t.dQs ≤ tol ∧ w'.t.dQe ≤ tol)
    ∧ (0 < w'.t.dQs → w'.c.dQs = w'.t.dQs ∧ w'.c.dQe = w'.t.dQe) := by
  intro w'
  have he : w' = iterStep absv im norm re jdj ydy jdjm cs tol w q := rfl
  unfold iterStep executeM0 at he
  simp only [h, Bool.false_eq_true, if_false] at he
  generalize executeInteraction jdj ydy jdjm cs q.pt q.nmax q.ngauss w.c w.it = it at he
  generalize m0Assemble im cs it q.pt q.nmax q.ngauss (q.a.reset.Q, q.a.reset.RgQ) = p at he
  generalize hT : Function.update w.t.T 0 (mult q.nmax p.2 (pluInverse absv (2 * q.nmax) p.1 q.a.reset.piv q.a.reset.work) (w.t.T 0)) = T' at he
  generalize hb : bookkeeping norm re q.pt q.nmax q.ngauss tol { w.t with T := T' } w.c = b at he
  have ht : w'.t = b.1 := by rw [he]
  have hc : w'.c = b.2 := by rw [he]
  have hcs : ∀ u : TRes K R, u.nmax = q.nmax → u.T = T' →
      scatteringSum norm u = (crossSections norm re q.nmax (T' 0)).1 ∧ extinctionSum re u = (crossSections norm re q.nmax (T' 0)).2 := by
    intro u h1 h2
    rw [← h2, crossSections_sums norm re q.nmax u h1]
    exact ⟨rfl, rfl⟩
  rw [ht, hc]
  unfold bookkeeping at hb
  dsimp only at hb
  generalize crossSections norm re q.nmax (T' 0) = cr at hb hcs
  by_cases h1 : w.t.dQs = -2
  · simp only [h1, if_true] at hb ⊢
    by_cases h2 : (-1 : R) > 0
    · simp only [h2, if_true] at hb
      by_cases h3 : (-1 : R) ≤ tol
      · simp only [h3, and_self, if_true] at hb
        subst hb
        refine ⟨rfl, rfl, rfl, rfl, rfl, rfl, (hcs _ rfl rfl).1.symm, (hcs _ rfl rfl).2.symm, rfl, rfl, ?_, fun _ => ⟨rfl, rfl⟩⟩
        exact ⟨fun _ => ⟨h2, h3, h3⟩, fun _ => rfl⟩
      · simp only [h3, and_self, if_false] at hb
        subst hb
        refine ⟨rfl, rfl, rfl, rfl, rfl, rfl, (hcs _ rfl rfl).1.symm, (hcs _ rfl rfl).2.symm, rfl, rfl, ?_, fun _ => ⟨rfl, rfl⟩⟩
        exact ⟨fun e => absurd (h.symm.trans e) (by decide), fun e => absurd e.2.1 h3⟩
    · simp only [h2, if_false] at hb
      subst hb
      refine ⟨rfl, rfl, rfl, rfl, rfl, rfl, (hcs _ rfl rfl).1.symm, (hcs _ rfl rfl).2.symm, rfl, rfl, ?_, fun e => absurd e h2⟩
      exact ⟨fun e => absurd (h.symm.trans e) (by decide), fun e => absurd e.1 h2⟩
  · simp only [h1, if_false] at hb ⊢
    by_cases h2 : |(w.t.Qs - cr.1) / cr.1| > 0
    · simp only [h2, if_true] at hb
      by_cases h3 : |(w.t.Qs - cr.1) / cr.1| ≤ tol ∧ |(w.t.Qe - cr.2) / cr.2| ≤ tol
      · simp only [h3, and_self, if_true] at hb
        subst hb
        refine ⟨rfl, rfl, rfl, rfl, rfl, rfl, (hcs _ rfl rfl).1.symm, (hcs _ rfl rfl).2.symm, rfl, rfl, ?_, fun _ => ⟨rfl, rfl⟩⟩
        exact ⟨fun _ => ⟨h2, h3⟩, fun _ => rfl⟩
      · rw [if_neg h3] at hb
        subst hb
        refine ⟨rfl, rfl, rfl, rfl, rfl, rfl, (hcs _ rfl rfl).1.symm, (hcs _ rfl rfl).2.symm, rfl, rfl, ?_, fun _ => ⟨rfl, rfl⟩⟩
        exact ⟨fun e => absurd (h.symm.trans e) (by decide), fun e => absurd e.2 h3⟩
    · simp only [h2, if_false] at hb
      subst hb
      refine ⟨rfl, rfl, rfl, rfl, rfl, rfl, (hcs _ rfl rfl).1.symm, (hcs _ rfl rfl).2.symm, rfl, rfl, ?_, fun e => absurd e h2⟩
      exact ⟨fun e => absurd (h.symm.trans e) (by decide), fun e => absurd e.1 h2⟩

variable [IsStrictOrderedRing R]

/-- state of the calculation after some orders: `k` of them were carried out -/
structure After (qs : List (Iter K)) (w : Work K R) (k : Nat) : Prop where
  le : k ≤ qs.length
  eq : runIters absv im norm re jdj ydy jdjm cs tol qs w = runIters absv im norm re jdj ydy jdjm cs tol (qs.take k) w
  iteration : (runIters absv im norm re jdj ydy jdjm cs tol qs w).c.iteration = k
  all : (runIters absv im norm re jdj ydy jdjm cs tol qs w).c.converged = false → k = qs.length
  order : ∀ q, 1 ≤ k → qs[k - 1]? = some q → (runIters absv im norm re jdj ydy jdjm cs tol qs w).t.nmax = q.nmax
    ∧ (runIters absv im norm re jdj ydy jdjm cs tol qs w).t.ngauss = q.ngauss
    ∧ (runIters absv im norm re jdj ydy jdjm cs tol qs w).c.nmax = q.nmax
    ∧ (runIters absv im norm re jdj ydy jdjm cs tol qs w).c.ngauss = q.ngauss
    ∧ (runIters absv im norm re jdj ydy jdjm cs tol qs w).c.points = some q.pt
  sums : 1 ≤ k → (runIters absv im norm re jdj ydy jdjm cs tol qs w).t.Qs
      = scatteringSum norm (runIters absv im norm re jdj ydy jdjm cs tol qs w).t
    ∧ (runIters absv im norm re jdj ydy jdjm cs tol qs w).t.Qe
      = extinctionSum re (runIters absv im norm re jdj ydy jdjm cs tol qs w).t
  zero : k = 0 → (runIters absv im norm re jdj ydy jdjm cs tol qs w).t.dQs = -2
  one : k = 1 → (runIters absv im norm re jdj ydy jdjm cs tol qs w).t.dQs = -1
  more : 2 ≤ k → (runIters absv im norm re jdj ydy jdjm cs tol qs w).t.dQs = relS absv im norm re jdj ydy jdjm cs tol qs w k
    ∧ (runIters absv im norm re jdj ydy jdjm cs tol qs w).t.dQe = relE absv im norm re jdj ydy jdjm cs tol qs w k
  conv : (runIters absv im norm re jdj ydy jdjm cs tol qs w).c.converged = true ↔ Meets absv im norm re jdj ydy jdjm cs tol qs w k

omit [IsStrictOrderedRing R] in
theorem runIters_snoc (qs : List (Iter K)) (q : Iter K) (w : Work K R) :
    runIters absv im norm re jdj ydy jdjm cs tol (qs ++ [q]) w
      = iterStep absv im norm re jdj ydy jdjm cs tol (runIters absv im norm re jdj ydy jdjm cs tol qs w) q := by
  simp [runIters, List.foldl_append]

omit [IsStrictOrderedRing R] in
theorem rel_snoc (qs : List (Iter K)) (q : Iter K) (w : Work K R) {k : Nat} (hk : k ≤ qs.length) :
    relS absv im norm re jdj ydy jdjm cs tol (qs ++ [q]) w k = relS absv im norm re jdj ydy jdjm cs tol qs w k
    ∧ relE absv im norm re jdj ydy jdjm cs tol (qs ++ [q]) w k = relE absv im norm re jdj ydy jdjm cs tol qs w k := by
  unfold relS relE
  dsimp only
  rw [List.take_append_of_le_length hk, List.take_append_of_le_length (show k - 1 ≤ qs.length by omega)]
  exact ⟨rfl, rfl⟩

theorem after (qs : List (Iter K)) (w : Work K R) (hw : Fresh w) : ∃ k, After absv im norm re jdj ydy jdjm cs tol qs w k := by
  induction qs using List.reverseRecOn with
  | nil =>
    refine ⟨0, ?_⟩
    have : runIters absv im norm re jdj ydy jdjm cs tol [] w = w := rfl
    refine ⟨le_rfl, rfl, ?_, fun _ => rfl, fun _ h => absurd h (by omega), fun h => absurd h (by omega), fun _ => hw.2.2.2.1,
      fun h => absurd h (by omega), fun h => absurd h (by omega), ?_⟩
    · rw [this, hw.1]; rfl
    · rw [this, hw.1]
      exact ⟨fun h => absurd h (by simp [Conv.new]), fun h => absurd h.1 (by omega)⟩
  | append_singleton qs q ih =>
    obtain ⟨k, A⟩ := ih
    by_cases hc : (runIters absv im norm re jdj ydy jdjm cs tol qs w).c.converged = true
    · have e : runIters absv im norm re jdj ydy jdjm cs tol (qs ++ [q]) w = runIters absv im norm re jdj ydy jdjm cs tol qs w := by
        rw [runIters_snoc]
        exact c37_frozen absv im norm re jdj ydy jdjm cs tol [q] _ hc
      have hl := A.le
      obtain ⟨r1, r2⟩ := rel_snoc absv im norm re jdj ydy jdjm cs tol qs q w A.le
      refine ⟨k, ?_⟩
      refine ⟨by simp; omega, ?_, ?_, ?_, ?_, ?_, ?_, ?_, ?_, ?_⟩
      · rw [e, List.take_append_of_le_length A.le]; exact A.eq
      · rw [e]; exact A.iteration
      · rw [e, hc]; intro h; exact absurd h (by decide)
      · intro q' h1 h2
        rw [List.getElem?_append_left (by omega)] at h2
        rw [e]; exact A.order q' h1 h2
      · rw [e]; exact A.sums
      · rw [e]; exact A.zero
      · rw [e]; exact A.one
      · rw [e, r1, r2]; exact A.more
      · rw [e]
        unfold Meets
        rw [r1, r2]
        exact A.conv
    · have hc' : (runIters absv im norm re jdj ydy jdjm cs tol qs w).c.converged = false := by simpa using hc
      have hk := A.all hc'
      obtain ⟨s1, s2, s3, s4, s5, s6, s7, s8, s9, s10, s11, s12⟩ :=
        iterStep_spec absv im norm re jdj ydy jdjm cs tol (runIters absv im norm re jdj ydy jdjm cs tol qs w) q hc'
      rw [← runIters_snoc] at s1 s2 s3 s4 s5 s6 s7 s8 s9 s10 s11 s12
      have hlen : (qs ++ [q]).length = qs.length + 1 := by simp
      have htk : (qs ++ [q]).take (k + 1) = qs ++ [q] := by rw [hk]; exact List.take_of_length_le (by simp)
      have htk' : (qs ++ [q]).take k = qs := by rw [hk]; simp
      have hrel : 1 ≤ k → (runIters absv im norm re jdj ydy jdjm cs tol (qs ++ [q]) w).t.dQs
            = relS absv im norm re jdj ydy jdjm cs tol (qs ++ [q]) w (k + 1)
          ∧ (runIters absv im norm re jdj ydy jdjm cs tol (qs ++ [q]) w).t.dQe
            = relE absv im norm re jdj ydy jdjm cs tol (qs ++ [q]) w (k + 1) := by
        intro h1
        have hne : ¬((runIters absv im norm re jdj ydy jdjm cs tol qs w).t.dQs = -2) := by
          by_cases h2 : k = 1
          · rw [A.one h2]; norm_num
          · rw [(A.more (by omega)).1]
            unfold relS
            dsimp only
            intro e
            have := abs_nonneg ((scatteringSum norm (runIters absv im norm re jdj ydy jdjm cs tol (List.take (k - 1) qs) w).t
              - scatteringSum norm (runIters absv im norm re jdj ydy jdjm cs tol (List.take k qs) w).t)
              / scatteringSum norm (runIters absv im norm re jdj ydy jdjm cs tol (List.take k qs) w).t)
            rw [e] at this
            linarith
        rw [if_neg hne] at s9 s10
        unfold relS relE
        dsimp only
        rw [Nat.add_sub_cancel, htk, htk', s9, s10, s7, s8, (A.sums h1).1, (A.sums h1).2]
        exact ⟨rfl, rfl⟩
      refine ⟨k + 1, ?_⟩
      refine ⟨by rw [hlen]; omega, by rw [htk], by rw [s6, A.iteration], fun _ => by rw [hlen, hk], ?_, fun _ => ⟨s7, s8⟩,
        fun h => absurd h (by omega), ?_, fun h => hrel (by omega), ?_⟩
      · intro q' _ h
        rw [Nat.add_sub_cancel, hk, List.getElem?_append_right (le_refl _)] at h
        simp only [Nat.sub_self, List.getElem?_cons_zero, Option.some.injEq] at h
        subst h
        exact ⟨s1, s2, s3, s4, s5⟩
      · intro h
        rw [s9, if_pos (A.zero (by omega))]
      · rw [s11]
        by_cases h1 : 1 ≤ k
        · obtain ⟨r1, r2⟩ := hrel h1
          unfold Meets
          rw [r1, r2]
          have hnn : 0 ≤ relS absv im norm re jdj ydy jdjm cs tol (qs ++ [q]) w (k + 1) := abs_nonneg _
          exact ⟨fun ⟨a, b, c⟩ => ⟨by omega, b, c, ne_of_gt a⟩, fun ⟨_, b, c, d⟩ => ⟨lt_of_le_of_ne hnn (Ne.symm d), b, c⟩⟩
        · rw [s9, if_pos (A.zero (by omega))]
          unfold Meets
          refine ⟨fun h => absurd h.1 (by norm_num), fun h => absurd h.1 (by omega)⟩

/-- **C37** For every sequence of orders, tolerance and tables, starting from a reset T-matrix: some number `k` of the
orders is carried out and the others change nothing; the T-matrix and the converged size record the order and number of
quadrature points of the last order carried out; the calculation is flagged as converged if and only if order `k` meets the
criterion (both relative changes within the tolerance, that of the scattering not zero), and no order before `k` does; a
calculation that is not flagged has carried out all orders, and none of them meets the criterion; the first order never
meets it. -/
theorem c37_run (qs : List (Iter K)) (w : Work K R) (hw : Fresh w) :
    let f := runIters absv im norm re jdj ydy jdjm cs tol qs w
    ∃ k ≤ qs.length, f = runIters absv im norm re jdj ydy jdjm cs tol (qs.take k) w ∧ f.c.iteration = k
      ∧ (∀ q, 1 ≤ k → qs[k - 1]? = some q → f.t.nmax = q.nmax ∧ f.t.ngauss = q.ngauss ∧ f.c.nmax = q.nmax
        ∧ f.c.ngauss = q.ngauss ∧ f.c.points = some q.pt)
      ∧ (f.c.converged = true → Meets absv im norm re jdj ydy jdjm cs tol qs w k
        ∧ ∀ k', k' ≠ k → k' ≤ qs.length → ¬Meets absv im norm re jdj ydy jdjm cs tol qs w k')
      ∧ (f.c.converged = false → k = qs.length ∧ ∀ k', k' ≤ qs.length → ¬Meets absv im norm re jdj ydy jdjm cs tol qs w k') := by
  intro f
  obtain ⟨k, A⟩ := after absv im norm re jdj ydy jdjm cs tol qs w hw
  -- an order that meets the criterion stops the calculation
  have stop : ∀ k', k' ≤ qs.length → Meets absv im norm re jdj ydy jdjm cs tol qs w k' →
      (runIters absv im norm re jdj ydy jdjm cs tol (qs.take k') w).c.converged = true ∧ k' = k := by
    intro k' hk' hm
    obtain ⟨l, B⟩ := after absv im norm re jdj ydy jdjm cs tol (qs.take k') w hw
    have hl := B.le
    rw [List.length_take, Nat.min_eq_left hk'] at hl
    have htl : ∀ i ≤ k', (qs.take k').take i = qs.take i := fun i hi => by rw [List.take_take, Nat.min_eq_left hi]
    have hmeq : Meets absv im norm re jdj ydy jdjm cs tol (qs.take k') w k' := by
      unfold Meets relS relE at hm ⊢
      dsimp only at hm ⊢
      rw [htl k' le_rfl, htl (k' - 1) (by omega)]
      exact hm
    have hlk : l = k' := by
      by_contra hne
      -- the calculation stopped before `k'`: the two T-matrices are equal
      have e1 : runIters absv im norm re jdj ydy jdjm cs tol (qs.take k') w = runIters absv im norm re jdj ydy jdjm cs tol (qs.take l) w := by
        rw [B.eq, htl l hl]
      have hcv : (runIters absv im norm re jdj ydy jdjm cs tol (qs.take k') w).c.converged = true := by
        by_contra h
        have := B.all (by simpa using h)
        rw [List.length_take, Nat.min_eq_left hk'] at this
        exact hne this
      have e2 : runIters absv im norm re jdj ydy jdjm cs tol (qs.take (k' - 1)) w = runIters absv im norm re jdj ydy jdjm cs tol (qs.take l) w := by
        have : qs.take (k' - 1) = qs.take l ++ (qs.take (k' - 1)).drop l := by
          conv_lhs => rw [← List.take_append_drop l (qs.take (k' - 1))]
          rw [List.take_take, Nat.min_eq_left (by omega)]
        have hcl : (runIters absv im norm re jdj ydy jdjm cs tol (qs.take l) w).c.converged = true := by rw [← e1]; exact hcv
        rw [this]
        unfold runIters
        rw [List.foldl_append]
        exact c37_frozen absv im norm re jdj ydy jdjm cs tol _ _ hcl
      refine hm.2.2.2 ?_
      unfold relS
      dsimp only
      rw [e1, e2, sub_self, zero_div, abs_zero]
    subst hlk
    have hcv := B.conv.mpr hmeq
    refine ⟨hcv, ?_⟩
    have e : runIters absv im norm re jdj ydy jdjm cs tol qs w = runIters absv im norm re jdj ydy jdjm cs tol (qs.take l) w := by
      conv_lhs => rw [← List.take_append_drop l qs]
      unfold runIters
      rw [List.foldl_append]
      exact c37_frozen absv im norm re jdj ydy jdjm cs tol _ _ hcv
    rw [← A.iteration, e, B.iteration]
  refine ⟨k, A.le, A.eq, A.iteration, A.order, ?_, ?_⟩
  · intro h
    exact ⟨A.conv.mp h, fun k' h1 h2 h3 => h1 (stop k' h2 h3).2⟩
  · intro h
    refine ⟨A.all h, fun k' h1 h2 => ?_⟩
    obtain ⟨_, rfl⟩ := stop k' h1 h2
    have := A.conv.mpr h2
    rw [show (runIters absv im norm re jdj ydy jdjm cs tol qs w).c.converged = false from h] at this
    exact absurd this (by decide)

/-- **C64** (what holds) an order `k ≥ 2` whose relative changes are within the tolerance ends the calculation, if the
relative change of the scattering is not exactly zero. Missing: the case of an exactly zero change, see
`c64_violated_zero_change`. -/
theorem c64_stops_partial (qs : List (Iter K)) (w : Work K R) (hw : Fresh w) {k : Nat} (hk : 2 ≤ k) (hk' : k ≤ qs.length)
    (h1 : relS absv im norm re jdj ydy jdjm cs tol qs w k ≤ tol) (h2 : relE absv im norm re jdj ydy jdjm cs tol qs w k ≤ tol)
    (h3 : relS absv im norm re jdj ydy jdjm cs tol qs w k ≠ 0) :
    (runIters absv im norm re jdj ydy jdjm cs tol qs w).c.converged = true
    ∧ (runIters absv im norm re jdj ydy jdjm cs tol qs w).c.iteration = k := by
  obtain ⟨l, _, _, b3, _, b5, b6⟩ := c37_run absv im norm re jdj ydy jdjm cs tol qs w hw
  have hm : Meets absv im norm re jdj ydy jdjm cs tol qs w k := ⟨hk, h1, h2, h3⟩
  by_cases hc : (runIters absv im norm re jdj ydy jdjm cs tol qs w).c.converged = true
  · refine ⟨hc, ?_⟩
    by_contra hne
    rw [b3] at hne
    exact (b5 hc).2 k (fun e => hne e.symm) hk' hm
  · exact absurd hm ((b6 (by simpa using hc)).2 k hk')

end

/-- a resource of maximum order 1 that holds the T-matrix with ones on the diagonal of degree 0, after a first iteration -/
def unitT : TRes ℚ ℚ :=
  { nmax := 1
    ngauss := 1
    T := fun _ => ((Mat.new 4 4).set 0 0 1).set 1 1 1
    Qs := 6
    Qe := 6
    dQs := -1
    dQe := -1 }

/-- **C64** (violated) If the next order gives exactly the same cross sections, both relative changes are zero, hence within
every non-negative tolerance, but the calculation is not flagged as converged: the code tests `_dQscattering > 0.`
(TMatrixResource.hpp:774). -/
theorem c64_violated_zero_change (pt : Points ℚ) (tol : ℚ) (htol : 0 ≤ tol) :
    let b := bookkeeping (fun x => x * x) (fun x => x) pt 1 1 tol unitT Conv.new
    b.1.Qs = unitT.Qs ∧ b.1.Qe = unitT.Qe ∧ b.1.dQs = 0 ∧ b.1.dQe = 0 ∧ b.1.dQs ≤ tol ∧ b.1.dQe ≤ tol
      ∧ b.2.converged = false := by
  have hq : crossSections (fun x : ℚ => x * x) (fun x => x) 1 (unitT.T 0) = (6, 6) := by decide +kernel
  intro b
  have hb : b = bookkeeping (fun x => x * x) (fun x => x) pt 1 1 tol unitT Conv.new := rfl
  unfold bookkeeping at hb
  simp only [hq] at hb
  norm_num [unitT, Conv.new] at hb
  rw [hb]
  refine ⟨rfl, rfl, rfl, rfl, htol, htol, rfl⟩

end Verif.TMatrix
