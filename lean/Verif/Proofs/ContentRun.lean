import Verif.Proofs.Content
import Verif.Properties.TMatrixTables

/-!
# What the tasks of one entry leave in memory
-/
namespace Verif.Content

set_option autoImplicit false

open Verif.Matrix (loop Mat loop_inv)
open Verif.Special (Ops rDrSpheroid realOps)
open Verif.WignerTable (Tab sineLoop)
open Verif.Clebsch
open Verif.TMatrix
open Verif.Scatter
open Verif.Graph
open Verif.Exec

/-- execute a task on thread 0 -/
noncomputable def step (H : Problem) (t : Tk) (m : Place Loc → Val) : Place Loc → Val := (code realOps H t 0).run m

theorem step_at (H : Problem) (t : Tk) (m : Place Loc → Val) (x : Loc) :
    step H t m (.inl x) = if x ∈ writes (one H.P) t then result realOps H t (m (.inr 0)) (seen H t m) x else m (.inl x) := code_run ..

theorem seq_cons (H : Problem) (t : Tk) (l : List Tk) (m : Place Loc → Val) : seq (code realOps H) (t :: l) m = seq (code realOps H) l (step H t m) := rfl

/-- a list of tasks that read nothing but known values -/
theorem seq_values (H : Problem) (V : Loc → Val) (K : Loc → Prop) : ∀ (l : List Tk) (m : Place Loc → Val),
    (∀ t ∈ l, ∀ m : Place Loc → Val, (∀ x ∈ reads (one H.P) t, m (.inl x) = V x) → ∀ x ∈ writes (one H.P) t, step H t m (.inl x) = V x) →
    (∀ t ∈ l, ∀ x ∈ reads (one H.P) t, K x) → (∀ x, K x → m (.inl x) = V x) →
    ∀ x, (K x ∨ ∃ t ∈ l, x ∈ writes (one H.P) t) → seq (code realOps H) l m (.inl x) = V x := by
  intro l
  induction l generalizing K with
  | nil =>
    intro m _ _ hm x hx
    rcases hx with h | ⟨t, h, _⟩
    · exact hm x h
    · simp at h
  | cons t l ih =>
    intro m hV hr hm x hx
    rw [seq_cons]
    refine ih (fun x => K x ∨ x ∈ writes (one H.P) t) _ (fun t' h => hV t' (by simp [h])) (fun t' h x hx => Or.inl (hr t' (by simp [h]) x hx)) ?_ x ?_
    · intro y hy
      by_cases hw : y ∈ writes (one H.P) t
      · exact hV t (by simp) m (fun z hz => hm z (hr t (by simp) z hz)) y hw
      · rw [step_at, if_neg hw]
        exact hm y (hy.resolve_right hw)
    · rcases hx with h | ⟨t', h, hw⟩
      · exact Or.inl (Or.inl h)
      · rcases List.mem_cons.1 h with rfl | h
        · exact Or.inl (Or.inr hw)
        · exact Or.inr ⟨t', h, hw⟩

/-! ## the tables -/

/-- what is in the tables -/
noncomputable def table (H : Problem) : Loc → Val
  | .nbased => .nfac (nbased (csqrt realOps) Complex.I ⟨Mat.new H.P.maxOrder H.P.maxOrder, Mat.new H.P.maxOrder H.P.maxOrder⟩)
  | .gauss i =>
    let g := H.gl (2 * H.ng i)
    let s := sineLoop realOps g.1 (H.ng i) (fun _ => 0, fun _ => 0)
    .gauss ⟨g.1, g.2, s.1, s.2⟩
  | .wigner i => .wigner (WignerTable.execute realOps (H.gl (2 * H.ng i)).1 (H.order i) (H.ng i) noTab)
  | .geom is ig =>
    let v := rDrSpheroid realOps (H.gl (2 * H.ng ig)).1 (2 * H.ng ig) (H.axisRatio is) (fun _ => 0, fun _ => 0)
    .geom ⟨fun i => realOps.sqrt (v.1 i), v.1, v.2⟩
  | .grid q => .grid (gridTask realOps H q)
  | .swig q => .swig (fill realOps (gridTask realOps H q).inn H.P.maxOrder noTab, fill realOps (gridTask realOps H q).out H.P.maxOrder noTab)
  | _ => .unused

/-- the tables of the calculation of quantity `q` -/
def IsTable (P : Params) (q : Qty) : Loc → Prop
  | .nbased => True
  | .gauss i | .wigner i => i < P.nq
  | .geom is ig => is < P.nshape ∧ ig < P.nq
  | .grid q' | .swig q' => q' = q
  | _ => False

theorem qtys_alone (P : Params) (q : Qty) : qtys (only P q) = [q] := by cases q <;> rfl

/-- after the tasks for the shared data the tables are filled -/
theorem fixed_values (H : Problem) (q : Qty) (m : Place Loc → Val) :
    ∀ x, IsTable H.P q x → seq (code realOps H) (fixedTasks (only H.P q)) m (.inl x) = table H x := by
  intro x hx
  have hl : fixedTasks (only H.P q) = (.nbased :: ((List.range H.P.nq).map .gauss ++ [.grid q]))
      ++ ([.swig q] ++ (List.range H.P.nq).map .wigner ++ (List.range H.P.nshape).flatMap fun is => (List.range H.P.nq).map fun ig => .geom is ig) := by
    unfold fixedTasks
    rw [qtys_alone]
    simp [only]
  rw [hl, seq_append]
  refine seq_values H (table H) (fun x => ∃ t ∈ Tk.nbased :: ((List.range H.P.nq).map .gauss ++ [.grid q]), x ∈ writes (one H.P) t) _ _ ?_ ?_ ?_ x ?_
  · intro t ht m hm x hx
    simp only [List.mem_append, List.mem_cons, List.not_mem_nil, or_false, List.mem_map, List.mem_flatMap, List.mem_range] at ht
    rcases ht with (rfl | ⟨i, hi, rfl⟩) | ⟨is, his, ig, hig, rfl⟩
    all_goals
      rw [step_at, if_pos hx]
      simp only [writes, List.mem_singleton] at hx
      subst hx
    · have e : seen H (.swig q) m (.grid q) = table H (.grid q) := by
        simp only [seen, reads, List.cons_append, List.mem_cons, true_or, if_true]
        exact hm _ (by simp [reads])
      simp only [result, e]
      rfl
    · have e : seen H (.wigner i) m (.gauss i) = table H (.gauss i) := by
        simp only [seen, reads, List.cons_append, List.mem_cons, true_or, if_true]
        exact hm _ (by simp [reads])
      simp only [result, e]
      rfl
    · have e : seen H (.geom is ig) m (.gauss ig) = table H (.gauss ig) := by
        simp only [seen, reads, List.cons_append, List.mem_cons, true_or, if_true]
        exact hm _ (by simp [reads])
      simp only [result, e]
      rfl
  · intro t ht x hx
    simp only [List.mem_append, List.mem_cons, List.not_mem_nil, or_false, List.mem_map, List.mem_flatMap, List.mem_range] at ht
    rcases ht with (rfl | ⟨i, hi, rfl⟩) | ⟨is, his, ig, hig, rfl⟩
    all_goals
      simp only [reads, List.mem_singleton] at hx
      subst hx
    · exact ⟨.grid q, by simp, by simp [writes]⟩
    · exact ⟨.gauss i, by simp [hi], by simp [writes]⟩
    · exact ⟨.gauss ig, by simp [hig], by simp [writes]⟩
  · intro x hx
    refine seq_values H (table H) (fun _ => False) _ _ ?_ ?_ (fun _ h => h.elim) x (Or.inr hx)
    · intro t ht m hm x hx
      simp only [List.mem_append, List.mem_cons, List.not_mem_nil, or_false, List.mem_map, List.mem_range] at ht
      rcases ht with rfl | ⟨i, hi, rfl⟩ | rfl
      all_goals
        rw [step_at, if_pos hx]
        simp only [writes, List.mem_singleton] at hx
        subst hx
        rfl
    · intro t ht x hx
      simp only [List.mem_append, List.mem_cons, List.not_mem_nil, or_false, List.mem_map, List.mem_range] at ht
      rcases ht with rfl | ⟨i, hi, rfl⟩ | rfl <;> simp [reads] at hx
  · cases x <;> simp only [IsTable] at hx
    case nbased => exact Or.inl ⟨.nbased, by simp, by simp [writes]⟩
    case gauss i => exact Or.inl ⟨.gauss i, by simp [hx], by simp [writes]⟩
    case grid q' => exact Or.inl ⟨.grid q, by simp, by simp [writes, hx]⟩
    case swig q' => exact Or.inr ⟨.swig q, by simp, by simp [writes, hx]⟩
    case wigner i => exact Or.inr ⟨.wigner i, by simp [hx], by simp [writes]⟩
    case geom is ig => exact Or.inr ⟨.geom is ig, by simp [hx], by simp [writes]⟩

/-! ## what the T-matrix tasks use of the T-matrix object -/

section

variable (cs : Consts ℂ) (it : TMatrix.Inter ℂ) (pt : Points ℂ) (nmax ngauss : Nat) (tol : ℝ)

theorem bookkeeping_local (t : TRes ℂ ℝ) (T' : Nat → Mat ℂ) (h : T' 0 = t.T 0) (c : Conv ℂ ℝ) :
    bookkeeping Complex.normSq Complex.re pt nmax ngauss tol { t with T := T' } c
      = ({ (bookkeeping Complex.normSq Complex.re pt nmax ngauss tol t c).1 with T := T' }, (bookkeeping Complex.normSq Complex.re pt nmax ngauss tol t c).2) := by
  unfold bookkeeping
  dsimp only
  have e : crossSections Complex.normSq Complex.re nmax (T' 0) = crossSections Complex.normSq Complex.re nmax (t.T 0) := by rw [h]
  simp only [e]
  generalize crossSections Complex.normSq Complex.re nmax (t.T 0) = cr
  by_cases h1 : t.dQs = -2
  · simp only [if_pos h1]
    split_ifs <;> rfl
  · simp only [if_neg h1]
    split_ifs <;> rfl

theorem executeM0_local (a : Aux ℂ) (t t' : TRes ℂ ℝ) (h : t' = { t with T := t'.T }) (h0 : t'.T 0 = t.T 0) (c : Conv ℂ ℝ) :
    (executeM0 (fun z : ℂ => ‖z‖) Complex.I Complex.normSq Complex.re cs it pt nmax ngauss tol (a, t', c)).2
      = ({ (executeM0 (fun z : ℂ => ‖z‖) Complex.I Complex.normSq Complex.re cs it pt nmax ngauss tol (a, t, c)).2.1 with
          T := Function.update t'.T 0 ((executeM0 (fun z : ℂ => ‖z‖) Complex.I Complex.normSq Complex.re cs it pt nmax ngauss tol (a, t, c)).2.1.T 0) },
        (executeM0 (fun z : ℂ => ‖z‖) Complex.I Complex.normSq Complex.re cs it pt nmax ngauss tol (a, t, c)).2.2) := by
  unfold executeM0
  dsimp only
  by_cases hc : c.converged = true
  · rw [if_pos hc, if_pos hc]
    dsimp only
    rw [← h0, Function.update_eq_self, ← h]
  · rw [if_neg hc, if_neg hc]
    dsimp only
    rw [h0]
    generalize mult nmax _ _ (t.T 0) = M
    have e : ({ t' with T := Function.update t'.T 0 M } : TRes ℂ ℝ) = { ({ t with T := Function.update t.T 0 M } : TRes ℂ ℝ) with T := Function.update t'.T 0 M } := by
      rw [h]
    rw [e, bookkeeping_local pt nmax ngauss tol { t with T := Function.update t.T 0 M } (Function.update t'.T 0 M) (by simp)]
    obtain ⟨b, _⟩ := bookkeeping_T Complex.normSq Complex.re pt nmax ngauss tol { t with T := Function.update t.T 0 M } c
    rw [b]
    simp

theorem executeMAll_local (m : Nat) (a : Aux ℂ) (t t' : TRes ℂ ℝ) (h : t'.T m = t.T m) (c : Conv ℂ ℝ) :
    (executeMAll (fun z : ℂ => ‖z‖) Complex.I m cs it c (a, t')).map (·.2)
      = (executeMAll (fun z : ℂ => ‖z‖) Complex.I m cs it c (a, t)).map fun s => { t' with T := Function.update t'.T m (s.2.T m) } := by
  unfold executeMAll
  dsimp only
  by_cases hc : m > c.nmax
  · rw [if_pos hc, if_pos hc]
    simp only [Option.map_some, ← h, Function.update_eq_self]
  · rw [if_neg hc, if_neg hc]
    cases c.points with
    | none => rfl
    | some pt => simp [h]

end

/-! ## arrays of the right size -/

theorem mat_iff {n : Nat} {x : Mat ℂ} : mat n x = x ↔ x.rows = n ∧ x.cols = n ∧ ∀ k, n * n ≤ k → x.arr k = 0 := by
  obtain ⟨r, c, f⟩ := x
  simp only [mat, Mat.mk.injEq]
  constructor
  · rintro ⟨rfl, rfl, h⟩
    refine ⟨rfl, rfl, fun k hk => ?_⟩
    rw [← h]
    simp [arr, Nat.not_lt.2 hk]
  · rintro ⟨rfl, rfl, h⟩
    refine ⟨rfl, rfl, ?_⟩
    funext k
    by_cases hk : k < c * c
    · simp [arr, hk]
    · simp [arr, hk, h k (by omega)]

theorem mat_mat (n : Nat) (x : Mat ℂ) : mat n (mat n x) = mat n x := mat_iff.2 ⟨rfl, rfl, fun k hk => by simp [mat, arr, Nat.not_lt.2 hk]⟩

theorem mat_new (n : Nat) : mat n (Mat.new n n) = Mat.new n n := mat_iff.2 ⟨rfl, rfl, fun _ _ => rfl⟩

theorem set_mat {n : Nat} {x : Mat ℂ} (h : mat n x = x) {i j : Nat} (hi : i < n) (hj : j < n) (v : ℂ) : mat n (x.set i j v) = x.set i j v := by
  obtain ⟨h1, h2, h3⟩ := mat_iff.1 h
  refine mat_iff.2 ⟨h1, h2, fun k hk => ?_⟩
  have : i * n + j < n * n := by
    calc i * n + j < i * n + n := by omega
      _ = (i + 1) * n := by ring
      _ ≤ n * n := Nat.mul_le_mul_right _ hi
  simp only [Mat.set, Matrix.pos, h2]
  rw [Function.update_of_ne (by omega)]
  exact h3 k hk

theorem mult_mat {n nm : Nat} (hn : 2 * nm ≤ n) (A B : Mat ℂ) {T : Mat ℂ} (h : mat n T = T) : mat n (mult nm A B T) = mult nm A B T := by
  unfold mult
  refine loop_inv (fun _ T => mat n T = T) (Nat.zero_le nm) _ T h ?_
  intro i T _ hi h
  refine loop_inv (fun _ T => mat n T = T) (Nat.zero_le nm) _ T h ?_
  intro j T _ hj h
  unfold multBody
  refine loop_inv (fun _ T => mat n T = T) (Nat.zero_le (2 * nm)) _ _ ?_ ?_
  · exact set_mat (set_mat (set_mat (set_mat h (by omega) (by omega) _) (by omega) (by omega) _) (by omega) (by omega) _) (by omega) (by omega) _
  · intro k T _ _ h
    exact set_mat (set_mat (set_mat (set_mat h (by omega) (by omega) _) (by omega) (by omega) _) (by omega) (by omega) _) (by omega) (by omega) _

theorem arr_arr {K : Type} [Zero K] (n : Nat) (f : Nat → K) : arr n (arr n f) = arr n f := by
  funext k
  by_cases h : k < n <;> simp [arr, h]

theorem arr_update {K : Type} [Zero K] {n : Nat} {f : Nat → K} (h : arr n f = f) {i : Nat} (hi : i < n) (v : K) :
    arr n (Function.update f i v) = Function.update f i v := by
  funext k
  by_cases hk : k < n
  · simp [arr, hk]
  · rw [Function.update_of_ne (by omega)]
    rw [← congrFun h k]
    simp [arr, hk]

theorem arr2_arr2 {K : Type} [Zero K] (n c : Nat) (f : Nat → Nat → K) : arr2 n c (arr2 n c f) = arr2 n c f := by
  funext i
  by_cases h : i < n <;> simp [arr2, h, arr_arr]

theorem arr2_setRow {n c : Nat} {f : Nat → Nat → ℂ} (h : arr2 n c f = f) {i : Nat} (hi : i < n) {row : Nat → ℂ} (hr : arr c row = row) :
    arr2 n c (setRow f i row) = setRow f i row := by
  funext k
  by_cases hk : k = i
  · subst hk; simp [arr2, setRow, hi, hr]
  · have := congrFun h k
    simp only [arr2, setRow, hk, if_false] at this ⊢
    exact this

/-- an interaction resource without anything beyond its arrays -/
def Fits (size cols : Nat) (x : TMatrix.Inter ℂ) : Prop := (Val.inter x).toInter size cols = x

theorem fits_iff {size cols : Nat} {x : TMatrix.Inter ℂ} : Fits size cols x ↔ arr size x.kr = x.kr ∧ arr size x.krmr = x.krmr ∧ arr size x.krinv = x.krinv
    ∧ arr size x.krmrinv = x.krmrinv ∧ arr2 size cols x.j = x.j ∧ arr2 size cols x.dj = x.dj ∧ arr2 size cols x.y = x.y ∧ arr2 size cols x.dy = x.dy
    ∧ arr2 size cols x.jm = x.jm ∧ arr2 size cols x.djm = x.djm := by
  obtain ⟨a1, a2, a3, a4, a5, a6, a7, a8, a9, a10⟩ := x
  unfold Fits Val.toInter
  simp only [TMatrix.Inter.mk.injEq]

theorem toInter_fits (size cols : Nat) (v : Val) : Fits size cols (v.toInter size cols) := by
  have z : ∀ n, arr n (fun _ => (0 : ℂ)) = fun _ => 0 := by intro n; funext k; simp [arr]
  have z' : arr2 size cols (fun _ _ => (0 : ℂ)) = fun _ _ => 0 := by funext k; simp [arr2, z]
  rw [fits_iff]
  cases v
  case inter x => simp only [Val.toInter, arr_arr, arr2_arr2, and_self]
  all_goals simp only [Val.toInter, z, z', and_self]

theorem interaction_fits {size cols : Nat} {jdj ydy jdjm : Nat → ℂ → (Nat → ℂ) × (Nat → ℂ) → (Nat → ℂ) × (Nat → ℂ)}
    (h1 : ∀ n z s, arr cols (jdj n z s).1 = (jdj n z s).1 ∧ arr cols (jdj n z s).2 = (jdj n z s).2)
    (h2 : ∀ n z s, arr cols (ydy n z s).1 = (ydy n z s).1 ∧ arr cols (ydy n z s).2 = (ydy n z s).2)
    (h3 : ∀ n z s, arr cols (jdjm n z s).1 = (jdjm n z s).1 ∧ arr cols (jdjm n z s).2 = (jdjm n z s).2)
    (cs : Consts ℂ) (pt : Points ℂ) (nmax ngauss : Nat) (hn : 2 * ngauss ≤ size) (c : Conv ℂ ℝ) {it : TMatrix.Inter ℂ} (h : Fits size cols it) :
    Fits size cols (executeInteraction jdj ydy jdjm cs pt nmax ngauss c it) := by
  unfold executeInteraction
  by_cases hc : c.converged = true
  · rw [if_pos hc]; exact h
  · rw [if_neg hc]
    dsimp only
    refine loop_inv (fun _ it => Fits size cols it) (Nat.zero_le (2 * ngauss)) _ _ ?_ ?_
    · refine loop_inv (fun _ it => Fits size cols it) (Nat.zero_le (2 * ngauss)) _ _ h ?_
      intro k it _ hk h
      obtain ⟨a1, a2, a3, a4, a5⟩ := fits_iff.1 h
      refine fits_iff.2 ⟨?_, ?_, ?_, ?_, a5⟩ <;> exact arr_update (by assumption) (by omega) _
    · intro k it _ hk h
      obtain ⟨a1, a2, a3, a4, a5, a6, a7, a8, a9, a10⟩ := fits_iff.1 h
      refine fits_iff.2 ⟨a1, a2, a3, a4, arr2_setRow a5 (by omega) (h1 ..).1, arr2_setRow a6 (by omega) (h1 ..).2, arr2_setRow a7 (by omega) (h2 ..).1,
        arr2_setRow a8 (by omega) (h2 ..).2, arr2_setRow a9 (by omega) (h3 ..).1, arr2_setRow a10 (by omega) (h3 ..).2⟩

theorem row_fits (H : Problem) (f : Nat → ℂ → (Nat → ℂ) × (Nat → ℂ) → (Nat → ℂ) × (Nat → ℂ)) (n : Nat) (z : ℂ) (s : (Nat → ℂ) × (Nat → ℂ)) :
    arr H.P.maxOrder (H.row f n z s).1 = (H.row f n z s).1 ∧ arr H.P.maxOrder (H.row f n z s).2 = (H.row f n z s).2 :=
  ⟨arr_arr _ _, arr_arr _ _⟩

end Verif.Content
