import Verif.Model.Content
import Verif.Properties.Slots
import Verif.Properties.Alignment
import Verif.Properties.TMatrixRun
import Verif.Properties.Special
import Verif.Properties.TMatrixTables
import Verif.Properties.Scatter

/-!
# The tasks keep to the locations they declare, and do not depend on what is in the auxiliary space
-/
namespace Verif.Content

open Verif.Matrix
open Verif.Special
open Verif.WignerTable (Tab)
open Verif.Clebsch
open Verif.TMatrix
open Verif.Scatter
open Verif.Graph
open Verif.Exec

/-! ## programs -/

theorem readAll_run {V : Type} (k : (Loc → V) → Prog (Place Loc) V) (m : Place Loc → V) : ∀ (l : List Loc) (env : Loc → V),
    (readAll l env k).run m = (k fun x => if x ∈ l then m (.inl x) else env x).run m
  | [], env => by simp [readAll]
  | x :: l, env => by
    rw [readAll, Prog.run, readAll_run k m l]
    congr 2
    funext y
    by_cases h : y ∈ l
    · simp [h]
    · by_cases e : y = x
      · subst e; simp [h]
      · simp [h, e]

theorem writeAll_run {V : Type} (f : Loc → V) (k : Prog (Place Loc) V) : ∀ (l : List Loc) (m : Place Loc → V),
    (writeAll l f k).run m = k.run fun y => match y with
      | .inl x => if x ∈ l then f x else m (.inl x)
      | .inr i => m (.inr i)
  | [], m => by
    rw [writeAll]
    congr 1
    funext y
    cases y <;> simp
  | x :: l, m => by
    rw [writeAll, Prog.run, writeAll_run f k l]
    congr 1
    funext y
    cases y with
    | inr i => simp [Function.update]
    | inl y =>
      by_cases h : y ∈ l
      · simp [h]
      · by_cases e : y = x
        · subst e; simp [h]
        · simp [h, e, Function.update]

theorem readAll_within {V : Type} {R W : Loc → Prop} {id : Nat} (k : (Loc → V) → Prog (Place Loc) V) (hk : ∀ e, Within R W id (k e)) :
    ∀ (l : List Loc) (env : Loc → V), (∀ x ∈ l, R x ∨ W x) → Within R W id (readAll l env k)
  | [], env, _ => hk env
  | x :: l, env, h => ⟨h x (by simp), fun v => readAll_within k hk l _ fun y hy => h y (by simp [hy])⟩

theorem writeAll_within {V : Type} {R W : Loc → Prop} {id : Nat} (f : Loc → V) (k : Prog (Place Loc) V) (hk : Within R W id k) :
    ∀ l : List Loc, (∀ x ∈ l, W x) → Within R W id (writeAll l f k)
  | [], _ => hk
  | x :: l, h => ⟨h x (by simp), writeAll_within f k hk l fun y hy => h y (by simp [hy])⟩

/-- what a task sees of the memory -/
def seen (H : Problem) (t : Tk) (m : Place Loc → Val) : Loc → Val :=
  fun x => if x ∈ reads (one H.P) t ++ writes (one H.P) t then m (.inl x) else .unused

theorem code_run (o : Ops ℝ) (H : Problem) (t : Tk) (id : Nat) (m : Place Loc → Val) (x : Loc) :
    (code o H t id).run m (.inl x) = if x ∈ writes (one H.P) t then result o H t (m (.inr id)) (seen H t m) x else m (.inl x) := by
  rw [code, Prog.run, readAll_run, writeAll_run, Prog.run, Prog.run, Function.update_of_ne (by simp)]
  rfl

/-! ## objects -/

theorem mat_reset (n : Nat) (x : Mat ℂ) : (mat n x).reset = Mat.new n n := by
  have h : ∀ k, ((mat n x).reset).arr k = 0 := by
    intro k
    have key := loop_inv (σ := Mat ℂ) (fun q s => ∀ k, (k < q → s.arr k = 0) ∧ (q ≤ k → s.arr k = (mat n x).arr k)) (Nat.zero_le ((mat n x).rows * (mat n x).cols))
      (fun k s => { s with arr := Function.update s.arr k 0 }) (mat n x) (fun k => ⟨fun h => by omega, fun _ => rfl⟩) (by
        intro q s _ _ h k
        by_cases e : k = q
        · subst e; simp
        · simp only [Function.update_of_ne e]
          exact ⟨fun h' => (h k).1 (by omega), fun h' => (h k).2 (by omega)⟩)
    by_cases hk : k < (mat n x).rows * (mat n x).cols
    · exact (key k).1 hk
    · rw [Mat.reset, (key k).2 (by omega)]
      simp only [mat] at hk ⊢
      simp [arr, hk]
  obtain ⟨h1, h2⟩ := reset_shape (mat n x)
  generalize hg : (mat n x).reset = y at h h1 h2
  obtain ⟨r, c, f⟩ := y
  simp only [Mat.new, mat] at h h1 h2 ⊢
  subst h1 h2
  congr 1
  funext k
  exact h k

theorem aux_reset (M : Nat) (v : Val) : (v.toAux M).reset = Aux.new M := by
  have key : ∀ (n : Nat) (f : Nat → Nat) (g : Nat → ℂ),
      loop 0 n (fun i (s : (Nat → Nat) × (Nat → ℂ)) => (Function.update s.1 i 0, Function.update s.2 i 0)) (arr n f, arr n g) = (fun _ => 0, fun _ => 0) := by
    intro n f g
    have := loop_inv (σ := (Nat → Nat) × (Nat → ℂ)) (fun q s => ∀ k, (k < q → s.1 k = 0 ∧ s.2 k = 0) ∧ (q ≤ k → s.1 k = arr n f k ∧ s.2 k = arr n g k)) (Nat.zero_le n)
      (fun i (s : (Nat → Nat) × (Nat → ℂ)) => (Function.update s.1 i 0, Function.update s.2 i 0)) (arr n f, arr n g) (fun k => ⟨fun h => by omega, fun _ => ⟨rfl, rfl⟩⟩) (by
        intro q s _ _ h k
        by_cases e : k = q
        · subst e; simp
        · simp only [Function.update_of_ne e]
          exact ⟨fun h' => (h k).1 (by omega), fun h' => (h k).2 (by omega)⟩)
    generalize loop 0 n (fun i (s : (Nat → Nat) × (Nat → ℂ)) => (Function.update s.1 i 0, Function.update s.2 i 0)) (arr n f, arr n g) = r at this
    obtain ⟨r1, r2⟩ := r
    simp only [Prod.mk.injEq]
    constructor <;> funext k
    · by_cases hk : k < n
      · exact ((this k).1 hk).1
      · exact ((this k).2 (by omega)).1.trans (by simp [arr, hk])
    · by_cases hk : k < n
      · exact ((this k).1 hk).2
      · exact ((this k).2 (by omega)).2.trans (by simp [arr, hk])
  have e0 : ∀ n (x : Mat ℂ), (Mat.new n n : Mat ℂ) = mat n (Mat.new n n) := by
    intro n _
    simp only [mat, Mat.new]
    congr 1
    funext k
    simp [arr]
  have gen : ∀ (a b : Mat ℂ) (f : Nat → Nat) (g : Nat → ℂ),
      Aux.reset ⟨mat (2 * M) a, mat (2 * M) b, arr (2 * M) f, arr (2 * M) g⟩ = Aux.new M := by
    intro a b f g
    unfold Aux.reset
    dsimp only
    rw [mat_reset, mat_reset]
    have : (mat (2 * M) a).rows = 2 * M := rfl
    rw [this, key]
    rfl
  have z : ∀ n, arr n (fun _ => (0 : Nat)) = fun _ => 0 := by intro n; funext k; simp [arr]
  have z' : ∀ n, arr n (fun _ => (0 : ℂ)) = fun _ => 0 := by intro n; funext k; simp [arr]
  have d : (Aux.new M : Aux ℂ).reset = Aux.new M := by
    have := gen (Mat.new (2 * M) (2 * M)) (Mat.new (2 * M) (2 * M)) (fun _ => 0) (fun _ => 0)
    rw [z, z', ← e0 _ (Mat.new 0 0)] at this
    exact this
  cases v
  case aux a C => exact gen _ _ _ _
  all_goals exact d

section

variable (cs : Consts ℂ) (it : TMatrix.Inter ℂ)

/-- after the reset, nothing is left of what was in the auxiliary space -/
theorem executeM0_aux (pt : Points ℂ) (nmax ngauss : Nat) (tol : ℝ) (a a' : Aux ℂ) (h : a.reset = a'.reset) (t : TRes ℂ ℝ) (c : Conv ℂ ℝ) :
    (executeM0 (fun z : ℂ => ‖z‖) Complex.I Complex.normSq Complex.re cs it pt nmax ngauss tol (a, t, c)).2
      = (executeM0 (fun z : ℂ => ‖z‖) Complex.I Complex.normSq Complex.re cs it pt nmax ngauss tol (a', t, c)).2 := by
  unfold executeM0
  dsimp only
  by_cases hc : c.converged = true
  · rw [if_pos hc, if_pos hc]
  · rw [if_neg hc, if_neg hc, h]

theorem executeMAll_aux (m : Nat) (a a' : Aux ℂ) (h : a.reset = a'.reset) (t : TRes ℂ ℝ) (c : Conv ℂ ℝ) :
    (executeMAll (fun z : ℂ => ‖z‖) Complex.I m cs it c (a, t)).map (·.2) = (executeMAll (fun z : ℂ => ‖z‖) Complex.I m cs it c (a', t)).map (·.2) := by
  unfold executeMAll
  dsimp only
  by_cases hc : m > c.nmax
  · rw [if_pos hc, if_pos hc]; rfl
  · rw [if_neg hc, if_neg hc, h]

end

/-- the result of the average does not depend on what is in the workspace for the Clebsch-Gordan coefficients -/
theorem align_workspace (b : Bool) (inp out : TRes ℂ ℝ) (C C' p : Vec ℝ) (hC : C.size = C'.size) (hk : C.ok = C'.ok) :
    let s := Alignment.execute Real.sqrt (fun x : ℝ => (x : ℂ)) b inp ⟨C, p, out⟩
    let s' := Alignment.execute Real.sqrt (fun x : ℝ => (x : ℂ)) b inp ⟨C', p, out⟩
    s.out = s'.out ∧ s.p.v = s'.p.v ∧ s.C.size = s'.C.size ∧ s.C.ok = s'.C.ok ∧ s.p.size = s'.p.size ∧ s.p.ok = s'.p.ok := by
  open Alignment in
  -- two states in step
  let Same : Alignment.State ℂ ℝ → Alignment.State ℂ ℝ → Prop := fun s s' =>
    s.out = s'.out ∧ s.p.v = s'.p.v ∧ s.C.size = s'.C.size ∧ s.C.ok = s'.C.ok ∧ s.p.size = s'.p.size ∧ s.p.ok = s'.p.ok
  have lp : ∀ (lo hi : Nat) (f : Nat → Alignment.State ℂ ℝ → Alignment.State ℂ ℝ) (_ : ∀ k, lo ≤ k → k < hi → ∀ s s', Same s s' → Same (f k s) (f k s')) (s s'),
      Same s s' → Same (loop lo hi f s) (loop lo hi f s') := by
    intro lo hi f hf s s' h
    by_cases hl : lo ≤ hi
    · obtain ⟨d, rfl⟩ := Nat.exists_eq_add_of_le hl
      induction d with
      | zero => simpa [loop_self] using h
      | succ d ih =>
        rw [← Nat.add_assoc, loop_succ (by omega), loop_succ (by omega)]
        exact hf _ (by omega) (by omega) _ _ (ih (fun k h1 h2 => hf k h1 (by omega)) (by omega))
    · unfold loop
      rw [show hi - lo = 0 by omega]
      exact h
  have el : ∀ (n : Nat) (f : Nat → Nat → Nat → Alignment.State ℂ ℝ → Alignment.State ℂ ℝ)
      (_ : ∀ m n1 n2, max m 1 ≤ n1 → max m 1 ≤ n2 → ∀ s s', Same s s' → Same (f m n1 n2 s) (f m n1 n2 s')) (s s'),
      Same s s' → Same (Alignment.elements n f s) (Alignment.elements n f s') := by
    intro n f hf s s' h
    unfold Alignment.elements
    exact lp _ _ _ (fun m _ _ s s' h => lp _ _ _ (fun n1 h1 _ s s' h => lp _ _ _ (fun n2 h2 _ s s' h => hf m n1 n2 h1 h2 s s' h) s s' h) s s' h) s s' h
  unfold Alignment.execute
  dsimp only
  cases b with
  | false =>
    rw [if_neg (by simp), if_neg (by simp)]
    refine (el inp.nmax (Alignment.copy inp) ?_ ⟨C, p, { out with nmax := inp.nmax }⟩ ⟨C', p, { out with nmax := inp.nmax }⟩ ⟨rfl, rfl, hC, hk, rfl, rfl⟩)
    intro m n1 n2 _ _ s s' h
    refine ⟨?_, h.2⟩
    unfold Alignment.copy
    dsimp only
    rw [h.1]
  | true =>
    rw [if_pos rfl, if_pos rfl]
    refine (el inp.nmax (Alignment.average Real.sqrt (fun x : ℝ => (x : ℂ)) inp) ?_ ⟨C, p, { out with nmax := inp.nmax }⟩
      ⟨C', p, { out with nmax := inp.nmax }⟩ ⟨rfl, rfl, hC, hk, rfl, rfl⟩)
    intro m n1 n2 h1 h2 s s' h
    obtain ⟨b, x1, x2, x3, x4, x5, x6, x7⟩ := Alignment.average_spec Complex.ofRealHom inp (m := m) (n1 := n1) (n2 := n2) (by omega) s
    obtain ⟨b', y1, y2, y3, y4, y5, y6, y7⟩ := Alignment.average_spec Complex.ofRealHom inp (m := m) (n1 := n1) (n2 := n2) (by omega) s'
    have hb : b = b' := by
      have e : ∀ i j, i < 2 → j < 2 → b.at i j = b'.at i j := by
        intro i j hi hj
        rw [x7 i j hi hj, y7 i j hi hj, h.2.1]
      have e00 := e 0 0 (by omega) (by omega)
      have e01 := e 0 1 (by omega) (by omega)
      have e10 := e 1 0 (by omega) (by omega)
      have e11 := e 1 1 (by omega) (by omega)
      simp [Alignment.Block.at] at e00 e01 e10 e11
      cases b; cases b'
      simp_all
    obtain ⟨g1, g2, g3, g4, g5, g6⟩ := h
    refine ⟨?_, ?_, ?_, ?_, ?_, ?_⟩
    · exact x1.trans (by rw [hb, g1]; exact y1.symm)
    · exact x5.trans (g2.trans y5.symm)
    · exact x2.trans (g3.trans y2.symm)
    · exact x3.trans (by rw [g3, g4]; exact y3.symm)
    · exact x4.trans (g5.trans y4.symm)
    · exact x6.trans (by rw [g5, g6]; exact y6.symm)

/-! ## the tasks are well-behaved -/

theorem result_aux (H : Problem) (t : Tk) (a a' : Val) (env : Loc → Val) : result realOps H t a env = result realOps H t a' env := by
  have hr : (a.toAux H.P.maxOrder).reset = (a'.toAux H.P.maxOrder).reset := (aux_reset _ a).trans (aux_reset _ a').symm
  cases t
  case m0 c ig =>
    have := executeM0_aux (consts realOps H c.par (env .nbased).toNfac) ((env (.inter 0)).toInter H.size H.P.maxOrder) (pointsAt env c.ish ig) (H.order ig) (H.ng ig) H.tol
      _ _ hr (toT H env 0) ((env (.conv c)).toCtl.deref (pointsAt env c.ish))
    unfold result m0Task
    dsimp only
    rw [this]
  case mall c m =>
    have := executeMAll_aux (consts realOps H c.par (env .nbased).toNfac) ((env (.inter 0)).toInter H.size H.P.maxOrder) m
      _ _ hr (toT H env 0) ((env (.conv c)).toCtl.deref (pointsAt env c.ish))
    unfold result mAllTask
    dsimp only
    funext x
    have e : ∀ (z : Option (Aux ℂ × TRes ℂ ℝ)), z.map (fun s => ofT s.2 x) = (z.map (·.2)).map fun t => ofT t x := by intro z; cases z <;> rfl
    rw [e, this, ← e]
    all_goals rfl
  case align c =>
    have hs : ∀ v : Val, (v.toCG H.P.maxOrder).size = (Val.toCG H.P.maxOrder .unused).size ∧ (v.toCG H.P.maxOrder).ok = (Val.toCG H.P.maxOrder .unused).ok := by
      intro v; cases v <;> exact ⟨rfl, rfl⟩
    obtain ⟨e1, -, -, e2, -, e3⟩ := align_workspace (H.aligned c) (toT H env 0) (toT H env 1) (a.toCG H.P.maxOrder) (a'.toCG H.P.maxOrder)
      ⟨(H.coeff c).size, (H.coeff c).v, true⟩ ((hs a).1.trans (hs a').1.symm) ((hs a).2.trans (hs a').2.symm)
    unfold result alignTask
    dsimp only
    rw [show realOps.sqrt = Real.sqrt by simp only [realOps], e1, e2, e3]
  all_goals rfl

theorem wellBehaved (H : Problem) : WellBehaved (fun t x => x ∈ reads (one H.P) t) (fun t x => x ∈ writes (one H.P) t) (code realOps H) where
  within t id := by
    refine ⟨rfl, fun a => readAll_within _ (fun e => writeAll_within _ _ (by exact ⟨rfl, trivial⟩) _ fun x hx => hx) _ _ fun x hx => ?_⟩
    simpa [List.mem_append] using hx
  results t id id' m m' h x hx := by
    rw [code_run, code_run, if_pos hx, if_pos hx, result_aux H t (m (.inr id)) (m' (.inr id'))]
    have : seen H t m = seen H t m' := by
      funext y
      unfold seen
      by_cases hy : y ∈ reads (one H.P) t ++ writes (one H.P) t
      · rw [if_pos hy, if_pos hy]; exact h y (by simpa [List.mem_append] using hy)
      · rw [if_neg hy, if_neg hy]
    rw [this]

/-! ## the clearing tasks clear -/

theorem resetT_new (H : Problem) (env : Loc → Val) (i : Nat) :
    (resetT H.P.maxOrder (toT H env i)).T = (TRes.new H.P.maxOrder : TRes ℂ ℝ).T := by
  funext m
  have key := loop_inv (σ := Nat → Mat ℂ)
    (fun k T => ∀ m, (m < k → T m = ((toT H env i).T m).reset) ∧ (k ≤ m → T m = (toT H env i).T m)) (Nat.zero_le (H.P.maxOrder + 1))
    (fun m T => Function.update T m ((T m).reset)) (toT H env i).T
    (fun m => ⟨fun h => absurd h (by omega), fun _ => rfl⟩)
    (by
      intro k T _ _ h m
      by_cases e : m = k
      · subst e
        rw [Function.update_self, (h m).2 le_rfl]
        exact ⟨fun _ => rfl, fun h => absurd h (by omega)⟩
      · rw [Function.update_of_ne e]
        exact ⟨fun h' => (h m).1 (by omega), fun h' => (h m).2 (by omega)⟩)
  have e : (toT H env i).T m = mat (2 * (H.P.maxOrder + 1 - m)) (env (.block i m)).toBlock := rfl
  by_cases hm : m < H.P.maxOrder + 1
  · exact ((key m).1 hm).trans (by rw [e, mat_reset]; rfl)
  · refine ((key m).2 (by omega)).trans ?_
    rw [e]
    simp only [TRes.new, mat, Mat.new, show H.P.maxOrder + 1 - m = 0 by omega]
    congr 1

theorem resetInteraction_new (size cols : Nat) (v : Val) :
    resetInteraction size cols (v.toInter size cols)
      = ⟨fun _ => 0, fun _ => 0, fun _ => 0, fun _ => 0, fun _ _ => 0, fun _ _ => 0, fun _ _ => 0, fun _ _ => 0, fun _ _ => 0, fun _ _ => 0⟩ := by
  let Z1 : TMatrix.Inter ℂ → Nat → Prop := fun it ig => it.kr ig = 0 ∧ it.krmr ig = 0 ∧ it.krinv ig = 0 ∧ it.krmrinv ig = 0
  let Z2 : TMatrix.Inter ℂ → Nat → Nat → Prop := fun it ig i => it.j ig i = 0 ∧ it.y ig i = 0 ∧ it.dj ig i = 0 ∧ it.dy ig i = 0 ∧ it.jm ig i = 0 ∧ it.djm ig i = 0
  have a1 : ∀ (f : Nat → ℂ) n, size ≤ n → arr size f n = 0 := fun f n h => by simp [arr, show ¬ n < size by omega]
  have a2 : ∀ (f : Nat → Nat → ℂ) n i, size ≤ n ∨ cols ≤ i → arr2 size cols f n i = 0 := by
    intro f n i h
    unfold arr2
    by_cases hn : n < size
    · rw [if_pos hn]; simp [arr, show ¬ i < cols by omega]
    · rw [if_neg hn]
  have zr : ∀ (f : Nat → Nat → ℂ) (ig i a b : Nat), TMatrix.setRow f ig (Function.update (f ig) i 0) a b = if a = ig ∧ b = i then 0 else f a b := by
    intro f ig i a b
    unfold TMatrix.setRow
    by_cases h : a = ig
    · subst h
      by_cases hb : b = i
      · subst hb; simp
      · simp [hb]
    · simp [h]
  have key : (∀ ig, (ig < size ∨ size ≤ ig) → Z1 (resetInteraction size cols (v.toInter size cols)) ig)
      ∧ ∀ ig i, (ig < size ∨ size ≤ ig ∨ cols ≤ i) → Z2 (resetInteraction size cols (v.toInter size cols)) ig i := by
    unfold resetInteraction
    refine loop_inv (σ := TMatrix.Inter ℂ) (fun q it => (∀ ig, (ig < q ∨ size ≤ ig) → Z1 it ig) ∧ ∀ ig i, (ig < q ∨ size ≤ ig ∨ cols ≤ i) → Z2 it ig i)
      (Nat.zero_le size) _ _ ?_ ?_
    · constructor
      · intro ig h
        have h' : size ≤ ig := by omega
        cases v
        case inter x => exact ⟨a1 _ _ h', a1 _ _ h', a1 _ _ h', a1 _ _ h'⟩
        all_goals exact ⟨rfl, rfl, rfl, rfl⟩
      · intro ig i h
        have h' : size ≤ ig ∨ cols ≤ i := by omega
        cases v
        case inter x => exact ⟨a2 _ _ _ h', a2 _ _ _ h', a2 _ _ _ h', a2 _ _ _ h', a2 _ _ _ h', a2 _ _ _ h'⟩
        all_goals exact ⟨rfl, rfl, rfl, rfl, rfl, rfl⟩
    · intro q it _ hq ⟨p1, p2⟩
      have inner := loop_inv (σ := TMatrix.Inter ℂ)
        (fun c it => (∀ ig, (ig < q + 1 ∨ size ≤ ig) → Z1 it ig) ∧ ∀ ig i, (ig < q ∨ size ≤ ig ∨ cols ≤ i ∨ (ig = q ∧ i < c)) → Z2 it ig i)
        (Nat.zero_le cols)
        (fun i (it : TMatrix.Inter ℂ) => { it with
          j := TMatrix.setRow it.j q (Function.update (it.j q) i 0)
          y := TMatrix.setRow it.y q (Function.update (it.y q) i 0)
          dj := TMatrix.setRow it.dj q (Function.update (it.dj q) i 0)
          dy := TMatrix.setRow it.dy q (Function.update (it.dy q) i 0)
          jm := TMatrix.setRow it.jm q (Function.update (it.jm q) i 0)
          djm := TMatrix.setRow it.djm q (Function.update (it.djm q) i 0) })
        { it with
          kr := Function.update it.kr q 0
          krmr := Function.update it.krmr q 0
          krinv := Function.update it.krinv q 0
          krmrinv := Function.update it.krmrinv q 0 }
        (by
          constructor
          · intro ig h
            by_cases e : ig = q
            · subst e; simp [Z1]
            · have := p1 ig (by omega)
              simpa [Z1, Function.update_of_ne e] using this
          · intro ig i h
            exact p2 ig i (by omega))
        (by
          intro c it _ hc ⟨r1, r2⟩
          refine ⟨fun ig h => r1 ig h, fun ig i h => ?_⟩
          simp only [Z2, zr]
          by_cases e : ig = q ∧ i = c
          · simp [e]
          · simp only [if_neg e]
            exact r2 ig i (by omega))
      exact ⟨fun ig h => inner.1 ig h, fun ig i h => inner.2 ig i (by omega)⟩
  generalize resetInteraction size cols (v.toInter size cols) = r at key
  obtain ⟨k1, k2⟩ := key
  have z1 := fun ig => k1 ig (by omega)
  have z2 := fun ig i => k2 ig i (by omega)
  simp only [Z1, Z2] at z1 z2
  cases r
  simp only [TMatrix.Inter.mk.injEq]
  simp only at z1 z2
  refine ⟨?_, ?_, ?_, ?_, ?_, ?_, ?_, ?_, ?_, ?_⟩ <;> funext ig
  · exact (z1 ig).1
  · exact (z1 ig).2.1
  · exact (z1 ig).2.2.1
  · exact (z1 ig).2.2.2
  · funext i; exact (z2 ig i).1
  · funext i; exact (z2 ig i).2.2.1
  · funext i; exact (z2 ig i).2.1
  · funext i; exact (z2 ig i).2.2.2.1
  · funext i; exact (z2 ig i).2.2.2.2.1
  · funext i; exact (z2 ig i).2.2.2.2.2

theorem clears (H : Problem) : Clears H.P (code realOps H) (clean H) := by
  intro t c ht id m x hx
  rw [code_run, if_pos hx]
  rcases ht with rfl | rfl | rfl
  · simp only [writes, whole, List.mem_cons, List.mem_map] at hx
    rcases hx with rfl | ⟨k, _, rfl⟩
    · rfl
    · change Val.block _ = Val.block _
      rw [resetT_new]
  · simp only [writes, whole, List.mem_cons, List.mem_map] at hx
    rcases hx with rfl | ⟨k, _, rfl⟩
    · rfl
    · change Val.block _ = Val.block _
      rw [resetT_new]
  · simp only [writes, List.mem_singleton] at hx
    subst hx
    change Val.inter _ = Val.inter _
    rw [resetInteraction_new]

end Verif.Content
