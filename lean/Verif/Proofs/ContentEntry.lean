import Verif.Proofs.ContentCell

/-!
# The tasks of one entry of the table
-/
namespace Verif.Content

set_option autoImplicit false

open Verif.Matrix (loop Mat loop_inv)
open Verif.Special (Ops realOps)
open Verif.TMatrix
open Verif.Graph
open Verif.Exec

variable {H : Problem} {q : Qty} {c : Cell}

/-- an interaction resource full of zeros -/
def noInter : TMatrix.Inter ℂ :=
  ⟨fun _ => 0, fun _ => 0, fun _ => 0, fun _ => 0, fun _ _ => 0, fun _ _ => 0, fun _ _ => 0, fun _ _ => 0, fun _ _ => 0, fun _ _ => 0⟩

/-- the objects before the first order is tried -/
noncomputable def start (H : Problem) : Work ℂ ℝ := ⟨noInter, TRes.new H.P.maxOrder, Conv.new⟩

/-- the objects after the last order -/
noncomputable def tried (H : Problem) (c : Cell) : Work ℂ ℝ :=
  runIters (fun z : ℂ => ‖z‖) Complex.I Complex.normSq Complex.re (H.row H.jdj) (H.row H.ydy) (H.row H.jdjm) (csOf H c.par) H.tol
    ((List.range H.P.nq).map (iterAt H c.ish)) (start H)

/-- all degrees of the T-matrix; `none`: a null pointer is followed -/
noncomputable def grain (H : Problem) (c : Cell) : Option (TRes ℂ ℝ) :=
  runMAll (fun z : ℂ => ‖z‖) Complex.I (csOf H c.par) (tried H c).it (tried H c).c
    (((List.range H.P.maxOrder).map fun i => i + 1).map fun k => (k, Aux.new H.P.maxOrder)) (tried H c).t

/-- the ensemble, as the tasks for the coefficients see it -/
noncomputable def ens (H : Problem) (c : Cell) (t : TRes ℂ ℝ) : TRes ℂ ℝ :=
  { aligned H c t with T := fun k => mat (2 * (H.P.maxOrder + 1 - k)) ((aligned H c t).T k) }

theorem inv_start {m : Place Loc → Val} (ht : ∀ x, IsTable H.P q x → m (.inl x) = table H x) (hc : ∀ x, Mine H.P x → m (.inl x) = clean H x)
    (hv : m (.inl (.conv c)) = .ctl Ctl.new) : Inv H q c m (start H) := by
  have hh : ∀ i < 2, m (.inl (.head i)) = clean H (.head i) := by
    intro i hi
    refine hc _ ?_
    unfold Mine whole
    rcases (show i = 0 ∨ i = 1 by omega) with rfl | rfl <;> simp
  have hb : ∀ i < 2, ∀ k ≤ H.P.maxOrder, m (.inl (.block i k)) = clean H (.block i k) := by
    intro i hi k hk
    refine hc _ ?_
    unfold Mine whole
    rcases (show i = 0 ∨ i = 1 by omega) with rfl | rfl <;> simp [one_max, Nat.lt_succ_iff, hk]
  have hT : ∀ i < 2, toT H (env m) i = TRes.new H.P.maxOrder := by
    intro i hi
    rw [toT_congr (e' := clean H) (hh i hi) (hb i hi)]
    unfold toT
    simp only [clean, ofT, Val.toHead, Val.toBlock]
    unfold TRes.new
    simp only [TRes.mk.injEq, true_and, and_true]
    funext k
    exact mat_new _
  refine ⟨ht, ?_, hT 0 (by omega), ?_, ?_, hT 1 (by omega)⟩
  · rw [hc (.inter 0) (Or.inl rfl)]
    exact toInter_fits (v := .unused) _ _
  · rw [hv]; rfl
  · intro i hi
    rw [hv] at hi
    simp [Val.toCtl, Ctl.new] at hi

/-- the contents of the tables and of "my" ensemble, as a function of the location -/
noncomputable def known (H : Problem) (q : Qty) (c : Cell) (t : TRes ℂ ℝ) : Val :=
  match q with
  | .ext =>
    let r := Scatter.extinctionTask (ens H c t) (getCnn (table H .nbased).toNfac) (table H (.swig .ext)).toSwig.2 Real.pi (wavenumber realOps H c.par) (H.radius c.par)
      (gridTask realOps H .ext).out.n ⟨fun _ => 0, fun _ => 0, fun _ => 0⟩
    .ext ⟨r.Qext, r.Qextpol, r.Qextcpol⟩
  | .abs =>
    let g := gridTask realOps H .abs
    let tab := (table H (.swig .abs)).toSwig
    let r := Scatter.absorptionTask (ens H c t) (getCnn (table H .nbased).toNfac) tab.2 tab.1 g.cphi g.sphi g.wt g.wp Real.pi (wavenumber realOps H c.par)
      (H.radius c.par) g.out.n g.inn.n H.accountForScattering ⟨fun _ => 0, fun _ => 0⟩
    .abs ⟨r.Qabs, r.Qabspol⟩
  | .scat =>
    let g := gridTask realOps H .scat
    let tab := (table H (.swig .scat)).toSwig
    .scat (Scatter.scatteringTask (ens H c t) (getCnn (table H .nbased).toNfac) tab.1 tab.2 g.cphi g.sphi (wavenumber realOps H c.par) g.out.n g.nphi fun _ _ _ => 0)

/-- the locations that belong to one T-matrix -/
def Own (H : Problem) (q : Qty) (c : Cell) (x : Loc) : Prop := Mine H.P x ∨ x = .conv c ∨ x = .unav q c

theorem cell_run {m : Place Loc → Val} (hs : c.ish < H.P.nshape) (ho : ∀ ig < H.P.nq, H.order ig ≤ H.P.maxOrder)
    (ht : ∀ x, IsTable H.P q x → m (.inl x) = table H x) (hc : ∀ x, Mine H.P x → m (.inl x) = clean H x)
    (hv : m (.inl (.conv c)) = .ctl Ctl.new) (hn : (tried H c).c.nmax ≤ H.P.maxOrder) {t : TRes ℂ ℝ} (hg : grain H c = some t)
    (hok : (alignState H c t).C.ok = true ∧ (alignState H c t).p.ok = true) :
    seq (code realOps H) (cellTasks (only H.P q) c) m (.inl (.unav q c)) = known H q c t ∧
      (∀ x, Mine H.P x → seq (code realOps H) (cellTasks (only H.P q) c) m (.inl x) = clean H x) ∧
      (∀ x, ¬ Own H q c x → seq (code realOps H) (cellTasks (only H.P q) c) m (.inl x) = m (.inl x)) := by
  have hl : cellTasks (only H.P q) c = ((List.range H.P.nq).flatMap fun ig => [.inter c ig, .m0 c ig])
      ++ (((List.range H.P.maxOrder).map fun i => i + 1).map (fun k => .mall c k) ++ ([.align c] ++ ([.meas q c] ++ [.reset1 c, .reset2 c, .reset3 c]))) := by
    unfold cellTasks
    rw [qtys_alone]
    simp [only, Function.comp_def]
  have i1 := orders_run (inv_start ht hc hv) hs H.P.nq le_rfl ho
  have i2 := malls_run hs ((List.range H.P.maxOrder).map fun i => i + 1) i1 hn hg
  obtain ⟨a1, a2⟩ := align_step i2 hok
  have a3 := meas_step (c := c) a1
  rw [hl, seq_append, seq_append, seq_append, seq_append]
  generalize hA : seq (code realOps H) (((List.range H.P.maxOrder).map fun i => i + 1).map fun k => .mall c k)
    (seq (code realOps H) ((List.range H.P.nq).flatMap fun ig => [.inter c ig, .m0 c ig]) m) = mA at *
  rw [seq_cons, seq_cons, seq_cons, seq_cons, seq_cons]
  change step H (.reset3 c) (step H (.reset2 c) (step H (.reset1 c) (step H (.meas q c) (step H (.align c) mA)))) _ = _ ∧ (∀ x, _ →
    step H (.reset3 c) (step H (.reset2 c) (step H (.reset1 c) (step H (.meas q c) (step H (.align c) mA)))) _ = _) ∧ ∀ x, _ →
    step H (.reset3 c) (step H (.reset2 c) (step H (.reset1 c) (step H (.meas q c) (step H (.align c) mA)))) _ = _
  have w1 : ∀ x, x ∈ writes (one H.P) (.reset1 c) ↔ x ∈ whole (one H.P) 0 := by intro x; simp [writes, slot_one]
  have w2 : ∀ x, x ∈ writes (one H.P) (.reset2 c) ↔ x ∈ whole (one H.P) 1 := by intro x; simp [writes, slot_one]
  have w3 : ∀ x, x ∈ writes (one H.P) (.reset3 c) ↔ x = .inter 0 := by intro x; simp [writes, slot_one]
  refine ⟨?_, ?_, ?_⟩
  · rw [step_at, if_neg (by rw [w3]; simp), step_at, if_neg (by rw [w2]; simp [whole]), step_at, if_neg (by rw [w1]; simp [whole]), a3]
    unfold measTask
    rw [a2]
    have b1 := a1 .nbased trivial
    have b2 := a1 (.grid q) rfl
    have b3 := a1 (.swig q) rfl
    unfold env
    rw [b1, b2, b3]
    unfold known ens
    cases q <;> rfl
  · have cl := clears H
    intro x hx
    rcases hx with rfl | hx | hx
    · exact cl _ c (by simp) 0 _ _ ((w3 _).2 rfl)
    · have h2 : x ∉ writes (one H.P) (.reset2 c) := by
        rw [w2]
        unfold whole at hx ⊢
        simp only [List.mem_cons, List.mem_map, List.mem_range] at hx ⊢
        rcases hx with rfl | ⟨k, _, rfl⟩ <;> simp
      have h3 : x ∉ writes (one H.P) (.reset3 c) := by
        rw [w3]
        rintro rfl
        simp [whole] at hx
      rw [step_at, if_neg h3, step_at, if_neg h2]
      exact cl _ c (by simp) 0 _ _ ((w1 _).2 hx)
    · have h3 : x ∉ writes (one H.P) (.reset3 c) := by
        rw [w3]
        rintro rfl
        simp [whole] at hx
      rw [step_at, if_neg h3]
      exact cl _ c (by simp) 0 _ _ ((w2 _).2 hx)
  · intro x hx
    unfold Own Mine at hx
    push Not at hx
    obtain ⟨⟨h1, h2, h3⟩, h4, h5⟩ := hx
    rw [step_at, if_neg (by rw [w3]; exact h1), step_at, if_neg (by rw [w2]; exact h3), step_at, if_neg (by rw [w1]; exact h2), step_at,
      if_neg (by simp [writes, h5]), step_at, if_neg (by simp [writes, slot_one]; exact h3), ← hA, seq_untouched (wellBehaved H), seq_untouched (wellBehaved H)]
    · intro t' ht'
      simp only [List.mem_flatMap, List.mem_range, List.mem_cons, List.not_mem_nil, or_false] at ht'
      obtain ⟨ig, _, rfl | rfl⟩ := ht'
      · simp [writes, slot_one, h1]
      · simp only [writes, slot_one, List.mem_cons, List.not_mem_nil, or_false, mul_zero]
        rintro (rfl | rfl | rfl)
        · simp [whole] at h2
        · simp [whole] at h2
        · simp at h4
    · intro t' ht'
      simp only [List.mem_map, List.mem_range] at ht'
      obtain ⟨_, ⟨i, hi, rfl⟩, rfl⟩ := ht'
      simp only [writes, slot_one, List.mem_cons, List.not_mem_nil, or_false, mul_zero]
      rintro rfl
      simp [whole, one_max] at h2
      omega

/-- the tasks of the shapes `0, ..., n - 1` -/
theorem shapes_run {p : Par} (ho : ∀ ig < H.P.nq, H.order ig ≤ H.P.maxOrder) {m : Place Loc → Val}
    (ht : ∀ x, IsTable H.P q x → m (.inl x) = table H x) (hc : ∀ x, Mine H.P x → m (.inl x) = clean H x)
    (hv : ∀ i < H.P.nshape, m (.inl (.conv ⟨p, i⟩)) = .ctl Ctl.new) (t : Nat → TRes ℂ ℝ)
    (hg : ∀ i < H.P.nshape, (tried H ⟨p, i⟩).c.nmax ≤ H.P.maxOrder ∧ grain H ⟨p, i⟩ = some (t i)
      ∧ (alignState H ⟨p, i⟩ (t i)).C.ok = true ∧ (alignState H ⟨p, i⟩ (t i)).p.ok = true) :
    ∀ n ≤ H.P.nshape,
      let m' := seq (code realOps H) ((List.range n).flatMap fun ish => cellTasks (only H.P q) ⟨p, ish⟩) m
      (∀ x, IsTable H.P q x → m' (.inl x) = table H x) ∧ (∀ x, Mine H.P x → m' (.inl x) = clean H x) ∧
        (∀ i, n ≤ i → i < H.P.nshape → m' (.inl (.conv ⟨p, i⟩)) = .ctl Ctl.new) ∧ ∀ i < n, m' (.inl (.unav q ⟨p, i⟩)) = known H q ⟨p, i⟩ (t i)
  | 0, _ => ⟨ht, hc, fun i _ hi => hv i hi, fun i hi => by omega⟩
  | n + 1, hn => by
    obtain ⟨j1, j2, j3, j4⟩ := shapes_run ho ht hc hv t hg n (by omega)
    have hs : n < H.P.nshape := by omega
    obtain ⟨r1, r2, r3⟩ := cell_run (c := ⟨p, n⟩) hs ho j1 j2 (j3 n le_rfl hs) (hg n hs).1 (hg n hs).2.1 (hg n hs).2.2
    dsimp only
    rw [List.range_succ, List.flatMap_append, seq_append, List.flatMap_singleton]
    refine ⟨fun x hx => ?_, r2, fun i hi hi' => ?_, fun i hi => ?_⟩
    · rw [r3 x ?_]
      · exact j1 x hx
      · rintro ((rfl | h | h) | rfl | rfl)
        · exact hx
        · unfold whole at h
          simp only [List.mem_cons, List.mem_map] at h
          rcases h with rfl | ⟨_, _, rfl⟩ <;> exact hx
        · unfold whole at h
          simp only [List.mem_cons, List.mem_map] at h
          rcases h with rfl | ⟨_, _, rfl⟩ <;> exact hx
        · exact hx
        · exact hx
    · rw [r3 _ (by simp [Own, Mine, whole]; omega)]
      exact j3 i (by omega) hi'
    · by_cases e : i = n
      · subst e; exact r1
      · rw [r3 _ (by simp [Own, Mine, whole]; omega)]
        exact j4 i (by omega)

/-- one entry of the table: the average of what was computed for the shapes -/
theorem entry_run {p : Par} (ho : ∀ ig < H.P.nq, H.order ig ≤ H.P.maxOrder) {m : Place Loc → Val} (hc : ∀ x, Mine H.P x → m (.inl x) = clean H x)
    (hv : ∀ i < H.P.nshape, m (.inl (.conv ⟨p, i⟩)) = .ctl Ctl.new) (t : Nat → TRes ℂ ℝ)
    (hg : ∀ i < H.P.nshape, (tried H ⟨p, i⟩).c.nmax ≤ H.P.maxOrder ∧ grain H ⟨p, i⟩ = some (t i)
      ∧ (alignState H ⟨p, i⟩ (t i)).C.ok = true ∧ (alignState H ⟨p, i⟩ (t i)).p.ok = true) :
    ∃ e : Loc → Val, (∀ i < H.P.nshape, e (.unav q ⟨p, i⟩) = known H q ⟨p, i⟩ (t i)) ∧
      seq (code realOps H) (alone H.P q p) m (.inl (.result q p)) = avgTask H q p e := by
  unfold alone
  rw [seq_append, seq_append]
  have hf := fixed_values H q m
  have key : ∀ x, (∀ t ∈ fixedTasks (only H.P q), x ∉ writes (one H.P) t) → seq (code realOps H) (fixedTasks (only H.P q)) m (.inl x) = m (.inl x) :=
    fun x hx => seq_untouched (wellBehaved H) _ m hx
  have kw : ∀ t ∈ fixedTasks (only H.P q), ∀ x ∈ writes (one H.P) t, IsTable H.P q x := by
    intro t ht x hx
    unfold fixedTasks at ht
    rw [qtys_alone] at ht
    simp only [List.mem_append, List.mem_cons, List.mem_map, List.mem_flatMap, List.mem_range, List.not_mem_nil, or_false, exists_eq_left] at ht
    rcases ht with rfl | (((⟨i, hi, rfl⟩ | rfl) | rfl) | ⟨i, hi, rfl⟩) | ⟨a, ha, b, hb, rfl⟩ <;>
      (simp only [writes, List.mem_singleton] at hx; subst hx)
    · trivial
    · exact hi
    · rfl
    · rfl
    · exact hi
    · exact ⟨ha, hb⟩
  obtain ⟨-, -, -, j4⟩ := shapes_run (q := q) ho hf (fun x hx => (key x fun t ht hw => by
      have := kw t ht x hw
      rcases hx with rfl | h | h
      · exact this
      · unfold whole at h
        simp only [List.mem_cons, List.mem_map] at h
        rcases h with rfl | ⟨_, _, rfl⟩ <;> exact this
      · unfold whole at h
        simp only [List.mem_cons, List.mem_map] at h
        rcases h with rfl | ⟨_, _, rfl⟩ <;> exact this).trans (hc x hx))
    (fun i hi => (key _ fun t ht hw => (kw t ht (.conv ⟨p, i⟩) hw).elim).trans (hv i hi)) t hg H.P.nshape le_rfl
  generalize seq (code realOps H) ((List.range H.P.nshape).flatMap fun ish => cellTasks (only H.P q) ⟨p, ish⟩) _ = m' at *
  refine ⟨seen H (.avg q p) m', fun i hi => ?_, ?_⟩
  · unfold seen
    rw [if_pos (by simp [reads]; exact Or.inl hi)]
    exact j4 i hi
  · change step H (.avg q p) m' _ = _
    rw [step_at, if_pos (by simp [writes])]
    rfl

end Verif.Content
