import Verif.Proofs.GraphScope

/-!
# The task graph: every object is registered before it is used
-/
namespace Verif.Graph

variable {P : Params}

/-- every call mentions only objects that are in `T`, `R` or that were registered by an earlier call -/
def Sc (T : Tk → Prop) (R : Rs → Prop) : List Call → Prop
  | [] => True
  | .res r p :: l => (∀ r', p = some r' → R r') ∧ Sc T (fun x => R x ∨ x = r) l
  | .task t :: l => Sc (fun x => T x ∨ x = t) R l
  | .link a b :: l => (T a ∧ T b) ∧ Sc T R l
  | .lock t r :: l => (T t ∧ R r) ∧ Sc T R l
  | .use t r :: l => (T t ∧ R r) ∧ Sc T R l

theorem Sc_mono {l : List Call} : ∀ {T T' : Tk → Prop} {R R' : Rs → Prop}, (∀ x, T x → T' x) → (∀ x, R x → R' x) →
    Sc T R l → Sc T' R' l := by
  induction l with
  | nil => intros; trivial
  | cons x l ih =>
    intro T T' R R' hT hR h
    cases x with
    | res r p => exact ⟨fun r' e => hR _ (h.1 r' e), ih hT (fun x hx => hx.imp_left (hR x)) h.2⟩
    | task t => exact ih (fun x hx => hx.imp_left (hT x)) hR h
    | link a b => exact ⟨⟨hT _ h.1.1, hT _ h.1.2⟩, ih hT hR h.2⟩
    | lock t r => exact ⟨⟨hT _ h.1.1, hR _ h.1.2⟩, ih hT hR h.2⟩
    | use t r => exact ⟨⟨hT _ h.1.1, hR _ h.1.2⟩, ih hT hR h.2⟩

/-- the resource is registered by one of the calls -/
def HasRes (l : List Call) (r : Rs) : Prop := ∃ p, Call.res r p ∈ l

theorem Sc_append {a b : List Call} : ∀ {T : Tk → Prop} {R : Rs → Prop},
    Sc T R (a ++ b) ↔ Sc T R a ∧ Sc (fun x => T x ∨ Call.task x ∈ a) (fun x => R x ∨ HasRes a x) b := by
  induction a with
  | nil => intro T R; simp [Sc, HasRes]
  | cons x l ih =>
    intro T R
    cases x with
    | res r p =>
      simp only [List.cons_append, Sc, ih, and_assoc]
      refine and_congr_right fun _ => and_congr_right fun _ => ?_
      have e1 : (fun x => T x ∨ Call.task x ∈ l) = fun x => T x ∨ Call.task x ∈ Call.res r p :: l := by
        funext x; simp
      have e2 : (fun x => (R x ∨ x = r) ∨ HasRes l x) = fun x => R x ∨ HasRes (Call.res r p :: l) x := by
        funext x; simp only [HasRes, List.mem_cons, Call.res.injEq, exists_or, exists_eq_right, or_assoc]
      rw [e1, e2]
    | task t =>
      simp only [List.cons_append, Sc, ih]
      refine and_congr_right fun _ => ?_
      have e1 : (fun x => (T x ∨ x = t) ∨ Call.task x ∈ l) = fun x => T x ∨ Call.task x ∈ Call.task t :: l := by
        funext x; simp [or_assoc]
      have e2 : (fun x => R x ∨ HasRes l x) = fun x => R x ∨ HasRes (Call.task t :: l) x := by
        funext x; simp [HasRes]
      rw [e1, e2]
    | link _ _ =>
      simp only [List.cons_append, Sc, ih, and_assoc]
      simp [HasRes]
    | lock _ _ =>
      simp only [List.cons_append, Sc, ih, and_assoc]
      simp [HasRes]
    | use _ _ =>
      simp only [List.cons_append, Sc, ih, and_assoc]
      simp [HasRes]

/-- blocks that do not need each other -/
theorem Sc_flatMap {α} {f : α → List Call} (l : List α) : ∀ {T : Tk → Prop} {R : Rs → Prop},
    (∀ a ∈ l, Sc T R (f a)) → Sc T R (l.flatMap f) := by
  induction l with
  | nil => intros; trivial
  | cons a l ih =>
    intro T R h
    rw [List.flatMap_cons, Sc_append]
    refine ⟨h a (by simp), ih ?_⟩
    intro b hb
    exact Sc_mono (fun _ h => .inl h) (fun _ h => .inl h) (h b (by simp [hb]))

theorem Sc_map {α} {f : α → Call} (l : List α) {T : Tk → Prop} {R : Rs → Prop} (h : ∀ a ∈ l, Sc T R [f a]) :
    Sc T R (l.map f) := by
  have e : l.map f = l.flatMap fun a => [f a] := List.map_eq_flatMap
  rw [e]
  exact Sc_flatMap l h

/-- blocks that may need the earlier ones -/
theorem Sc_range {f : Nat → List Call} {T : Tk → Prop} {R : Rs → Prop} (n : Nat)
    (h : ∀ i < n, Sc (fun x => T x ∨ ∃ j < i, Call.task x ∈ f j) R (f i)) : Sc T R ((List.range n).flatMap f) := by
  induction n with
  | zero => trivial
  | succ n ih =>
    rw [List.range_succ, List.flatMap_append, Sc_append]
    refine ⟨ih fun i hi => h i (by omega), ?_⟩
    simp only [List.flatMap_cons, List.flatMap_nil, List.append_nil]
    refine Sc_mono ?_ (fun _ h => .inl h) (h n (by omega))
    rintro x (hx | ⟨j, hj, hx⟩)
    · exact .inl hx
    · exact .inr (by simp only [List.mem_flatMap, List.mem_range]; exact ⟨j, hj, hx⟩)

/-- the resources that exist after `fixedCalls` -/
def FixR (P : Params) : Rs → Prop
  | .nbased => True
  | .gauss i | .wigner i => i < P.nq
  | .grid q | .swig q => P.want q = true
  | .geom is ig => is < P.nshape ∧ ig < P.nq
  | .inter i => i < P.nt
  | .tm i => i < 2 * P.nt
  | .tmM i m => i < 2 * P.nt ∧ m ≤ P.maxOrder
  | _ => False

/-- the tasks that exist after `fixedCalls` -/
def FixT (P : Params) (t : Tk) : Prop := tagT t < 8 ∧ Tsk P t

theorem res_fixed {r : Rs} : HasRes (fixedCalls P) r ↔ FixR P r := by
  unfold HasRes
  cases r <;> simp [fixedCalls, mem_qtys, FixR, Nat.lt_succ_iff]

theorem fixT {t : Tk} : Call.task t ∈ fixedCalls P ↔ FixT P t := by
  rw [task_fixed]
  cases t <;> simp [FixT, tagT, Tsk]

theorem sc_fixed : Sc (fun _ => False) (fun _ => False) (fixedCalls P) := by
  unfold fixedCalls
  simp only [Sc_append]
  refine ⟨⟨⟨⟨⟨⟨⟨?_, Sc_flatMap _ ?_⟩, Sc_flatMap _ ?_⟩, Sc_flatMap _ ?_⟩, Sc_flatMap _ ?_⟩,
    Sc_flatMap _ fun is his => Sc_flatMap _ ?_⟩, ?_⟩, Sc_flatMap _ ?_⟩
  · simp [Sc]
  · intro a ha; simp [Sc]
  · intro a ha; simp [Sc]
  · intro a ha; simp [Sc, HasRes, ha]
  · intro a ha; simp [Sc, HasRes, List.mem_range.1 ha]
  · intro a ha; simp [Sc, HasRes, List.mem_range.1 ha]
  · refine Sc_map _ ?_
    intro a ha; simp [Sc]
  · intro i hi
    refine ⟨by simp, ?_⟩
    refine Sc_map _ ?_
    intro m hm; simp [Sc]

theorem sc_head {T : Tk → Prop} {R : Rs → Prop} (p : Par) : Sc T R (headCalls P p) := by
  unfold headCalls
  refine ⟨by simp, Sc_flatMap _ ?_⟩
  intro q hq
  simp [Sc]

/-- what one T-matrix needs -/
structure Ctx (P : Params) (T : Tk → Prop) (R : Rs → Prop) (c : Cell) (s : Nat) (u : Option Tk) : Prop where
  fixT : ∀ t, FixT P t → T t
  fixR : ∀ r, FixR P r → R r
  slot : s < P.nt
  shape : c.ish < P.nshape
  intvars : R (.intvars c.par)
  avg : ∀ q, P.want q = true → T (.avg q c.par)
  unl : ∀ t, u = some t → T t

theorem sc_cell {T : Tk → Prop} {R : Rs → Prop} {c : Cell} {s : Nat} {u : Option Tk}
    (hg : 0 < P.maxOrder → 0 < P.nq) (C : Ctx P T R c s u) :
    Sc T R (cellCalls P c s u) := by
  have hs := C.slot
  have r0 : ∀ r, FixR P r → R r := C.fixR
  have t0 : ∀ t, FixT P t → T t := C.fixT
  have rInter : R (.inter s) := r0 _ hs
  have rTm : R (.tm (2 * s)) := r0 _ (by simp only [FixR]; omega)
  have rTm1 : R (.tm (2 * s + 1)) := r0 _ (by simp only [FixR]; omega)
  have rM : ∀ m ≤ P.maxOrder, R (.tmM (2 * s) m) := fun m hm => r0 _ ⟨by omega, hm⟩
  have rNb : R .nbased := r0 _ trivial
  have hv := C.intvars
  have ha := C.avg
  have hu := C.unl
  unfold cellCalls
  simp only [Sc_append]
  refine ⟨⟨⟨⟨⟨⟨?_, ?_⟩, Sc_range _ ?_⟩, ?_⟩, Sc_flatMap _ ?_⟩, ?_⟩, Sc_flatMap _ ?_⟩
  · refine Sc_map _ ?_
    intro a ha; simp [Sc]
  · simp [Sc]
  · intro ig hig
    have g1 : R (.geom c.ish ig) := r0 _ ⟨C.shape, hig⟩
    have g2 : R (.gauss ig) := r0 _ hig
    have g3 : R (.wigner ig) := r0 _ hig
    have t1 : T (.geom c.ish ig) := t0 _ ⟨by simp [tagT], C.shape, hig⟩
    have t2 : T .nbased := t0 _ ⟨by simp [tagT], trivial⟩
    have t3 : T (.wigner ig) := t0 _ ⟨by simp [tagT], hig⟩
    have m0 := rM 0 (by omega)
    have hc : HasRes ((qtys P).map (fun q => Call.res (.unav q c) none) ++ [Call.res (.conv c) none]) (.conv c) :=
      ⟨none, by simp⟩
    unfold orderCalls
    simp only [Sc_append]
    refine ⟨⟨⟨?_, ?_⟩, ?_⟩, ?_⟩
    · simp [Sc, *]
    · cases u with
      | none => simp [Sc]
      | some t => simp [Sc, hu t rfl]
    · simp [Sc, *]
    · by_cases h0 : ig = 0
      · rw [if_pos h0]
        cases u with
        | none => simp [Sc]
        | some t => simp [Sc, hu t rfl]
      · rw [if_neg h0]
        refine ⟨⟨?_, by simp⟩, trivial⟩
        have h3 : ∃ j < ig, Call.task (Tk.m0 c (ig - 1)) ∈ orderCalls c s u j :=
          ⟨ig - 1, by omega, by simp [orderCalls]⟩
        exact Or.inl (Or.inr h3)
  · simp [Sc, *]
  · intro q hq
    rw [mem_qtys] at hq
    have g1 : R (.grid q) := r0 _ hq
    have g2 : R (.swig q) := r0 _ hq
    have t1 : T (.swig q) := t0 _ ⟨by simp [tagT], hq⟩
    have h1 := ha q hq
    simp [measCalls, Sc, HasRes, mem_qtys, *]
  · unfold resetCalls
    simp only [Sc_append]
    refine ⟨⟨?_, ?_⟩, ?_⟩
    · simp [Sc, *]
    · refine Sc_map _ ?_
      intro q hq
      rw [mem_qtys] at hq
      simp [Sc, measCalls, mem_qtys, hq]
    · simp [Sc, *]
  · intro i hi
    rw [List.mem_range] at hi
    have h1 := hg (by omega)
    have h2 := rM (i + 1) (by omega)
    have h3 : ∃ a < P.nq, Call.task (Tk.m0 c (P.nq - 1)) ∈ orderCalls c s u a :=
      ⟨P.nq - 1, by omega, by simp [orderCalls]⟩
    simp [mallCalls, Sc, HasRes, *]

theorem sc_cells (hg : 0 < P.maxOrder → 0 < P.nq) (hn : 0 < P.nt) (cs : List Cell) : ∀ (k : Nat) {T : Tk → Prop}
    {R : Rs → Prop}, (∀ t, FixT P t → T t) → (∀ r, FixR P r → R r) →
    (∀ c ∈ cs, c.ish < P.nshape ∧ R (.intvars c.par) ∧ ∀ q, P.want q = true → T (.avg q c.par)) →
    (∀ (j : Nat) (c : Cell), cs[j]? = some c → (cells P)[k + j]? = some c) →
    (∀ (j : Nat) (c : Cell), j < k → (cells P)[j]? = some c → T (.reset3 c)) →
    Sc T R (cellsOut P k cs) := by
  induction cs with
  | nil => intros; trivial
  | cons c cs ih =>
    intro k T R hT hR hc hpos hold
    unfold cellsOut
    rw [Sc_append]
    obtain ⟨h1, h2, h3⟩ := hc c (by simp)
    refine ⟨sc_cell hg ⟨hT, hR, Nat.mod_lt _ hn, h1, h2, h3, ?_⟩, ?_⟩
    · intro t ht
      obtain ⟨c', h4, rfl, h5⟩ := unl_some.1 ht
      exact hold (pos P c') c' (by omega) (get_pos h4)
    · refine ih (k + 1) (fun t h => .inl (hT t h)) (fun r h => .inl (hR r h)) ?_ ?_ ?_
      · intro c' hc'
        obtain ⟨h1, h2, h3⟩ := hc c' (by simp [hc'])
        exact ⟨h1, .inl h2, fun q hq => .inl (h3 q hq)⟩
      · intro j c' hj
        rw [show k + 1 + j = k + (j + 1) by omega]
        exact hpos (j + 1) c' (by simpa using hj)
      · intro j c' hj hj'
        by_cases h4 : j < k
        · exact .inl (hold j c' h4 hj')
        · obtain rfl : j = k := by omega
          have h5 := hpos 0 c (by simp)
          rw [Nat.add_zero, hj'] at h5
          cases h5
          exact .inr (task_cell.2 (by simp))

theorem mem_reset3 (cs : List Cell) : ∀ k, ∀ c ∈ cs, Call.task (.reset3 c) ∈ cellsOut P k cs := by
  intro k c hc
  obtain ⟨j, hj, rfl⟩ := List.mem_iff_getElem.1 hc
  exact (mem_cellsOut cs k).2 ⟨j, cs[j], List.getElem?_eq_getElem hj, task_cell.2 (by simp)⟩

theorem sc_pars (hg : 0 < P.maxOrder → 0 < P.nq) (hn : 0 < P.nt) (ps : List Par) : ∀ (done : List Cell)
    {T : Tk → Prop} {R : Rs → Prop}, (∀ t, FixT P t → T t) → (∀ r, FixR P r → R r) →
    cells P = done ++ ps.flatMap (fun p => (List.range P.nshape).map fun ish => ⟨p, ish⟩) →
    (∀ c ∈ done, T (.reset3 c)) → Sc T R (parsOut P done.length ps) := by
  induction ps with
  | nil => intros; trivial
  | cons p ps ih =>
    intro done T R hT hR hall hold
    unfold parsOut
    rw [Sc_append, Sc_append]
    rw [List.flatMap_cons] at hall
    refine ⟨⟨sc_head p, ?_⟩, ?_⟩
    · refine sc_cells hg hn _ _ (fun t h => .inl (hT t h)) (fun r h => .inl (hR r h)) ?_ ?_ ?_
      · intro c hc
        simp only [List.mem_map, List.mem_range] at hc
        obtain ⟨i, hi, rfl⟩ := hc
        refine ⟨hi, .inr ⟨none, by simp [headCalls]⟩, ?_⟩
        intro q hq
        exact .inr (by simp [headCalls, mem_qtys, hq])
      · intro j c hj
        rw [hall, List.getElem?_append_right (by omega), Nat.add_sub_cancel_left,
          List.getElem?_append_left (List.getElem?_eq_some_iff.1 hj).1]
        exact hj
      · intro j c hj hj'
        rw [hall, List.getElem?_append_left hj] at hj'
        exact .inl (hold c (List.mem_of_getElem? hj'))
    · have := @ih (done ++ (List.range P.nshape).map fun ish => (⟨p, ish⟩ : Cell))
      rw [List.length_append, List.length_map, List.length_range] at this
      refine this (fun t h => .inl (hT t h)) (fun r h => .inl (hR r h)) (by simpa using hall) ?_
      intro c hc
      rcases List.mem_append.1 hc with h | h
      · exact .inl (hold c h)
      · exact .inr (List.mem_append_right _ (mem_reset3 _ _ c h))

theorem sc_generate (hn : 0 < P.nt) {l : List Call} (h : generate P = some l) :
    Sc (fun _ => False) (fun _ => False) l := by
  rw [generate_eq hn h, Sc_append]
  refine ⟨sc_fixed, ?_⟩
  by_cases hg : 0 < P.maxOrder → 0 < P.nq
  · exact sc_pars hg hn (pars P) [] (fun t h => .inr (fixT.2 h)) (fun r h => .inr (res_fixed.2 h)) (by simp [cells])
      (by simp)
  · -- no T-matrices
    have hc : cells P = [] := by
      by_contra hc
      unfold generate at h
      rw [if_pos ⟨by omega, by omega, hc⟩] at h
      cases h
    have : ∀ ps : List Par, (∀ p ∈ ps, p ∈ pars P) → ∀ (k : Nat) {T : Tk → Prop} {R : Rs → Prop},
        Sc T R (parsOut P k ps) := by
      intro ps
      induction ps with
      | nil => intros; trivial
      | cons p ps ih =>
        intro hps k T R
        unfold parsOut
        rw [Sc_append, Sc_append]
        refine ⟨⟨sc_head p, ?_⟩, ih (fun p' hp' => hps p' (by simp [hp'])) _⟩
        have h0 : P.nshape = 0 := by
          by_contra h0
          have : (⟨p, 0⟩ : Cell) ∈ cells P := mem_cells.2 ⟨hps p (by simp), Nat.pos_of_ne_zero h0⟩
          rw [hc] at this
          cases this
        rw [h0]
        trivial
    exact this _ (fun _ h => h) _

end Verif.Graph
