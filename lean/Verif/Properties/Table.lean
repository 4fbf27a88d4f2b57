import Verif.Spec.Table
import Verif.Proofs.Graph
import Mathlib.Tactic.Ring
import Mathlib.Tactic.Linarith

/-!
# C20, C21, C55: every entry of the table is the result for the requested parameters
-/
namespace Verif.Table

open Verif.Graph

/-! ## The vector of results -/

theorem resultsIn_append (a b : List Call) : resultsIn (a ++ b) = resultsIn a ++ resultsIn b := by simp [resultsIn]

theorem resultsIn_flatMap {γ} (l : List γ) (f : γ → List Call) :
    resultsIn (l.flatMap f) = l.flatMap fun a => resultsIn (f a) := by
  induction l with
  | nil => rfl
  | cons a l ih => simp [List.flatMap_cons, resultsIn_append, ih]

theorem resultsIn_eq_nil {l : List Call} (h : ∀ q p r, Call.res (.result q p) r ∉ l) : resultsIn l = [] := by
  unfold resultsIn
  rw [List.filterMap_eq_nil_iff]
  intro x hx
  split
  · rename_i q p r; exact absurd hx (h q p r)
  · rfl

theorem resultsIn_cons (x : Call) (l : List Call) : resultsIn (x :: l) = resultsIn [x] ++ resultsIn l :=
  resultsIn_append [x] l

theorem resultsIn_head (P : Params) (p : Par) : resultsIn (headCalls P p) = (qtys P).map fun q => (q, p) := by
  unfold headCalls
  rw [resultsIn_cons, resultsIn_flatMap]
  simp only [resultsIn]
  induction qtys P with
  | nil => rfl
  | cons a l ih => simpa [List.flatMap_cons] using ih

theorem resultsIn_cell (P : Params) (c : Cell) (s : Nat) (u : Option Tk) : resultsIn (cellCalls P c s u) = [] := by
  apply resultsIn_eq_nil
  intro q p r
  simp [cellCalls, orderCalls, measCalls, resetCalls, mallCalls]
  intro a ha
  split <;> simp

theorem resultsIn_cells (P : Params) (cs : List Cell) : ∀ k, resultsIn (cellsOut P k cs) = [] := by
  induction cs with
  | nil => intro k; rfl
  | cons c cs ih => intro k; simp [cellsOut, resultsIn_append, resultsIn_cell, ih]

theorem resultsIn_pars (P : Params) (ps : List Par) : ∀ k,
    resultsIn (parsOut P k ps) = ps.flatMap fun p => (qtys P).map fun q => (q, p) := by
  induction ps with
  | nil => intro k; rfl
  | cons p ps ih =>
    intro k
    simp [parsOut, resultsIn_append, resultsIn_head, resultsIn_cells, ih, List.flatMap_cons]

theorem resultsIn_generate {P : Params} (hn : 0 < P.nt) {l : List Call} (h : generate P = some l) :
    resultsIn l = (pars P).flatMap fun p => (qtys P).map fun q => (q, p) := by
  unfold generate at h
  split at h
  · cases h
  cases h
  rw [resultsIn_append, loop_calls hn, resultsIn_pars]
  rw [resultsIn_eq_nil (l := fixedCalls P)]
  · rfl
  · intro q p r
    simp [fixedCalls]

theorem get_pars {P : Params} {ic is il : Nat} (h1 : ic < P.nc) (h2 : is < P.ns) (h3 : il < P.nl) :
    (pars P)[(ic * P.ns + is) * P.nl + il]? = some ⟨ic, is, il⟩ := by
  unfold pars
  have hs : 0 < P.ns := by omega
  have hl : 0 < P.nl := by omega
  rw [getElem?_flatMap_const (P.ns * P.nl) (Nat.mul_pos hs hl) _
    (by intro a; simp [List.length_flatMap, Function.comp_def])]
  have e : (ic * P.ns + is) * P.nl + il = (is * P.nl + il) + P.ns * P.nl * ic := by ring
  have hlt : is * P.nl + il < P.ns * P.nl := by nlinarith
  rw [e, Nat.add_mul_div_left _ _ (Nat.mul_pos hs hl), Nat.div_eq_of_lt hlt, Nat.add_mul_mod_self_left,
    Nat.mod_eq_of_lt hlt]
  simp only [Nat.zero_add, List.getElem?_range h1, Option.bind_some]
  rw [getElem?_flatMap_const P.nl hl _ (by intro a; simp)]
  rw [show is * P.nl + il = il + P.nl * is by ring, Nat.add_mul_div_left _ _ hl, Nat.div_eq_of_lt h3,
    Nat.add_mul_mod_self_left, Nat.mod_eq_of_lt h3]
  simp [List.getElem?_range h2, List.getElem?_range h3]

theorem length_qtys (P : Params) : (qtys P).length = nres P.want := by
  unfold qtys nres
  cases h1 : P.want .ext <;> cases h2 : P.want .abs <;> cases h3 : P.want .scat <;> simp [h1, h2, h3]

theorem mapM_getElem? {γ δ} (f : γ → Option δ) : ∀ (l : List γ), (∀ x ∈ l, (f x).isSome) →
    ∃ r, l.mapM f = some r ∧ r.length = l.length ∧ ∀ i : Nat, r[i]? = (l[i]?).bind f := by
  intro l
  induction l with
  | nil => intro _; exact ⟨[], by simp, rfl, by simp⟩
  | cons a l ih =>
    intro h
    obtain ⟨r, h1, h0, h2⟩ := ih fun x hx => h x (by simp [hx])
    obtain ⟨b, hb⟩ := Option.isSome_iff_exists.1 (h a (by simp))
    refine ⟨b :: r, by simp [List.mapM_cons, hb, h1], by simp [h0], ?_⟩
    intro i
    cases i with
    | zero => simp [hb]
    | succ i => simp [h2]

theorem mem_pars {P : Params} {p : Par} : p ∈ pars P ↔ p.ic < P.nc ∧ p.is < P.ns ∧ p.il < P.nl := by
  unfold pars
  simp only [List.mem_flatMap, List.mem_map, List.mem_range]
  constructor
  · rintro ⟨a, ha, b, hb, c, hc, rfl⟩; exact ⟨ha, hb, hc⟩
  · rintro ⟨ha, hb, hc⟩; exact ⟨_, ha, _, hb, _, hc, rfl⟩

variable {α β : Type} [LinearOrder α]

/-- the parameters for which `generate_tasks` does not dereference a null pointer (see C19) -/
def Request.Ok (R : Request α) : Prop := R.minOrder < R.maxOrder ∧ 0 < R.slots

theorem generate_some {R : Request α} (h : R.Ok) : ∃ l, generate R.params = some l := by
  unfold generate
  rw [if_neg]
  · exact ⟨_, rfl⟩
  · rintro ⟨h1, _⟩
    have := h.1
    simp only [Request.params] at h1
    omega

theorem results_spec {R : Request α} (h : R.Ok) : ∃ rs, results R = some rs ∧
    rs.length = R.types.length * R.sizes.length * R.wls.length * nres R.want ∧
    ∀ ic is il ir, ∀ t ∈ R.types[ic]?, ∀ s ∈ (sortedSizes R)[is]?, ∀ w ∈ (sortedWls R)[il]?,
      ∀ q ∈ (qtys R.params)[ir]?, rs[resultIndex R ic is il ir]? = some ⟨q, t, s, w⟩ := by
  obtain ⟨l, hl⟩ := generate_some h
  have hr := resultsIn_generate (P := R.params) h.2 hl
  have hlen0 : ∀ p : Par, ((qtys R.params).map fun q => (q, p)).length = nres R.want := by
    intro p; rw [List.length_map, length_qtys]; rfl
  obtain ⟨rs, h1, hlen, h2⟩ := mapM_getElem? (mkObj R) (resultsIn l) (by
    intro x hx
    rw [hr, List.mem_flatMap] at hx
    obtain ⟨p, hp, hx⟩ := hx
    obtain ⟨q, hq, rfl⟩ := List.mem_map.1 hx
    have hb := mem_pars.1 hp
    simp only [Request.params] at hb
    simp [mkObj, List.getElem?_eq_getElem hb.1, List.getElem?_eq_getElem hb.2.1, List.getElem?_eq_getElem hb.2.2])
  refine ⟨rs, by simp [results, hl, h1], ?_, ?_⟩
  · rw [hlen, hr]
    rw [List.length_flatMap, show (fun p : Par => ((qtys R.params).map fun q => (q, p)).length) = fun _ => nres R.want
      from funext hlen0]
    simp [pars, List.length_flatMap, Function.comp_def, Request.params, sortedSizes, sortedWls]
    try ring_nf
    try simp
  · intro ic is il ir t ht s hs w hw q hq
    rw [h2, hr]
    have b1 : ic < R.types.length := (List.getElem?_eq_some_iff.1 ht).1
    have b2 : is < (sortedSizes R).length := (List.getElem?_eq_some_iff.1 hs).1
    have b3 : il < (sortedWls R).length := (List.getElem?_eq_some_iff.1 hw).1
    have b4 : ir < nres R.want := by
      have := (List.getElem?_eq_some_iff.1 hq).1
      rwa [length_qtys] at this
    rw [getElem?_flatMap_const (nres R.want) (by omega) _ hlen0]
    have e : resultIndex R ic is il ir =
        ir + nres R.want * ((ic * (sortedSizes R).length + is) * (sortedWls R).length + il) := by
      unfold resultIndex; ring
    rw [e, Nat.add_mul_div_left _ _ (by omega), Nat.div_eq_of_lt b4, Nat.add_mul_mod_self_left, Nat.mod_eq_of_lt b4,
      Nat.zero_add]
    have := get_pars (P := R.params) (ic := ic) (is := is) (il := il) b1 b2 b3
    simp only [Request.params] at this
    simp only [Option.mem_def, Request.params] at this hq ⊢
    rw [this]
    simp only [Option.bind_some, List.getElem?_map]
    rw [hq]
    simp only [Option.mem_def] at ht hs hw
    simp [mkObj, ht, hs, hw]

/-! ## Arrays -/

theorem offset_cons (d i : Nat) (dims idx : List Nat) : ∀ a : Nat,
    ((d :: dims).zip (i :: idx)).foldl (fun a di => a * di.1 + di.2) a =
      (dims.zip idx).foldl (fun a di => a * di.1 + di.2) (a * d + i) := by
  intro a; rfl

theorem offset_aux {idx dims : List Nat} (h : InB dims idx) : ∀ a : Nat,
    (dims.zip idx).foldl (fun a di => a * di.1 + di.2) a = a * dims.prod + offset dims idx ∧
      offset dims idx < dims.prod := by
  unfold InB at h
  induction h with
  | nil => intro a; simp [offset]
  | @cons i d idx dims h _ ih =>
    intro a
    rw [offset_cons, (ih _).1]
    have e : offset (d :: dims) (i :: idx) = i * dims.prod + offset dims idx := by
      unfold offset
      rw [offset_cons, (ih _).1]; simp [offset]
    rw [e, List.prod_cons]
    refine ⟨by ring, ?_⟩
    have := (ih 0).2
    calc i * dims.prod + offset dims idx < i * dims.prod + dims.prod := by omega
      _ = (i + 1) * dims.prod := by ring
      _ ≤ d * dims.prod := Nat.mul_le_mul_right _ h

theorem offset_eq {i d : Nat} {idx dims : List Nat} (h : InB dims idx) :
    offset (d :: dims) (i :: idx) = i * dims.prod + offset dims idx := by
  unfold offset
  rw [offset_cons, (offset_aux h _).1]; simp [offset]

/-- different elements are at different places -/
theorem offset_inj {dims : List Nat} : ∀ {idx jdx : List Nat}, InB dims idx → InB dims jdx →
    offset dims idx = offset dims jdx → idx = jdx := by
  induction dims with
  | nil => intro idx jdx h1 h2 _; cases h1; cases h2; rfl
  | cons d dims ih =>
    intro idx jdx h1 h2 he
    cases h1 with
    | @cons i _ idx _ hi h1 =>
    cases h2 with
    | @cons j _ jdx _ hj h2 =>
    rw [offset_eq h1, offset_eq h2] at he
    have a := (offset_aux h1 0).2
    have b := (offset_aux h2 0).2
    have hij : i = j := by
      have e1 : (offset dims idx + dims.prod * i) / dims.prod = i := by
        rw [Nat.add_mul_div_left _ _ (by omega), Nat.div_eq_of_lt a, Nat.zero_add]
      have e2 : (offset dims jdx + dims.prod * j) / dims.prod = j := by
        rw [Nat.add_mul_div_left _ _ (by omega), Nat.div_eq_of_lt b, Nat.zero_add]
      rw [← e1, ← e2]
      congr 1
      rw [Nat.add_comm, Nat.mul_comm, he]; ring
    subst hij
    rw [ih h1 h2 (by omega)]

/-- dropping axes of length 1 does not move elements -/
theorem offset_sq {dims idx : List Nat} (h : InB dims idx) :
    offset (dims.filter (· ≠ 1)) (sq dims idx) = offset dims idx ∧ InB (dims.filter (· ≠ 1)) (sq dims idx) ∧
      (dims.filter (· ≠ 1)).prod = dims.prod := by
  unfold InB at h
  induction h with
  | nil => exact ⟨rfl, .nil, rfl⟩
  | @cons i d idx dims hi h ih =>
    by_cases hd : d = 1
    · subst hd
      have : i = 0 := by omega
      subst this
      rw [offset_eq h]
      simpa [sq] using ih
    · obtain ⟨h1, h2, h3⟩ := ih
      have e : sq (d :: dims) (i :: idx) = i :: sq dims idx := by simp [sq, hd]
      rw [e, List.filter_cons, if_pos (by simpa using hd), offset_eq h2, offset_eq h, h1]
      refine ⟨by rw [h3], .cons hi h2, by rw [List.prod_cons, List.prod_cons, h3]⟩

/-- If all assignments are in range and the values are determined by the index, then the array contains these values. -/
theorem exec_spec {V : List Nat → β} : ∀ (ws : List (List Nat × Option β)) (a : Arr β),
    (∀ w ∈ ws, InB a.dims w.1 ∧ w.2 = some (V w.1)) →
    ∃ b, exec a ws = some b ∧ b.dims = a.dims ∧
      ∀ idx, InB a.dims idx → (idx ∈ ws.map Prod.fst ∨ a.get idx = some (V idx)) → b.get idx = some (V idx) := by
  intro ws
  induction ws with
  | nil => intro a _; exact ⟨a, rfl, rfl, fun idx _ h => by simpa using h⟩
  | cons w ws ih =>
    intro a h
    obtain ⟨hb, hv⟩ := h w (by simp)
    have hs : a.set w.1 (V w.1) = some { a with data := Function.update a.data (offset a.dims w.1) (some (V w.1)) } := by
      unfold Arr.set
      rw [if_pos (offset_aux hb 0).2]
    obtain ⟨b, h1, h2, h3⟩ := ih { a with data := Function.update a.data (offset a.dims w.1) (some (V w.1)) }
      fun x hx => h x (by simp [hx])
    refine ⟨b, ?_, h2, ?_⟩
    · unfold exec at h1 ⊢
      rw [List.foldlM_cons, hv]
      simp only [Option.bind_some]
      rw [hs]
      exact h1
    · intro idx hidx hor
      refine h3 idx hidx ?_
      by_cases e : idx = w.1
      · right; subst e; simp [Arr.get]
      · rcases hor with hor | hor
        · left
          rw [List.map_cons, List.mem_cons] at hor
          exact hor.resolve_left e
        · right
          unfold Arr.get
          dsimp only
          rw [Function.update_of_ne fun ho => e (offset_inj hidx hb ho)]
          exact hor

theorem get_squeeze {a : Arr β} {idx : List Nat} (h : InB a.dims idx) :
    a.squeeze.get (sq a.dims idx) = a.get idx := by
  unfold Arr.get Arr.squeeze
  simp only
  rw [(offset_sq h).1]

/-! ## The tables -/

/-- the content of the first table at a given index -/
def firstVal [Inhabited β] (R : Request α) (C : Calc α β) : List Nat → β
  | [it, is, il, ith, k] =>
    (do let t ← R.types[it]?
        let s ← (sortedSizes R)[is]?
        let w ← (sortedWls R)[il]?
        let c ← (columns R.want)[k]?
        some (C.coef ⟨c.1, t, s, w⟩ ith c.2)).getD default
  | _ => default

/-- the content of the second table at a given index -/
def secondVal [Inhabited β] (R : Request α) (C : Calc α β) : List Nat → β
  | [it, is, il, ith, ip, r, c] =>
    (do let t ← R.types[it]?
        let s ← (sortedSizes R)[is]?
        let w ← (sortedWls R)[il]?
        some (C.mat ⟨.scat, t, s, w⟩ (ith * (2 * R.nth) + ip) r c)).getD default
  | _ => default

theorem cast_some {rs : List (Obj α)} {q : Qty} {i : Nat} {o : Obj α} (h : rs[i]? = some o) (hq : o.q = q) :
    cast rs q i = some o := by
  simp [cast, h, hq]

theorem qtys_get {R : Request α} :
    (R.want .ext → (qtys R.params)[0]? = some .ext) ∧
    (R.want .abs → (qtys R.params)[(R.want .ext).toNat]? = some .abs) ∧
    (R.want .scat → (qtys R.params)[(R.want .ext).toNat + (R.want .abs).toNat]? = some .scat) := by
  unfold qtys Request.params
  cases h1 : R.want .ext <;> cases h2 : R.want .abs <;> cases h3 : R.want .scat <;> simp [h1, h2, h3]

theorem firstDims_eq (R : Request α) : firstDims R =
    [R.types.length, (sortedSizes R).length, (sortedWls R).length, R.nth, (columns R.want).length] := by
  unfold firstDims columns
  cases R.want .abs <;> cases R.want .ext <;> rfl

theorem first_table [Inhabited β] {R : Request α} (C : Calc α β) {rs : List (Obj α)}
    (hrs : ∀ ic is il ir, ∀ t ∈ R.types[ic]?, ∀ s ∈ (sortedSizes R)[is]?, ∀ w ∈ (sortedWls R)[il]?,
      ∀ q ∈ (qtys R.params)[ir]?, rs[resultIndex R ic is il ir]? = some ⟨q, t, s, w⟩) :
    ∃ a, exec (Arr.new (firstDims R)) (firstWrites R C rs) = some a ∧
      CoefTable R (sortedSizes R) (sortedWls R) C a.squeeze := by
  have hw : ∀ w ∈ firstWrites R C rs, InB (firstDims R) w.1 ∧ w.2 = some (firstVal R C w.1) := by
    intro w hw
    simp only [firstWrites, List.mem_flatMap, List.mem_range] at hw
    obtain ⟨it, h1, is, h2, il, h3, ith, h4, hw⟩ := hw
    have g1 := List.getElem?_eq_getElem h1
    have g2 := List.getElem?_eq_getElem h2
    have g3 := List.getElem?_eq_getElem h3
    have hB : ∀ k, k < (columns R.want).length → InB (firstDims R) [it, is, il, ith, k] := by
      intro k hk
      rw [firstDims_eq]
      exact .cons h1 (.cons h2 (.cons h3 (.cons h4 (.cons hk .nil))))
    rcases List.mem_append.1 hw with hw | hw
    · unfold absWrites at hw
      split at hw
      · rename_i ha
        have hc := cast_some (hrs it is il _ _ g1 _ g2 _ g3 _ (qtys_get.2.1 ha)) rfl
        simp only [hc, Option.bind_some, List.mem_cons, List.not_mem_nil, or_false] at hw
        have hk : (columns R.want)[0]? = some (.abs, 0) ∧ (columns R.want)[1]? = some (.abs, 1) := by
          simp [columns, ha]
        have hl := (List.getElem?_eq_some_iff.1 hk.1).1
        have hl1 := (List.getElem?_eq_some_iff.1 hk.2).1
        rcases hw with rfl | rfl
        · exact ⟨hB _ hl, by simp [getCoef, h4, firstVal, g1, g2, g3, hk]⟩
        · exact ⟨hB _ hl1, by simp [getCoef, h4, firstVal, g1, g2, g3, hk]⟩
      · simp at hw
    · unfold extWrites at hw
      split at hw
      · rename_i ha
        have hc := cast_some (hrs it is il _ _ g1 _ g2 _ g3 _ (qtys_get.1 ha)) rfl
        simp only [hc, Option.bind_some, List.mem_cons, List.not_mem_nil, or_false] at hw
        have hk : (columns R.want)[if R.want .abs then 2 else 0]? = some (.ext, 0) ∧
            (columns R.want)[(if R.want .abs then 2 else 0) + 1]? = some (.ext, 1) ∧
            (columns R.want)[(if R.want .abs then 2 else 0) + 2]? = some (.ext, 2) := by
          cases hb : R.want .abs <;> simp [columns, ha, hb]
        have hl := (List.getElem?_eq_some_iff.1 hk.1).1
        have hl1 := (List.getElem?_eq_some_iff.1 hk.2.1).1
        have hl2 := (List.getElem?_eq_some_iff.1 hk.2.2).1
        rcases hw with rfl | rfl | rfl
        · exact ⟨hB _ hl, by simp [getCoef, h4, firstVal, g1, g2, g3, hk]⟩
        · exact ⟨hB _ hl1, by simp [getCoef, h4, firstVal, g1, g2, g3, hk]⟩
        · exact ⟨hB _ hl2, by simp [getCoef, h4, firstVal, g1, g2, g3, hk]⟩
      · simp at hw
  obtain ⟨a, h1, h2, h3⟩ := exec_spec (firstWrites R C rs) (Arr.new (firstDims R)) hw
  have h2' : a.dims = firstDims R := h2
  refine ⟨a, h1, ?_, ?_⟩
  · unfold Arr.squeeze
    rw [h2', firstDims_eq]
  · intro it is il ith k t ht s hs w hw' hi c hc
    have b1 : it < R.types.length := (List.getElem?_eq_some_iff.1 ht).1
    have b2 : is < (sortedSizes R).length := (List.getElem?_eq_some_iff.1 hs).1
    have b3 : il < (sortedWls R).length := (List.getElem?_eq_some_iff.1 hw').1
    have b4 : k < (columns R.want).length := (List.getElem?_eq_some_iff.1 hc).1
    have hB : InB (firstDims R) [it, is, il, ith, k] := by
      rw [firstDims_eq]
      exact .cons b1 (.cons b2 (.cons b3 (.cons hi (.cons b4 .nil))))
    have hg := get_squeeze (a := a) (by rw [h2']; exact hB)
    rw [h2', firstDims_eq] at hg
    rw [hg, h3 _ hB (.inl ?_)]
    · simp only [Option.mem_def] at ht hs hw' hc
      simp [firstVal, ht, hs, hw', hc]
    · simp only [firstWrites, List.mem_map, List.mem_flatMap, List.mem_range]
      suffices h : ∃ x ∈ absWrites R C rs it is il ith ++ extWrites R C rs it is il ith, x.1 = [it, is, il, ith, k] by
        obtain ⟨x, hx, he⟩ := h
        exact ⟨x, ⟨it, b1, is, b2, il, b3, ith, hi, hx⟩, he⟩
      unfold columns at b4
      unfold absWrites extWrites
      cases ha : R.want .abs <;> cases hb : R.want .ext <;> simp [ha, hb] at b4 ⊢ <;> omega

theorem second_table [Inhabited β] {R : Request α} (C : Calc α β) {rs : List (Obj α)} (hsc : R.want .scat)
    (hrs : ∀ ic is il ir, ∀ t ∈ R.types[ic]?, ∀ s ∈ (sortedSizes R)[is]?, ∀ w ∈ (sortedWls R)[il]?,
      ∀ q ∈ (qtys R.params)[ir]?, rs[resultIndex R ic is il ir]? = some ⟨q, t, s, w⟩) :
    ∃ a, exec (Arr.new (secondDims R)) (secondWrites R C rs) = some a ∧
      MatTable R (sortedSizes R) (sortedWls R) C a.squeeze := by
  have hw : ∀ w ∈ secondWrites R C rs, InB (secondDims R) w.1 ∧ w.2 = some (secondVal R C w.1) := by
    intro w hw
    simp only [secondWrites, List.mem_flatMap, List.mem_map, List.mem_range] at hw
    obtain ⟨it, h1, is, h2, il, h3, ith, h4, ip, h5, r, h6, c, h7, rfl⟩ := hw
    have g1 := List.getElem?_eq_getElem h1
    have g2 := List.getElem?_eq_getElem h2
    have g3 := List.getElem?_eq_getElem h3
    have hc := cast_some (hrs it is il _ _ g1 _ g2 _ g3 _ (qtys_get.2.2 hsc)) rfl
    refine ⟨.cons h1 (.cons h2 (.cons h3 (.cons h4 (.cons h5 (.cons h6 (.cons h7 .nil)))))), ?_⟩
    have e : 2 * ith * R.nth + ip = ith * (2 * R.nth) + ip := by ring
    have hlt : ith * (2 * R.nth) + ip < R.nth * (2 * R.nth) := by nlinarith
    simp only [hc, Option.bind_some, getMat, e]
    rw [if_pos ⟨hlt, h6, h7⟩]
    simp [secondVal, g1, g2, g3]
  obtain ⟨a, h1, h2, h3⟩ := exec_spec (secondWrites R C rs) (Arr.new (secondDims R)) hw
  have h2' : a.dims = secondDims R := h2
  refine ⟨a, h1, ?_, ?_⟩
  · unfold Arr.squeeze
    rw [h2']; rfl
  · intro it is il ith ip r c t ht s hs w hw' hi hp hr hc
    have b1 : it < R.types.length := (List.getElem?_eq_some_iff.1 ht).1
    have b2 : is < (sortedSizes R).length := (List.getElem?_eq_some_iff.1 hs).1
    have b3 : il < (sortedWls R).length := (List.getElem?_eq_some_iff.1 hw').1
    have hB : InB (secondDims R) [it, is, il, ith, ip, r, c] :=
      .cons b1 (.cons b2 (.cons b3 (.cons hi (.cons hp (.cons hr (.cons hc .nil))))))
    have hg := get_squeeze (a := a) (by rw [h2']; exact hB)
    rw [h2'] at hg
    unfold secondDims at hg
    rw [hg, h3 _ hB (.inl ?_)]
    · simp only [Option.mem_def] at ht hs hw'
      simp [secondVal, ht, hs, hw']
    · simp only [secondWrites, List.mem_map, List.mem_flatMap, List.mem_range]
      exact ⟨_, ⟨it, b1, is, b2, il, b3, ith, hi, ip, hp, r, hr, c, hc, rfl⟩, rfl⟩

/-- **C20** (and C55): `get_table` never reads outside the vector of results, never uses a result of the wrong class,
never writes outside the arrays, and each entry of the returned tables is the value calculated for the composition,
size, wavelength, angle and column that its index stands for - with sizes and wavelengths in increasing order. -/
theorem c20_table [Inhabited β] (R : Request α) (C : Calc α β) (h : R.Ok) :
    ∃ ret, getTable R C = some ret ∧ Correct R (sortedSizes R) (sortedWls R) C ret := by
  obtain ⟨rs, hr, _, hrs⟩ := results_spec h
  obtain ⟨a, ha1, ha2⟩ := first_table C hrs
  unfold getTable
  rw [hr, Option.bind_some]
  by_cases h1 : (R.want .abs || R.want .ext) = true
  · have e1 : firstArr R C rs = some (some a.squeeze) := by simp only [firstArr, if_pos h1, ha1, Option.map_some]
    by_cases h2 : R.want .scat = true
    · obtain ⟨b, hb1, hb2⟩ := second_table C h2 hrs
      have e2 : secondArr R C rs = some (some b.squeeze) := by simp only [secondArr, if_pos h2, hb1, Option.map_some]
      exact ⟨.both a.squeeze b.squeeze, by simp [e1, e2, mkRet], by simpa using h1, h2, ha2, hb2⟩
    · have e2 : secondArr R C rs = some none := by simp only [secondArr, if_neg h2]
      exact ⟨.one a.squeeze, by simp [e1, e2, mkRet], .inl ⟨by simpa using h1, by simpa using h2, ha2⟩⟩
  · have e1 : firstArr R C rs = some none := by simp only [firstArr, if_neg h1]
    have h1' : R.want .abs = false ∧ R.want .ext = false := by simpa using h1
    by_cases h2 : R.want .scat = true
    · obtain ⟨b, hb1, hb2⟩ := second_table C h2 hrs
      have e2 : secondArr R C rs = some (some b.squeeze) := by simp only [secondArr, if_pos h2, hb1, Option.map_some]
      exact ⟨.one b.squeeze, by simp [e1, e2, mkRet], .inr ⟨h1'.1, h1'.2, h2, hb2⟩⟩
    · have e2 : secondArr R C rs = some none := by simp only [secondArr, if_neg h2]
      exact ⟨.null, by simp [e1, e2, mkRet], h1'.1, h1'.2, by simpa using h2⟩

/-- **C20**: different keys have different positions in the vector of results, and all positions are used. -/
theorem c20_index_injective (R : Request α) {ic is il ir jc js jl jr : Nat}
    (h1 : is < R.sizes.length) (h2 : il < R.wls.length) (h3 : ir < nres R.want)
    (k1 : js < R.sizes.length) (k2 : jl < R.wls.length) (k3 : jr < nres R.want)
    (h : resultIndex R ic is il ir = resultIndex R jc js jl jr) : ic = jc ∧ is = js ∧ il = jl ∧ ir = jr := by
  have hs : (sortedSizes R).length = R.sizes.length := by simp [sortedSizes]
  have hl : (sortedWls R).length = R.wls.length := by simp [sortedWls]
  have key : ∀ (D : List Nat) (a b : List Nat), InB D a → InB D b → offset D a = offset D b → a = b :=
    fun D a b => offset_inj
  have e : ∀ a b c d, resultIndex R a b c d =
      offset [max ic jc + 1, R.sizes.length, R.wls.length, nres R.want] [a, b, c, d] := by
    intro a b c d
    simp [resultIndex, offset, hs, hl]; ring
  rw [e, e] at h
  have := key _ _ _ (.cons (show ic < max ic jc + 1 by omega) (.cons h1 (.cons h2 (.cons h3 .nil))))
    (.cons (show jc < max ic jc + 1 by omega) (.cons k1 (.cons k2 (.cons k3 .nil)))) h
  simpa using this

/-- **C20**: and they are in range. -/
theorem c20_index_range (R : Request α) {ic is il ir : Nat} (h0 : ic < R.types.length)
    (h1 : is < R.sizes.length) (h2 : il < R.wls.length) (h3 : ir < nres R.want) :
    resultIndex R ic is il ir < R.types.length * R.sizes.length * R.wls.length * nres R.want := by
  have hs : (sortedSizes R).length = R.sizes.length := by simp [sortedSizes]
  have hl : (sortedWls R).length = R.wls.length := by simp [sortedWls]
  have := (offset_aux (show InB [R.types.length, R.sizes.length, R.wls.length, nres R.want] [ic, is, il, ir] from
    .cons h0 (.cons h1 (.cons h2 (.cons h3 .nil)))) 0).2
  simp [offset] at this
  unfold resultIndex
  rw [hs, hl]
  calc _ = ((ic * R.sizes.length + is) * R.wls.length + il) * nres R.want + ir := by ring
    _ < _ := this
    _ = _ := by ring

/-- **C21** (partial: only for sizes and wavelengths given in increasing order, see `c21_violated`): the tables are
indexed in the order of the arguments. -/
theorem c21_user_order_partial [Inhabited β] (R : Request α) (C : Calc α β) (h : R.Ok)
    (hs : R.sizes.Pairwise (· ≤ ·)) (hw : R.wls.Pairwise (· ≤ ·)) :
    ∃ ret, getTable R C = some ret ∧ Correct R R.sizes R.wls C ret := by
  have := c20_table R C h
  have e1 : sortedSizes R = R.sizes := List.mergeSort_of_pairwise (by simpa using hs)
  have e2 : sortedWls R = R.wls := List.mergeSort_of_pairwise (by simpa using hw)
  rwa [e1, e2] at this

/-- the quantities that identify a result are stored in the table -/
def echo : Calc α (α × α) := ⟨fun o _ _ => (o.size, o.wl), fun o _ _ _ => (o.size, o.wl)⟩

theorem coef_unique [Inhabited β] {R : Request α} {s1 s2 w1 w2 : List α} {C : Calc α β} {a : Arr β}
    (hls : s1.length = s2.length) (hlw : w1.length = w2.length)
    (h1 : CoefTable R s1 w1 C a) (h2 : CoefTable R s2 w2 C a) :
    ∀ (is il ith : Nat), ∀ t ∈ R.types[0]?, ∀ s ∈ s1[is]?, ∀ s' ∈ s2[is]?, ∀ w ∈ w1[il]?, ∀ w' ∈ w2[il]?, ith < R.nth →
      ∀ c ∈ (columns R.want)[0]?, C.coef ⟨c.1, t, s, w⟩ ith c.2 = C.coef ⟨c.1, t, s', w'⟩ ith c.2 := by
  intro is il ith t ht s hs s' hs' w hw w' hw' hi c hc
  have e1 := h1.2 0 is il ith 0 t ht s hs w hw hi c hc
  have e2 := h2.2 0 is il ith 0 t ht s' hs' w' hw' hi c hc
  rw [hls, hlw] at e1
  rw [e1] at e2
  exact Option.some.inj e2

theorem mat_unique [Inhabited β] {R : Request α} {s1 s2 w1 w2 : List α} {C : Calc α β} {a : Arr β}
    (hls : s1.length = s2.length) (hlw : w1.length = w2.length)
    (h1 : MatTable R s1 w1 C a) (h2 : MatTable R s2 w2 C a) :
    ∀ (is il : Nat), ∀ t ∈ R.types[0]?, ∀ s ∈ s1[is]?, ∀ s' ∈ s2[is]?, ∀ w ∈ w1[il]?, ∀ w' ∈ w2[il]?, 0 < R.nth →
      C.mat ⟨.scat, t, s, w⟩ 0 0 0 = C.mat ⟨.scat, t, s', w'⟩ 0 0 0 := by
  intro is il t ht s hs s' hs' w hw w' hw' hi
  have e1 := h1.2 0 is il 0 0 0 0 t ht s hs w hw hi (by omega) (by omega) (by omega)
  have e2 := h2.2 0 is il 0 0 0 0 t ht s' hs' w' hw' hi (by omega) (by omega) (by omega)
  rw [hls, hlw] at e1
  rw [e1] at e2
  simpa using Option.some.inj e2

/-- **C21** does not hold as it stands: whenever the sizes or the wavelengths are not given in increasing order, the
table that is returned is not in the order of the arguments (as soon as it has any entries). -/
theorem c21_violated [Inhabited α] (R : Request α) (h : R.Ok) (ht : R.types ≠ []) (hs : R.sizes ≠ []) (hw : R.wls ≠ [])
    (hn : 0 < R.nth) (hq : R.want .abs ∨ R.want .ext ∨ R.want .scat)
    (hun : ¬ (R.sizes.Pairwise (· ≤ ·) ∧ R.wls.Pairwise (· ≤ ·))) :
    ∃ (C : Calc α (α × α)) (ret : Ret (α × α)), getTable R C = some ret ∧ ¬ Correct R R.sizes R.wls C ret := by
  obtain ⟨ret, h1, h2⟩ := c20_table R echo h
  refine ⟨echo, ret, h1, fun h3 => hun ?_⟩
  have ls : R.sizes.length = (sortedSizes R).length := by simp [sortedSizes]
  have lw : R.wls.length = (sortedWls R).length := by simp [sortedWls]
  obtain ⟨t, ht'⟩ : ∃ t, R.types[0]? = some t := ⟨_, List.getElem?_eq_getElem (List.length_pos_of_ne_nil ht)⟩
  have key : ∀ (a b : Nat) (hs1 : a < R.sizes.length) (hs2 : a < (sortedSizes R).length)
      (hw1 : b < R.wls.length) (hw2 : b < (sortedWls R).length),
      R.sizes[a] = (sortedSizes R)[a] ∧ R.wls[b] = (sortedWls R)[b] := by
    intro a b hs1 hs2 hw1 hw2
    have g1 := List.getElem?_eq_getElem hs1
    have g2 := List.getElem?_eq_getElem hs2
    have g3 := List.getElem?_eq_getElem hw1
    have g4 := List.getElem?_eq_getElem hw2
    have viaCoef : ∀ x, CoefTable R R.sizes R.wls echo x → CoefTable R (sortedSizes R) (sortedWls R) echo x →
        (R.want .abs ∨ R.want .ext) → R.sizes[a] = (sortedSizes R)[a] ∧ R.wls[b] = (sortedWls R)[b] := by
      intro x x1 x2 hx
      obtain ⟨c, hc⟩ : ∃ c, (columns R.want)[0]? = some c := by
        unfold columns
        rcases hx with hx | hx
        · simp [hx]
        · cases hb : R.want .abs <;> simp [hx]
      have := coef_unique ls lw x1 x2 a b 0 t ht' _ g1 _ g2 _ g3 _ g4 hn c hc
      simpa [echo] using this
    have viaMat : ∀ x, MatTable R R.sizes R.wls echo x → MatTable R (sortedSizes R) (sortedWls R) echo x →
        R.sizes[a] = (sortedSizes R)[a] ∧ R.wls[b] = (sortedWls R)[b] := by
      intro x x1 x2
      have := mat_unique ls lw x1 x2 a b t ht' _ g1 _ g2 _ g3 _ g4 hn
      simpa [echo] using this
    cases ret with
    | both x y => exact viaCoef x h3.2.2.1 h2.2.2.1 h3.1
    | one x =>
      rcases h3 with h3 | h3
      · rcases h2 with h2 | h2
        · exact viaCoef x h3.2.2 h2.2.2 h3.1
        · rcases h3.1 with hx | hx
          · rw [h2.1] at hx; cases hx
          · rw [h2.2.1] at hx; cases hx
      · rcases h2 with h2 | h2
        · rcases h2.1 with hx | hx
          · rw [h3.1] at hx; cases hx
          · rw [h3.2.1] at hx; cases hx
        · exact viaMat x h3.2.2.2 h2.2.2.2
    | null =>
      obtain ⟨n1, n2, n3⟩ := h3
      rw [n1, n2, n3] at hq
      simp at hq
  have ps := List.length_pos_of_ne_nil hs
  have pw := List.length_pos_of_ne_nil hw
  constructor
  · have : R.sizes = sortedSizes R := List.ext_getElem ls fun i g1 g2 => (key i 0 g1 g2 pw (by omega)).1
    rw [this]
    have := List.pairwise_mergeSort (le := fun a b : α => decide (a ≤ b)) (by simpa using fun a b c => le_trans)
      (by simpa using le_total) R.sizes
    simpa [sortedSizes] using this
  · have : R.wls = sortedWls R := List.ext_getElem lw fun i g1 g2 => (key 0 i ps (by omega) g1 g2).2
    rw [this]
    have := List.pairwise_mergeSort (le := fun a b : α => decide (a ≤ b)) (by simpa using fun a b c => le_trans)
      (by simpa using le_total) R.wls
    simpa [sortedWls] using this

/-! ## Examples -/

/-- two grain types, sizes in decreasing order, everything computed -/
def exR : Request Nat where
  types := [0, 1]
  sizes := [20, 10]
  wls := [5, 6, 7]
  nth := 2
  want := fun _ => true
  nshape := 2
  minOrder := 1
  maxOrder := 3
  slots := 2

example : exR.Ok ∧ exR.types ≠ [] ∧ exR.sizes ≠ [] ∧ exR.wls ≠ [] ∧ 0 < exR.nth ∧ exR.want .abs ∧
    ¬ (exR.sizes.Pairwise (· ≤ ·) ∧ exR.wls.Pairwise (· ≤ ·)) := by
  unfold Request.Ok; decide

example : nres exR.want = 3 ∧ columns exR.want = [(.abs, 0), (.abs, 1), (.ext, 0), (.ext, 1), (.ext, 2)] := by decide

example : ({ exR with sizes := [10, 20] }).sizes.Pairwise (· ≤ ·) := by decide

example : InB [2, 1, 3] [1, 0, 2] ∧ sq [2, 1, 3] [1, 0, 2] = [1, 2] ∧ offset [2, 1, 3] [1, 0, 2] = 5 ∧
    offset [2, 3] [1, 2] = 5 := by
  refine ⟨.cons (by omega) (.cons (by omega) (.cons (by omega) .nil)), rfl, rfl, rfl⟩

end Verif.Table
