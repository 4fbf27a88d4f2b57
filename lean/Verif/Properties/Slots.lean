import Verif.Properties.Exec
import Verif.Spec.Plain

/-!
# The memory limit does not change the results (C81)
-/
namespace Verif.Exec

theorem rename_run {L L' V : Type} [DecidableEq L] [DecidableEq L'] {f : L → L'} (hf : Function.Injective f) :
    ∀ (p : Prog L V) (m : L' → V) (x : L), (p.rename f).run m (f x) = p.run (fun y => m (f y)) x
  | .done, _, _ => rfl
  | .read y k, m, x => rename_run hf (k (m (f y))) m x
  | .write y v k, m, x => by
    have := rename_run hf k (Function.update m (f y) v) x
    refine this.trans ?_
    change k.run _ x = k.run (Function.update (fun y => m (f y)) y v) x
    congr 1
    funext z
    by_cases hz : z = y
    · subst hz; simp
    · rw [Function.update_of_ne (fun e => hz (hf e)), Function.update_of_ne hz]

theorem rename_within {L V : Type} {f : L → L} {R W R' W' : L → Prop} {id : Nat} (hR : ∀ x, R x → R' (f x)) (hW : ∀ x, W x → W' (f x)) :
    ∀ {p : Prog (Place L) V}, Within R W id p → Within R' W' id (p.rename (Sum.map f _root_.id))
  | .done, _ => trivial
  | .read (.inl x) k, h => ⟨h.1.imp (hR x) (hW x), fun v => rename_within hR hW (h.2 v)⟩
  | .read (.inr i) k, h => ⟨h.1, fun v => rename_within hR hW (h.2 v)⟩
  | .write (.inl x) v k, h => ⟨hW x h.1, rename_within hR hW h.2⟩
  | .write (.inr i) v k, h => ⟨h.1, rename_within hR hW h.2⟩

theorem seq_append {T L V : Type} [DecidableEq L] (body : T → Nat → Prog (Place L) V) (a b : List T) (m : Place L → V) :
    seq body (a ++ b) m = seq body b (seq body a m) := List.foldl_append ..

theorem seq_untouched {T L V : Type} [DecidableEq L] {R W : T → L → Prop} {body : T → Nat → Prog (Place L) V} (hb : WellBehaved R W body) {x : L} :
    ∀ (l : List T) (m : Place L → V), (∀ t ∈ l, ¬ W t x) → seq body l m (.inl x) = m (.inl x) := by
  intro l
  induction l with
  | nil => intro m _; rfl
  | cons t l ih =>
    intro m h
    exact (ih _ fun t' ht' => h t' (List.mem_cons_of_mem _ ht')).trans (run_frame (hb.within t 0) m x (h t (List.mem_cons_self ..)))

theorem rename_id {L V : Type} : ∀ (p : Prog L V), p.rename id = p
  | .done => rfl
  | .read x k => by
    change Prog.read x (fun v => (k v).rename id) = Prog.read x k
    congr 1
    funext v
    exact rename_id (k v)
  | .write x v k => by
    change Prog.write x v (k.rename id) = Prog.write x v k
    rw [rename_id k]

/-- only locations that the tasks touch matter -/
theorem seq_agree {T L V : Type} [DecidableEq L] {R W : T → L → Prop} {body : T → Nat → Prog (Place L) V} (hb : WellBehaved R W body) {S : L → Prop} :
    ∀ (o : List T), (∀ t ∈ o, ∀ x, R t x ∨ W t x → S x) → ∀ (m m' : Place L → V), (∀ x, S x → m (.inl x) = m' (.inl x)) →
      ∀ x, S x → seq body o m (.inl x) = seq body o m' (.inl x) := by
  intro o
  induction o with
  | nil => intro _ m m' h x hx; exact h x hx
  | cons t o ih =>
    intro ho m m' h x hx
    refine ih (fun t' ht' => ho t' (List.mem_cons_of_mem _ ht')) _ _ (fun y hy => ?_) x hx
    change (body t 0).run m (.inl y) = (body t 0).run m' (.inl y)
    by_cases hw : W t y
    · exact hb.results t 0 0 m m' (fun z hz => h z (ho t (List.mem_cons_self ..) z hz)) y hw
    · rw [run_frame (hb.within t 0) m y hw, run_frame (hb.within t 0) m' y hw]
      exact h y hy

end Verif.Exec

namespace Verif.Graph
open Verif.Exec Verif.Store Verif.Api

variable {P : Params} {V : Type}

theorem shift_inj (s : Nat) : Function.Injective (Loc.shift s) := by
  intro x y h
  cases x <;> cases y <;> simp [Loc.shift] at h ⊢ <;> first | exact h | omega

theorem place_inj (s : Nat) : Function.Injective (Sum.map (Loc.shift s) (id : Nat → Nat)) :=
  Function.Injective.sumMap (shift_inj s) Function.injective_id

theorem shift_zero (x : Loc) : Loc.shift 0 x = x := by cases x <;> rfl

theorem slot_one (c : Cell) : slot (one P) c = 0 := Nat.mod_one _

theorem shift_free {x : Loc} (h : x.shared = false) (s : Nat) : Loc.shift s x = x := by
  cases x <;> simp [Loc.shared] at h <;> rfl

theorem shift_shared (x : Loc) (s : Nat) : (Loc.shift s x).shared = x.shared := by cases x <;> rfl

theorem whole_shift (s j : Nat) : whole P (j + 2 * s) = (whole (one P) j).map (Loc.shift s) := by
  simp [whole, one, Loc.shift]

theorem writes_shift (t : Tk) : writes P t = (writes (one P) t).map (Loc.shift (slotOf P t)) := by
  have e0 : ∀ s, 2 * s = 0 + 2 * s := by intro s; omega
  have e1 : ∀ s, 2 * s + 1 = 1 + 2 * s := by intro s; omega
  cases t <;> simp only [writes, slotOf, cellOf, Option.elim, slot_one, List.map_cons, List.map_nil, Loc.shift] <;>
    first | rfl | skip
  case inter c ig => simp
  case m0 c ig => simp
  case align c => rw [e1]; exact whole_shift _ _
  case reset1 c => rw [e0]; exact whole_shift _ _
  case reset2 c => rw [e1]; exact whole_shift _ _
  case reset3 c => simp
  case mall c m => simp

theorem reads_shift (t : Tk) : reads P t = (reads (one P) t).map (Loc.shift (slotOf P t)) := by
  have e0 : ∀ s, 2 * s = 0 + 2 * s := by intro s; omega
  have e1 : ∀ s, 2 * s + 1 = 1 + 2 * s := by intro s; omega
  cases t <;> simp only [reads, slotOf, cellOf, Option.elim, slot_one, List.map_cons, List.map_nil, List.map_append, Loc.shift] <;>
    first | rfl | skip
  case avg q p => simp [Loc.shift, one]
  case m0 c ig => simp
  case align c => rw [e0]; exact whole_shift _ _
  case meas q c => rw [e1, whole_shift]
  case mall c m => simp [List.map_flatMap, Loc.shift, one]

/-- "my objects": the locations of slot 0 -/
def Mine (P : Params) (x : Loc) : Prop := x = .inter 0 ∨ x ∈ whole (one P) 0 ∨ x ∈ whole (one P) 1

theorem allClean_iff {clean : Loc → V} {m : Place Loc → V} :
    AllClean P clean m ↔ ∀ s < P.nt, ∀ x, Mine P x → m (.inl (Loc.shift s x)) = clean x := by
  unfold AllClean Mine
  constructor
  · intro h s hs x hx
    obtain ⟨h1, h2⟩ := h s hs
    rcases hx with rfl | hx | hx
    · simpa [Loc.shift] using h1
    · rcases mem_whole.1 hx with rfl | ⟨k, hk, rfl⟩
      · exact (h2 0 (by omega)).1
      · exact (h2 0 (by omega)).2 k hk
    · rcases mem_whole.1 hx with rfl | ⟨k, hk, rfl⟩
      · exact (h2 1 (by omega)).1
      · exact (h2 1 (by omega)).2 k hk
  · intro h s hs
    refine ⟨by simpa [Loc.shift] using h s hs (.inter 0) (.inl rfl), fun j hj => ?_⟩
    obtain rfl | rfl : j = 0 ∨ j = 1 := by omega
    · exact ⟨h s hs (.head 0) (.inr (.inl (mem_whole.2 (.inl rfl)))), fun k hk => h s hs (.block 0 k) (.inr (.inl (mem_whole.2 (.inr ⟨k, hk, rfl⟩))))⟩
    · exact ⟨h s hs (.head 1) (.inr (.inr (mem_whole.2 (.inl rfl)))), fun k hk => h s hs (.block 1 k) (.inr (.inr (mem_whole.2 (.inr ⟨k, hk, rfl⟩))))⟩

/-- whatever a task of a single-slot calculation touches is not shared or "mine" -/
theorem touched {t : Tk} (ht : Tsk P t) {x : Loc} (h : x ∈ reads (one P) t ∨ x ∈ writes (one P) t) : x.shared = false ∨ Mine P x := by
  have wh : ∀ j < 2, x ∈ whole (one P) j → Mine P x := by
    intro j hj hx
    obtain rfl | rfl : j = 0 ∨ j = 1 := by omega
    · exact .inr (.inl hx)
    · exact .inr (.inr hx)
  have hd : ∀ j < 2, x = .head j → Mine P x := fun j hj e => wh j hj (mem_whole.2 (.inl e))
  have bl : ∀ j < 2, ∀ k ≤ P.maxOrder, x = .block j k → Mine P x := fun j hj k hk e => wh j hj (mem_whole.2 (.inr ⟨k, hk, e⟩))
  cases t
  case align c =>
    rcases h with h | h
    · simp only [reads, slot_one] at h; exact .inr (wh _ (by omega) h)
    · simp only [writes, slot_one] at h; exact .inr (wh _ (by omega) h)
  case reset1 c =>
    rcases h with h | h
    · simp [reads] at h
    · simp only [writes, slot_one] at h; exact .inr (wh _ (by omega) h)
  case reset2 c =>
    rcases h with h | h
    · simp [reads] at h
    · simp only [writes, slot_one] at h; exact .inr (wh _ (by omega) h)
  case meas q c =>
    rcases h with h | h
    · simp only [reads, slot_one, List.mem_append] at h
      rcases h with h | h
      · simp at h
        rcases h with rfl | rfl | rfl <;> exact .inl rfl
      · exact .inr (wh _ (by omega) h)
    · simp [writes] at h; subst h; exact .inl rfl
  case mall c k =>
    have hk : k ≤ P.maxOrder := ht.2.2
    simp only [reads, writes, slot_one, List.mem_append, List.mem_cons, List.not_mem_nil, or_false, List.mem_flatMap] at h
    rcases h with (h | ⟨ig, -, h⟩) | h
    · rcases h with rfl | rfl | rfl
      · exact .inl rfl
      · exact .inl rfl
      · exact .inr (.inl rfl)
    · rcases h with rfl | rfl | rfl <;> exact .inl rfl
    · exact .inr (bl 0 (by omega) k hk h)
  case m0 c ig =>
    simp only [reads, writes, slot_one, List.mem_cons, List.not_mem_nil, or_false] at h
    rcases h with (rfl | rfl | rfl | rfl | rfl | rfl | h | h) | (h | h | rfl) <;>
      first | exact .inl rfl | exact .inr (.inl rfl) | exact .inr (hd 0 (by omega) h) | exact .inr (bl 0 (by omega) 0 (by omega) h)
  case inter c ig =>
    simp only [reads, writes, slot_one, List.mem_cons, List.not_mem_nil, or_false] at h
    rcases h with (rfl | rfl) | rfl <;> first | exact .inl rfl | exact .inr (.inl rfl)
  case reset3 c =>
    simp only [reads, writes, slot_one, List.mem_cons, List.not_mem_nil, or_false, false_or] at h
    subst h; exact .inr (.inl rfl)
  case avg q p =>
    simp [reads, writes] at h
    rcases h with ⟨_, _, rfl⟩ | rfl <;> exact .inl rfl
  all_goals
    simp [reads, writes] at h
    first | (rcases h with rfl | rfl <;> exact .inl rfl) | (subst h; exact .inl rfl)

theorem placed_wellBehaved {code : Tk → Nat → Prog (Place Loc) V}
    (hb : WellBehaved (fun t x => x ∈ reads (one P) t) (fun t x => x ∈ writes (one P) t) code) :
    WellBehaved (fun t x => x ∈ reads P t) (fun t x => x ∈ writes P t) (placed P code) := by
  constructor
  · intro t id
    refine rename_within ?_ ?_ (hb.within t id)
    · intro x hx; show _ ∈ reads P t; rw [reads_shift]; exact List.mem_map_of_mem hx
    · intro x hx; show _ ∈ writes P t; rw [writes_shift]; exact List.mem_map_of_mem hx
  · intro t id id' m m' hm x hx
    rw [writes_shift] at hx
    obtain ⟨y, hy, rfl⟩ := List.mem_map.1 hx
    have e : ∀ id (m : Place Loc → V), (placed P code t id).run m (.inl (Loc.shift (slotOf P t) y)) =
        (code t id).run (fun z => m (Sum.map (Loc.shift (slotOf P t)) _root_.id z)) (.inl y) := by
      intro id m
      exact rename_run (place_inj (slotOf P t)) (code t id) m (.inl y)
    rw [e, e]
    refine hb.results t id id' (fun z => m (Sum.map (Loc.shift (slotOf P t)) _root_.id z))
      (fun z => m' (Sum.map (Loc.shift (slotOf P t)) _root_.id z)) (fun z hz => hm (Loc.shift (slotOf P t) z) ?_) y hy
    rw [reads_shift, writes_shift]
    exact hz.imp (fun h => List.mem_map_of_mem h) (fun h => List.mem_map_of_mem h)

/-! ## the single-slot calculation and the calculation with several slots, side by side -/

/-- equal outside the reused objects -/
def Same (m m1 : Place Loc → V) : Prop := ∀ y, y.shared = false → m (.inl y) = m1 (.inl y)

/-- between two T-matrix calculations -/
structure Between (P : Params) (clean : Loc → V) (m m1 : Place Loc → V) : Prop where
  same : Same m m1
  all : ∀ s < P.nt, ∀ x, Mine P x → m (.inl (Loc.shift s x)) = clean x
  one : ∀ x, Mine P x → m1 (.inl x) = clean x

/-- during the T-matrix calculation that uses slot `s` -/
structure During (P : Params) (clean : Loc → V) (s : Nat) (m m1 : Place Loc → V) : Prop where
  same : Same m m1
  mine : ∀ x, Mine P x → m (.inl (Loc.shift s x)) = m1 (.inl x)
  other : ∀ s' < P.nt, s' ≠ s → ∀ x, Mine P x → m (.inl (Loc.shift s' x)) = clean x

theorem mine_shared {x : Loc} (h : Mine P x) : x.shared = true := by
  rcases h with rfl | h | h
  · rfl
  · rcases mem_whole.1 h with rfl | ⟨k, -, rfl⟩ <;> rfl
  · rcases mem_whole.1 h with rfl | ⟨k, -, rfl⟩ <;> rfl

theorem shift_disjoint {s s' : Nat} (h : s' ≠ s) {x y : Loc} (hx : Mine P x) (hy : Mine P y) : Loc.shift s' x ≠ Loc.shift s y := by
  rcases hx with rfl | hx | hx <;> rcases hy with rfl | hy | hy <;>
    (try rcases mem_whole.1 hx with rfl | ⟨k, -, rfl⟩) <;> (try rcases mem_whole.1 hy with rfl | ⟨k', -, rfl⟩) <;>
    simp [Loc.shift] <;> omega

variable {code : Tk → Nat → Prog (Place Loc) V} {clean : Loc → V}

theorem during_step (hb : WellBehaved (fun t x => x ∈ reads (one P) t) (fun t x => x ∈ writes (one P) t) code) {t : Tk} (ht : Tsk P t)
    {m m1 : Place Loc → V} (h : During P clean (slotOf P t) m m1) :
    During P clean (slotOf P t) ((placed P code t 0).run m) ((placed (one P) code t 0).run m1) := by
  have hp := placed_wellBehaved (P := P) hb
  have hp1 : WellBehaved (fun t x => x ∈ reads (one P) t) (fun t x => x ∈ writes (one P) t) (placed (one P) code) := placed_wellBehaved (P := one P) hb
  have z1 : slotOf (one P) t = 0 := by unfold slotOf; cases cellOf t <;> simp [slot_one]
  -- both runs, seen from the code
  have key : ∀ x, (x.shared = false ∨ Mine P x) → (placed P code t 0).run m (.inl (Loc.shift (slotOf P t) x)) = (placed (one P) code t 0).run m1 (.inl x) := by
    intro x hx
    have e1 : (placed P code t 0).run m (.inl (Loc.shift (slotOf P t) x)) =
        (code t 0).run (fun z => m (Sum.map (Loc.shift (slotOf P t)) _root_.id z)) (.inl x) :=
      rename_run (place_inj (slotOf P t)) (code t 0) m (.inl x)
    have e2 : (placed (one P) code t 0).run m1 (.inl (Loc.shift (slotOf (one P) t) x)) =
        (code t 0).run (fun z => m1 (Sum.map (Loc.shift (slotOf (one P) t)) _root_.id z)) (.inl x) :=
      rename_run (place_inj (slotOf (one P) t)) (code t 0) m1 (.inl x)
    rw [z1, shift_zero] at e2
    have agree : ∀ z, (z.shared = false ∨ Mine P z) → m (.inl (Loc.shift (slotOf P t) z)) = m1 (.inl (Loc.shift 0 z)) := by
      intro z hz
      rw [shift_zero]
      rcases hz with hz | hz
      · rw [shift_free hz]; exact h.same z hz
      · exact h.mine z hz
    rw [e1, e2]
    by_cases hw : x ∈ writes (one P) t
    · exact hb.results t 0 0 (fun z => m (Sum.map (Loc.shift (slotOf P t)) _root_.id z)) (fun z => m1 (Sum.map (Loc.shift 0) _root_.id z))
        (fun z hz => agree z (touched ht hz)) x hw
    · rw [run_frame (hb.within t 0) _ x hw, run_frame (hb.within t 0) _ x hw]
      exact agree x hx
  refine ⟨fun y hy => ?_, fun x hx => key x (.inr hx), fun s' hs' hne x hx => ?_⟩
  · have := key y (.inl hy)
    rwa [shift_free hy] at this
  · have hnw : Loc.shift s' x ∉ writes P t := by
      rw [writes_shift]
      intro hm
      obtain ⟨y, hy, e⟩ := List.mem_map.1 hm
      rcases touched ht (.inr hy) with hf | hmine
      · have h1 := mine_shared hx
        rw [← shift_shared x s', ← e, shift_shared, hf] at h1
        cases h1
      · exact shift_disjoint hne hx hmine e.symm
    rw [run_frame (hp.within t 0) m _ hnw]
    exact h.other s' hs' hne x hx

theorem between_step (hb : WellBehaved (fun t x => x ∈ reads (one P) t) (fun t x => x ∈ writes (one P) t) code) {t : Tk} (ht : Tsk P t)
    (hc : cellOf t = none) (hn : 0 < P.nt) {m m1 : Place Loc → V} (h : Between P clean m m1) :
    Between P clean ((placed P code t 0).run m) ((placed (one P) code t 0).run m1) := by
  have z : slotOf P t = 0 := by unfold slotOf; rw [hc]; rfl
  have hd : During P clean (slotOf P t) m m1 := by
    rw [z]
    refine ⟨h.same, fun x hx => ?_, fun s' hs' _ x hx => h.all s' hs' x hx⟩
    rw [h.all 0 hn x hx, h.one x hx]
  have hd' := during_step hb ht hd
  rw [z] at hd'
  have hp1 : WellBehaved (fun t x => x ∈ reads (one P) t) (fun t x => x ∈ writes (one P) t) (placed (one P) code) := placed_wellBehaved (P := one P) hb
  have h1 : ∀ x, Mine P x → (placed (one P) code t 0).run m1 (.inl x) = clean x := by
    intro x hx
    rw [run_frame (hp1.within t 0) m1 x ?_]
    · exact h.one x hx
    · intro hw
      have : x.shared = false := by
        cases t <;> simp [cellOf] at hc <;> simp [writes] at hw <;> subst hw <;> rfl
      rw [mine_shared hx] at this
      cases this
  refine ⟨hd'.same, fun s hs x hx => ?_, h1⟩
  by_cases e : s = 0
  · subst e; rw [hd'.mine x hx, h1 x hx]
  · exact hd'.other s hs e x hx

theorem during_seq (hb : WellBehaved (fun t x => x ∈ reads (one P) t) (fun t x => x ∈ writes (one P) t) code) (s : Nat) :
    ∀ (o : List Tk), (∀ t ∈ o, Tsk P t ∧ slotOf P t = s) → ∀ (m m1 : Place Loc → V), During P clean s m m1 →
      During P clean s (seq (placed P code) o m) (seq (placed (one P) code) o m1) := by
  intro o
  induction o with
  | nil => intro _ m m1 h; exact h
  | cons t o ih =>
    intro ho m m1 h
    obtain ⟨h1, h2⟩ := ho t (List.mem_cons_self ..)
    subst h2
    exact ih (fun t' ht' => ho t' (List.mem_cons_of_mem _ ht')) _ _ (during_step hb h1 h)

theorem between_seq (hb : WellBehaved (fun t x => x ∈ reads (one P) t) (fun t x => x ∈ writes (one P) t) code) (hn : 0 < P.nt) :
    ∀ (o : List Tk), (∀ t ∈ o, Tsk P t ∧ cellOf t = none) → ∀ (m m1 : Place Loc → V), Between P clean m m1 →
      Between P clean (seq (placed P code) o m) (seq (placed (one P) code) o m1) := by
  intro o
  induction o with
  | nil => intro _ m m1 h; exact h
  | cons t o ih =>
    intro ho m m1 h
    obtain ⟨h1, h2⟩ := ho t (List.mem_cons_self ..)
    exact ih (fun t' ht' => ho t' (List.mem_cons_of_mem _ ht')) _ _ (between_step hb h1 h2 hn h)

/-- a location that a clearing task is the last to write is clean at the end -/
theorem cleared (hb : WellBehaved (fun t x => x ∈ reads (one P) t) (fun t x => x ∈ writes (one P) t) code) (hcl : Clears P code clean)
    {r : Tk} {c : Cell} (hr : r = .reset1 c ∨ r = .reset2 c ∨ r = .reset3 c) {o : List Tk} (hm : r ∈ o) (hs : o.Pairwise fun a b => stg P a ≤ stg P b)
    (hc : ∀ t ∈ o, Tsk P t ∧ cellOf t = some c) {x : Loc} (hx : x ∈ writes (one P) r)
    (hl : ∀ t, Tsk P t → cellOf t = some c → stg P r ≤ stg P t → x ∈ writes (one P) t → t = r)
    (m1 : Place Loc → V) : seq (placed (one P) code) o m1 (.inl x) = clean x := by
  have hp1 : WellBehaved (fun t x => x ∈ reads (one P) t) (fun t x => x ∈ writes (one P) t) (placed (one P) code) := placed_wellBehaved (P := one P) hb
  have hrun : ∀ m, (placed (one P) code r 0).run m (.inl x) = clean x := by
    intro m
    have z1 : slotOf (one P) r = 0 := by unfold slotOf; cases cellOf r <;> simp [slot_one]
    have e2 : (placed (one P) code r 0).run m (.inl (Loc.shift (slotOf (one P) r) x)) =
        (code r 0).run (fun z => m (Sum.map (Loc.shift (slotOf (one P) r)) _root_.id z)) (.inl x) :=
      rename_run (place_inj (slotOf (one P) r)) (code r 0) m (.inl x)
    rw [z1, shift_zero] at e2
    rw [e2]
    exact hcl r c hr 0 _ x hx
  obtain ⟨A, B, rfl⟩ := List.append_of_mem hm
  rw [seq_append]
  generalize seq (placed (one P) code) A m1 = m2
  change seq (placed (one P) code) B ((placed (one P) code r 0).run m2) (.inl x) = clean x
  have hB : ∀ t ∈ B, (Tsk P t ∧ cellOf t = some c) ∧ stg P r ≤ stg P t := by
    intro t ht
    refine ⟨hc t (by simp [ht]), ?_⟩
    rw [List.pairwise_append] at hs
    exact (List.pairwise_cons.1 hs.2.1).1 t ht
  -- `r` could occur again, but then it clears again
  clear hs hc hm
  revert hB
  suffices H : ∀ m2 : Place Loc → V, m2 (.inl x) = clean x → (∀ t ∈ B, (Tsk P t ∧ cellOf t = some c) ∧ stg P r ≤ stg P t) →
      seq (placed (one P) code) B m2 (.inl x) = clean x from
    H _ (hrun m2)
  induction B with
  | nil => intro m2 h _; exact h
  | cons t B ih =>
    intro m2 h hB
    refine ih _ ?_ (fun t' ht' => hB t' (List.mem_cons_of_mem _ ht'))
    obtain ⟨⟨h0, h1⟩, h2⟩ := hB t (List.mem_cons_self ..)
    by_cases hw : x ∈ writes (one P) t
    · obtain rfl := hl t h0 h1 h2 hw
      exact hrun m2
    · change (placed (one P) code t 0).run m2 (.inl x) = _
      rw [run_frame (hp1.within t 0) m2 x hw]; exact h

/-- a T-matrix calculation leaves its objects clean -/
theorem cell_clean (hb : WellBehaved (fun t x => x ∈ reads (one P) t) (fun t x => x ∈ writes (one P) t) code) (hcl : Clears P code clean)
    {c : Cell} {o : List Tk} (ho : ∀ t, t ∈ o ↔ Tsk P t ∧ cellOf t = some c) (hc : c ∈ cells P) (hs : o.Pairwise fun a b => stg P a ≤ stg P b)
    (m1 : Place Loc → V) : ∀ x, Mine P x → seq (placed (one P) code) o m1 (.inl x) = clean x := by
  have hco : ∀ t ∈ o, Tsk P t ∧ cellOf t = some c := fun t ht => (ho t).1 ht
  intro x hx
  rcases hx with rfl | hx | hx
  · refine cleared hb hcl (r := .reset3 c) (.inr (.inr rfl)) ((ho _).2 ⟨hc, rfl⟩) hs hco (by simp [writes, slot_one]) ?_ m1
    intro t h0 ht hst hw
    cases t <;> simp [cellOf] at ht <;> subst ht <;> simp [Tsk] at h0 <;> simp [stg] at hst <;> simp [writes, mem_whole] at hw <;> first | rfl | omega
  · refine cleared hb hcl (r := .reset1 c) (.inl rfl) ((ho _).2 ⟨hc, rfl⟩) hs hco (by simp only [writes, slot_one]; exact hx) ?_ m1
    intro t h0 ht hst hw
    rcases mem_whole.1 hx with rfl | ⟨k, -, rfl⟩ <;>
    cases t <;> simp [cellOf] at ht <;> subst ht <;> simp [Tsk] at h0 <;> simp [stg] at hst <;> simp [writes, mem_whole, slot_one] at hw <;> first | rfl | omega
  · refine cleared hb hcl (r := .reset2 c) (.inr (.inl rfl)) ((ho _).2 ⟨hc, rfl⟩) hs hco (by simp only [writes, slot_one]; exact hx) ?_ m1
    intro t h0 ht hst hw
    rcases mem_whole.1 hx with rfl | ⟨k, -, rfl⟩ <;>
    cases t <;> simp [cellOf] at ht <;> subst ht <;> simp [Tsk] at h0 <;> simp [stg] at hst <;> simp [writes, mem_whole, slot_one] at hw <;> first | rfl | omega

/-- one whole T-matrix calculation -/
theorem cell_seq (hb : WellBehaved (fun t x => x ∈ reads (one P) t) (fun t x => x ∈ writes (one P) t) code) (hcl : Clears P code clean) (hn : 0 < P.nt)
    {c : Cell} {o : List Tk} (ho : ∀ t, t ∈ o ↔ Tsk P t ∧ cellOf t = some c) (hc : c ∈ cells P) (hs : o.Pairwise fun a b => stg P a ≤ stg P b)
    {m m1 : Place Loc → V} (h : Between P clean m m1) :
    Between P clean (seq (placed P code) o m) (seq (placed (one P) code) o m1) := by
  have hd : During P clean (slot P c) m m1 := by
    refine ⟨h.same, fun x hx => ?_, fun s' hs' _ x hx => h.all s' hs' x hx⟩
    rw [h.all (slot P c) (Nat.mod_lt _ hn) x hx, h.one x hx]
  have hd' := during_seq hb (slot P c) o (fun t ht => ⟨((ho t).1 ht).1, by unfold slotOf; rw [((ho t).1 ht).2]; rfl⟩) m m1 hd
  have h1 := cell_clean hb hcl ho hc hs m1
  refine ⟨hd'.same, fun s hs' x hx => ?_, h1⟩
  by_cases e : s = slot P c
  · subst e; rw [hd'.mine x hx, h1 x hx]
  · exact hd'.other s hs' e x hx

theorem cells_seq (hb : WellBehaved (fun t x => x ∈ reads (one P) t) (fun t x => x ∈ writes (one P) t) code) (hcl : Clears P code clean) (hn : 0 < P.nt)
    {G : Cell → List Tk} (hG : ∀ c ∈ cells P, ∀ t, t ∈ G c ↔ Tsk P t ∧ cellOf t = some c) (hs : ∀ c, (G c).Pairwise fun a b => stg P a ≤ stg P b) :
    ∀ (cs : List Cell), (∀ c ∈ cs, c ∈ cells P) → ∀ (m m1 : Place Loc → V), Between P clean m m1 →
    Between P clean (seq (placed P code) (cs.flatMap G) m) (seq (placed (one P) code) (cs.flatMap G) m1) := by
  intro cs
  induction cs with
  | nil => intro _ m m1 h; exact h
  | cons c cs ih =>
    intro hcs m m1 h
    rw [List.flatMap_cons, seq_append, seq_append]
    exact ih (fun c' hc' => hcs c' (List.mem_cons_of_mem _ hc')) _ _ (cell_seq hb hcl hn (hG c (hcs c (List.mem_cons_self ..))) (hcs c (List.mem_cons_self ..)) (hs c) h)

theorem tsk_one {t : Tk} : Tsk (one P) t ↔ Tsk P t := by cases t <;> exact Iff.rfl

/-- every dependency of the calculation with several slots points forwards in the order of the single-slot calculation -/
theorem rank_one (hg : cells P ≠ [] → 0 < P.maxOrder → 0 < P.nq) (hn : 0 < P.nt) {a b : Tk} (h : Relation.TransGen (Lk P) a b) :
    rank (one P) a < rank (one P) b := by
  have step : ∀ a b, Lk P a b → rank (one P) a < rank (one P) b := by
    intro a b hab
    have far : ∀ {c c' : Cell}, pos P c = pos P c' + P.nt →
        pos P c' * (2 * P.nq + 5) + (2 * P.nq + 5) ≤ pos P c * (2 * P.nq + 5) := by
      intro c c' e
      rw [e, ← Nat.succ_mul]
      exact Nat.mul_le_mul_right _ (by omega)
    have pd : ∀ c, pos (one P) c / (one P).nt = pos P c := fun c => Nat.div_one _
    cases hab <;> simp only [rank, cellOf, Option.elim, stg, pd] <;> try omega
    case unlI c c' ig h1 h2 h3 h4 => have := far h3; simp only [one]; omega
    case unlM c c' h1 h2 h3 h4 => have := far h3; simp only [one]; omega
    case ma c m h1 h2 h3 =>
      have : 0 < P.nq := hg (by rintro e; rw [e] at h1; cases h1) (by omega)
      simp only [one]; omega
    case mv c q h1 h2 =>
      obtain ⟨hlt, -⟩ := List.getElem?_eq_some_iff.1 (get_pos h1)
      have h4 := Nat.mul_le_mul_right (2 * P.nq + 5) (show pos P c ≤ (cells P).length by omega)
      have h5 : ((cells P).length + 1) * (2 * P.nq + 5) = (cells P).length * (2 * P.nq + 5) + (2 * P.nq + 5) := by ring
      change 2 + (pos P c * (2 * P.nq + 5) + (2 * P.nq + 2)) < 2 + ((cells P).length + 1) * (2 * P.nq + 5)
      omega
  induction h with
  | single h => exact step _ _ h
  | tail _ h ih => exact Nat.lt_trans ih (step _ _ h)

def isAvg : Tk → Bool
  | .avg _ _ => true
  | _ => false

theorem rank_fixed {t : Tk} (h : cellOf t = none) (ha : isAvg t = false) : rank P t ≤ 1 := by
  cases t <;> simp [cellOf] at h <;> simp [isAvg] at ha <;> simp [rank]

theorem rank_cell {t : Tk} {c : Cell} (h : cellOf t = some c) : rank (one P) t = 2 + (pos P c * (2 * P.nq + 5) + stg P t) := by
  have pd : ∀ c, pos (one P) c / (one P).nt = pos P c := fun c => Nat.div_one _
  cases t <;> simp [cellOf] at h <;> subst h <;> simp only [rank, cellOf, Option.elim, pd, stg] <;> rfl

theorem rank_avg {t : Tk} (h : isAvg t = true) : rank (one P) t = 2 + ((cells P).length + 1) * (2 * P.nq + 5) := by
  cases t <;> simp [isAvg] at h
  rfl

theorem pairwise_pos : (cells P).Pairwise fun a b => pos P a < pos P b := by
  rw [List.pairwise_iff_getElem]
  intro i j hi hj hij
  unfold pos
  rw [nodup_cells.idxOf_getElem i hi, nodup_cells.idxOf_getElem j hj]
  exact hij

/-! ## the plain program -/

theorem placed_one : placed (one P) code = code := by
  funext t i
  have z1 : slotOf (one P) t = 0 := by unfold slotOf; cases cellOf t <;> simp [slot_one]
  unfold placed
  rw [z1]
  have : Sum.map (Loc.shift 0) (_root_.id : Nat → Nat) = _root_.id := by
    funext x
    cases x with
    | inl x => simp [shift_zero]
    | inr i => rfl
  rw [this]
  exact rename_id _

theorem mem_fixedTasks {t : Tk} : t ∈ fixedTasks P ↔ Tsk P t ∧ cellOf t = none ∧ isAvg t = false := by
  unfold fixedTasks
  cases t <;> simp [Tsk, cellOf, isAvg, mem_qtys]

theorem mem_cellTasks {t : Tk} {c : Cell} (hc : c ∈ cells P) : t ∈ cellTasks P c ↔ Tsk P t ∧ cellOf t = some c := by
  unfold cellTasks
  cases t <;> simp [Tsk, cellOf, mem_qtys] <;> try (intro e; subst e; simp [hc]; done)
  case meas q c' => constructor <;> (intro h; simp_all)
  case mall c' m =>
    constructor
    · rintro ⟨i, hi, rfl, rfl⟩; exact ⟨⟨hc, by omega, by omega⟩, rfl⟩
    · rintro ⟨⟨_, h1, h2⟩, rfl⟩; exact ⟨m - 1, by omega, rfl, by omega⟩

theorem mem_plain {t : Tk} : t ∈ plain P ↔ Tsk P t := by
  unfold plain
  simp only [List.mem_append, List.mem_flatMap, List.mem_map]
  constructor
  · rintro ((h | ⟨c, hc, h⟩) | ⟨p, hp, q, hq, rfl⟩)
    · exact (mem_fixedTasks.1 h).1
    · exact ((mem_cellTasks hc).1 h).1
    · exact ⟨mem_qtys.1 hq, hp⟩
  · intro h
    cases hc : cellOf t with
    | some c => exact .inl (.inr ⟨c, tsk_cell h hc, (mem_cellTasks (tsk_cell h hc)).2 ⟨h, hc⟩⟩)
    | none =>
      cases ha : isAvg t with
      | false => exact .inl (.inl (mem_fixedTasks.2 ⟨h, hc, ha⟩))
      | true =>
        cases t <;> simp [isAvg] at ha
        case avg q p => exact .inr ⟨p, h.2, q, mem_qtys.2 h.1, rfl⟩

theorem cellTasks_sorted (c : Cell) : (cellTasks P c).Pairwise fun a b => stg P a ≤ stg P b := by
  have h1 : ((List.range P.nq).flatMap fun ig => [Tk.inter c ig, .m0 c ig]).Pairwise fun a b => stg P a ≤ stg P b := by
    rw [List.pairwise_flatMap]
    refine ⟨fun ig _ => by simp [stg], List.pairwise_lt_range.imp ?_⟩
    intro i j hij a ha b hb
    simp at ha hb
    rcases ha with rfl | rfl <;> rcases hb with rfl | rfl <;> simp [stg] <;> omega
  have h2 : ((List.range P.maxOrder).map fun i => Tk.mall c (i + 1)).Pairwise fun a b => stg P a ≤ stg P b := by
    rw [List.pairwise_map]
    exact List.pairwise_of_forall fun _ _ => Nat.le_refl _
  have h3 : ((qtys P).map fun q => Tk.meas q c).Pairwise fun a b => stg P a ≤ stg P b := by
    rw [List.pairwise_map]
    exact List.pairwise_of_forall fun _ _ => Nat.le_refl _
  unfold cellTasks
  simp only [List.pairwise_append, h1, h2, h3, List.pairwise_cons, true_and, and_true, List.mem_append, List.mem_flatMap, List.mem_map, List.mem_range,
    List.mem_cons, List.not_mem_nil, or_false, List.Pairwise.nil, false_imp_iff, implies_true]
  refine ⟨⟨⟨?_, ?_⟩, ?_⟩, ?_, ?_⟩
  · rintro a ⟨i, hi, rfl | rfl⟩ b ⟨j, hj, rfl⟩ <;> simp [stg] <;> omega
  · rintro a (⟨i, hi, rfl | rfl⟩ | ⟨j, hj, rfl⟩) b rfl <;> simp [stg] <;> omega
  · rintro a ((⟨i, hi, rfl | rfl⟩ | ⟨j, hj, rfl⟩) | rfl) b ⟨q, hq, rfl⟩ <;> simp [stg] <;> omega
  · simp [stg]
  · rintro a (((⟨i, hi, rfl | rfl⟩ | ⟨j, hj, rfl⟩) | rfl) | ⟨q, hq, rfl⟩) b (rfl | rfl | rfl) <;> simp [stg] <;> omega

theorem cellTasks_nodup (c : Cell) : (cellTasks P c).Nodup := by
  have h1 : ((List.range P.nq).flatMap fun ig => [Tk.inter c ig, .m0 c ig]).Nodup := by
    rw [List.nodup_flatMap]
    refine ⟨fun ig _ => by simp, List.pairwise_lt_range.imp ?_⟩
    intro i j hij a ha hb
    simp at ha hb
    rcases ha with rfl | rfl <;> rcases hb with h | h <;> simp at h <;> omega
  have h2 : ((List.range P.maxOrder).map fun i => Tk.mall c (i + 1)).Nodup :=
    List.nodup_range.map fun a b h => by simpa using h
  have h3 : ((qtys P).map fun q => Tk.meas q c).Nodup := nodup_qtys.map fun a b h => by simpa using h
  unfold cellTasks
  simp only [List.nodup_append, h1, h2, h3, List.mem_append, List.mem_flatMap, List.mem_map, List.mem_range,
    List.mem_cons, List.not_mem_nil, or_false, true_and]
  refine ⟨⟨⟨?_, by simp, ?_⟩, ?_⟩, by simp, ?_⟩
  · rintro a ⟨i, hi, rfl | rfl⟩ b ⟨j, hj, rfl⟩ <;> simp
  · rintro a (⟨i, hi, rfl | rfl⟩ | ⟨j, hj, rfl⟩) b rfl <;> simp
  · rintro a ((⟨i, hi, rfl | rfl⟩ | ⟨j, hj, rfl⟩) | rfl) b ⟨q, hq, rfl⟩ <;> simp
  · rintro a (((⟨i, hi, rfl | rfl⟩ | ⟨j, hj, rfl⟩) | rfl) | ⟨q, hq, rfl⟩) b (rfl | rfl | rfl) <;> simp

theorem fixedTasks_nodup : (fixedTasks P).Nodup := by
  have h1 : ((List.range P.nq).map Tk.gauss).Nodup := List.nodup_range.map fun a b h => by simpa using h
  have h2 : ((qtys P).map Tk.grid).Nodup := nodup_qtys.map fun a b h => by simpa using h
  have h3 : ((qtys P).map Tk.swig).Nodup := nodup_qtys.map fun a b h => by simpa using h
  have h4 : ((List.range P.nq).map Tk.wigner).Nodup := List.nodup_range.map fun a b h => by simpa using h
  have h5 : ((List.range P.nshape).flatMap fun is => (List.range P.nq).map fun ig => Tk.geom is ig).Nodup := by
    rw [List.nodup_flatMap]
    refine ⟨fun is _ => List.nodup_range.map fun a b h => by simpa using h, List.pairwise_lt_range.imp ?_⟩
    intro i j hij a ha hb
    simp at ha hb
    obtain ⟨_, _, rfl⟩ := ha
    obtain ⟨_, _, h⟩ := hb
    simp at h
    omega
  unfold fixedTasks
  simp only [List.nodup_cons, List.nodup_append, h1, h2, h3, h4, h5, List.mem_append, List.mem_flatMap, List.mem_map, List.mem_range, true_and]
  refine ⟨by simp, ⟨⟨?_, ?_⟩, ?_⟩, ?_⟩
  · rintro a ⟨i, hi, rfl⟩ b ⟨j, hj, rfl⟩; simp
  · rintro a (⟨i, hi, rfl⟩ | ⟨i, hi, rfl⟩) b ⟨j, hj, rfl⟩ <;> simp
  · rintro a ((⟨i, hi, rfl⟩ | ⟨i, hi, rfl⟩) | ⟨i, hi, rfl⟩) b ⟨j, hj, rfl⟩ <;> simp
  · rintro a (((⟨i, hi, rfl⟩ | ⟨i, hi, rfl⟩) | ⟨i, hi, rfl⟩) | ⟨i, hi, rfl⟩) b ⟨j, hj, k, hk, rfl⟩ <;> simp

theorem fixedTasks_sorted : (fixedTasks P).Pairwise fun a b => rank (one P) a ≤ rank (one P) b := by
  have h1 : ((List.range P.nq).map Tk.gauss).Pairwise fun a b => rank (one P) a ≤ rank (one P) b := by
    rw [List.pairwise_map]; exact List.pairwise_of_forall fun _ _ => Nat.le_refl _
  have h2 : ((qtys P).map Tk.grid).Pairwise fun a b => rank (one P) a ≤ rank (one P) b := by
    rw [List.pairwise_map]; exact List.pairwise_of_forall fun _ _ => Nat.le_refl _
  have h3 : ((qtys P).map Tk.swig).Pairwise fun a b => rank (one P) a ≤ rank (one P) b := by
    rw [List.pairwise_map]; exact List.pairwise_of_forall fun _ _ => Nat.le_refl _
  have h4 : ((List.range P.nq).map Tk.wigner).Pairwise fun a b => rank (one P) a ≤ rank (one P) b := by
    rw [List.pairwise_map]; exact List.pairwise_of_forall fun _ _ => Nat.le_refl _
  have h5 : ((List.range P.nshape).flatMap fun is => (List.range P.nq).map fun ig => Tk.geom is ig).Pairwise fun a b => rank (one P) a ≤ rank (one P) b := by
    refine List.Pairwise.imp_of_mem (R := fun _ _ => True) ?_ (List.pairwise_of_forall fun _ _ => trivial)
    intro a b ha hb _
    simp at ha hb
    obtain ⟨_, _, _, _, rfl⟩ := ha
    obtain ⟨_, _, _, _, rfl⟩ := hb
    exact Nat.le_refl _
  unfold fixedTasks
  simp only [List.pairwise_cons, List.pairwise_append, h1, h2, h3, h4, h5, List.mem_append, List.mem_flatMap, List.mem_map, List.mem_range, true_and]
  refine ⟨fun _ _ => Nat.zero_le _, ⟨⟨?_, ?_⟩, ?_⟩, ?_⟩
  · rintro a ⟨i, hi, rfl⟩ b ⟨j, hj, rfl⟩; simp [rank]
  · rintro a (⟨i, hi, rfl⟩ | ⟨i, hi, rfl⟩) b ⟨j, hj, rfl⟩ <;> simp [rank]
  · rintro a ((⟨i, hi, rfl⟩ | ⟨i, hi, rfl⟩) | ⟨i, hi, rfl⟩) b ⟨j, hj, rfl⟩ <;> simp [rank]
  · rintro a (((⟨i, hi, rfl⟩ | ⟨i, hi, rfl⟩) | ⟨i, hi, rfl⟩) | ⟨i, hi, rfl⟩) b ⟨j, hj, k, hk, rfl⟩ <;> simp [rank]

theorem avgs_nodup : ((pars P).flatMap fun p => (qtys P).map fun q => Tk.avg q p).Nodup := by
  rw [List.nodup_flatMap]
  refine ⟨fun p _ => nodup_qtys.map fun a b h => by simpa using h, (show (pars P).Pairwise (· ≠ ·) from nodup_pars).imp ?_⟩
  intro p p' hne a ha hb
  simp at ha hb
  obtain ⟨_, _, rfl⟩ := ha
  obtain ⟨_, _, h⟩ := hb
  simp at h
  exact hne h.2.symm

theorem plain_nodup : (plain P).Nodup := by
  unfold plain
  rw [List.nodup_append, List.nodup_append]
  refine ⟨⟨fixedTasks_nodup, ?_, ?_⟩, avgs_nodup, ?_⟩
  · rw [List.nodup_flatMap]
    refine ⟨fun c _ => cellTasks_nodup c, ?_⟩
    refine List.Pairwise.imp_of_mem ?_ (show (cells P).Pairwise (· ≠ ·) from nodup_cells)
    intro a b ha hb hab t h1 h2
    exact hab (Option.some.inj (((mem_cellTasks ha).1 h1).2.symm.trans ((mem_cellTasks hb).1 h2).2))
  · intro a ha b hb e
    subst e
    obtain ⟨c, hc, h⟩ := List.mem_flatMap.1 hb
    have := (mem_fixedTasks.1 ha).2.1
    rw [((mem_cellTasks hc).1 h).2] at this
    cases this
  · intro a ha b hb e
    subst e
    simp only [List.mem_flatMap, List.mem_map] at hb
    obtain ⟨p, -, q, -, rfl⟩ := hb
    rcases List.mem_append.1 ha with h | h
    · have := (mem_fixedTasks.1 h).2.2
      cases this
    · obtain ⟨c, hc, h⟩ := List.mem_flatMap.1 h
      have := ((mem_cellTasks hc).1 h).2
      cases this

theorem plain_sorted : (plain P).Pairwise fun a b => rank (one P) a ≤ rank (one P) b := by
  unfold plain
  rw [List.pairwise_append, List.pairwise_append]
  refine ⟨⟨fixedTasks_sorted, ?_, ?_⟩, ?_, ?_⟩
  · rw [List.pairwise_flatMap]
    refine ⟨fun c hc => ?_, ?_⟩
    · refine List.Pairwise.imp_of_mem ?_ (cellTasks_sorted c)
      intro a b ha hb hab
      rw [rank_cell ((mem_cellTasks hc).1 ha).2, rank_cell ((mem_cellTasks hc).1 hb).2]
      omega
    · refine List.Pairwise.imp_of_mem ?_ pairwise_pos
      intro c c' hc hc' hlt a ha b hb
      obtain ⟨ha, ha'⟩ := (mem_cellTasks hc).1 ha
      obtain ⟨hb, hb'⟩ := (mem_cellTasks hc').1 hb
      rw [rank_cell ha', rank_cell hb']
      have h1 := stg_lt ha ha'
      have h2 := Nat.mul_le_mul_right (2 * P.nq + 5) (Nat.succ_le_of_lt hlt)
      rw [Nat.succ_mul] at h2
      omega
  · intro a ha b hb
    obtain ⟨c, hc, h⟩ := List.mem_flatMap.1 hb
    rw [rank_cell ((mem_cellTasks hc).1 h).2]
    have := rank_fixed (P := one P) (mem_fixedTasks.1 ha).2.1 (mem_fixedTasks.1 ha).2.2
    omega
  · refine List.Pairwise.imp_of_mem (R := fun _ _ => True) ?_ (List.pairwise_of_forall fun _ _ => trivial)
    intro a b ha hb _
    simp only [List.mem_flatMap, List.mem_map] at ha hb
    obtain ⟨_, _, _, _, rfl⟩ := ha
    obtain ⟨_, _, _, _, rfl⟩ := hb
    exact Nat.le_refl _
  · intro a ha b hb
    simp only [List.mem_flatMap, List.mem_map] at hb
    obtain ⟨p, -, q, -, rfl⟩ := hb
    rw [rank_avg (t := .avg q p) rfl]
    rcases List.mem_append.1 ha with h | h
    · have := rank_fixed (P := one P) (mem_fixedTasks.1 h).2.1 (mem_fixedTasks.1 h).2.2
      omega
    · obtain ⟨c, hc, h⟩ := List.mem_flatMap.1 h
      obtain ⟨h, h'⟩ := (mem_cellTasks hc).1 h
      rw [rank_cell h']
      have h1 := stg_lt h h'
      obtain ⟨hlt, -⟩ := List.getElem?_eq_some_iff.1 (get_pos hc)
      have h2 := Nat.mul_le_mul_right (2 * P.nq + 5) (Nat.succ_le_of_lt hlt)
      rw [Nat.succ_mul] at h2
      have h3 : ((cells P).length + 1) * (2 * P.nq + 5) = (cells P).length * (2 * P.nq + 5) + (2 * P.nq + 5) := by ring
      omega

/-- the plain program respects the dependencies of the calculation with any number of slots -/
theorem plain_order (hn : 0 < P.nt) {l : List Call} (h : generate P = some l) : Order (tasksIn l) (Before l) (plain P) := by
  refine ⟨?_, plain_sorted.imp fun hab hba => ?_⟩
  · rw [List.perm_ext_iff_of_nodup plain_nodup (nodup_tasksIn hn h)]
    intro t
    rw [mem_plain, mem_tasksIn, task_iff hn h]
  · have := rank_one (gen_nq h) hn ((before_iff hn h).1 hba)
    omega

theorem fixed_none {t : Tk} (h : t ∈ fixedTasks P) : Tsk P t ∧ cellOf t = none := ⟨(mem_fixedTasks.1 h).1, (mem_fixedTasks.1 h).2.1⟩

theorem avg_none {t : Tk} (h : t ∈ (pars P).flatMap fun p => (qtys P).map fun q => Tk.avg q p) : Tsk P t ∧ cellOf t = none := by
  simp only [List.mem_flatMap, List.mem_map] at h
  obtain ⟨p, hp, q, hq, rfl⟩ := h
  exact ⟨⟨mem_qtys.1 hq, hp⟩, rfl⟩

/-- the plain program with several slots and with one slot -/
theorem plain_same (hn : 0 < P.nt) (hb : WellBehaved (fun t x => x ∈ reads (one P) t) (fun t x => x ∈ writes (one P) t) code) (hcl : Clears P code clean)
    {m0 m1 : Place Loc → V} (c0 : AllClean P clean m0) (c1 : AllClean (one P) clean m1) (hs : ∀ y, y.shared = false → m0 (.inl y) = m1 (.inl y)) :
    ∀ y, y.shared = false → seq (placed P code) (plain P) m0 (.inl y) = seq code (plain P) m1 (.inl y) := by
  intro y hy
  have start : Between P clean m0 m1 := by
    refine ⟨hs, allClean_iff.1 c0, fun x hx => ?_⟩
    have := allClean_iff.1 c1 0 Nat.one_pos x hx
    rwa [shift_zero] at this
  have e : seq code (plain P) m1 = seq (placed (one P) code) (plain P) m1 := by rw [placed_one]
  rw [e]
  unfold plain
  rw [seq_append, seq_append, seq_append, seq_append]
  exact (between_seq hb hn _ (fun t ht => avg_none ht) _ _ (cells_seq hb hcl hn (fun c hc t => mem_cellTasks hc) cellTasks_sorted (cells P) (fun c hc => hc) _ _
    (between_seq hb hn _ (fun t ht => fixed_none ht) _ _ start))).same y hy

/-- **C82** A table calculation, with any number of slots, threads and queues, under any interleaving, ends with what the plain program computes: the tasks one by
one, T-matrix after T-matrix, on one thread and with one set of objects. -/
theorem c82_plain (hP : Sensible P) {l : List Call} (h : generate P = some l) (code : Tk → Nat → Prog (Place Loc) V) (clean : Loc → V)
    (hb : WellBehaved (fun t x => x ∈ reads (one P) t) (fun t x => x ∈ writes (one P) t) code) (hcl : Clears P code clean)
    (m0 m1 : Place Loc → V) (hc : AllClean P clean m0) (hc1 : AllClean (one P) clean m1) (hm : ∀ y, y.shared = false → m0 (.inl y) = m1 (.inl y))
    (ty : Tk → Nat) (pl : Tk → List Nat) (hpl : ∀ t, (pl t).length ≤ 8000) (J Jp : Junk) (hist : List (Op × Junk))
    (hh : hist.map Prod.fst = toOps ty pl l) (nq nth : Nat) (hq : 0 < nq) (hth : nth ≤ nq) (weight0 : Nat → Int) :
    ∃ s r, exec (hist ++ [(.prepare, Jp)]) (init J) = some s ∧ prepareOf s nq weight0 = some r ∧
      ∀ pr x, XReach _ (bodyOf l (placed P code)) ⟨startOf s nq nth r, m0, pr⟩ x →
        ((∃ th, x.st.pc th = .exited) → ∀ y, y.shared = false → x.mem (.inl y) = seq code (plain P) m1 (.inl y)) ∧
        ∃ x', XReach _ (bodyOf l (placed P code)) x x' ∧ Sched.AllExited x'.st := by
  obtain ⟨s, r, f1, f2, tab⟩ := c80_table hP h (placed_wellBehaved hb) m0 ty pl hpl J Jp hist hh nq nth hq hth weight0
  refine ⟨s, r, f1, f2, fun pr x hx => ⟨fun he y hy => ?_, (tab pr x hx).2⟩⟩
  rw [(tab pr x hx).1 he _ (plain_order hP.slots h) y]
  exact plain_same hP.slots hb hcl hc hc1 hm y hy

/-- **C81** The memory limit fixes the number of slots, and nothing else (C26).  Two runs of the same calculation with different numbers of slots (and different
numbers of threads, different timing, different random choices) end with the same data outside the reused objects; in particular with the same results. -/
theorem c81_memory_limit {P' : Params} (hP : Sensible P) (hP' : Sensible P') (hsame : P' = { P with nt := P'.nt }) {l l' : List Call}
    (h : generate P = some l) (h' : generate P' = some l') (code : Tk → Nat → Prog (Place Loc) V) (clean : Loc → V)
    (hb : WellBehaved (fun t x => x ∈ reads (one P) t) (fun t x => x ∈ writes (one P) t) code) (hcl : Clears P code clean)
    (m0 m0' : Place Loc → V) (hc : AllClean P clean m0) (hc' : AllClean P' clean m0') (hm : ∀ y, y.shared = false → m0 (.inl y) = m0' (.inl y))
    (ty ty' : Tk → Nat) (pl pl' : Tk → List Nat) (hpl : ∀ t, (pl t).length ≤ 8000) (hpl' : ∀ t, (pl' t).length ≤ 8000)
    (J Jp : Junk) (hist : List (Op × Junk)) (hh : hist.map Prod.fst = toOps ty pl l) (nq nth : Nat) (hq : 0 < nq) (hth : nth ≤ nq) (weight0 : Nat → Int)
    (J' Jp' : Junk) (hist' : List (Op × Junk)) (hh' : hist'.map Prod.fst = toOps ty' pl' l') (nq' nth' : Nat) (hq' : 0 < nq') (hth' : nth' ≤ nq')
    (weight0' : Nat → Int) (s s' r r') (hs : exec (hist ++ [(.prepare, Jp)]) (init J) = some s)
    (hs' : exec (hist' ++ [(.prepare, Jp')]) (init J') = some s') (hr : prepareOf s nq weight0 = some r) (hr' : prepareOf s' nq' weight0' = some r')
    (pr pr' x x') (hx : XReach _ (bodyOf l (placed P code)) ⟨startOf s nq nth r, m0, pr⟩ x)
    (hx' : XReach _ (bodyOf l' (placed P' code)) ⟨startOf s' nq' nth' r', m0', pr'⟩ x')
    (he : ∃ th, x.st.pc th = .exited) (he' : ∃ th, x'.st.pc th = .exited) :
    (∀ y, y.shared = false → x.mem (.inl y) = x'.mem (.inl y)) ∧ ∀ q p, x.mem (.inl (.result q p)) = x'.mem (.inl (.result q p)) := by
  suffices key : ∀ y, y.shared = false → x.mem (.inl y) = x'.mem (.inl y) from ⟨key, fun q p => key _ rfl⟩
  intro y hy
  have e1 : one P' = one P := by rw [hsame]; rfl
  have e2 : plain P' = plain P := by rw [hsame]; rfl
  have hb' : WellBehaved (fun t x => x ∈ reads (one P') t) (fun t x => x ∈ writes (one P') t) code := by rw [e1]; exact hb
  have hcl' : Clears P' code clean := by unfold Clears; rw [e1]; exact hcl
  -- a memory for the single-slot calculation
  have c1 : AllClean (one P) clean m0 := by
    rw [allClean_iff] at hc ⊢
    intro s hs x hx
    obtain rfl : s = 0 := by change s < 1 at hs; omega
    exact hc 0 hP.slots x hx
  have c1' : AllClean (one P') clean m0 := by rw [e1]; exact c1
  obtain ⟨s1, r1, f1, f2, tab⟩ := c82_plain hP h code clean hb hcl m0 m0 hc c1 (fun _ _ => rfl) ty pl hpl J Jp hist hh nq nth hq hth weight0
  obtain ⟨s2, r2, f3, f4, tab'⟩ := c82_plain hP' h' code clean hb' hcl' m0' m0 hc' c1' (fun y hy => (hm y hy).symm) ty' pl' hpl' J' Jp' hist' hh' nq' nth' hq' hth' weight0'
  obtain rfl : s = s1 := Option.some.inj (hs.symm.trans f1)
  obtain rfl : s' = s2 := Option.some.inj (hs'.symm.trans f3)
  obtain rfl : r = r1 := Option.some.inj (hr.symm.trans f2)
  obtain rfl : r' = r2 := Option.some.inj (hr'.symm.trans f4)
  rw [(tab pr x hx).1 he y hy, (tab' pr' x' hx').1 he' y hy, e2]

/-! ## one entry of the table -/

/-- tasks that touch nothing in `S` can be left out -/
theorem seq_slice {T L : Type} [DecidableEq L] {R W : T → L → Prop} {body : T → Nat → Prog (Place L) V} (hb : WellBehaved R W body) {S : L → Prop}
    (keep : T → Bool) : ∀ (o : List T), (∀ t ∈ o, keep t = true → ∀ x, R t x ∨ W t x → S x) → (∀ t ∈ o, keep t = false → ∀ x, S x → ¬ W t x) →
      ∀ (m m' : Place L → V), (∀ x, S x → m (.inl x) = m' (.inl x)) → ∀ x, S x → seq body o m (.inl x) = seq body (o.filter keep) m' (.inl x) := by
  intro o
  induction o with
  | nil => intro _ _ m m' h x hx; exact h x hx
  | cons t o ih =>
    intro h1 h2 m m' h x hx
    have ih' := ih (fun t' ht' => h1 t' (List.mem_cons_of_mem _ ht')) (fun t' ht' => h2 t' (List.mem_cons_of_mem _ ht'))
    cases hk : keep t with
    | true =>
      rw [List.filter_cons_of_pos hk]
      refine ih' _ _ (fun y hy => ?_) x hx
      change (body t 0).run m (.inl y) = (body t 0).run m' (.inl y)
      by_cases hw : W t y
      · exact hb.results t 0 0 m m' (fun z hz => h z (h1 t (List.mem_cons_self ..) hk z hz)) y hw
      · rw [run_frame (hb.within t 0) m y hw, run_frame (hb.within t 0) m' y hw]
        exact h y hy
    | false =>
      rw [List.filter_cons_of_neg (by simp [hk])]
      refine ih' _ _ (fun y hy => ?_) x hx
      change (body t 0).run m (.inl y) = m' (.inl y)
      rw [run_frame (hb.within t 0) m y (h2 t (List.mem_cons_self ..) hk y hy)]
      exact h y hy

/-- what the calculation of entry `(q, p)` touches -/
def Rel (P : Params) (q : Qty) (p : Par) : Loc → Prop
  | .nbased | .gauss _ | .wigner _ | .geom _ _ => True
  | .grid q' | .swig q' => q' = q
  | .conv c => c.par = p
  | .unav q' c => q' = q ∧ c.par = p
  | .result q' p' => q' = q ∧ p' = p
  | x => Mine P x

/-- the quantity a task is about -/
def keepQ (q : Qty) : Tk → Bool
  | .grid q' | .swig q' | .meas q' _ | .avg q' _ => decide (q' = q)
  | _ => true

theorem rel_mine {q : Qty} {p : Par} {x : Loc} (h : x.shared = true) : Rel P q p x ↔ Mine P x := by
  cases x <;> simp [Loc.shared] at h <;> rfl

theorem rel_of_mine {q : Qty} {p : Par} {x : Loc} (h : Mine P x) : Rel P q p x := (rel_mine (mine_shared h)).2 h

theorem qtys_only {q : Qty} (hq : P.want q = true) : (qtys P).filter (fun q' => decide (q' = q)) = qtys (only P q) := by
  unfold qtys only
  cases q <;> cases he : P.want .ext <;> cases ha : P.want .abs <;> cases hsc : P.want .scat <;> simp_all

theorem fixed_filter {q : Qty} (hq : P.want q = true) : (fixedTasks P).filter (keepQ q) = fixedTasks (only P q) := by
  have e1 : ∀ n, ((List.range n).map Tk.gauss).filter (keepQ q) = (List.range n).map Tk.gauss := fun n => by
    rw [List.filter_eq_self]; intro a ha; obtain ⟨i, _, rfl⟩ := List.mem_map.1 ha; rfl
  have e2 : ∀ n, ((List.range n).map Tk.wigner).filter (keepQ q) = (List.range n).map Tk.wigner := fun n => by
    rw [List.filter_eq_self]; intro a ha; obtain ⟨i, _, rfl⟩ := List.mem_map.1 ha; rfl
  have e3 : ((List.range P.nshape).flatMap fun is => (List.range P.nq).map fun ig => Tk.geom is ig).filter (keepQ q) =
      (List.range P.nshape).flatMap fun is => (List.range P.nq).map fun ig => Tk.geom is ig := by
    rw [List.filter_eq_self]
    intro a ha
    obtain ⟨i, _, h⟩ := List.mem_flatMap.1 ha
    obtain ⟨j, _, rfl⟩ := List.mem_map.1 h
    rfl
  have e4 : ((qtys P).map Tk.grid).filter (keepQ q) = (qtys (only P q)).map Tk.grid := by
    rw [List.filter_map, ← qtys_only hq]; rfl
  have e5 : ((qtys P).map Tk.swig).filter (keepQ q) = (qtys (only P q)).map Tk.swig := by
    rw [List.filter_map, ← qtys_only hq]; rfl
  unfold fixedTasks
  rw [List.filter_cons_of_pos rfl]
  simp only [List.filter_append, e1, e2, e3, e4, e5]
  rfl

theorem cell_filter {q : Qty} (hq : P.want q = true) (c : Cell) : (cellTasks P c).filter (keepQ q) = cellTasks (only P q) c := by
  have e1 : ((List.range P.nq).flatMap fun ig => [Tk.inter c ig, .m0 c ig]).filter (keepQ q) = (List.range P.nq).flatMap fun ig => [Tk.inter c ig, .m0 c ig] := by
    rw [List.filter_eq_self]
    intro a ha
    obtain ⟨i, _, h⟩ := List.mem_flatMap.1 ha
    simp at h
    rcases h with rfl | rfl <;> rfl
  have e2 : ((List.range P.maxOrder).map fun i => Tk.mall c (i + 1)).filter (keepQ q) = (List.range P.maxOrder).map fun i => Tk.mall c (i + 1) := by
    rw [List.filter_eq_self]; intro a ha; obtain ⟨i, _, rfl⟩ := List.mem_map.1 ha; rfl
  have e3 : ((qtys P).map fun q => Tk.meas q c).filter (keepQ q) = (qtys (only P q)).map fun q => Tk.meas q c := by
    rw [List.filter_map, ← qtys_only hq]; rfl
  unfold cellTasks
  simp only [List.filter_append, e1, e2, e3]
  rfl

theorem cells_filter {p : Par} (hp : p ∈ pars P) : (cells P).filter (fun c => decide (c.par = p)) = (List.range P.nshape).map fun ish => ⟨p, ish⟩ := by
  have gen : ∀ (ps : List Par), ps.Nodup → (ps.flatMap fun p => (List.range P.nshape).map fun ish => (⟨p, ish⟩ : Cell)).filter (fun c => decide (c.par = p)) =
      if p ∈ ps then (List.range P.nshape).map fun ish => ⟨p, ish⟩ else [] := by
    intro ps
    induction ps with
    | nil => intro _; rfl
    | cons a ps ih =>
      intro hnd
      rw [List.nodup_cons] at hnd
      rw [List.flatMap_cons, List.filter_append, ih hnd.2]
      by_cases e : a = p
      · subst e
        rw [if_neg hnd.1, if_pos (List.mem_cons_self ..), List.append_nil, List.filter_eq_self]
        intro c hc
        obtain ⟨i, _, rfl⟩ := List.mem_map.1 hc
        simp
      · have : ((List.range P.nshape).map fun ish => (⟨a, ish⟩ : Cell)).filter (fun c => decide (c.par = p)) = [] := by
          rw [List.filter_eq_nil_iff]
          intro c hc
          obtain ⟨i, _, rfl⟩ := List.mem_map.1 hc
          simpa using e
        rw [this, List.nil_append]
        have : p ∈ a :: ps ↔ p ∈ ps := by simp [Ne.symm e]
        simp only [this]
  have := gen (pars P) nodup_pars
  rw [if_pos hp] at this
  exact this

/-- **C83**, plain program: every entry of the table is what the calculation of that entry alone gives -/
theorem plain_alone (hb : WellBehaved (fun t x => x ∈ reads (one P) t) (fun t x => x ∈ writes (one P) t) code) (hcl : Clears P code clean)
    {q : Qty} (hq : P.want q = true) {p : Par} (hp : p ∈ pars P) {m : Place Loc → V} (hc : AllClean (one P) clean m) :
    seq code (plain P) m (.inl (.result q p)) = seq code (alone P q p) m (.inl (.result q p)) := by
  have hcl0 : ∀ x, Mine P x → m (.inl x) = clean x := by
    intro x hx
    have := allClean_iff.1 hc 0 Nat.one_pos x hx
    rwa [shift_zero] at this
  -- what a kept task touches
  have kept : ∀ t, Tsk P t → keepQ q t = true → (∀ c, cellOf t = some c → c.par = p) → (isAvg t = true → t = .avg q p) →
      ∀ x, x ∈ reads (one P) t ∨ x ∈ writes (one P) t → Rel P q p x := by
    intro t ht hk hcp ha x hx
    cases hsh : x.shared with
    | true =>
      rcases touched ht hx with h | h
      · rw [hsh] at h; cases h
      · exact rel_of_mine h
    | false =>
      cases t
      case avg q' p' =>
        have := ha rfl
        cases this
        simp [reads, writes] at hx
        rcases hx with ⟨i, hi, rfl⟩ | rfl <;> exact ⟨rfl, rfl⟩
      case inter c ig =>
        have := hcp c rfl
        simp [reads, writes] at hx
        rcases hx with (rfl | rfl) | rfl <;> simp_all [Rel, Loc.shared]
      case m0 c ig =>
        have := hcp c rfl
        simp [reads, writes] at hx
        rcases hx with (rfl | rfl | rfl | rfl | rfl | rfl | rfl | rfl) | rfl | rfl | rfl <;> simp_all [Rel, Loc.shared]
      case mall c k =>
        have := hcp c rfl
        simp [reads, writes] at hx
        rcases hx with (rfl | rfl | rfl | ⟨ig, _, rfl | rfl | rfl⟩) | rfl <;> simp_all [Rel, Loc.shared]
      case meas q' c =>
        have := hcp c rfl
        simp [keepQ] at hk
        subst hk
        simp [reads, writes, mem_whole] at hx
        rcases hx with (rfl | rfl | rfl | rfl | ⟨_, _, rfl⟩) | rfl <;> simp_all [Rel, Loc.shared]
      case align c =>
        simp [reads, writes, mem_whole] at hx
        rcases hx with (rfl | ⟨_, _, rfl⟩) | rfl | ⟨_, _, rfl⟩ <;> simp_all [Loc.shared]
      case reset1 c =>
        simp [reads, writes, mem_whole] at hx
        rcases hx with rfl | ⟨_, _, rfl⟩ <;> simp_all [Loc.shared]
      case reset2 c =>
        simp [reads, writes, mem_whole] at hx
        rcases hx with rfl | ⟨_, _, rfl⟩ <;> simp_all [Loc.shared]
      case reset3 c =>
        simp [reads, writes] at hx
        subst hx; simp [Loc.shared] at hsh
      all_goals
        simp [reads, writes] at hx
        simp [keepQ] at hk
        first
        | (rcases hx with rfl | rfl <;> simp_all [Rel])
        | (subst hx; simp_all [Rel])
  have dropped : ∀ t, Tsk P t → keepQ q t = false → ∀ x, Rel P q p x → x ∉ writes (one P) t := by
    intro t ht hk x hx hw
    cases t <;> simp [keepQ] at hk <;> simp [writes] at hw <;> subst hw <;> simp [Rel] at hx <;> simp_all
  unfold plain alone
  rw [seq_append, seq_append, seq_append, seq_append]
  -- the data shared by all calculations
  have s1 : ∀ x, Rel P q p x → seq code (fixedTasks P) m (.inl x) = seq code (fixedTasks (only P q)) m (.inl x) := by
    rw [← fixed_filter hq]
    refine seq_slice hb (keepQ q) _ (fun t ht hk => ?_) (fun t ht hk => dropped t (mem_fixedTasks.1 ht).1 hk) m m (fun _ _ => rfl)
    obtain ⟨h1, h2, h3⟩ := mem_fixedTasks.1 ht
    exact kept t h1 hk (fun c hc => by rw [h2] at hc; cases hc) (fun ha => by rw [h3] at ha; cases ha)
  have c1 : ∀ x, Mine P x → seq code (fixedTasks P) m (.inl x) = clean x := by
    intro x hx
    rw [seq_untouched hb _ m ?_]
    · exact hcl0 x hx
    · intro t ht hw
      obtain ⟨h1, h2, h3⟩ := mem_fixedTasks.1 ht
      have : x.shared = false := by
        cases t <;> simp [cellOf] at h2 <;> simp [writes] at hw <;> subst hw <;> rfl
      rw [mine_shared hx] at this
      cases this
  -- the T-matrices
  have s2 : ∀ (cs : List Cell), (∀ c ∈ cs, c ∈ cells P) → ∀ (m m' : Place Loc → V), (∀ x, Rel P q p x → m (.inl x) = m' (.inl x)) →
      (∀ x, Mine P x → m (.inl x) = clean x) → ∀ x, Rel P q p x →
      seq code (cs.flatMap (cellTasks P)) m (.inl x) = seq code ((cs.filter fun c => decide (c.par = p)).flatMap (cellTasks (only P q))) m' (.inl x) := by
    intro cs
    induction cs with
    | nil => intro _ m m' h _ x hx; exact h x hx
    | cons c cs ih =>
      intro hcs m m' h hclean x hx
      have hcm := hcs c (List.mem_cons_self ..)
      have ih' := ih (fun c' hc' => hcs c' (List.mem_cons_of_mem _ hc'))
      have hafter := cell_clean hb hcl (fun t => mem_cellTasks (t := t) hcm) hcm (cellTasks_sorted c) m
      rw [placed_one] at hafter
      rw [List.flatMap_cons, seq_append]
      by_cases hcp : c.par = p
      · rw [List.filter_cons_of_pos (by simpa using hcp), List.flatMap_cons, seq_append]
        refine ih' _ _ (fun y hy => ?_) hafter x hx
        rw [← cell_filter hq c]
        refine seq_slice hb (keepQ q) _ (fun t ht hk => ?_) (fun t ht hk => dropped t ((mem_cellTasks hcm).1 ht).1 hk) m m' h y hy
        obtain ⟨h1, h2⟩ := (mem_cellTasks hcm).1 ht
        refine kept t h1 hk (fun c' hc' => ?_) (fun ha => ?_)
        · rw [h2] at hc'; cases hc'; exact hcp
        · cases t <;> simp [isAvg] at ha
          cases h2
      · rw [List.filter_cons_of_neg (by simpa using hcp)]
        refine ih' _ _ (fun y hy => ?_) hafter x hx
        cases hsh : y.shared with
        | true =>
          have hmine := (rel_mine hsh).1 hy
          rw [hafter y hmine, ← h y hy, hclean y hmine]
        | false =>
          rw [seq_untouched hb _ m ?_]
          · exact h y hy
          · intro t ht hw
            obtain ⟨h1, h2⟩ := (mem_cellTasks hcm).1 ht
            cases t <;> simp [cellOf] at h2 <;> subst h2 <;> simp [writes, mem_whole] at hw
            case inter => subst hw; simp [Loc.shared] at hsh
            case m0 => rcases hw with rfl | rfl | rfl <;> simp [Loc.shared] at hsh; exact hcp hy
            case align => rcases hw with rfl | ⟨_, _, rfl⟩ <;> simp [Loc.shared] at hsh
            case meas => subst hw; exact hcp hy.2
            case reset1 => rcases hw with rfl | ⟨_, _, rfl⟩ <;> simp [Loc.shared] at hsh
            case reset2 => rcases hw with rfl | ⟨_, _, rfl⟩ <;> simp [Loc.shared] at hsh
            case reset3 => subst hw; simp [Loc.shared] at hsh
            case mall => subst hw; simp [Loc.shared] at hsh
  have s3 := s2 (cells P) (fun c hc => hc) _ _ s1 c1
  rw [cells_filter hp, List.flatMap_map] at s3
  -- the averages
  have havg : ((pars P).flatMap fun p => (qtys P).map fun q => Tk.avg q p).filter (fun t => decide (t = .avg q p)) = [.avg q p] := by
    have hnd : (((pars P).flatMap fun p => (qtys P).map fun q => Tk.avg q p).filter (fun t => decide (t = .avg q p))).Nodup := avgs_nodup.filter _
    rw [List.perm_singleton.1 ((List.perm_ext_iff_of_nodup hnd (List.nodup_singleton _)).2 fun t => ?_)]
    simp only [List.mem_filter, List.mem_flatMap, List.mem_map, decide_eq_true_eq, List.mem_singleton]
    constructor
    · rintro ⟨-, rfl⟩; rfl
    · rintro rfl; exact ⟨⟨p, hp, q, mem_qtys.2 hq, rfl⟩, rfl⟩
  rw [← havg]
  refine seq_slice hb (S := Rel P q p) (fun t => decide (t = .avg q p)) _ (fun t ht hk => ?_) (fun t ht hk x hx hw => ?_) _ _ s3 _ ⟨rfl, rfl⟩
  · simp only [decide_eq_true_eq] at hk
    subst hk
    exact kept _ ⟨hq, hp⟩ (by simp [keepQ]) (fun c hc => by cases hc) (fun _ => rfl)
  · simp only [List.mem_flatMap, List.mem_map] at ht
    obtain ⟨p', -, q', -, rfl⟩ := ht
    simp [writes] at hw
    subst hw
    obtain ⟨rfl, rfl⟩ := hx
    simp at hk

/-- **C83** In a table calculation with any number of slots, threads and queues, under any interleaving, every entry of the table is what the calculation of that
entry alone gives: one quantity for one composition, size and wavelength.  No other entry, and no other quantity that is asked for, has any influence on it. -/
theorem c83_entry (hP : Sensible P) {l : List Call} (h : generate P = some l) (code : Tk → Nat → Prog (Place Loc) V) (clean : Loc → V)
    (hb : WellBehaved (fun t x => x ∈ reads (one P) t) (fun t x => x ∈ writes (one P) t) code) (hcl : Clears P code clean)
    (m0 m1 : Place Loc → V) (hc : AllClean P clean m0) (hc1 : AllClean (one P) clean m1) (hm : ∀ y, y.shared = false → m0 (.inl y) = m1 (.inl y))
    (ty : Tk → Nat) (pl : Tk → List Nat) (hpl : ∀ t, (pl t).length ≤ 8000) (J Jp : Junk) (hist : List (Op × Junk))
    (hh : hist.map Prod.fst = toOps ty pl l) (nq nth : Nat) (hq : 0 < nq) (hth : nth ≤ nq) (weight0 : Nat → Int) :
    ∃ s r, exec (hist ++ [(.prepare, Jp)]) (init J) = some s ∧ prepareOf s nq weight0 = some r ∧
      ∀ pr x, XReach _ (bodyOf l (placed P code)) ⟨startOf s nq nth r, m0, pr⟩ x →
        ((∃ th, x.st.pc th = .exited) → ∀ q p, P.want q = true → p ∈ pars P →
          x.mem (.inl (.result q p)) = seq code (alone P q p) m1 (.inl (.result q p))) ∧
        ∃ x', XReach _ (bodyOf l (placed P code)) x x' ∧ Sched.AllExited x'.st := by
  obtain ⟨s, r, f1, f2, tab⟩ := c82_plain hP h code clean hb hcl m0 m1 hc hc1 hm ty pl hpl J Jp hist hh nq nth hq hth weight0
  refine ⟨s, r, f1, f2, fun pr x hx => ⟨fun he q p hwq hp => ?_, (tab pr x hx).2⟩⟩
  rw [(tab pr x hx).1 he _ rfl]
  exact plain_alone hb hcl hwq hp hc1

/-! ## tasks that meet the hypotheses -/

/-- the clearing tasks write zeros, all others the sum of what they read -/
def exCode (P : Params) (t : Tk) (id : Nat) : Prog (Place Loc) Nat :=
  match t with
  | .reset1 _ | .reset2 _ | .reset3 _ => sumWrite (writes (one P) t) 0
  | t => sumBody (one P) t id

theorem exCode_wellBehaved (P : Params) : WellBehaved (fun t x => x ∈ reads (one P) t) (fun t x => x ∈ writes (one P) t) (exCode P) := by
  have hs := sum_wellBehaved (one P)
  have hw : ∀ (t : Tk) (id : Nat) (xs : List Loc), (∀ x ∈ xs, x ∈ writes (one P) t) →
      Within (fun x => x ∈ reads (one P) t) (fun x => x ∈ writes (one P) t) id (sumWrite xs 0) := by
    intro t id xs
    induction xs with
    | nil => intro _; trivial
    | cons y xs ih => intro h; exact ⟨h y (List.mem_cons_self ..), ih (fun x hx => h x (List.mem_cons_of_mem _ hx))⟩
  constructor
  · intro t id
    cases t
    case reset1 c => exact hw _ id _ fun x hx => hx
    case reset2 c => exact hw _ id _ fun x hx => hx
    case reset3 c => exact hw _ id _ fun x hx => hx
    all_goals exact hs.within _ id
  · intro t id id' m m' hm x hx
    cases t
    case reset1 c => exact (sumWrite_run 0 _ m x).trans ((if_pos hx).trans ((if_pos hx).symm.trans (sumWrite_run 0 _ m' x).symm))
    case reset2 c => exact (sumWrite_run 0 _ m x).trans ((if_pos hx).trans ((if_pos hx).symm.trans (sumWrite_run 0 _ m' x).symm))
    case reset3 c => exact (sumWrite_run 0 _ m x).trans ((if_pos hx).trans ((if_pos hx).symm.trans (sumWrite_run 0 _ m' x).symm))
    all_goals exact hs.results _ id id' m m' hm x hx

theorem exCode_clears (P : Params) : Clears P (exCode P) (fun _ => 0) := by
  intro t c ht id m x hx
  rcases ht with rfl | rfl | rfl <;> exact (sumWrite_run 0 _ m x).trans (if_pos hx)

/-- two and five slots, from all zeros -/
example : Sensible exP ∧ Sensible { exP with nt := 5 } ∧ (∃ l, generate exP = some l) ∧ (∃ l, generate { exP with nt := 5 } = some l) ∧
    AllClean exP (fun _ => 0) (fun _ => 0) ∧ AllClean { exP with nt := 5 } (fun _ => 0) (fun _ => 0) :=
  ⟨⟨by decide, by decide, by decide⟩, ⟨by decide, by decide, by decide⟩, c19_total (by decide), c19_total (by decide),
    fun _ _ => ⟨rfl, fun _ _ => ⟨rfl, fun _ _ => rfl⟩⟩, fun _ _ => ⟨rfl, fun _ _ => ⟨rfl, fun _ _ => rfl⟩⟩⟩

end Verif.Graph
