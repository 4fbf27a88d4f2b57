import Verif.Model.Direct
import Verif.Properties.TMatrix

/-! Proofs about the stand-alone `TMatrix` class: the matrices -/
namespace Verif.Direct

open Finset Verif.Matrix Verif.TMatrix Verif.TMatrix.Spec

/-- a component to which every pass adds something -/
theorem loop_proj {σ K : Type} [AddCommMonoid K] (proj : σ → K) (f : Nat → K) {lo hi : Nat} (h : lo ≤ hi) (body : Nat → σ → σ) (s : σ)
    (hb : ∀ k s, proj (body k s) = proj s + f k) : proj (loop lo hi body s) = proj s + ∑ k ∈ Ico lo hi, f k := by
  refine loop_inv (fun q s' => proj s' = proj s + ∑ k ∈ Ico lo q, f k) h body s (by simp) ?_
  intro k s' h1 _ e
  rw [hb, e, sum_Ico_succ_top h1, add_assoc]

/-- a double loop in which the pass `(n1, n2)` only writes to cells it owns -/
theorem fill2 {σ P E : Type} (rd : σ → P → E) (inv : σ → Prop) (own : Nat → Nat → P → Prop) (good : P → E → Prop)
    {lo hi : Nat} (h : lo ≤ hi) (body : Nat → Nat → σ → σ) (s0 : σ) (h0 : inv s0)
    (hdis : ∀ a b a' b' p, lo ≤ a → a < hi → lo ≤ b → b < hi → lo ≤ a' → a' < hi → lo ≤ b' → b' < hi → own a b p → own a' b' p → a = a' ∧ b = b')
    (hinv : ∀ a b s, lo ≤ a → a < hi → lo ≤ b → b < hi → inv s → inv (body a b s))
    (hown : ∀ a b s p, lo ≤ a → a < hi → lo ≤ b → b < hi → inv s → own a b p → rd s p = rd s0 p → good p (rd (body a b s) p))
    (hkeep : ∀ a b s p, lo ≤ a → a < hi → lo ≤ b → b < hi → inv s → ¬own a b p → rd (body a b s) p = rd s p) :
    let s' := loop lo hi (fun a s => loop lo hi (fun b s => body a b s) s) s0
    inv s' ∧ ∀ a b p, lo ≤ a → a < hi → lo ≤ b → b < hi → own a b p → good p (rd s' p) := by
  intro s'
  have key : inv s' ∧ (∀ a b p, lo ≤ a → a < hi → lo ≤ b → b < hi → own a b p → good p (rd s' p))
      ∧ ∀ p, (∀ a b, lo ≤ a → a < hi → lo ≤ b → b < hi → ¬own a b p) → rd s' p = rd s0 p := by
    refine loop_inv (fun A s => inv s ∧ (∀ a b p, lo ≤ a → a < A → lo ≤ b → b < hi → own a b p → good p (rd s p))
      ∧ ∀ p, (∀ a b, lo ≤ a → a < A → lo ≤ b → b < hi → ¬own a b p) → rd s p = rd s0 p) h _ s0
      ⟨h0, fun a b p h1 h2 => absurd h2 (by omega), fun _ _ => rfl⟩ ?_
    rintro A s hA1 hA2 ⟨i1, i2, i3⟩
    have inner := loop_inv (fun B t => inv t
        ∧ (∀ b p, lo ≤ b → b < B → own A b p → good p (rd t p))
        ∧ (∀ p, (∀ b, lo ≤ b → b < B → ¬own A b p) → rd t p = rd s p)) h (fun b s => body A b s) s
      ⟨i1, fun b p h1 h2 => absurd h2 (by omega), fun _ _ => rfl⟩ (by
        rintro B t hB1 hB2 ⟨j1, j2, j3⟩
        refine ⟨hinv A B t hA1 hA2 hB1 hB2 j1, ?_, ?_⟩
        · intro b p hb1 hb2 ho
          by_cases e : b = B
          · subst e
            refine hown A b t p hA1 hA2 hB1 hB2 j1 ho ?_
            rw [j3 p fun b' hb1' hb2' ho' => ?_]
            · refine i3 p fun a' b' q1 q2 q3 q4 ho' => ?_
              have := hdis A b a' b' p hA1 hA2 hB1 hB2 q1 (by omega) q3 q4 ho ho'
              omega
            · have := hdis A b A b' p hA1 hA2 hB1 hB2 hA1 hA2 hb1' (by omega) ho ho'
              omega
          · rw [hkeep A B t p hA1 hA2 hB1 hB2 j1 fun ho' => e
              (hdis A b A B p hA1 hA2 hb1 (by omega) hA1 hA2 hB1 hB2 ho ho').2]
            exact j2 b p hb1 (by omega) ho
        · intro p hp
          rw [hkeep A B t p hA1 hA2 hB1 hB2 j1 (hp B hB1 (by omega))]
          exact j3 p fun b h1 h2 => hp b h1 (by omega))
    obtain ⟨j1, j2, j3⟩ := inner
    refine ⟨j1, ?_, ?_⟩
    · intro a b p h1 h2 h3 h4 ho
      by_cases e : a = A
      · subst e
        exact j2 b p h3 h4 ho
      · rw [j3 p fun b' q1 q2 ho' => e (hdis a b A b' p h1 (by omega) h3 h4 hA1 hA2 q1 q2 ho ho').1]
        exact i2 a b p h1 (by omega) h3 h4 ho
    · intro p hp
      rw [j3 p fun b q1 q2 => hp A b hA1 (by omega) q1 q2]
      exact i3 p fun a b q1 q2 => hp a b q1 (by omega)
  exact ⟨key.1, key.2.1⟩

section

variable {K : Type} [Field K] (im : K) (it : TMatrix.Inter K) (pt : Points K)

/-- the value `_T[m]` gets: the old value plus the product -/
theorem multAcc_spec {nm : Nat} (RgQ Q T : Mat K) (hc : 2 * nm ≤ T.cols) :
    (multAcc nm RgQ Q T).rows = T.rows ∧ (multAcc nm RgQ Q T).cols = T.cols
    ∧ ∀ r c, r < 2 * nm → c < 2 * nm → (multAcc nm RgQ Q T).get r c = T.get r c + prodVal nm RgQ Q r c := by
  have a := loop_adds1 (C := T.cols) (Nat.zero_le nm) (fun i T => loop 0 nm (fun j T => loop 0 (2 * nm) (fun k (T : Mat K) =>
    let T := T.set i j (T.get i j - RgQ.get i k * Q.get k j)
    let T := T.set (nm + i) j (T.get (nm + i) j - RgQ.get (nm + i) k * Q.get k j)
    let T := T.set i (nm + j) (T.get i (nm + j) - RgQ.get i k * Q.get k (nm + j))
    T.set (nm + i) (nm + j) (T.get (nm + i) (nm + j) - RgQ.get (nm + i) k * Q.get k (nm + j))) T) T)
    (fun i r c => ∑ j ∈ Ico 0 nm, ∑ k ∈ Ico 0 (2 * nm),
      if (r = i ∨ r = nm + i) ∧ (c = j ∨ c = nm + j) then -(RgQ.get r k * Q.get k c) else 0) T rfl (by
      intro i s _ hi hs
      refine loop_adds1 (C := T.cols) (Nat.zero_le nm) _ _ s hs ?_
      intro j s _ hj hs
      refine loop_adds1 (C := T.cols) (Nat.zero_le (2 * nm)) _ _ s hs ?_
      intro k s _ _ hs
      simp only [sub_eq_add_neg]
      refine ((((Adds.incr s _ (i := i) (j := j) (by omega)).trans
        (Adds.incr _ _ (i := nm + i) (j := j) (by simp only [incr_cols]; omega))).trans
        (Adds.incr _ _ (i := i) (j := nm + j) (by simp only [incr_cols]; omega))).trans
        (Adds.incr _ _ (i := nm + i) (j := nm + j) (by simp only [incr_cols]; omega))).congr ?_
      intro r c hcc
      by_cases h1 : r = i ∨ r = nm + i
      · by_cases h2 : c = j ∨ c = nm + j
        · rw [if_pos (show (r = i ∨ r = nm + i) ∧ (c = j ∨ c = nm + j) from ⟨h1, h2⟩)]
          have e1 : ¬(i = nm + i) := by omega
          have e2 : ¬(j = nm + j) := by omega
          have e3 : ¬(nm = 0) := by omega
          rcases h1 with rfl | rfl <;> rcases h2 with rfl | rfl <;> simp [e1, e2, e3]
        · rw [if_neg (show ¬((r = i ∨ r = nm + i) ∧ (c = j ∨ c = nm + j)) from fun h => h2 h.2), if_neg (by omega), if_neg (by omega), if_neg (by omega), if_neg (by omega)]
          simp
      · rw [if_neg (show ¬((r = i ∨ r = nm + i) ∧ (c = j ∨ c = nm + j)) from fun h => h1 h.1), if_neg (by omega), if_neg (by omega), if_neg (by omega), if_neg (by omega)]
        simp)
  refine ⟨a.rows, a.cols, ?_⟩
  intro r c hr hcc
  refine (a.get r c (by omega)).trans ?_
  congr 1
  rw [sum_eq_single (if r < nm then r else r - nm)]
  · rw [sum_eq_single (if c < nm then c else c - nm)]
    · rw [prodVal, range_eq_Ico, ← sum_neg_distrib]
      refine sum_congr rfl fun k _ => ?_
      rw [if_pos]
      constructor <;> split_ifs <;> omega
    · intro b hb hne
      rw [mem_Ico] at hb
      refine sum_eq_zero fun k _ => ?_
      rw [if_neg]
      rintro ⟨_, h⟩
      apply hne
      split_ifs <;> omega
    · intro h
      exfalso
      apply h
      rw [mem_Ico]
      split_ifs <;> omega
  · intro b hb hne
    rw [mem_Ico] at hb
    refine sum_eq_zero fun j _ => sum_eq_zero fun k _ => ?_
    rw [if_neg]
    rintro ⟨h, _⟩
    apply hne
    split_ifs <;> omega
  · intro h
    exfalso
    apply h
    rw [mem_Ico]
    split_ifs <;> omega

theorem js_zero : (0 : Js K).J11 = 0 ∧ (0 : Js K).J12 = 0 ∧ (0 : Js K).J21 = 0 ∧ (0 : Js K).J22 = 0
    ∧ (0 : Js K).R11 = 0 ∧ (0 : Js K).R12 = 0 ∧ (0 : Js K).R21 = 0 ∧ (0 : Js K).R22 = 0 := ⟨rfl, rfl, rfl, rfl, rfl, rfl, rfl, rfl⟩

/-- the integrals for `m = 0` -/
theorem js0_spec (an : Nat → Nat → K) (nmax ngauss : Nat) {n1 n2 : Nat} (h1 : 1 ≤ n1) (h1' : n1 ≤ nmax) (h2 : 1 ≤ n2) (h2' : n2 ≤ nmax) :
    let e := (js0 im it pt an nmax ngauss (Mat.new nmax nmax)).get (n1 - 1) (n2 - 1)
    let s := fun ig => if (n1 + n2) % 2 = 0 then point0 im it pt n1 n2 ig 0 else 0
    e.J12 = 2 * an (n1 - 1) (n2 - 1) * ∑ ig ∈ range ngauss, (s ig).J12
    ∧ e.J21 = 2 * an (n1 - 1) (n2 - 1) * ∑ ig ∈ range ngauss, (s ig).J21
    ∧ e.R12 = 2 * an (n1 - 1) (n2 - 1) * ∑ ig ∈ range ngauss, (s ig).R12
    ∧ e.R21 = 2 * an (n1 - 1) (n2 - 1) * ∑ ig ∈ range ngauss, (s ig).R21 := by
  intro e s
  have eq : ∀ (f : Nat → K), ∑ ig ∈ Ico 1 (ngauss + 1), f (ig - 1) = ∑ ig ∈ range ngauss, f ig := by
    intro f
    rw [sum_Ico_eq_sum_range]
    simp
  have key := fill2 (σ := Mat (Js K)) (P := Nat × Fin nmax) (E := Js K) (fun M p => M.get p.1 p.2) (fun M => M.cols = nmax)
    (fun a b p => p.1 = a - 1 ∧ (p.2 : Nat) = b - 1)
    (fun p e =>
      let s := fun ig => if (p.1 + 1 + (p.2 + 1)) % 2 = 0 then point0 im it pt (p.1 + 1) (p.2 + 1) ig 0 else 0
      e.J12 = 2 * an p.1 p.2 * ∑ ig ∈ range ngauss, (s ig).J12
      ∧ e.J21 = 2 * an p.1 p.2 * ∑ ig ∈ range ngauss, (s ig).J21
      ∧ e.R12 = 2 * an p.1 p.2 * ∑ ig ∈ range ngauss, (s ig).R12
      ∧ e.R21 = 2 * an p.1 p.2 * ∑ ig ∈ range ngauss, (s ig).R21)
    (show 1 ≤ nmax + 1 by omega)
    (fun n1 n2 M =>
      if (n1 + n2) % 2 = 0 then
        let s := loop 1 (ngauss + 1) (fun ig s => point0 im it pt n1 n2 (ig - 1) s) (0 : Js K)
        let an12 := 2 * an (n1 - 1) (n2 - 1)
        M.set (n1 - 1) (n2 - 1) { M.get (n1 - 1) (n2 - 1) with
          J12 := an12 * s.J12
          J21 := an12 * s.J21
          R12 := an12 * s.R12
          R21 := an12 * s.R21 }
      else M) (Mat.new nmax nmax) rfl
    (by intros; omega)
    (by
      intro a b M _ _ _ _ h
      dsimp only
      split_ifs
      · exact h
      · exact h)
    (by
      rintro a b M p ha ha' hb hb' hM ⟨e1, e2⟩ hz
      dsimp only at hz ⊢
      have e1' : p.1 + 1 = a := by omega
      have e2' : (p.2 : Nat) + 1 = b := by omega
      rw [e1', e2', e1, e2]
      split_ifs with hpar
      · rw [get_set M _ (by omega) (by omega), if_pos ⟨rfl, rfl⟩]
        dsimp only
        have h12 := loop_proj (fun s : Js K => s.J12) (fun ig => (point0 im it pt a b (ig - 1) 0).J12) (show 1 ≤ ngauss + 1 by omega)
          (fun ig s => point0 im it pt a b (ig - 1) s) (0 : Js K) (fun k s => by simp only [point0, js_zero, zero_add])
        have h21 := loop_proj (fun s : Js K => s.J21) (fun ig => (point0 im it pt a b (ig - 1) 0).J21) (show 1 ≤ ngauss + 1 by omega)
          (fun ig s => point0 im it pt a b (ig - 1) s) (0 : Js K) (fun k s => by simp only [point0, js_zero, zero_add])
        have g12 := loop_proj (fun s : Js K => s.R12) (fun ig => (point0 im it pt a b (ig - 1) 0).R12) (show 1 ≤ ngauss + 1 by omega)
          (fun ig s => point0 im it pt a b (ig - 1) s) (0 : Js K) (fun k s => by simp only [point0, js_zero, zero_add])
        have g21 := loop_proj (fun s : Js K => s.R21) (fun ig => (point0 im it pt a b (ig - 1) 0).R21) (show 1 ≤ ngauss + 1 by omega)
          (fun ig s => point0 im it pt a b (ig - 1) s) (0 : Js K) (fun k s => by simp only [point0, js_zero, zero_add])
        rw [h12, h21, g12, g21, eq fun ig => (point0 im it pt a b ig 0).J12, eq fun ig => (point0 im it pt a b ig 0).J21,
          eq fun ig => (point0 im it pt a b ig 0).R12, eq fun ig => (point0 im it pt a b ig 0).R21]
        simp only [js_zero, zero_add, and_self]
      · rw [← e1, ← e2, hz]
        simp [Mat.get, Mat.new, js_zero])
    (by
      rintro a b M p ha ha' hb hb' hM hno
      dsimp only
      split_ifs
      · rw [get_set M _ (by omega) (by have := p.2.2; omega), if_neg hno]
      · rfl)
  have := key.2 n1 n2 (n1 - 1, ⟨n2 - 1, by omega⟩) h1 (by omega) h2 (by omega) ⟨rfl, rfl⟩
  dsimp only at this
  rw [show n1 - 1 + 1 = n1 by omega, show n2 - 1 + 1 = n2 by omega] at this
  exact this

/-- the integrals for `m > 0` -/
theorem jsM_spec (an : Nat → Nat → K) {m : Nat} (hm : 1 ≤ m) (nmax ngauss : Nat) {n1 n2 : Nat} (h1 : m ≤ n1) (h1' : n1 ≤ nmax) (h2 : m ≤ n2) (h2' : n2 ≤ nmax) :
    let e := (jsM im it pt an m nmax ngauss (Mat.new nmax nmax)).get (n1 - 1) (n2 - 1)
    let s := fun ig => pointM im it pt m n1 n2 ig 0
    let c := 2 * an (n1 - 1) (n2 - 1)
    (e.J11 = (∑ ig ∈ range ngauss, (s ig).J11) * c ∧ e.J12 = (∑ ig ∈ range ngauss, (s ig).J12) * c
    ∧ e.J21 = (∑ ig ∈ range ngauss, (s ig).J21) * c ∧ e.J22 = (∑ ig ∈ range ngauss, (s ig).J22) * c)
    ∧ e.R11 = (∑ ig ∈ range ngauss, (s ig).R11) * c ∧ e.R12 = (∑ ig ∈ range ngauss, (s ig).R12) * c
    ∧ e.R21 = (∑ ig ∈ range ngauss, (s ig).R21) * c ∧ e.R22 = (∑ ig ∈ range ngauss, (s ig).R22) * c := by
  intro e s c
  have hstep : ∀ a b ig (s : Js K), (pointM im it pt m a b ig s).J11 = s.J11 + (pointM im it pt m a b ig 0).J11
      ∧ (pointM im it pt m a b ig s).J12 = s.J12 + (pointM im it pt m a b ig 0).J12
      ∧ (pointM im it pt m a b ig s).J21 = s.J21 + (pointM im it pt m a b ig 0).J21
      ∧ (pointM im it pt m a b ig s).J22 = s.J22 + (pointM im it pt m a b ig 0).J22
      ∧ (pointM im it pt m a b ig s).R11 = s.R11 + (pointM im it pt m a b ig 0).R11
      ∧ (pointM im it pt m a b ig s).R12 = s.R12 + (pointM im it pt m a b ig 0).R12
      ∧ (pointM im it pt m a b ig s).R21 = s.R21 + (pointM im it pt m a b ig 0).R21
      ∧ (pointM im it pt m a b ig s).R22 = s.R22 + (pointM im it pt m a b ig 0).R22 := by
    intro a b ig s
    unfold pointM
    dsimp only
    split_ifs <;> simp only [js_zero, zero_add, add_zero, and_self]
  have key := fill2 (σ := Mat (Js K)) (P := Nat × Fin nmax) (E := Js K) (fun M p => M.get p.1 p.2) (fun M => M.cols = nmax)
    (fun a b p => p.1 = a - 1 ∧ (p.2 : Nat) = b - 1)
    (fun p e =>
      let s := fun ig => pointM im it pt m (p.1 + 1) (p.2 + 1) ig 0
      let c := 2 * an p.1 p.2
      (e.J11 = (∑ ig ∈ range ngauss, (s ig).J11) * c ∧ e.J12 = (∑ ig ∈ range ngauss, (s ig).J12) * c
      ∧ e.J21 = (∑ ig ∈ range ngauss, (s ig).J21) * c ∧ e.J22 = (∑ ig ∈ range ngauss, (s ig).J22) * c)
      ∧ e.R11 = (∑ ig ∈ range ngauss, (s ig).R11) * c ∧ e.R12 = (∑ ig ∈ range ngauss, (s ig).R12) * c
      ∧ e.R21 = (∑ ig ∈ range ngauss, (s ig).R21) * c ∧ e.R22 = (∑ ig ∈ range ngauss, (s ig).R22) * c)
    (show m ≤ nmax + 1 by omega)
    (fun n1 n2 M =>
      let s := loop 0 ngauss (fun ig s => pointM im it pt m n1 n2 ig s) (0 : Js K)
      let an12 := 2 * an (n1 - 1) (n2 - 1)
      M.set (n1 - 1) (n2 - 1) ⟨s.J11 * an12, s.J12 * an12, s.J21 * an12, s.J22 * an12, s.R11 * an12, s.R12 * an12, s.R21 * an12,
        s.R22 * an12⟩) (Mat.new nmax nmax) rfl
    (by intros; omega)
    (by
      intro a b M _ _ _ _ h
      exact h)
    (by
      rintro a b M p ha ha' hb hb' hM ⟨e1, e2⟩ hz
      dsimp only at hz ⊢
      have e1' : p.1 + 1 = a := by omega
      have e2' : (p.2 : Nat) + 1 = b := by omega
      rw [e1', e2', e1, e2, get_set M _ (by omega) (by omega), if_pos ⟨rfl, rfl⟩]
      dsimp only
      have f1 := loop_proj (fun s : Js K => s.J11) (fun ig => (pointM im it pt m a b ig 0).J11) (Nat.zero_le ngauss)
        (fun ig s => pointM im it pt m a b ig s) (0 : Js K) (fun k s => (hstep a b k s).1)
      have f2 := loop_proj (fun s : Js K => s.J12) (fun ig => (pointM im it pt m a b ig 0).J12) (Nat.zero_le ngauss)
        (fun ig s => pointM im it pt m a b ig s) (0 : Js K) (fun k s => (hstep a b k s).2.1)
      have f3 := loop_proj (fun s : Js K => s.J21) (fun ig => (pointM im it pt m a b ig 0).J21) (Nat.zero_le ngauss)
        (fun ig s => pointM im it pt m a b ig s) (0 : Js K) (fun k s => (hstep a b k s).2.2.1)
      have f4 := loop_proj (fun s : Js K => s.J22) (fun ig => (pointM im it pt m a b ig 0).J22) (Nat.zero_le ngauss)
        (fun ig s => pointM im it pt m a b ig s) (0 : Js K) (fun k s => (hstep a b k s).2.2.2.1)
      have g1 := loop_proj (fun s : Js K => s.R11) (fun ig => (pointM im it pt m a b ig 0).R11) (Nat.zero_le ngauss)
        (fun ig s => pointM im it pt m a b ig s) (0 : Js K) (fun k s => (hstep a b k s).2.2.2.2.1)
      have g2 := loop_proj (fun s : Js K => s.R12) (fun ig => (pointM im it pt m a b ig 0).R12) (Nat.zero_le ngauss)
        (fun ig s => pointM im it pt m a b ig s) (0 : Js K) (fun k s => (hstep a b k s).2.2.2.2.2.1)
      have g3 := loop_proj (fun s : Js K => s.R21) (fun ig => (pointM im it pt m a b ig 0).R21) (Nat.zero_le ngauss)
        (fun ig s => pointM im it pt m a b ig s) (0 : Js K) (fun k s => (hstep a b k s).2.2.2.2.2.2.1)
      have g4 := loop_proj (fun s : Js K => s.R22) (fun ig => (pointM im it pt m a b ig 0).R22) (Nat.zero_le ngauss)
        (fun ig s => pointM im it pt m a b ig s) (0 : Js K) (fun k s => (hstep a b k s).2.2.2.2.2.2.2)
      rw [f1, f2, f3, f4, g1, g2, g3, g4]
      simp only [js_zero, zero_add, and_self, range_eq_Ico])
    (by
      rintro a b M p ha ha' hb hb' hM hno
      dsimp only
      rw [get_set M _ (by omega) (by have := p.2.2; omega), if_neg hno])
  have := key.2 n1 n2 (n1 - 1, ⟨n2 - 1, by omega⟩) h1 (by omega) h2 (by omega) ⟨rfl, rfl⟩
  dsimp only at this
  rw [show n1 - 1 + 1 = n1 by omega, show n2 - 1 + 1 = n2 by omega] at this
  exact this

/-- the four elements of `Q` and `RgQ` made of the integrals of a pair of orders -/
def blk (a b : K) (e : Js K) (i i' : Nat) : K × K :=
  if i = 0 ∧ i' = 0 then (a * (im * e.J21) + b * (-im * e.J12), a * (im * e.R21) + b * (-im * e.R12))
  else if i = 0 then (a * -e.J11 + b * -e.J22, a * -e.R11 + b * -e.R22)
  else if i' = 0 then (a * -e.J22 + b * -e.J11, a * -e.R22 + b * -e.R11)
  else (a * (-im * e.J12) + b * (im * e.J21), a * (-im * e.R12) + b * (im * e.R21))

theorem cols_set (A : Mat K) (r c : Nat) (v : K) : (A.set r c v).cols = A.cols := rfl

theorem set4_get (A : Mat K) {nm x y c : Nat} (r : Nat) (hA : A.cols = 2 * nm) (hy : y < nm) (hc : c < 2 * nm) (v0 v1 v2 v3 : K) :
    ((((A.set x y v0).set x (y + nm) v1).set (x + nm) y v2).set (x + nm) (y + nm) v3).get r c
      = if r = x + nm ∧ c = y + nm then v3 else if r = x + nm ∧ c = y then v2 else if r = x ∧ c = y + nm then v1
        else if r = x ∧ c = y then v0 else A.get r c := by
  rw [get_set _ _ (by simp only [cols_set]; omega) (by simp only [cols_set]; omega),
    get_set _ _ (by simp only [cols_set]; omega) (by simp only [cols_set]; omega),
    get_set _ _ (by simp only [cols_set]; omega) (by simp only [cols_set]; omega),
    get_set _ _ (by omega) (by omega)]

theorem set2_get (A : Mat K) {nm x y c : Nat} (r : Nat) (hA : A.cols = 2 * nm) (hy : y < nm) (hc : c < 2 * nm) (v0 v3 : K) :
    ((A.set x y v0).set (x + nm) (y + nm) v3).get r c
      = if r = x + nm ∧ c = y + nm then v3 else if r = x ∧ c = y then v0 else A.get r c := by
  rw [get_set _ _ (by simp only [cols_set]; omega) (by simp only [cols_set]; omega),
    get_set _ _ (by omega) (by omega)]

theorem two_cases {i : Nat} (h : i < 2) : i = 0 ∨ i = 1 := by omega

/-- `Q` and `RgQ` for `m > 0` -/
theorem qM_spec (a b : K) {m nmax nm : Nat} (hm : 1 ≤ m) (hmn : m ≤ nmax) (hnm : nmax + 1 - m = nm) (M : Mat (Js K)) :
    let q := qM im a b m nmax M (Mat.new (2 * nm) (2 * nm), Mat.new (2 * nm) (2 * nm))
    (q.1.cols = 2 * nm ∧ q.2.cols = 2 * nm) ∧ ∀ i i' n n', i < 2 → i' < 2 → m ≤ n → n ≤ nmax → m ≤ n' → n' ≤ nmax →
      (q.1.get (i * nm + (n - m)) (i' * nm + (n' - m)), q.2.get (i * nm + (n - m)) (i' * nm + (n' - m)))
        = blk im a b (M.get (n - 1) (n' - 1)) i i' := by
  intro q
  have key := fill2 (σ := Mat K × Mat K) (P := Nat × Fin (2 * nm)) (E := K × K)
    (fun s p => (s.1.get p.1 p.2, s.2.get p.1 p.2)) (fun s => s.1.cols = 2 * nm ∧ s.2.cols = 2 * nm)
    (fun x y p => ∃ i i', i < 2 ∧ i' < 2 ∧ p.1 = i * nm + (x - m) ∧ (p.2 : Nat) = i' * nm + (y - m))
    (fun p e => ∀ i i' n n', i < 2 → i' < 2 → m ≤ n → n ≤ nmax → m ≤ n' → n' ≤ nmax → p.1 = i * nm + (n - m) →
      (p.2 : Nat) = i' * nm + (n' - m) → e = blk im a b (M.get (n - 1) (n' - 1)) i i')
    (show m ≤ nmax + 1 by omega)
    (fun n1 n2 (s : Mat K × Mat K) =>
      let nm := nmax + 1 - m
      let k1 := n1 + 1 - m
      let kk1 := k1 + nm
      let k2' := n2 + 1 - m
      let kk2 := k2' + nm
      let e := M.get (n1 - 1) (n2 - 1)
      let this_J11 := -e.J11
      let this_RgJ11 := -e.R11
      let this_J12 := -im * e.J12
      let this_RgJ12 := -im * e.R12
      let this_J21 := im * e.J21
      let this_RgJ21 := im * e.R21
      let this_J22 := -e.J22
      let this_RgJ22 := -e.R22
      let Q := s.1.set (k1 - 1) (k2' - 1) (a * this_J21 + b * this_J12)
      let RgQ := s.2.set (k1 - 1) (k2' - 1) (a * this_RgJ21 + b * this_RgJ12)
      let Q := Q.set (k1 - 1) (kk2 - 1) (a * this_J11 + b * this_J22)
      let RgQ := RgQ.set (k1 - 1) (kk2 - 1) (a * this_RgJ11 + b * this_RgJ22)
      let Q := Q.set (kk1 - 1) (k2' - 1) (a * this_J22 + b * this_J11)
      let RgQ := RgQ.set (kk1 - 1) (k2' - 1) (a * this_RgJ22 + b * this_RgJ11)
      let Q := Q.set (kk1 - 1) (kk2 - 1) (a * this_J12 + b * this_J21)
      let RgQ := RgQ.set (kk1 - 1) (kk2 - 1) (a * this_RgJ12 + b * this_RgJ21)
      (Q, RgQ)) (Mat.new (2 * nm) (2 * nm), Mat.new (2 * nm) (2 * nm)) ⟨rfl, rfl⟩
    (by
      rintro x y x' y' p h1 h2 h3 h4 h5 h6 h7 h8 ⟨i, i', hi, hi', e1, e2⟩ ⟨l, l', hl, hl', g1, g2⟩
      have := pos_block (by omega) (by omega) (e1.symm.trans g1)
      have := pos_block (by omega) (by omega) (e2.symm.trans g2)
      omega)
    (by
      intro x y s _ _ _ _ h
      exact h)
    (by
      rintro x y s p h1 h2 h3 h4 ⟨c1, c2⟩ ⟨l, l', hl, hl', g1, g2⟩ hz i i' n n' hi hi' hn hn2 hn' hn2' e1 e2
      obtain ⟨rfl, q1⟩ := pos_block (by omega) (by omega) (e1.symm.trans g1)
      obtain ⟨rfl, q2⟩ := pos_block (by omega) (by omega) (e2.symm.trans g2)
      obtain rfl : n = x := by omega
      obtain rfl : n' = y := by omega
      clear hz
      dsimp only
      have d := p.2.2
      rw [hnm, show n + 1 - m - 1 = n - m by omega, show n + 1 - m + nm - 1 = n - m + nm by omega,
        show n' + 1 - m - 1 = n' - m by omega, show n' + 1 - m + nm - 1 = n' - m + nm by omega,
        set4_get _ _ c1 (by omega) d, set4_get _ _ c2 (by omega) d, g1, g2]
      clear g1 g2 e1 e2 q1 q2
      generalize n - m = x
      generalize n' - m = y
      have hpos : nm ≠ 0 := by omega
      rcases two_cases hi with rfl | rfl <;> rcases two_cases hi' with rfl | rfl <;>
        simp [blk, hpos, Nat.add_comm])
    (by
      rintro x y s p h1 h2 h3 h4 ⟨c1, c2⟩ hno
      dsimp only
      have d := p.2.2
      have f : ∀ i i', i < 2 → i' < 2 → ¬(p.1 = i * nm + (x - m) ∧ (p.2 : Nat) = i' * nm + (y - m)) :=
        fun i i' hi hi' e => hno ⟨i, i', hi, hi', e.1, e.2⟩
      have f00 := f 0 0 (by omega) (by omega)
      have f01 := f 0 1 (by omega) (by omega)
      have f10 := f 1 0 (by omega) (by omega)
      have f11 := f 1 1 (by omega) (by omega)
      rw [hnm, show x + 1 - m - 1 = x - m by omega, show x + 1 - m + nm - 1 = x - m + nm by omega,
        show y + 1 - m - 1 = y - m by omega, show y + 1 - m + nm - 1 = y - m + nm by omega,
        set4_get _ _ c1 (by omega) d, set4_get _ _ c2 (by omega) d]
      rw [if_neg (by omega), if_neg (by omega), if_neg (by omega), if_neg (by omega),
        if_neg (by omega), if_neg (by omega), if_neg (by omega), if_neg (by omega)])
  refine ⟨key.1, fun i i' n n' hi hi' hn hn2 hn' hn2' => ?_⟩
  exact key.2 n n' (i * nm + (n - m), ⟨i' * nm + (n' - m), block_lt hi' ⟨hn', by omega⟩⟩) hn (by omega) hn' (by omega)
    ⟨i, i', hi, hi', rfl, rfl⟩ i i' n n' hi hi' hn hn2 hn' hn2' rfl rfl

/-- `Q` and `RgQ` for `m = 0`: the off-diagonal blocks keep their zeros -/
theorem q0_spec (a b : K) {nm : Nat} (M : Mat (Js K)) :
    let q := q0 im a b nm M (Mat.new (2 * nm) (2 * nm), Mat.new (2 * nm) (2 * nm))
    (q.1.cols = 2 * nm ∧ q.2.cols = 2 * nm) ∧ ∀ i i' n n', i < 2 → i' < 2 → 1 ≤ n → n ≤ nm → 1 ≤ n' → n' ≤ nm →
      (q.1.get (i * nm + (n - 1)) (i' * nm + (n' - 1)), q.2.get (i * nm + (n - 1)) (i' * nm + (n' - 1)))
        = if i = i' then blk im a b (M.get (n - 1) (n' - 1)) i i' else (0, 0) := by
  intro q
  have key := fill2 (σ := Mat K × Mat K) (P := Nat × Fin (2 * nm)) (E := K × K)
    (fun s p => (s.1.get p.1 p.2, s.2.get p.1 p.2)) (fun s => s.1.cols = 2 * nm ∧ s.2.cols = 2 * nm)
    (fun x y p => ∃ i i', i < 2 ∧ i' < 2 ∧ p.1 = i * nm + (x - 1) ∧ (p.2 : Nat) = i' * nm + (y - 1))
    (fun p e => ∀ i i' n n', i < 2 → i' < 2 → 1 ≤ n → n ≤ nm → 1 ≤ n' → n' ≤ nm → p.1 = i * nm + (n - 1) →
      (p.2 : Nat) = i' * nm + (n' - 1) → e = if i = i' then blk im a b (M.get (n - 1) (n' - 1)) i i' else (0, 0))
    (show 1 ≤ nm + 1 by omega)
    (fun n1 n2 (s : Mat K × Mat K) =>
      let k1 := n1
      let kk1 := k1 + nm
      let k2' := n2
      let kk2 := k2' + nm
      let e := M.get (n1 - 1) (n2 - 1)
      let this_J12 := -im * e.J12
      let this_RgJ12 := -im * e.R12
      let this_J21 := im * e.J21
      let this_RgJ21 := im * e.R21
      let Q := s.1.set (k1 - 1) (k2' - 1) (a * this_J21 + b * this_J12)
      let RgQ := s.2.set (k1 - 1) (k2' - 1) (a * this_RgJ21 + b * this_RgJ12)
      let Q := Q.set (kk1 - 1) (kk2 - 1) (a * this_J12 + b * this_J21)
      let RgQ := RgQ.set (kk1 - 1) (kk2 - 1) (a * this_RgJ12 + b * this_RgJ21)
      (Q, RgQ)) (Mat.new (2 * nm) (2 * nm), Mat.new (2 * nm) (2 * nm)) ⟨rfl, rfl⟩
    (by
      rintro x y x' y' p h1 h2 h3 h4 h5 h6 h7 h8 ⟨i, i', hi, hi', e1, e2⟩ ⟨l, l', hl, hl', g1, g2⟩
      have := pos_block (by omega) (by omega) (e1.symm.trans g1)
      have := pos_block (by omega) (by omega) (e2.symm.trans g2)
      omega)
    (by
      intro x y s _ _ _ _ h
      exact h)
    (by
      rintro x y s p h1 h2 h3 h4 ⟨c1, c2⟩ ⟨l, l', hl, hl', g1, g2⟩ hz i i' n n' hi hi' hn hn2 hn' hn2' e1 e2
      obtain ⟨rfl, q1⟩ := pos_block (by omega) (by omega) (e1.symm.trans g1)
      obtain ⟨rfl, q2⟩ := pos_block (by omega) (by omega) (e2.symm.trans g2)
      obtain rfl : n = x := by omega
      obtain rfl : n' = y := by omega
      dsimp only at hz ⊢
      have d := p.2.2
      have hz' : s.1.get p.1 p.2 = 0 ∧ s.2.get p.1 p.2 = 0 := by
        rw [Prod.mk.injEq] at hz
        exact ⟨hz.1.trans rfl, hz.2.trans rfl⟩
      rw [show n + nm - 1 = n - 1 + nm by omega, show n' + nm - 1 = n' - 1 + nm by omega,
        set2_get _ _ c1 (by omega) d, set2_get _ _ c2 (by omega) d, hz'.1, hz'.2, g1, g2]
      clear g1 g2 e1 e2 q1 q2 hz hz'
      generalize n - 1 = x
      generalize n' - 1 = y
      have hpos : nm ≠ 0 := by omega
      rcases two_cases hi with rfl | rfl <;> rcases two_cases hi' with rfl | rfl <;>
        simp [blk, hpos, Nat.add_comm])
    (by
      rintro x y s p h1 h2 h3 h4 ⟨c1, c2⟩ hno
      dsimp only
      have d := p.2.2
      have f : ∀ i i', i < 2 → i' < 2 → ¬(p.1 = i * nm + (x - 1) ∧ (p.2 : Nat) = i' * nm + (y - 1)) :=
        fun i i' hi hi' e => hno ⟨i, i', hi, hi', e.1, e.2⟩
      have f00 := f 0 0 (by omega) (by omega)
      have f11 := f 1 1 (by omega) (by omega)
      rw [show x + nm - 1 = x - 1 + nm by omega, show y + nm - 1 = y - 1 + nm by omega,
        set2_get _ _ c1 (by omega) d, set2_get _ _ c2 (by omega) d]
      rw [if_neg (by omega), if_neg (by omega), if_neg (by omega), if_neg (by omega)])
  refine ⟨key.1, fun i i' n n' hi hi' hn hn2 hn' hn2' => ?_⟩
  exact key.2 n n' (i * nm + (n - 1), ⟨i' * nm + (n' - 1), block_lt hi' ⟨hn', by omega⟩⟩) hn (by omega) hn' (by omega)
    ⟨i, i', hi, hi', rfl, rfl⟩ i i' n n' hi hi' hn hn2 hn' hn2' rfl rfl

/-- the elements of `Q` and `RgQ` for `m > 0`: `i` times the sum over half of the quadrature points -/
theorem assembledM (him : im * im = -1) (cs : Consts K) (an : Nat → Nat → K) {m nmax nm ngauss : Nat}
    (han : ∀ n n', 1 ≤ n → n ≤ nmax → 1 ≤ n' → n' ≤ nmax → 2 * an (n - 1) (n' - 1) = cs.ann n n')
    (hm : 1 ≤ m) (hmn : m ≤ nmax) (hnm : nmax + 1 - m = nm)
    (hs2 : ∀ ig < ngauss, pt.s2inv ig = pt.sinv ig * pt.sinv ig) :
    let q := qM im cs.k2mr cs.k2 m nmax (jsM im it pt an m nmax ngauss (Mat.new nmax nmax)) (Mat.new (2 * nm) (2 * nm), Mat.new (2 * nm) (2 * nm))
    (q.1.cols = 2 * nm ∧ q.2.cols = 2 * nm) ∧ ∀ i i' n n', i < 2 → i' < 2 → m ≤ n → n ≤ nmax → m ≤ n' → n' ≤ nmax →
      (q.1.get (i * nm + (n - m)) (i' * nm + (n' - m)), q.2.get (i * nm + (n - m)) (i' * nm + (n' - m)))
        = (im * ∑ ig ∈ range ngauss, term im cs it pt (hank im it).1 (hank im it).2 m ig i n i' n',
          im * ∑ ig ∈ range ngauss, term im cs it pt it.j it.dj m ig i n i' n') := by
  intro q
  obtain ⟨qc, qe⟩ := qM_spec im cs.k2mr cs.k2 hm hmn hnm (jsM im it pt an m nmax ngauss (Mat.new nmax nmax))
  refine ⟨qc, fun i i' n n' hi hi' hn hn2 hn' hn2' => ?_⟩
  refine (qe i i' n n' hi hi' hn hn2 hn' hn2').trans ?_
  obtain ⟨⟨j11, j12, j21, j22⟩, r11, r12, r21, r22⟩ := jsM_spec im it pt an hm nmax ngauss hn hn2 hn' hn2'
  unfold blk
  rw [j11, j12, j21, j22, r11, r12, r21, r22, han n n' (by omega) hn2 (by omega) hn2']
  simp only [mul_sum, sum_mul, ← sum_neg_distrib, ← sum_add_distrib]
  have him2 : im ^ 2 = -1 := by rw [pow_two, him]
  have him3 : im ^ 3 = -im := by rw [pow_succ, him2, neg_one_mul]
  rcases two_cases hi with rfl | rfl <;> rcases two_cases hi' with rfl | rfl <;>
    simp only [one_ne_zero, and_true, and_false, true_and, false_and, and_self, if_true, if_false] <;>
    rw [Prod.mk.injEq] <;> constructor <;> refine sum_congr rfl fun ig hg => ?_ <;>
    rw [mem_range] at hg <;>
    by_cases hpar : (n + n') % 2 = 0 <;>
    simp only [term, pointM, hank, hpar, ne_eq, not_true, not_false_eq_true, if_true, if_false, js_zero, hs2 ig hg, Nat.cast_mul, one_ne_zero, zero_ne_one,
      and_true, and_false, true_and, false_and, and_self, zero_add, mul_zero, zero_mul, neg_zero, add_zero] <;>
    first
    | done
    | ring1
    | (ring_nf; simp only [him2, him3]; ring1)

/-- the elements of `Q` and `RgQ` for `m = 0` -/
theorem assembled0 (him : im * im = -1) (cs : Consts K) (an : Nat → Nat → K) {nm ngauss : Nat}
    (han : ∀ n n', 1 ≤ n → n ≤ nm → 1 ≤ n' → n' ≤ nm → 2 * an (n - 1) (n' - 1) = cs.ann n n') :
    let q := q0 im cs.k2mr cs.k2 nm (js0 im it pt an nm ngauss (Mat.new nm nm)) (Mat.new (2 * nm) (2 * nm), Mat.new (2 * nm) (2 * nm))
    (q.1.cols = 2 * nm ∧ q.2.cols = 2 * nm) ∧ ∀ i i' n n', i < 2 → i' < 2 → 1 ≤ n → n ≤ nm → 1 ≤ n' → n' ≤ nm →
      (q.1.get (i * nm + (n - 1)) (i' * nm + (n' - 1)), q.2.get (i * nm + (n - 1)) (i' * nm + (n' - 1)))
        = (im * ∑ ig ∈ range ngauss, term im cs it pt (hank im it).1 (hank im it).2 0 ig i n i' n',
          im * ∑ ig ∈ range ngauss, term im cs it pt it.j it.dj 0 ig i n i' n') := by
  intro q
  obtain ⟨qc, qe⟩ := q0_spec im cs.k2mr cs.k2 (js0 im it pt an nm ngauss (Mat.new nm nm))
  refine ⟨qc, fun i i' n n' hi hi' hn hn2 hn' hn2' => ?_⟩
  refine (qe i i' n n' hi hi' hn hn2 hn' hn2').trans ?_
  obtain ⟨j12, j21, r12, r21⟩ := js0_spec im it pt an nm ngauss hn hn2 hn' hn2'
  unfold blk
  rw [j12, j21, r12, r21, han n n' (by omega) hn2 (by omega) hn2']
  simp only [mul_sum, ← sum_neg_distrib, ← sum_add_distrib]
  rcases two_cases hi with rfl | rfl <;> rcases two_cases hi' with rfl | rfl <;>
    simp only [one_ne_zero, zero_ne_one, and_true, and_false, true_and, false_and, and_self, if_true, if_false] <;>
    rw [Prod.mk.injEq] <;> constructor
  all_goals first
    | refine sum_congr rfl fun ig hg => ?_
    | (symm; refine sum_eq_zero fun ig hg => ?_)
  all_goals
    by_cases hpar : (n + n') % 2 = 0 <;>
    simp only [term, point0, hank, hpar, ne_eq, not_true, not_false_eq_true, if_true, if_false, js_zero, one_ne_zero, zero_ne_one,
      and_true, and_false, true_and, false_and, and_self, zero_add, mul_zero, zero_mul, neg_zero, add_zero, Nat.cast_zero] <;>
    first
    | done
    | ring1

end

end Verif.Direct
