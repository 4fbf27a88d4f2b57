import Verif.Proofs.Md5Sine
import Mathlib.Tactic.IntervalCases

/-!
# The loops of the checksum
-/
namespace Verif.Md5

theorem append_byte (w : Word) (b : Byte) (h : w.toNat < 2 ^ 24) : ((w <<< 8) ||| b.setWidth 32).toNat = w.toNat * 256 + b.toNat := by
  have hb : b.toNat < 256 := b.isLt
  rw [BitVec.toNat_or, BitVec.toNat_shiftLeft, BitVec.toNat_setWidth, Nat.mod_eq_of_lt (show b.toNat < 2 ^ 32 by omega)]
  have e : w.toNat <<< 8 % 2 ^ 32 = w.toNat <<< 8 := Nat.mod_eq_of_lt (by rw [Nat.shiftLeft_eq]; omega)
  rw [e, ← Nat.shiftLeft_add_eq_or_of_lt (by omega), Nat.shiftLeft_eq]

theorem word_spec (message : List Byte) (j : ℕ) : word message j = Spec.X message j := by
  unfold word Spec.X Spec.word
  dsimp only
  generalize message.getD (4 * j + 3) 0 = b3
  generalize message.getD (4 * j + 2) 0 = b2
  generalize message.getD (4 * j + 1) 0 = b1
  rw [Nat.add_zero]
  generalize message.getD (4 * j) 0 = b0
  have h3 : b3.toNat < 256 := b3.isLt
  have h2 : b2.toNat < 256 := b2.isLt
  have h1 : b1.toNat < 256 := b1.isLt
  have h0 : b0.toNat < 256 := b0.isLt
  have e3 : (BitVec.setWidth 32 b3).toNat = b3.toNat := by
    rw [BitVec.toNat_setWidth, Nat.mod_eq_of_lt (by omega)]
  have e2 := append_byte (BitVec.setWidth 32 b3) b2 (by omega)
  have e1 := append_byte _ b1 (show (((BitVec.setWidth 32 b3) <<< 8) ||| b2.setWidth 32).toNat < 2 ^ 24 by omega)
  have e0 := append_byte _ b0 (show (((((BitVec.setWidth 32 b3) <<< 8) ||| b2.setWidth 32) <<< 8) ||| b1.setWidth 32).toNat < 2 ^ 24 by omega)
  apply BitVec.eq_of_toNat_eq
  rw [e0, e1, e2, e3, BitVec.toNat_ofNat, Nat.mod_eq_of_lt (by omega)]
  ring

/-- the functions of the four rounds -/
def fOf (i : ℕ) : Word → Word → Word → Word :=
  match i with
  | 0 => Spec.F
  | 1 => Spec.G
  | 2 => Spec.H
  | _ => Spec.I

/-- the index of the word -/
def kOf (i : ℕ) : ℕ :=
  match i / 16 with
  | 0 => i
  | 1 => (5 * i + 1) % 16
  | 2 => (3 * i + 5) % 16
  | _ => (7 * i) % 16

theorem select_spec (i : ℕ) (s : State) : select i s = (fOf (i / 16) s.b s.c s.d, kOf i) := by
  unfold select kOf
  rw [Nat.shiftRight_eq_div_pow, show 2 ^ 4 = 16 by rfl]
  generalize i / 16 = q
  match q with
  | 0 => rfl
  | 1 =>
    show ((s.d &&& s.b) ||| (~~~s.d &&& s.c), _) = (Spec.G _ _ _, _)
    unfold Spec.G
    rw [BitVec.and_comm s.d, BitVec.and_comm (~~~s.d)]
    rfl
  | 2 => rfl
  | _ + 3 => rfl

theorem rotations_lt : ∀ i < 64, 0 < rotations.getD i 0 ∧ rotations.getD i 0 < 32 := by decide

theorem round_spec (message : List Byte) (s : State) (i : ℕ) (hi : i < 64) :
    round message s i = ⟨s.d, Spec.operation (fOf (i / 16)) message s.a s.b s.c s.d (kOf i) (rotations.getD i 0) (i + 1), s.b, s.c⟩ := by
  unfold round Spec.operation
  rw [select_spec]
  dsimp only
  rw [word_spec, extraTerms_spec i hi, BitVec.rotateLeft_def, Nat.mod_eq_of_lt (rotations_lt i hi).2]
  have : fOf (i / 16) s.b s.c s.d + s.a + BitVec.ofNat 32 (Spec.T (i + 1)) + Spec.X message (kOf i) =
      s.a + fOf (i / 16) s.b s.c s.d + Spec.X message (kOf i) + BitVec.ofNat 32 (Spec.T (i + 1)) := by
    ac_rfl
  rw [this]

/-- the registers of the specification -/
def regs (s : State) : Spec.Registers := ⟨s.a, s.b, s.c, s.d⟩

/-- the parameters of four operations -/
def entry (q : ℕ) : (ℕ × ℕ × ℕ) × (ℕ × ℕ × ℕ) × (ℕ × ℕ × ℕ) × (ℕ × ℕ × ℕ) :=
  ((kOf (4 * q), rotations.getD (4 * q) 0, 4 * q + 1), (kOf (4 * q + 1), rotations.getD (4 * q + 1) 0, 4 * q + 2),
    (kOf (4 * q + 2), rotations.getD (4 * q + 2) 0, 4 * q + 3), (kOf (4 * q + 3), rotations.getD (4 * q + 3) 0, 4 * q + 4))

theorem four_rounds (message : List Byte) (s : State) (q : ℕ) (hq : q < 16) :
    regs ([4 * q, 4 * q + 1, 4 * q + 2, 4 * q + 3].foldl (round message) s) = Spec.quadruple (fOf (q / 4)) message (regs s) (entry q) := by
  simp only [List.foldl_cons, List.foldl_nil]
  rw [round_spec message s _ (by omega), round_spec message _ (4 * q + 1) (by omega), round_spec message _ (4 * q + 2) (by omega), round_spec message _ (4 * q + 3) (by omega)]
  rw [show 4 * q / 16 = q / 4 by omega, show (4 * q + 1) / 16 = q / 4 by omega, show (4 * q + 2) / 16 = q / 4 by omega, show (4 * q + 3) / 16 = q / 4 by omega]
  rfl

theorem rounds_fold (message : List Byte) (f : Word → Word → Word → Word) (l : List ℕ) (hl : ∀ q ∈ l, q < 16 ∧ fOf (q / 4) = f) : ∀ s : State,
    regs ((l.flatMap fun q => [4 * q, 4 * q + 1, 4 * q + 2, 4 * q + 3]).foldl (round message) s) = (l.map entry).foldl (Spec.quadruple f message) (regs s) := by
  induction l with
  | nil => intro s; rfl
  | cons q l ih =>
    intro s
    have h := hl q (List.mem_cons_self)
    rw [List.flatMap_cons, List.foldl_append, ih (fun q' h' => hl q' (List.mem_cons_of_mem _ h')), four_rounds message s q h.1, h.2]
    rfl

theorem md5_spec (message : List Byte) (s : State) : regs (md5 message s) = Spec.processBlock message (regs s) := by
  have hr : List.range 64 = ([0, 1, 2, 3].flatMap fun q => [4 * q, 4 * q + 1, 4 * q + 2, 4 * q + 3]) ++ ([4, 5, 6, 7].flatMap fun q => [4 * q, 4 * q + 1, 4 * q + 2, 4 * q + 3]) ++
      ([8, 9, 10, 11].flatMap fun q => [4 * q, 4 * q + 1, 4 * q + 2, 4 * q + 3]) ++ ([12, 13, 14, 15].flatMap fun q => [4 * q, 4 * q + 1, 4 * q + 2, 4 * q + 3]) := by decide
  have t1 : [0, 1, 2, 3].map entry = Spec.round1 := by decide
  have t2 : [4, 5, 6, 7].map entry = Spec.round2 := by decide
  have t3 : [8, 9, 10, 11].map entry = Spec.round3 := by decide
  have t4 : [12, 13, 14, 15].map entry = Spec.round4 := by decide
  have key : regs ((List.range 64).foldl (round message) s) = Spec.round4.foldl (Spec.quadruple Spec.I message) (Spec.round3.foldl (Spec.quadruple Spec.H message)
      (Spec.round2.foldl (Spec.quadruple Spec.G message) (Spec.round1.foldl (Spec.quadruple Spec.F message) (regs s)))) := by
    rw [hr, List.foldl_append, List.foldl_append, List.foldl_append, rounds_fold message Spec.I, rounds_fold message Spec.H, rounds_fold message Spec.G, rounds_fold message Spec.F, t1, t2, t3, t4]
    all_goals
      intro q hq
      simp only [List.mem_cons, List.not_mem_nil, or_false] at hq
      rcases hq with h | h | h | h <;> subst h <;> exact ⟨by decide, rfl⟩
  unfold md5 Spec.processBlock
  dsimp only
  rw [← key]
  unfold regs
  dsimp only
  rw [BitVec.add_comm s.a, BitVec.add_comm s.b, BitVec.add_comm s.c, BitVec.add_comm s.d]

/-- the first `index` bytes of the buffer are `w` -/
def Wrote (message : List Byte) (index : ℕ) (w : List Byte) : Prop := message.length = 64 ∧ w.length = index ∧ message.take index = w

theorem wrote_zero {m : List Byte} (h : m.length = 64) : Wrote m 0 [] := ⟨h, rfl, rfl⟩

theorem wrote_set {m : List Byte} {i : ℕ} {w : List Byte} (h : Wrote m i w) (hi : i < 64) (x : Byte) : Wrote (m.set i x) (i + 1) (w ++ [x]) := by
  obtain ⟨h1, h2, h3⟩ := h
  refine ⟨by simp [h1], by simp [h2], ?_⟩
  rw [List.take_add_one, List.take_set_of_le (le_refl _), h3, List.getElem?_set_self (by omega)]
  rfl

theorem wrote_full {m w : List Byte} (h : Wrote m 64 w) : m = w := by
  rw [← h.2.2, List.take_of_length_le (by rw [h.1])]

theorem fill_spec (input : List Byte) : ∀ (m : List Byte) (size i : ℕ) (w : List Byte), Wrote m i w → i ≤ 64 → size + input.length < 2 ^ 64 →
    Wrote (fill input m size i).1 (min 64 (i + input.length)) (w ++ input.take (64 - i)) ∧ (fill input m size i).2.1 = size + min (64 - i) input.length ∧
      (fill input m size i).2.2.1 = min 64 (i + input.length) ∧ (fill input m size i).2.2.2 = input.drop (64 - i) := by
  induction input with
  | nil =>
    intro m size i w h hi hs
    unfold fill
    refine ⟨?_, by simp, by simp; omega, by simp⟩
    rw [List.take_nil, List.append_nil]
    simpa [Nat.min_eq_right hi] using h
  | cons c input ih =>
    intro m size i w h hi hs
    rw [List.length_cons] at hs
    unfold fill
    by_cases hi' : i < 64
    · rw [if_pos hi', Nat.mod_eq_of_lt (by omega)]
      obtain ⟨a, b, d, e⟩ := ih (m.set i c) (size + 1) (i + 1) (w ++ [c]) (wrote_set h hi' c) (by omega) (by omega)
      obtain ⟨k, hk⟩ : ∃ k, 64 - i = k + 1 := ⟨63 - i, by omega⟩
      have hk' : 64 - (i + 1) = k := by omega
      rw [hk'] at a b e
      rw [hk, List.length_cons, List.take_succ_cons, List.drop_succ_cons]
      refine ⟨?_, by rw [b]; omega, by rw [d]; omega, e⟩
      have : min 64 (i + 1 + input.length) = min 64 (i + (input.length + 1)) := by omega
      rw [this] at a
      simpa using a
    · rw [if_neg hi']
      have : i = 64 := by omega
      subst this
      refine ⟨?_, by simp, by simp, by simp⟩
      simpa using h

theorem zeroes_spec (limit : ℕ) (hl : limit ≤ 64) : ∀ (k : ℕ) (m : List Byte) (i : ℕ) (w : List Byte), i + k = limit → Wrote m i w →
    Wrote (zeroes limit m i).1 limit (w ++ List.replicate k 0#8) ∧ (zeroes limit m i).2 = limit := by
  intro k
  induction k with
  | zero =>
    intro m i w hk h
    rw [zeroes, if_neg (by omega)]
    have : i = limit := by omega
    subst this
    simpa using h
  | succ k ih =>
    intro m i w hk h
    rw [zeroes, if_pos (by omega)]
    have := ih (m.set i 0) (i + 1) (w ++ [0#8]) (by omega) (wrote_set h (by omega) 0)
    rw [List.append_assoc] at this
    exact this

/-- the eight bytes of the length -/
def sizeBytes (size : ℕ) : List Byte := (List.range 8).map fun i => BitVec.ofNat 8 ((size >>> (i * 8)) &&& 255)

theorem writeLength_spec (size : ℕ) (m w : List Byte) (h : Wrote m 56 w) : (writeLength size m 56).1 = w ++ sizeBytes size := by
  have key : ∀ (n : ℕ), n ≤ 8 → ∀ s, s = (List.range n).foldl (fun (s : List Byte × Nat) i => (s.1.set s.2 (BitVec.ofNat 8 ((size >>> (i * 8)) &&& 255)), s.2 + 1)) (m, 56) →
      s.2 = 56 + n ∧ Wrote s.1 (56 + n) (w ++ (List.range n).map fun i => BitVec.ofNat 8 ((size >>> (i * 8)) &&& 255)) := by
    intro n
    induction n with
    | zero => intro _ s hs; subst hs; exact ⟨rfl, by simpa using h⟩
    | succ n ih =>
      intro hn s hs
      obtain ⟨a, b⟩ := ih (by omega) _ rfl
      rw [List.range_succ, List.foldl_append] at hs
      subst hs
      simp only [List.foldl_cons, List.foldl_nil]
      rw [a]
      refine ⟨by omega, ?_⟩
      rw [List.range_succ, List.map_append, ← List.append_assoc]
      exact wrote_set b (by omega) _
  exact wrote_full (key 8 (le_refl _) _ rfl).2

theorem sizeBytes_spec (message : List Byte) (L : ℕ) (h : message.length = L) : sizeBytes (bits L) = Spec.lengthBytes message := by
  unfold sizeBytes Spec.lengthBytes bits
  rw [h]
  apply List.map_congr_left
  intro i hi
  rw [List.mem_range] at hi
  apply BitVec.eq_of_toNat_eq
  rw [BitVec.toNat_ofNat, BitVec.toNat_ofNat, Nat.shiftRight_eq_div_pow, Nat.shiftLeft_eq, show 255 = 2 ^ 8 - 1 by rfl, Nat.and_two_pow_sub_one_eq_mod]
  interval_cases i <;> norm_num <;> omega

/-- what follows a message of length `L` -/
def tail (L : ℕ) : List Byte := [0x80#8] ++ List.replicate ((119 - L % 64) % 64) 0#8 ++ sizeBytes (bits L)

/-- the last part of `getChecksum` -/
def finish (r : State × List Byte × ℕ × Bool) : State :=
  if r.2.2.2 ∨ 0 < r.2.2.1 then
    let p : List Byte × Nat := if r.2.2.2 then (r.2.1.set 0 128#8, 1) else (r.2.1, 0)
    let z := zeroes 56 p.1 p.2
    let l := writeLength (bits r.2.2.1) z.1 z.2
    md5 l.1 r.1
  else r.1

theorem processBlocks_nil (r : Spec.Registers) : Spec.processBlocks [] r = r := by
  rw [Spec.processBlocks, if_pos (by simp)]

theorem processBlocks_block (b rest : List Byte) (hb : b.length = 64) (r : Spec.Registers) :
    Spec.processBlocks (b ++ rest) r = Spec.processBlocks rest (Spec.processBlock b r) := by
  rw [Spec.processBlocks, if_neg (by rw [List.length_append]; omega), List.drop_left' hb, List.take_left' hb]

theorem one_block (b : List Byte) (hb : b.length = 64) (r : Spec.Registers) : Spec.processBlock b r = Spec.processBlocks b r := by
  have := processBlocks_block b [] hb r
  rw [List.append_nil, processBlocks_nil] at this
  exact this.symm

theorem sizeBytes_length (n : ℕ) : (sizeBytes n).length = 8 := by simp [sizeBytes]

theorem loop_nil (s : State) (m : List Byte) (size : ℕ) (special : Bool) : loop [] s m size special = (s, m, size, special) := by
  rw [loop]

theorem loop_spec (k : ℕ) : ∀ (input : List Byte) (s : State) (m : List Byte) (n : ℕ), input.length ≤ k → m.length = 64 → n % 64 = 0 → n + input.length < 2 ^ 64 →
    regs (finish (loop input s m n true)) = Spec.processBlocks (input ++ tail (n + input.length)) (regs s) := by
  induction k using Nat.strong_induction_on with
  | _ k ih =>
    intro input s m n hk hm hn hs
    match input with
    | [] =>
      rw [loop_nil]
      unfold finish
      rw [if_pos (Or.inl rfl)]
      dsimp only
      rw [if_pos rfl]
      dsimp only
      have w := wrote_set (wrote_zero hm) (by norm_num) 128#8
      obtain ⟨z1, z2⟩ := zeroes_spec 56 (by norm_num) 55 _ _ _ (by norm_num) w
      rw [z2, writeLength_spec _ _ _ z1, md5_spec]
      have e : tail (n + ([] : List Byte).length) = ([] ++ [128#8] ++ List.replicate 55 0#8) ++ sizeBytes (bits n) := by
        unfold tail
        rw [List.length_nil, Nat.add_zero, hn]
        rfl
      rw [e, ← one_block _ (by simp [sizeBytes_length])]
      rfl
    | c :: rest =>
      rw [List.length_cons] at hs hk
      have w := wrote_set (wrote_zero hm) (by norm_num) c
      obtain ⟨f1, f2, f3, f4⟩ := fill_spec rest (m.set 0 c) (n + 1) 1 _ w (by norm_num) (by omega)
      rw [loop, Nat.mod_eq_of_lt (show n + 1 < 2 ^ 64 by omega)]
      dsimp only
      generalize fill rest (m.set 0 c) (n + 1) 1 = r at f1 f2 f3 f4 ⊢
      by_cases hlt : rest.length < 63
      · have i3 : r.2.2.1 = rest.length + 1 := by rw [f3]; omega
        have i2 : r.2.1 = n + (rest.length + 1) := by rw [f2]; omega
        have i4 : r.2.2.2 = [] := by rw [f4, List.drop_of_length_le (by omega)]
        rw [List.take_of_length_le (by omega), show min 64 (1 + rest.length) = rest.length + 1 by omega] at f1
        rw [if_pos (show r.2.2.1 < 64 by omega), i3, i4, i2]
        have w1 := wrote_set f1 (by omega) 128#8
        by_cases h57 : rest.length + 1 + 1 < 57
        · rw [if_pos h57]
          obtain ⟨z1, z2⟩ := zeroes_spec 56 (by norm_num) (54 - rest.length) _ _ _ (by omega) w1
          rw [z2, writeLength_spec _ _ _ z1, loop_nil]
          unfold finish
          rw [if_neg (by simp), md5_spec, List.length_cons]
          have e : c :: rest ++ tail (n + (rest.length + 1)) = ([] ++ [c] ++ rest ++ [128#8] ++ List.replicate (54 - rest.length) 0#8) ++ sizeBytes (bits (n + (rest.length + 1))) := by
            unfold tail
            rw [show (119 - (n + (rest.length + 1)) % 64) % 64 = 54 - rest.length by omega]
            simp
          rw [e]
          rw [← one_block _ (by simp [sizeBytes_length]; omega)]
        · rw [if_neg h57]
          obtain ⟨z1, z2⟩ := zeroes_spec 64 (by norm_num) (62 - rest.length) _ _ _ (by omega) w1
          rw [loop_nil]
          unfold finish
          rw [if_pos (Or.inr (by dsimp only; omega))]
          dsimp only
          rw [if_neg (by simp)]
          dsimp only
          obtain ⟨y1, y2⟩ := zeroes_spec 56 (by norm_num) 56 _ _ _ (by norm_num) (wrote_zero z1.1)
          rw [y2, writeLength_spec _ _ _ y1, md5_spec, md5_spec, wrote_full z1, List.length_cons]
          have e : c :: rest ++ tail (n + (rest.length + 1)) = ([] ++ [c] ++ rest ++ [128#8] ++ List.replicate (62 - rest.length) 0#8) ++
              (([] ++ List.replicate 56 0#8 ++ sizeBytes (bits (n + (rest.length + 1)))) ++ []) := by
            unfold tail
            rw [show (119 - (n + (rest.length + 1)) % 64) % 64 = (62 - rest.length) + 56 by omega, List.replicate_add]
            simp
          rw [e, processBlocks_block _ _ (by simp; omega), processBlocks_block _ _ (by simp [sizeBytes_length]), processBlocks_nil]
      · rw [show min 64 (1 + rest.length) = 64 by omega] at f1 f3
        rw [if_neg (show ¬ r.2.2.1 < 64 by omega), f4]
        have i2 : r.2.1 = n + 64 := by rw [f2]; omega
        rw [i2, ih (k - 1) (by omega) _ _ _ _ (by rw [List.length_drop]; omega) f1.1 (by omega) (by rw [List.length_drop]; omega), md5_spec, wrote_full f1, ← processBlocks_block]
        · rw [List.length_drop, List.length_cons, show n + 64 + (rest.length - (64 - 1)) = n + (rest.length + 1) by omega]
          congr 1
          rw [← List.append_assoc]
          congr 1
          rw [List.append_assoc, List.take_append_drop]
          rfl
        · rw [List.length_append, List.length_take]
          simp
          omega

theorem finish_spec (input : List Byte) (m : List Byte) (hm : m.length = 64) (hs : input.length < 2 ^ 64) :
    regs (finish (loop input initial m 0 true)) = Spec.processBlocks (Spec.padded input) Spec.start := by
  rw [loop_spec _ input initial m 0 (le_refl _) hm rfl (by omega)]
  have h0 : regs initial = Spec.start := rfl
  rw [h0, Nat.zero_add]
  unfold tail Spec.padded
  rw [sizeBytes_spec input _ rfl]
  simp only [List.append_assoc]

theorem digit_spec : ∀ n < 16, (if (BitVec.ofNat 32 n) < 10#32 then Char.ofNat ('0'.toNat + n) else Char.ofNat ('a'.toNat + (n - 10))) = Spec.hexDigit n := by decide

theorem hexChar_spec (x : Word) (i j : ℕ) : hexChar x i j = Spec.hexDigit (x.toNat / 2 ^ ((2 * i + 1 - j) * 4) % 16) := by
  unfold hexChar
  dsimp only
  have e : ((x >>> ((2 * i + 1 - j) * 4)) &&& 15#32).toNat = x.toNat / 2 ^ ((2 * i + 1 - j) * 4) % 16 := by
    rw [BitVec.toNat_and, BitVec.toNat_ushiftRight, Nat.shiftRight_eq_div_pow]
    exact Nat.and_two_pow_sub_one_eq_mod _ 4
  have hlt : x.toNat / 2 ^ ((2 * i + 1 - j) * 4) % 16 < 16 := Nat.mod_lt _ (by norm_num)
  rw [← digit_spec _ hlt]
  generalize ((x >>> ((2 * i + 1 - j) * 4)) &&& 15#32) = y at e ⊢
  rw [← e, BitVec.ofNat_toNat, BitVec.setWidth_eq]

theorem tohex_spec (x : Word) : tohex x = Spec.hexWord x := by
  have : tohex x = [hexChar x 0 0, hexChar x 0 1, hexChar x 1 0, hexChar x 1 1, hexChar x 2 0, hexChar x 2 1, hexChar x 3 0, hexChar x 3 1] := rfl
  rw [this]
  simp only [hexChar_spec]
  unfold Spec.hexWord Spec.hexByte
  generalize x.toNat = n
  have h : ∀ a b c d e f g h : ℕ, a = n % 256 / 16 → b = n % 256 % 16 → c = n / 256 % 256 / 16 → d = n / 256 % 256 % 16 → e = n / 65536 % 256 / 16 → f = n / 65536 % 256 % 16 →
      g = n / 16777216 % 256 / 16 → h = n / 16777216 % 256 % 16 →
      [Spec.hexDigit a, Spec.hexDigit b, Spec.hexDigit c, Spec.hexDigit d, Spec.hexDigit e, Spec.hexDigit f, Spec.hexDigit g, Spec.hexDigit h] =
      [Spec.hexDigit (n % 256 / 16), Spec.hexDigit (n % 256 % 16)] ++ [Spec.hexDigit (n / 256 % 256 / 16), Spec.hexDigit (n / 256 % 256 % 16)] ++
      [Spec.hexDigit (n / 65536 % 256 / 16), Spec.hexDigit (n / 65536 % 256 % 16)] ++ [Spec.hexDigit (n / 16777216 % 256 / 16), Spec.hexDigit (n / 16777216 % 256 % 16)] := by
    intro a b c d e f g h h1 h2 h3 h4 h5 h6 h7 h8
    subst h1 h2 h3 h4 h5 h6 h7 h8
    rfl
  apply h <;> omega

end Verif.Md5
