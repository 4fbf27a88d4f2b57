import Mathlib.Analysis.SpecialFunctions.Trigonometric.Basic
import Mathlib.Data.List.Basic

/-!
# RFC 1321: the MD5 message-digest algorithm
-/
namespace Verif.Md5.Spec

abbrev Byte := BitVec 8
abbrev Word := BitVec 32

/-- 3.4: the auxiliary functions -/
def F (x y z : Word) : Word := (x &&& y) ||| (~~~x &&& z)
def G (x y z : Word) : Word := (x &&& z) ||| (y &&& ~~~z)
def H (x y z : Word) : Word := x ^^^ y ^^^ z
def I (x y z : Word) : Word := y ^^^ (x ||| ~~~z)

/-- 3.4: `T[i]` is the integer part of 4294967296 times abs(sin(i)) -/
noncomputable def T (i : Nat) : Nat := ⌊4294967296 * |Real.sin i|⌋₊

/-- 2: a sequence of four bytes is a word, low-order byte first -/
def word (b0 b1 b2 b3 : Byte) : Word := BitVec.ofNat 32 (b0.toNat + 256 * b1.toNat + 65536 * b2.toNat + 16777216 * b3.toNat)

/-- the `k`-th word of a block of 64 bytes -/
def X (block : List Byte) (k : Nat) : Word :=
  word (block.getD (4 * k) 0) (block.getD (4 * k + 1) 0) (block.getD (4 * k + 2) 0) (block.getD (4 * k + 3) 0)

/-- the four registers -/
structure Registers where
  A : Word
  B : Word
  C : Word
  D : Word

/-- 3.4: `a = b + ((a + f(b,c,d) + X[k] + T[i]) <<< s)` -/
noncomputable def operation (f : Word → Word → Word → Word) (block : List Byte) (a b c d : Word) (k s i : Nat) : Word :=
  b + (a + f b c d + X block k + BitVec.ofNat 32 (T i)).rotateLeft s

/-- 3.4: `[ABCD k s i] [DABC k s i] [CDAB k s i] [BCDA k s i]` -/
noncomputable def quadruple (f : Word → Word → Word → Word) (block : List Byte) (r : Registers)
    (o : (Nat × Nat × Nat) × (Nat × Nat × Nat) × (Nat × Nat × Nat) × (Nat × Nat × Nat)) : Registers :=
  let a := operation f block r.A r.B r.C r.D o.1.1 o.1.2.1 o.1.2.2
  let d := operation f block r.D a r.B r.C o.2.1.1 o.2.1.2.1 o.2.1.2.2
  let c := operation f block r.C d a r.B o.2.2.1.1 o.2.2.1.2.1 o.2.2.1.2.2
  let b := operation f block r.B c d a o.2.2.2.1 o.2.2.2.2.1 o.2.2.2.2.2
  ⟨a, b, c, d⟩

/-- 3.4: the sixteen operations of round 1 -/
def round1 : List ((Nat × Nat × Nat) × (Nat × Nat × Nat) × (Nat × Nat × Nat) × (Nat × Nat × Nat)) := [
  ((0, 7, 1), (1, 12, 2), (2, 17, 3), (3, 22, 4)),
  ((4, 7, 5), (5, 12, 6), (6, 17, 7), (7, 22, 8)),
  ((8, 7, 9), (9, 12, 10), (10, 17, 11), (11, 22, 12)),
  ((12, 7, 13), (13, 12, 14), (14, 17, 15), (15, 22, 16))]

/-- round 2 -/
def round2 : List ((Nat × Nat × Nat) × (Nat × Nat × Nat) × (Nat × Nat × Nat) × (Nat × Nat × Nat)) := [
  ((1, 5, 17), (6, 9, 18), (11, 14, 19), (0, 20, 20)),
  ((5, 5, 21), (10, 9, 22), (15, 14, 23), (4, 20, 24)),
  ((9, 5, 25), (14, 9, 26), (3, 14, 27), (8, 20, 28)),
  ((13, 5, 29), (2, 9, 30), (7, 14, 31), (12, 20, 32))]

/-- round 3 -/
def round3 : List ((Nat × Nat × Nat) × (Nat × Nat × Nat) × (Nat × Nat × Nat) × (Nat × Nat × Nat)) := [
  ((5, 4, 33), (8, 11, 34), (11, 16, 35), (14, 23, 36)),
  ((1, 4, 37), (4, 11, 38), (7, 16, 39), (10, 23, 40)),
  ((13, 4, 41), (0, 11, 42), (3, 16, 43), (6, 23, 44)),
  ((9, 4, 45), (12, 11, 46), (15, 16, 47), (2, 23, 48))]

/-- round 4 -/
def round4 : List ((Nat × Nat × Nat) × (Nat × Nat × Nat) × (Nat × Nat × Nat) × (Nat × Nat × Nat)) := [
  ((0, 6, 49), (7, 10, 50), (14, 15, 51), (5, 21, 52)),
  ((12, 6, 53), (3, 10, 54), (10, 15, 55), (1, 21, 56)),
  ((8, 6, 57), (15, 10, 58), (6, 15, 59), (13, 21, 60)),
  ((4, 6, 61), (11, 10, 62), (2, 15, 63), (9, 21, 64))]

/-- 3.4: a block of 16 words -/
noncomputable def processBlock (block : List Byte) (r : Registers) : Registers :=
  let x := round1.foldl (quadruple F block) r
  let x := round2.foldl (quadruple G block) x
  let x := round3.foldl (quadruple H block) x
  let x := round4.foldl (quadruple I block) x
  ⟨x.A + r.A, x.B + r.B, x.C + r.C, x.D + r.D⟩

/-- 3.4: all blocks of 64 bytes -/
noncomputable def processBlocks (message : List Byte) (r : Registers) : Registers :=
  if message.length < 64 then r else processBlocks (message.drop 64) (processBlock (message.take 64) r)
termination_by message.length
decreasing_by
  rw [List.length_drop]
  omega

/-- 3.2: the 64-bit representation of the length in bits, low-order byte first (of larger lengths the low-order 64 bits) -/
def lengthBytes (message : List Byte) : List Byte := (List.range 8).map fun i => BitVec.ofNat 8 (8 * message.length / 256 ^ i)

/-- 3.1, 3.2: a single 1 bit, as few 0 bits as needed, and the length -/
def padded (message : List Byte) : List Byte :=
  message ++ [0x80#8] ++ List.replicate ((119 - message.length % 64) % 64) 0#8 ++ lengthBytes message

/-- 3.3: the first values: the bytes 01 23 45 67, 89 ab cd ef, fe dc ba 98, 76 54 32 10 -/
def start : Registers := ⟨word 0x01 0x23 0x45 0x67, word 0x89 0xab 0xcd 0xef, word 0xfe 0xdc 0xba 0x98, word 0x76 0x54 0x32 0x10⟩

/-- a hexadecimal digit -/
def hexDigit (n : Nat) : Char := "0123456789abcdef".toList.getD n '?'

/-- a byte in hexadecimal notation -/
def hexByte (n : Nat) : List Char := [hexDigit (n / 16), hexDigit (n % 16)]

/-- a word in hexadecimal notation, low-order byte first -/
def hexWord (w : Word) : List Char :=
  hexByte (w.toNat % 256) ++ hexByte (w.toNat / 256 % 256) ++ hexByte (w.toNat / 65536 % 256) ++ hexByte (w.toNat / 16777216 % 256)

/-- 3.5: the message digest, in hexadecimal notation -/
noncomputable def digest (message : List Byte) : List Char :=
  let r := processBlocks (padded message) start
  hexWord r.A ++ hexWord r.B ++ hexWord r.C ++ hexWord r.D

end Verif.Md5.Spec
