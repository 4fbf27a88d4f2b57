import Mathlib.Data.List.Basic

/-!
# MD5 checksums (src/MD5Sum.hpp)

`unsigned int` has 32 bits, `unsigned long` 64 bits, `char` 8 bits.
-/
namespace Verif.Md5

abbrev Byte := BitVec 8
abbrev Word := BitVec 32

/-- the two loops of `tohex` (MD5Sum.hpp:80-95): the character for `i` and `j` -/
def hexChar (x : Word) (i j : Nat) : Char :=
  let xshift := (x >>> ((2 * i + 1 - j) * 4)) &&& 15#32
  if xshift < 10#32 then Char.ofNat ('0'.toNat + xshift.toNat) else Char.ofNat ('a'.toNat + (xshift.toNat - 10))

/-- `tohex` (MD5Sum.hpp:76-98) -/
def tohex (x : Word) : List Char :=
  (List.range 4).foldl (fun result i => (List.range 2).foldl (fun result j => result ++ [hexChar x i j]) result) []

/-- `s` (MD5Sum.hpp:113-117) -/
def rotations : List Nat := [
  7, 12, 17, 22, 7, 12, 17, 22, 7, 12, 17, 22, 7, 12, 17, 22,
  5, 9,  14, 20, 5, 9,  14, 20, 5, 9,  14, 20, 5, 9,  14, 20,
  4, 11, 16, 23, 4, 11, 16, 23, 4, 11, 16, 23, 4, 11, 16, 23,
  6, 10, 15, 21, 6, 10, 15, 21, 6, 10, 15, 21, 6, 10, 15, 21]

/-- `K` (MD5Sum.hpp:121-132) -/
def extraTerms : List Nat := [
  0xd76aa478, 0xe8c7b756, 0x242070db, 0xc1bdceee, 0xf57c0faf, 0x4787c62a,
  0xa8304613, 0xfd469501, 0x698098d8, 0x8b44f7af, 0xffff5bb1, 0x895cd7be,
  0x6b901122, 0xfd987193, 0xa679438e, 0x49b40821, 0xf61e2562, 0xc040b340,
  0x265e5a51, 0xe9b6c7aa, 0xd62f105d, 0x02441453, 0xd8a1e681, 0xe7d3fbc8,
  0x21e1cde6, 0xc33707d6, 0xf4d50d87, 0x455a14ed, 0xa9e3e905, 0xfcefa3f8,
  0x676f02d9, 0x8d2a4c8a, 0xfffa3942, 0x8771f681, 0x6d9d6122, 0xfde5380c,
  0xa4beea44, 0x4bdecfa9, 0xf6bb4b60, 0xbebfbc70, 0x289b7ec6, 0xeaa127fa,
  0xd4ef3085, 0x04881d05, 0xd9d4d039, 0xe6db99e5, 0x1fa27cf8, 0xc4ac5665,
  0xf4292244, 0x432aff97, 0xab9423a7, 0xfc93a039, 0x655b59c3, 0x8f0ccc92,
  0xffeff47d, 0x85845dd1, 0x6fa87e4f, 0xfe2ce6e0, 0xa3014314, 0x4e0811a1,
  0xf7537e82, 0xbd3af235, 0x2ad7d2bb, 0xeb86d391]

/-- the bytes of a word are combined (MD5Sum.hpp:134-143) -/
def word (message : List Byte) (j : Nat) : Word :=
  let m : Nat → Word := fun k => (message.getD (4 * j + k) 0).setWidth 32
  let w := m 3
  let w := w <<< 8
  let w := w ||| m 2
  let w := w <<< 8
  let w := w ||| m 1
  let w := w <<< 8
  w ||| m 0

/-- the variables `A`, `B`, `C`, `D` -/
structure State where
  a : Word
  b : Word
  c : Word
  d : Word
  deriving DecidableEq

/-- the switch (MD5Sum.hpp:152-170) -/
def select (i : Nat) (s : State) : Word × Nat :=
  match i >>> 4 with
  | 0 => ((s.b &&& s.c) ||| (~~~s.b &&& s.d), i)
  | 1 => ((s.d &&& s.b) ||| (~~~s.d &&& s.c), (5 * i + 1) % 16)
  | 2 => (s.b ^^^ s.c ^^^ s.d, (3 * i + 5) % 16)
  | _ => (s.c ^^^ (s.b ||| ~~~s.d), (7 * i) % 16)

/-- one pass of the loop (MD5Sum.hpp:150-176) -/
def round (message : List Byte) (s : State) (i : Nat) : State :=
  let p := select i s
  let F := p.1 + s.a + BitVec.ofNat 32 (extraTerms.getD i 0) + word message p.2
  ⟨s.d, s.b + ((F <<< rotations.getD i 0) ||| (F >>> (32 - rotations.getD i 0))), s.b, s.c⟩

/-- `md5` (MD5Sum.hpp:109-181) -/
def md5 (message : List Byte) (s0 : State) : State :=
  let s := (List.range 64).foldl (round message) s0
  ⟨s0.a + s.a, s0.b + s.b, s0.c + s.c, s0.d + s.d⟩

/-- the inner loop that reads a block (MD5Sum.hpp:204-208): message, `message_size`, `current_index`, and the rest of the stream -/
def fill : List Byte → List Byte → Nat → Nat → List Byte × Nat × Nat × List Byte
  | [], message, size, index => (message, size, index, [])
  | c :: input, message, size, index =>
    if index < 64 then fill input (message.set index c) ((size + 1) % 2 ^ 64) (index + 1) else (message, size, index, c :: input)

/-- the loops that write zeroes (MD5Sum.hpp:220-223, 237-240, 258-261) -/
def zeroes (limit : Nat) (message : List Byte) (index : Nat) : List Byte × Nat :=
  if index < limit then zeroes limit (message.set index 0) (index + 1) else (message, index)
termination_by limit - index

/-- the loops that write the length (MD5Sum.hpp:225-230, 263-268) -/
def writeLength (size : Nat) (message : List Byte) (index : Nat) : List Byte × Nat :=
  (List.range 8).foldl (fun (s : List Byte × Nat) i => (s.1.set s.2 (BitVec.ofNat 8 ((size >>> (i * 8)) &&& 255)), s.2 + 1)) (message, index)

/-- `message_size <<= 3` -/
def bits (size : Nat) : Nat := (size <<< 3) % 2 ^ 64

theorem fill_length (input : List Byte) : ∀ (message : List Byte) (size index : Nat), (fill input message size index).2.2.2.length ≤ input.length := by
  induction input with
  | nil => intro m s i; exact Nat.le_refl _
  | cons c input ih =>
    intro m s i
    unfold fill
    split
    · exact Nat.le_trans (ih _ _ _) (Nat.le_succ _)
    · exact Nat.le_refl _

/-- the loop over the stream (MD5Sum.hpp:197-246): state, buffer, `message_size`, `special_end` -/
def loop (input : List Byte) (s : State) (message : List Byte) (size : Nat) (special : Bool) : State × List Byte × Nat × Bool :=
  match input with
  | [] => (s, message, size, special)
  | c :: rest =>
    let r := fill rest (message.set 0 c) ((size + 1) % 2 ^ 64) 1
    if r.2.2.1 < 64 then
      let m := r.1.set r.2.2.1 128#8
      let index := r.2.2.1 + 1
      if index < 57 then
        let z := zeroes 56 m index
        let l := writeLength (bits r.2.1) z.1 z.2
        loop r.2.2.2 (md5 l.1 s) l.1 0 false
      else
        let z := zeroes 64 m index
        loop r.2.2.2 (md5 z.1 s) z.1 r.2.1 false
    else loop r.2.2.2 (md5 r.1 s) r.1 r.2.1 special
termination_by input.length
decreasing_by
  all_goals
    have := fill_length rest (message.set 0 c) ((size + 1) % 2 ^ 64) 1
    simp only [List.length_cons]
    omega

/-- the first values (MD5Sum.hpp:190-194) -/
def initial : State := ⟨0x67452301#32, 0xefcdab89#32, 0x98badcfe#32, 0x10325476#32⟩

/-- `get_checksum` (MD5Sum.hpp:187-277); `message` is the contents of the buffer before it is written -/
def getChecksum (message : List Byte) (input : List Byte) : List Char :=
  let r := loop input initial message 0 true
  let s :=
    if r.2.2.2 ∨ 0 < r.2.2.1 then
      let p : List Byte × Nat := if r.2.2.2 then (r.2.1.set 0 128#8, 1) else (r.2.1, 0)
      let z := zeroes 56 p.1 p.2
      let l := writeLength (bits r.2.2.1) z.1 z.2
      md5 l.1 r.1
    else r.1
  tohex s.a ++ tohex s.b ++ tohex s.c ++ tohex s.d

end Verif.Md5
