import Verif.Proofs.Md5

/-!
# C51: checksums
-/
namespace Verif.Md5

/-- **C51.** For every stream of fewer than 2^64 bytes, and whatever the buffer contained, `get_checksum` returns the digest of RFC 1321 in hexadecimal notation. -/
theorem c51_checksum (buffer input : List Byte) (hb : buffer.length = 64) (hs : input.length < 2 ^ 64) : getChecksum buffer input = Spec.digest input := by
  have h := finish_spec input buffer hb hs
  have e : getChecksum buffer input =
      tohex (finish (loop input initial buffer 0 true)).a ++ tohex (finish (loop input initial buffer 0 true)).b ++ tohex (finish (loop input initial buffer 0 true)).c ++
        tohex (finish (loop input initial buffer 0 true)).d := rfl
  rw [e]
  unfold Spec.digest
  dsimp only
  rw [← h]
  simp only [tohex_spec]
  rfl

/-- the result does not depend on what the buffer contained before: no byte is read before it is written -/
theorem c51_no_stale_bytes (buffer buffer' input : List Byte) (hb : buffer.length = 64) (hb' : buffer'.length = 64) (hs : input.length < 2 ^ 64) :
    getChecksum buffer input = getChecksum buffer' input := by
  rw [c51_checksum buffer input hb hs, c51_checksum buffer' input hb' hs]

theorem hexDigit_mem (n : ℕ) (h : n < 16) : Spec.hexDigit n ∈ "0123456789abcdef".toList := by
  have : ∀ n < 16, Spec.hexDigit n ∈ "0123456789abcdef".toList := by decide
  exact this n h

/-- a checksum has 32 characters, all of them hexadecimal digits -/
theorem c51_format (buffer input : List Byte) (hb : buffer.length = 64) (hs : input.length < 2 ^ 64) :
    (getChecksum buffer input).length = 32 ∧ ∀ c ∈ getChecksum buffer input, c ∈ "0123456789abcdef".toList := by
  rw [c51_checksum buffer input hb hs]
  unfold Spec.digest
  dsimp only
  have hl : ∀ w, (Spec.hexWord w).length = 8 := fun w => rfl
  have hm : ∀ w, ∀ c ∈ Spec.hexWord w, c ∈ "0123456789abcdef".toList := by
    intro w c hc
    unfold Spec.hexWord Spec.hexByte at hc
    simp only [List.mem_append, List.mem_cons, List.not_mem_nil, or_false] at hc
    rcases hc with ((hc | hc) | hc) | hc <;> rcases hc with hc | hc <;> subst hc <;> apply hexDigit_mem <;> omega
  constructor
  · simp only [List.length_append, hl]
  · intro c hc
    simp only [List.mem_append] at hc
    rcases hc with ((hc | hc) | hc) | hc <;> exact hm _ c hc

/-- a buffer with arbitrary contents -/
def dirty : List Byte := List.replicate 64 0xaa#8

/-- the bytes of a string -/
def bytes (s : String) : List Byte := s.toList.map fun c => BitVec.ofNat 8 c.toNat

/-- the hypotheses hold for the three kinds of streams: a last block with enough space, one without, and a length that is a multiple of 64 -/
example : getChecksum dirty (bytes "abc") = Spec.digest (bytes "abc") := c51_checksum _ _ (by decide) (by decide)
example : getChecksum dirty (List.replicate 60 0x41#8) = Spec.digest (List.replicate 60 0x41#8) := c51_checksum _ _ (by decide) (by decide)
example : getChecksum dirty (List.replicate 128 0x41#8) = Spec.digest (List.replicate 128 0x41#8) := c51_checksum _ _ (by decide) (by simp)

/-- so the model gives the digests of the test suite of the RFC, and so does the specification -/
example : tohex (finish (initial, dirty, 0, true)).a ++ tohex (finish (initial, dirty, 0, true)).b ++ tohex (finish (initial, dirty, 0, true)).c ++ tohex (finish (initial, dirty, 0, true)).d =
    "d41d8cd98f00b204e9800998ecf8427e".toList := by decide +kernel

example : Spec.digest (bytes "abc") = "900150983cd24fb0d6963f7d28e17f72".toList := by
  rw [← c51_checksum dirty _ (by decide) (by decide)]
  decide +kernel

example : Spec.digest (bytes "12345678901234567890123456789012345678901234567890123456789012345678901234567890") = "57edf4a22be3c955ac49da2e2107b67a".toList := by
  rw [← c51_checksum dirty _ (by decide) (by decide)]
  decide +kernel

end Verif.Md5
