import Verif.Proof.Crc
/-!
# CRC properties (C17, C18, C19)
-/
namespace Verif.Props.Crc
open Verif.Spec.Crc Verif.Model.Crc Verif.Proof.Crc

/-- **C17 (violated).**  The code is not CRC-32C for every buffer, alignment and previous value:
for a one byte buffer at an odd address it reads bytes after the buffer (out of bounds if there are
none) and includes them in the result; and an empty continuation gives 0 instead of the previous
value. -/
theorem C17_short_unaligned_buffer_violated :
    msCrc32c false 1 [0x61] 1 0 = none ∧
    msCrc32c false 1 [0x61, 0x62, 0x63] 1 0 = some (crc32c 0 [0x61, 0x62, 0x63]) ∧
    crc32c 0 [0x61, 0x62, 0x63] ≠ crc32c 0 [0x61] ∧
    (∀ prev, msCrc32c false 0 [] 0 prev = some 0 ∧ crc32c prev [] = prev) := by
  refine ⟨by decide +kernel, by decide +kernel, by decide +kernel, fun prev => ⟨rfl, ?_⟩⟩
  simp [crc32c, messageBits]

/-- **C17.**  For every non-empty buffer, previous CRC, host byte order and address alignment, if
the buffer reaches the next 4-byte boundary (always true on big-endian hosts, for aligned buffers
and for buffers of 3 or more bytes) then `ms_crc32c` stays inside the buffer and returns the
CRC-32C of exactly the buffer. The memory after the buffer (`rest`) has no influence.
Missing against the full claim: 1 and 2 byte buffers before a boundary, and the empty buffer. -/
theorem C17_is_crc32c_partial (bigEndian : Bool) (align : Nat) (data rest : List UInt8)
    (prev : BitVec 32) (hne : data ≠ [])
    (h : bigEndian = true ∨ align = 0 ∨ 3 ≤ data.length) :
    msCrc32c bigEndian align (data ++ rest) data.length prev = some (crc32c prev data) := by
  unfold msCrc32c
  have hl : 0 < data.length := List.length_pos_iff.2 hne
  rw [if_neg (by omega)]
  have ht : (data ++ rest).take data.length = data := by simp
  split
  · rw [noSlice_spec, ht]; simp
  · rename_i hb
    rw [sliced_spec, ht]
    · simp
    · rcases h with h | h | h
      · exact absurd h hb
      · omega
      · omega

example : msCrc32c false 3 ([0x31,0x32,0x33,0x34,0x35,0x36,0x37,0x38,0x39] ++ [1,2]) 9 0
    = some 0xE3069283#32 := by decide +kernel

/-- **C18.**  Passing the CRC of a first part as previous CRC of a second part gives the CRC of the
concatenation, for whatever address each of the three buffers has; as for C17, parts of one or two
bytes must be 4-byte aligned. -/
theorem C18_piecewise (bigEndian : Bool) (a1 a2 a3 : Nat) (x y : List UInt8) (prev : BitVec 32)
    (nx : x ≠ []) (ny : y ≠ [])
    (hx : bigEndian = true ∨ a1 = 0 ∨ 3 ≤ x.length)
    (hy : bigEndian = true ∨ a2 = 0 ∨ 3 ≤ y.length)
    (hxy : bigEndian = true ∨ a3 = 0 ∨ 3 ≤ (x ++ y).length) :
    (msCrc32c bigEndian a1 x x.length prev).bind (msCrc32c bigEndian a2 y y.length)
      = msCrc32c bigEndian a3 (x ++ y) (x ++ y).length prev := by
  have e1 := C17_is_crc32c_partial bigEndian a1 x [] prev nx hx
  have e3 := C17_is_crc32c_partial bigEndian a3 (x ++ y) [] prev (by simp [nx]) hxy
  have e2 := C17_is_crc32c_partial bigEndian a2 y [] (crc32c prev x) ny hy
  rw [List.append_nil] at e1 e2 e3
  rw [e1, e3, Option.bind_some, e2]
  rw [crc32c_fold, crc32c_fold, crc32c_fold, BitVec.not_not, List.foldl_append]

example : (msCrc32c false 1 [1,2,3,4] 4 7).bind (msCrc32c false 2 [5,6,7] 3)
    = msCrc32c false 3 [1,2,3,4,5,6,7] 7 7 := by decide +kernel

/-- **C19.**  Two buffers that agree except within a window of at most four consecutive bytes, and
really differ there, have different CRCs (same previous CRC; alignments may differ). -/
theorem C19_detects_bursts (bigEndian : Bool) (a1 a2 : Nat) (pre x y post : List UInt8)
    (prev : BitVec 32) (hxy : x.length = y.length) (h4 : x.length ≤ 4) (hne : x ≠ y)
    (h3 : 3 ≤ (pre ++ x ++ post).length) :
    msCrc32c bigEndian a1 (pre ++ x ++ post) (pre ++ x ++ post).length prev
      ≠ msCrc32c bigEndian a2 (pre ++ y ++ post) (pre ++ y ++ post).length prev := by
  have h3' : 3 ≤ (pre ++ y ++ post).length := by simp at h3 ⊢; omega
  have e1 := C17_is_crc32c_partial bigEndian a1 (pre ++ x ++ post) [] prev
    (by intro h; rw [h] at h3; simp at h3) (by omega)
  have e2 := C17_is_crc32c_partial bigEndian a2 (pre ++ y ++ post) [] prev
    (by intro h; rw [h] at h3'; simp at h3') (by omega)
  rw [List.append_nil] at e1 e2
  rw [e1, e2]
  intro h
  have h := Option.some.inj h
  rw [crc32c_fold, crc32c_fold] at h
  have h := congrArg (~~~ ·) h
  simp only [BitVec.not_not, List.foldl_append] at h
  exact hne (window_inj _ x y hxy h4 (foldl_byteStep_inj post _ _ h))

example : ([1,2,3,4] : List UInt8).length = ([1,9,9,5] : List UInt8).length
    ∧ ([1,2,3,4] : List UInt8) ≠ [1,9,9,5] := by decide

end Verif.Props.Crc
