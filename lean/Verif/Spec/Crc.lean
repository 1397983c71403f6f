/-!
# Specification of CRC-32C (Castagnoli), bit by bit

Reflected form: bits enter least significant first, the reflected polynomial is 0x82F63B78, the
register starts from the complement of the previous CRC and is complemented at the end.
-/
namespace Verif.Spec.Crc

/-- Reflected Castagnoli polynomial x^32 + x^28 + ... + 1 (0x1EDC6F41 bit-reversed). -/
def poly : BitVec 32 := 0x82F63B78#32

/-- Shift one message bit into the register. -/
def bitStep (crc : BitVec 32) (bit : Bool) : BitVec 32 :=
  if (crc.getLsbD 0 != bit) then (crc >>> 1) ^^^ poly else crc >>> 1

/-- The bits of a message, least significant bit of each byte first. -/
def messageBits (data : List UInt8) : List Bool :=
  data.flatMap fun b => (List.range 8).map fun i => b.toBitVec.getLsbD i

/-- CRC-32C of `data` continuing from the CRC `prev` of what came before (0 at the start). -/
def crc32c (prev : BitVec 32) (data : List UInt8) : BitVec 32 :=
  ~~~ ((messageBits data).foldl bitStep (~~~ prev))

end Verif.Spec.Crc
