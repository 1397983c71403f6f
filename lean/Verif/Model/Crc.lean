import Verif.Model.CrcTable
/-!
# Model of the CRC computation (libmseed/crc32c.c)

`mem` is the readable memory starting at the `input` pointer; a read beyond it is `none`.
`align` is the address of `input` modulo 4.  Words are loaded little-endian (the sliced code only
runs on little-endian hosts, crc32c.c:405-408).
-/
namespace Verif.Model.Crc

/-- `(*table)[k][i]`, crc32c.c:31-304. -/
def tab (k : Nat) (i : BitVec 32) : BitVec 32 :=
  BitVec.ofNat 32 (((crcTable.getD k []).getD i.toNat 0))

/-- A byte promoted to `uint32_t`. -/
def zext (b : UInt8) : BitVec 32 := b.toBitVec.setWidth 32

/-- `*current` for a little-endian `const uint32_t *`. -/
def le32 (b0 b1 b2 b3 : UInt8) : BitVec 32 :=
  zext b0 ||| (zext b1 <<< 8) ||| (zext b2 <<< 16) ||| (zext b3 <<< 24)

/-- crc32c.c:307-313 `s_crc_generic_sb1`; `n` is the (non-negative part of the) length. -/
def sb1 : Nat → List UInt8 → BitVec 32 → Option (BitVec 32)
  | 0, _, crc => some crc
  | _ + 1, [], _ => none
  | n + 1, b :: m, crc => sb1 n m ((crc >>> 8) ^^^ tab 0 ((crc &&& 0xff#32) ^^^ zext b))

/-- crc32c.c:344-357 `s_crc_generic_sb4`. -/
def sb4 : Nat → List UInt8 → BitVec 32 → Option (BitVec 32)
  | n + 4, b0 :: b1 :: b2 :: b3 :: m, crc =>
    let c := crc ^^^ le32 b0 b1 b2 b3
    sb4 n m (tab 3 (c &&& 0xff#32) ^^^ tab 2 ((c >>> 8) &&& 0xff#32)
      ^^^ tab 1 ((c >>> 16) &&& 0xff#32) ^^^ tab 0 (c >>> 24))
  | n, m, crc => sb1 n m crc

/-- crc32c.c:360-376 `s_crc_generic_sb8`. -/
def sb8 : Nat → List UInt8 → BitVec 32 → Option (BitVec 32)
  | n + 8, b0 :: b1 :: b2 :: b3 :: b4 :: b5 :: b6 :: b7 :: m, crc =>
    let c1 := le32 b0 b1 b2 b3 ^^^ crc
    let c2 := le32 b4 b5 b6 b7
    let t1 := tab 7 (c1 &&& 0xff#32) ^^^ tab 6 ((c1 >>> 8) &&& 0xff#32)
      ^^^ tab 5 ((c1 >>> 16) &&& 0xff#32) ^^^ tab 4 ((c1 >>> 24) &&& 0xff#32)
    let t2 := tab 3 (c2 &&& 0xff#32) ^^^ tab 2 ((c2 >>> 8) &&& 0xff#32)
      ^^^ tab 1 ((c2 >>> 16) &&& 0xff#32) ^^^ tab 0 ((c2 >>> 24) &&& 0xff#32)
    sb8 n m (t1 ^^^ t2)
  | n, m, crc => sb4 n m crc

/-- crc32c.c:318-341 `s_crc_generic_align`: new `(input, length, crc)`.  `remaining` is a `size_t`,
so `remaining > 0` only means `length ≠ leading` (a negative difference wraps to a huge value). -/
def alignStep (align : Nat) (mem : List UInt8) (length : Int) (crc : BitVec 32) :
    Option (List UInt8 × Int × BitVec 32) :=
  let leading := (4 - align) % 4
  if leading ≠ 0 ∧ length ≠ leading then
    (sb1 leading mem crc).map fun crc => (mem.drop leading, length - leading, crc)
  else some (mem, length, crc)

/-- crc32c.c:379-381 `s_crc32c_no_slice`. -/
def noSlice (mem : List UInt8) (length : Int) (prev : BitVec 32) : Option (BitVec 32) :=
  (sb1 length.toNat mem (~~~ prev)).map (~~~ ·)

/-- crc32c.c:384-387 `s_crc32c_sb8`. -/
def sliced (align : Nat) (mem : List UInt8) (length : Int) (prev : BitVec 32) :
    Option (BitVec 32) :=
  (alignStep align mem length (~~~ prev)).bind fun (mem, length, crc) =>
    (sb8 length.toNat mem crc).map (~~~ ·)

/-- crc32c.c:400-410 `ms_crc32c` with a non-null `input`. -/
def msCrc32c (bigEndian : Bool) (align : Nat) (mem : List UInt8) (length : Int)
    (prev : BitVec 32) : Option (BitVec 32) :=
  if length ≤ 0 then some 0#32
  else if bigEndian then noSlice mem length prev
  else sliced align mem length prev

end Verif.Model.Crc
