import Verif.Spec.Calendar
import Verif.Spec.Crc
/-!
# Specification of miniSEED 3 records (FDSN miniSEED 3 format definition)

All header numbers are little-endian.
-/
namespace Verif.Spec.Record3

/-- Little-endian representation in `n` bytes. -/
def le : Nat → Nat → List UInt8
  | 0, _ => []
  | n + 1, v => UInt8.ofNat (v % 256) :: le n (v / 256)

/-- The fields of a record.  `rate` is the bit pattern of the 64-bit float. -/
structure Rec where
  flags : Nat
  nsec : Nat
  year : Nat
  day : Nat
  hour : Nat
  minute : Nat
  second : Nat
  encoding : Nat
  rate : Nat
  numsamples : Nat
  crc : Nat
  pubversion : Nat
  sid : List UInt8
  extra : List UInt8
  payload : List UInt8
deriving DecidableEq, Repr

/-- The fixed part of the header, 40 bytes, announcing a payload of `n` bytes. -/
def Rec.fixedFor (r : Rec) (n : Nat) : List UInt8 :=
  [77, 83] ++ le 1 3 ++ le 1 r.flags ++ le 4 r.nsec ++ le 2 r.year ++ le 2 r.day ++ le 1 r.hour ++
  le 1 r.minute ++ le 1 r.second ++ le 1 r.encoding ++ le 8 r.rate ++ le 4 r.numsamples ++
  le 4 r.crc ++ le 1 r.pubversion ++ le 1 r.sid.length ++ le 2 r.extra.length ++
  le 4 n

/-- The fixed part of the header. -/
def Rec.fixed (r : Rec) : List UInt8 := r.fixedFor r.payload.length

/-- The whole record. -/
def Rec.bytes (r : Rec) : List UInt8 := r.fixed ++ r.sid ++ r.extra ++ r.payload

/-- Every field fits its place in the header, and the time of day is one. -/
structure Rec.Valid (r : Rec) : Prop where
  flags : r.flags < 256
  nsec : r.nsec < 4294967296
  year : r.year < 65536
  day : r.day < 65536
  hour : r.hour ≤ 23
  minute : r.minute ≤ 59
  second : r.second ≤ 60
  encoding : r.encoding < 256
  rate : r.rate < 18446744073709551616
  numsamples : r.numsamples < 4294967296
  crc : r.crc < 4294967296
  pubversion : r.pubversion < 256
  sid : r.sid.length < 256
  extra : r.extra.length < 65536
  payload : r.payload.length < 4294967296

/-- The record with the CRC-32C of its bytes, computed with a zero CRC field. -/
def Rec.withCrc (r : Rec) : Rec :=
  { r with crc := (Crc.crc32c 0 ({ r with crc := 0 } : Rec).bytes).toNat }

/-- Year, day and time of day as calendar fields. -/
def Rec.time (r : Rec) : Fields := ⟨r.year, r.day, r.hour, r.minute, r.second, r.nsec⟩

/-- The signature of a version 3 record: `MS`, the version and, after 9 bytes, a time of day. -/
def Signature3 (buf : List UInt8) : Prop :=
  ∃ a b c t, buf = [77, 83, 3] ++ a ++ [b] ++ c ++ t ∧ a.length = 9 ∧ b.toNat ≤ 23 ∧
    c.length = 2 ∧ (c.getD 0 0).toNat ≤ 59 ∧ (c.getD 1 0).toNat ≤ 60

/-- The signature of a version 2 record: six digits, spaces or NULs, one of `DRQM`, a space or NUL
and, after 16 bytes, a time of day. -/
def Signature2 (buf : List UInt8) : Prop :=
  ∃ a q z b c d e t, buf = a ++ [q, z] ++ b ++ [c, d, e] ++ t ∧ a.length = 6 ∧
    (∀ x ∈ a, (48 ≤ x.toNat ∧ x.toNat ≤ 57) ∨ x = 32 ∨ x = 0) ∧
    q ∈ [68, 82, 81, 77] ∧ z ∈ [32, 0] ∧ b.length = 16 ∧ c.toNat ≤ 23 ∧ d.toNat ≤ 59 ∧
    e.toNat ≤ 60

end Verif.Spec.Record3
