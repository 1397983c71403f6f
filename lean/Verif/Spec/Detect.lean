import Verif.Spec.Record3
/-!
# Specification of the length of version 2 records

A version 2 record is a 48-byte fixed header with a chain of blockettes.  Bytes 46-47 of the header
are the offset of the first blockette; each blockette begins with its type and the offset of the
next one (0 at the end), two bytes each; byte 6 of blockette 1000 is the exponent of the record
length.  Numbers may have either byte order.
-/
namespace Verif.Spec.Detect
open Verif.Spec.Record3

/-- The number of two bytes at `off` (both 0 outside the buffer). -/
def u16 (be : Bool) (buf : List UInt8) (off : Nat) : Nat :=
  let a := (buf.getD off 0).toNat
  let b := (buf.getD (off + 1) 0).toNat
  if be then 256 * a + b else 256 * b + a

/-- A year and a day of year that make sense. -/
def SaneDate (year day : Nat) : Prop := 1900 ≤ year ∧ year ≤ 2100 ∧ 1 ≤ day ∧ day ≤ 366

instance (y d : Nat) : Decidable (SaneDate y d) := by unfold SaneDate; infer_instance

/-- The byte order of a record: that of the host if it gives a sane start year and day, otherwise
the other one. -/
def recordBE (hostBE : Bool) (buf : List UInt8) : Bool :=
  if SaneDate (u16 hostBE buf 20) (u16 hostBE buf 22) then hostBE else !hostBE

/-- A complete blockette 1000 at `off`. -/
def IsB1000 (be : Bool) (buf : List UInt8) (off : Nat) : Prop :=
  48 ≤ off ∧ off + 8 ≤ buf.length ∧ u16 be buf off = 1000

/-- A blockette header at `off` inside the buffer that is not a complete blockette 1000. -/
def IsOther (be : Bool) (buf : List UInt8) (off : Nat) : Prop :=
  48 ≤ off ∧ off + 4 ≤ buf.length ∧ ¬ IsB1000 be buf off

/-- The offsets met following the chain up to the first blockette 1000, as long as they go forward
by more than the 4 bytes of a blockette header. -/
inductive Visits (be : Bool) (buf : List UInt8) : Nat → Prop where
  | first : Visits be buf (u16 be buf 46)
  | next (off : Nat) : Visits be buf off → IsOther be buf off →
      off + 4 < u16 be buf (off + 2) → Visits be buf (u16 be buf (off + 2))

/-- The chain ends without a blockette 1000: a zero link, or an offset outside the blockette area. -/
def Ends (be : Bool) (buf : List UInt8) : Prop :=
  (∃ off, Visits be buf off ∧ (off < 48 ∨ buf.length < off)) ∨
  (∃ off, Visits be buf off ∧ IsOther be buf off ∧ u16 be buf (off + 2) = 0)

/-- Another version 2 header follows at `off`, a multiple of 64, more than 48 bytes before the end
of the buffer. -/
def HeaderAt (buf : List UInt8) (off : Nat) : Prop :=
  off % 64 = 0 ∧ 64 ≤ off ∧ off + 48 < buf.length ∧ Signature2 (buf.drop off)

end Verif.Spec.Detect
