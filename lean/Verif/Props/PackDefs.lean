import Verif.Proof.Pack
/-!
# The terms of the properties of the version 3 packer (C31, C32, C65)
-/
namespace Verif.Props.Pack
open Verif.Model Verif.Model.Bytes Verif.Model.Steim Verif.Model.Samples Verif.Model.Record3
open Verif.Spec.Steim (isInt32)
open Verif.Props.Samples Verif.Props.Record3
open Verif.Proof.Pack (GoodTime)

/-- Samples number `off` to `off + n - 1`. -/
def slice (off n : Nat) : Samples → Samples
  | .text b => .text ((b.drop off).take n)
  | .ints v => .ints ((v.drop off).take n)
  | .floats v => .floats ((v.drop off).take n)
  | .doubles v => .doubles ((v.drop off).take n)
  | .quotients v => .quotients ((v.drop off).take n)

/-- `records` divide the samples `a` to `b - 1` into consecutive nonempty runs, `P off n r` holding
for the record `r` with `n` samples from number `off` on. -/
def Divides (P : Nat → Nat → List UInt8 → Prop) : Nat → List (List UInt8) → Nat → Prop
  | a, [], b => a = b
  | a, r :: rs, b => ∃ n, 1 ≤ n ∧ P a n r ∧ Divides P (a + n) rs b

/-- A host of byte order `h`, reading the record with CRC validation, obtains a description
satisfying `Q`, the same one at any address and with anything following the record; the bytes read
are unchanged, and on a little-endian host `msr3_parse` finds the record length itself. -/
def Reads (r : List UInt8) (Q : Msr → Prop) : Prop :=
  ∀ h, ∃ m', Q m' ∧ ∀ align rest,
    unpack3 h align (r ++ rest) r.length true true = .ok (.record m', r ++ rest) ∧
    (h = false → ∀ unpack2 eof, parse unpack2 h align (r ++ rest) true true eof
      = .ok (.record m', r ++ rest))

/-- What the arguments of the packer have to satisfy: a description as for C26 with extra headers
without NUL bytes, between 1 and 2^32 - 1 samples representable in the encoding, and sample times that
are computed without overflow, lie in 1678 or later and differ from the value reserved for errors. -/
structure Input (nr : Nat → Nat) (sampletime : Int → Nat → Nat → Out Int) (m : Msr) : Prop where
  packable : Packable nr m
  default : m.reclen < 0 → m.reclen = -1
  extraText : ∀ b ∈ m.extra, b ≠ 0
  some : 1 ≤ m.samples.count
  few : m.samples.count < 2 ^ 32
  fits : representable m.samples (packEncoding m.encoding)
  times : ∀ k, 0 < k → k < m.samples.count → ∃ t, sampletime m.starttime k m.samprate = .ok t ∧
    GoodTime t

/-- The time of sample `off`: the start time for the first, else as computed by `ms_sampletime`. -/
def timeOf (sampletime : Int → Nat → Nat → Out Int) (m : Msr) (off : Nat) : Out Int :=
  if off = 0 then .ok m.starttime else sampletime m.starttime off m.samprate

/-- The space for data in a record. -/
def space (m : Msr) : Nat := (packReclen m.reclen).toNat - (40 + m.sid.length + m.extra.length)

/-- The unit of storage: a 64-byte frame for Steim, one sample otherwise. -/
def unit (encoding : Nat) : Nat :=
  if encoding = 10 ∨ encoding = 11 then 64 else storedSize encoding

/-- The differences between neighbouring samples. -/
def steps : Samples → List Int
  | .ints v => (v.tail.zip v).map fun (b, a) => b - a
  | _ => []

/-- What the encoding needs to succeed: space for one unit in a record, and for Steim-1 differences
of 32 bits, for Steim-2 of 30 bits. -/
structure Encodable (m : Msr) : Prop where
  header : 40 + m.sid.length + m.extra.length ≤ (packReclen m.reclen).toNat
  room : unit (packEncoding m.encoding) ≤ space m
  steim1 : packEncoding m.encoding = 10 → ∀ d ∈ steps m.samples, isInt32 d
  steim2 : packEncoding m.encoding = 11 → ∀ d ∈ steps m.samples, -536870912 ≤ d ∧ d ≤ 536870911

end Verif.Props.Pack
