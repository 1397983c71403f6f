import Verif.Proof.Pack2All
import Verif.Props.Record2Defs
/-!
# The terms of the properties of the version 2 packer (C85 to C88)
-/
namespace Verif.Props.Pack2
open Verif.Model Verif.Model.Bytes Verif.Model.Steim Verif.Model.Samples Verif.Model.Record3
open Verif.Model.Record2 (Env Header unpack2)
open Verif.Model.Pack2 (Extra Rates Step)
open Verif.Spec.Record2 (flagNames Mapped)
open Verif.Spec.Steim (isInt32)
open Verif.Proof.Pack2 (Head Input2)
open Verif.Props.Samples Verif.Props.Pack

/-- A host of byte order `h` reading the record obtains a description satisfying `Q`, the same one at any
address, with anything following the record, with or without CRC validation. -/
def Reads2 (env : Env) (r : List UInt8) (Q : Msr → Prop) : Prop :=
  ∀ h, ∃ m', Q m' ∧ ∀ align rest vc eof,
    parse (unpack2 env h align) h align (r ++ rest) vc true eof = .ok (.record m', r ++ rest)

/-- What the extra headers read back have to do with the extra headers packed: the boolean headers that
have a bit in version 2 records, the sign of the leap second, the time correction unless it is 0, the
timing quality, and the fields of the blockettes that the entries became; a quality of 0 is made up if the
start time has microseconds beyond units of 0.0001 seconds and there was none. -/
structure ExtraKept (starttime : Int) (e : Extra) (more : List Mapped) (hs : List Header) : Prop where
  flag : ∀ path, Header.flag path ∈ hs ↔ path ∈ flagNames.map (·.2.2) ∧ e.flag path = true
  leap : ∀ x, Header.leapSecond x ∈ hs ↔ (x = 1 ∧ e.leap > 0) ∨ (x = -1 ∧ e.leap < 0)
  correction : ∀ x, Header.correction x ∈ hs ↔ e.correction = some x ∧ x ≠ 0
  quality : (hs.filterMap fun | .quality q => some q | _ => none) =
    match e.timing with
    | some q => [if q ≤ 255 then q else 0]
    | none => if starttime / 1000 % 100 = 0 then [] else [0]
  blockette : (hs.filterMap fun | .blockette n fs => some (n, fs) | _ => none) =
    more.map fun b => (b.type, Props.Record2.fieldsOf b)

/-- The publication version read back: that of a valid data quality among the extra headers, otherwise the
version itself if it is 1, 2, 3 or 4 and 2 for all others. -/
def versionBack (pubversion : Nat) : Option UInt8 → Nat
  | some 82 => 1
  | some 68 => 2
  | some 81 => 3
  | some 77 => 4
  | _ => if 1 ≤ pubversion ∧ pubversion ≤ 4 then pubversion else 2

/-- What is read back from a record with `n` samples from number `off` on, `t` being the time of its first
sample. -/
structure Back (env : Env) (m : Msr) (d : Head) (off n : Nat) (t : Int) (m' : Msr) : Prop where
  samples : m'.samples = slice off n m.samples
  samplecnt : m'.samplecnt = n
  version : m'.formatversion = 2
  sid : m'.sid = m.sid
  flags : m'.flags = m.flags % 8
  starttime : m'.starttime = t / 100000 * 100000 + m.starttime / 1000 % 100 * 1000
  encoding : m'.encoding = packEncoding m.encoding
  samprate : m'.samprate = if d.poor then env.widen d.float else env.nominal d.factor d.multiplier
  pubversion : m'.pubversion = versionBack m.pubversion d.extra.quality
  extra : ∃ hs, ExtraKept m.starttime d.extra d.more hs ∧ m'.extra = if hs = [] then [] else env.json hs
  reclen : m'.reclen = packReclen m.reclen

/-- The encoding is one of the Steim encodings. -/
def Steim (m : Msr) : Prop := packEncoding m.encoding = 10 ∨ packEncoding m.encoding = 11

instance (m : Msr) : Decidable (Steim m) := by unfold Steim; infer_instance

/-- The start time has to be stored with a blockette 1001, for the microseconds or the quality. -/
def Timed (m : Msr) (d : Head) : Prop := d.extra.timing.isSome = true ∨ m.starttime / 1000 % 100 ≠ 0

/-- Records that the reader can decode: not those of 131072 bytes unless in a Steim encoding (C64), and not
Steim data in records of 256 bytes with a blockette 100 but no blockette 1001 (C85) or in records of which
the blockettes of events, calibrations and timing take about half. -/
structure Readable (m : Msr) (d : Head) : Prop where
  fixed : Steim m ∨ d.exponent ≤ 16
  frames : Steim m → (d.more = [] ∧ (d.exponent = 8 → d.poor = true → Timed m d)) ∨
    2 * d.size + 192 ≤ 2 ^ d.exponent

/-- Between 1 and 2^32 - 1 samples, representable in the encoding. -/
structure Some2 (m : Msr) : Prop where
  some : 1 ≤ m.samples.count
  few : m.samples.count < 2 ^ 32
  fits : representable m.samples (packEncoding m.encoding)

/-- What the encoding needs to succeed: a record in which the data has space, at most 65535 samples in a
record, and for Steim-1 differences of 32 bits, for Steim-2 of 30 bits. -/
structure Encodable2 (m : Msr) (d : Head) : Prop where
  room : Steim m → d.poor = true → 8 ≤ d.exponent
  more : d.more ≠ [] → d.size + (if Steim m then 128 else 8) ≤ 2 ^ d.exponent
  count : d.exponent ≤ 15 ∨ (d.exponent ≤ 16 ∧ ¬ Steim m) ∨ m.samples.count ≤ 65535
  steim1 : packEncoding m.encoding = 10 → ∀ d ∈ steps m.samples, isInt32 d
  steim2 : packEncoding m.encoding = 11 → ∀ d ∈ steps m.samples, -536870912 ≤ d ∧ d ≤ 536870911

/-- The writes for a blockette stay inside of it. -/
def Within (steps : List Step) : Prop := ∀ type size ws, Step.add type size ws ∈ steps →
  4 ≤ size ∧ ∀ w ∈ ws, w.2 ≠ .oob ∧ ∀ b, w.2 = .ok b → w.1 + b.length ≤ size

end Verif.Props.Pack2
