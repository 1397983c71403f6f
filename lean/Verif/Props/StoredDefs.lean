import Verif.Props.ReaderDefs
import Verif.Spec.Samples
/-!
# What is needed to say which samples the data of a record holds
-/
namespace Verif.Props.Stored
open Verif.Model.Samples (Samples)
open Verif.Spec.Samples Verif.Spec.Steim

/-- The data `b` holds the `n` samples `s` in the byte order `be`: `Stored be n b encoding used s`, where `used` bytes of
the data are taken up by them.  One case for each encoding of the format that the library decodes. -/
inductive Stored (be : Bool) (n : Nat) (b : List UInt8) : Nat → Nat → Samples → Prop
  | text (h : n ≤ b.length) : Stored be n b 0 n (.text (b.take n))
  | int16 (h : 2 * n ≤ b.length) : Stored be n b 1 (2 * n) (.ints (Spec.Samples.ints be 2 n b))
  | int32 (h : 4 * n ≤ b.length) : Stored be n b 3 (4 * n) (.ints (Spec.Samples.ints be 4 n b))
  | float32 (h : 4 * n ≤ b.length) : Stored be n b 4 (4 * n) (.floats (patterns be 4 n b))
  | float64 (h : 8 * n ≤ b.length) : Stored be n b 5 (8 * n) (.doubles (patterns be 8 n b))
  | steim1 (k : Nat) (out : List Int) (hk : 1 ≤ k) (h : 64 * k ≤ b.length)
      (hd : decode (word1 be) be n (frames (b.take (64 * k))) = some out) (hl : out.length = n)
      (h32 : ∀ x ∈ out, isInt32 x) : Stored be n b 10 (64 * k) (.ints out)
  | steim2 (k : Nat) (out : List Int) (hk : 1 ≤ k) (h : 64 * k ≤ b.length)
      (hd : decode (word2 be) be n (frames (b.take (64 * k))) = some out) (hl : out.length = n)
      (h32 : ∀ x ∈ out, isInt32 x) : Stored be n b 11 (64 * k) (.ints out)
  | geoscope24 (hb : be = true) (h : 3 * n ≤ b.length) :
      Stored be n b 12 (3 * n) (.quotients ((patterns be 3 n b).map geoscope24))
  | geoscope163 (h : 2 * n ≤ b.length) : Stored be n b 13 (2 * n) (.quotients ((patterns be 2 n b).map geoscope163))
  | geoscope164 (h : 2 * n ≤ b.length) : Stored be n b 14 (2 * n) (.quotients ((patterns be 2 n b).map geoscope164))
  | cdsn (h : 2 * n ≤ b.length) : Stored be n b 16 (2 * n) (.ints ((patterns be 2 n b).map cdsn))
  | sro (out : List Int) (h : 2 * n ≤ b.length) (hd : (patterns be 2 n b).mapM sro = some out) :
      Stored be n b 30 (2 * n) (.ints out)
  | dwwssn (h : 2 * n ≤ b.length) : Stored be n b 32 (2 * n) (.ints ((patterns be 2 n b).map dwwssn))

/-- The size of the data `b` that the library finds is not too small: samples of fixed size fill the data or take
fewer than 65536 bytes, and for Steim compression with data in whole frames the *record* is not all zero from the
offset on that the last frame used has in the data up to the size of the data (those are the bytes the library looks at
to find the end of the data). -/
structure Sized (record b : List UInt8) (encoding used : Nat) : Prop where
  fixed : encoding ∈ [0, 1, 3, 4, 5] → used = b.length ∨ used < 65536
  steim : encoding = 10 ∨ encoding = 11 → 64 ∣ b.length → ∃ x ∈ (record.take b.length).drop (used - 64), x ≠ 0

/-- The bytes are those of a record that holds the samples `s`, on a host of byte order `h`.  Data of version 3 is
big-endian for Steim compression and little-endian otherwise; data of version 2 has the byte order and encoding said by
its (last) blockette 1000. -/
inductive Holds (h : Bool) : List UInt8 → Samples → Prop
  | version3 (r : Spec.Record3.Rec) (used : Nat) (s : Samples) (little : h = false) (valid : r.Valid)
      (text : ∀ x ∈ r.sid, x ≠ 0) (length : r.bytes.length ≤ 10485760)
      (count : 1 ≤ r.numsamples ∧ r.numsamples < 2147483648)
      (stored : Stored (decide (r.encoding = 10 ∨ r.encoding = 11)) r.numsamples r.payload r.encoding used s)
      (sized : Sized r.bytes r.payload r.encoding used) : Holds h r.bytes s
  | version2 (r : Spec.Record2.Rec) (encoding order exponent : UInt8) (used : Nat) (s : Samples) (valid : r.Valid)
      (told : r.be = h ∨ ¬ Record2.Ambiguous r) (time : ¬ Record2.Reserved r)
      (data : r.last Spec.Record2.Blkt.data? = some (encoding, order, exponent)) (offset : 40 ≤ r.dataoffset)
      (count : 1 ≤ r.numsamples)
      (stored : Stored (decide (order ≠ 0)) r.numsamples (r.bytes.drop r.dataoffset) encoding.toNat used s)
      (sized : Sized r.bytes (r.bytes.drop r.dataoffset) encoding.toNat used) : Holds h r.bytes s

end Verif.Props.Stored
