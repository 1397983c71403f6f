import Verif.Props.ReadTraceDefs
import Verif.Props.SampleTime
/-!
# The terms of the properties of writing and reading trace lists (C102)
-/
namespace Verif.Props.TraceBack
open Verif.Model Verif.Model.Steim Verif.Model.Samples Verif.Model.Record3 Verif.Model.TracePack
open Verif.Model.ReadTrace (Adding)
open Verif.Model.Trace (Seg Source)
open Verif.Model.TraceList (TraceList)
open Verif.Spec.Leap (HasPeriod)
open Verif.Props.Pack (Encodable)
open Verif.Props.TracePack Verif.Props.Trace Verif.Props.TraceList Verif.Props.SampleTime

/-- The value is one of the type: text has bytes, floating point samples are given by their bits. -/
def HasValue (ty : Char) (x : Int) : Prop :=
  (ty = 't' → 0 ≤ x ∧ x < 256) ∧ (ty = 'f' ∨ ty = 'd' → 0 ≤ x)

/-- A segment of samples every `p` nanoseconds, up to six and a half days without a leap second, by its rate
and by the rate that is stored in records, that tells its own end and number of samples.  The packer computes
sample times like the reader. -/
structure Regular (c : Packers) (ad : Adding) (p : Nat) (s : Seg Nat) : Prop where
  positive : 1 ≤ p
  rate : HasPeriod p (ad.rate s.rate)
  stored : HasPeriod p (ad.rate (storedRate c.negRecip s.rate))
  stop : s.stop = s.start + ((s.data.length : Int) - 1) * p
  count : s.samplecnt = s.data.length
  short : s.data.length * p ≤ 2 ^ 49
  late : s.stop ≤ 9223372036854775807
  leaps : NonePassed ad.leaps s.start s.stop
  times : ∀ k, c.sampletime s.start k s.rate =
    SampleTime.sampletime ad.rnd ad.leaps s.start k (ad.rate s.rate)
  values : ∀ x ∈ s.data, HasValue s.sampletype x

/-- A source that can be written and read back: its segments can be packed, are regular and more than one and
a half periods apart, have one rate, and the sample type given for the identifier. -/
structure Written (c : Packers) (ad : Adding) (split : Bool) (reclen encoding : Int) (extra : List UInt8)
    (T : List UInt8 → Char) (tr : Trace) : Prop where
  some : tr.segs ≠ []
  version : split = true → tr.pub ≠ 0
  rate : ∀ s ∈ tr.segs, ∀ t ∈ tr.segs, s.rate = t.rate
  type : ∀ s ∈ tr.segs, s.sampletype = T tr.sid
  packed : ∀ s ∈ tr.segs, Known s.sampletype ∧ s.data ≠ [] ∧
    Packable3 c (recordOf reclen encoding extra tr.sid tr.pub s) ∧
    Encodable (recordOf reclen encoding extra tr.sid tr.pub s)
  regular : ∃ p : Nat, (∀ s ∈ tr.segs, Regular c ad p s) ∧
    Adjacent (fun s t : Seg Nat => s.stop + (p : Int) + (p : Int) / 2 < t.start) tr.segs

/-- The order of sources in a list. -/
def Ahead (split : Bool) (a b : Trace) : Prop :=
  a.sid < b.sid ∨ (split = true ∧ a.sid = b.sid ∧ a.pub < b.pub)

/-- The segment read has times, number, type and values of the samples of the one written, and the rate
stored, in Hertz. -/
structure SameSeg (c : Packers) (ad : Adding) (s : Seg Nat) (s' : Seg Rat) : Prop where
  start : s'.start = s.start
  stop : s'.stop = s.stop
  samplecnt : s'.samplecnt = s.samplecnt
  type : s'.sampletype = s.sampletype
  data : s'.data = s.data
  rate : s'.rate = if ad.rate (storedRate c.negRecip s.rate) < 0
    then ad.rnd (-1 / ad.rate (storedRate c.negRecip s.rate)) else ad.rate (storedRate c.negRecip s.rate)

/-- The list read has the sources written, one for one and in their order, each with its identifier,
version and segments. -/
def SameList (c : Packers) (ad : Adding) (traces : List Trace) (tl : TraceList Rat) : Prop :=
  ∃ l, Walk tl l ∧ Each (fun tr a => ∃ src k, tl.sources a = Option.some src ∧ src.sid = tr.sid ∧ src.pub = tr.pub ∧
    Linked src k ∧ Each (SameSeg c ad) tr.segs (segments src k)) traces l

end Verif.Props.TraceBack
