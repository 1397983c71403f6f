import Verif.Model.ReadTrace
import Verif.Props.ReaderDefs
import Verif.Props.TraceListDefs
import Verif.Props.TracePackDefs
/-!
# The terms of the properties of reading records into trace lists (C75, C100, C101)
-/
namespace Verif.Props.ReadTrace
open Verif.Model Verif.Model.Steim Verif.Model.Samples Verif.Model.Record3 Verif.Model.Reader
open Verif.Model.ReadTrace
open Verif.Model.Trace (Arrival Seg Source)
open Verif.Model.TraceList (TraceList)
open Verif.Props.Reader Verif.Props.TracePack

/-- The records, added one after the other by `mstl3_addmsr`, are all accepted and make the second list of
the first. -/
inductive AddedAll (c : Adding) (split keep : Bool) : TraceList Rat → List Msr → TraceList Rat → Prop
  | nil (tl) : AddedAll c split keep tl [] tl
  | cons (tl m tl1 ms tl2) : addRecord c split true keep tl m = .ok (tl1, true) →
      AddedAll c split keep tl1 ms tl2 → AddedAll c split keep tl (m :: ms) tl2

/-- `msr3_data_bounds` finds the bounds of the data of the record. -/
def Bounded (h : Bool) (b : List UInt8) (m : Msr) : Prop := ∀ t, ∃ p, dataBounds h m (b ++ t) = .ok p

/-- The samples as numbers: text by its bytes, floating point values by their bits. -/
def Values : Samples → List Int → Prop
  | .text b, v => v = b.map fun x => ((x.toNat : Nat) : Int)
  | .ints x, v => v = x
  | .floats x, v => v = x.map fun n => ((n : Nat) : Int)
  | .doubles x, v => v = x.map fun n => ((n : Nat) : Int)
  | .quotients _, _ => False

/-- The letter of the sample type, NUL without samples. -/
def Typed (s : Samples) (ty : Char) : Prop :=
  ty = if s.count = 0 then '\x00' else
    match s with
    | .text _ => 't'
    | .ints _ => 'i'
    | .floats _ => 'f'
    | .doubles _ => 'd'
    | .quotients _ => 'f'

/-- What is added of a record: the identifier as a C string, start and end as told by `msr3_endtime`, the
period as told by `msr3_nsperiod`, half of it or the tolerance asked for, the rate in Hertz, and the
samples. -/
structure Describes (c : Adding) (m : Msr) (a : Arrival Rat) : Prop where
  sid : a.sid = m.sid.takeWhile (· ≠ 0)
  pub : a.pub = m.pubversion
  start : a.start = m.starttime
  stop : SampleTime.endtime c.rnd c.leaps m.starttime m.samplecnt (c.rate m.samprate) = .ok a.stop
  valid : a.stop ≠ NSTERROR
  period : SampleTime.nsperiod c.rnd (c.rate m.samprate) = .ok a.period
  tol : SampleTime.toInt64 (match c.timetol with
    | some f => c.rnd (1000000000 * f m)
    | none => c.rnd (1 / 2 * c.rnd a.period)) = .ok a.tol
  rate : a.rate = if c.rate m.samprate < 0 then c.rnd (-1 / c.rate m.samprate) else c.rate m.samprate
  samplecnt : a.samplecnt = m.samplecnt
  type : Typed m.samples a.sampletype
  data : Values m.samples a.data

/-- `mstl3_addmsr` does not take the record: its end cannot be told (`msr3_endtime` gives the error value)
and the list is left as it is, or the source refuses it, leaving the second list. -/
def Refused (c : Adding) (split keep : Bool) (tl : TraceList Rat) (m : Msr) (tl' : TraceList Rat) : Prop :=
  (SampleTime.endtime c.rnd c.leaps m.starttime m.samplecnt (c.rate m.samprate) = .ok NSTERROR ∧ tl' = tl) ∨
  ∃ a, Describes c m a ∧ TraceList.addMsr c.sim split true keep tl a = .ok (tl', none)

/-- The records of a file that are asked for, as returned. -/
def records (sel : Option (Msr → Bool)) (l : List Entry) : List Msr :=
  (l.filter fun e => wanted sel e.msr).map (·.full)

end Verif.Props.ReadTrace
