import Verif.Model.ReadTrace
import Verif.Model.Select
/-!
# Reading with selections

libmseed/selection.c:144-157 `msr3_matchselect`, the same test in `ms3_readmsr_selection` (fileutils.c:433-436) and
`mstl3_readbuffer_selection` (tracelist.c:917-919), and libmseed/fileutils.c:611-638 `ms3_readtracelist_timewin`.
-/
namespace Verif.Model.SelectRead
open Verif.Model Verif.Model.Steim Verif.Model.Record3 Verif.Model.Reader Verif.Model.ReadTrace Verif.Model.Select
open Verif.Model.SampleTime (Leap endtime)
open Verif.Model.TraceList (TraceList)

/-- What the test of a record depends on: whether `char` is signed, rounding of `double` operations, leap seconds and
the value of a sample rate field. -/
structure Testing where
  signed : Bool
  rnd : Rat → Rat
  leaps : List Leap
  rate : Nat → Rat

/-- selection.c:144-157 `msr3_matchselect`, fileutils.c:434-436, tracelist.c:917-919: the first entry and window that
match a record. -/
def matchRecord (t : Testing) (sels : List Select.Entry) (m : Msr) : Res (Option (Nat × Option Window)) :=
  (ofOut (endtime t.rnd t.leaps m.starttime m.samplecnt (t.rate m.samprate))).bind fun stop =>
  matchSelect t.signed sels (m.sid.takeWhile (· ≠ 0)) m.starttime stop m.pubversion

/-- The test as the reader takes it (fileutils.c:433, tracelist.c:916).  A test with undefined behaviour is not
distinguished here; the theorems show that there is none. -/
def test (t : Testing) (sels : List Select.Entry) (m : Msr) : Bool :=
  match matchRecord t sels m with
  | .ok (some _) => true
  | _ => false

/-- fileutils.c:616-630: the selection made for a time window. -/
def timewin (starttime endtime : Int) : List Select.Entry :=
  [{ sidpattern := [42], timewindows := [⟨starttime, endtime⟩], pubversion := 0 }]

/-- fileutils.c:611-638 `ms3_readtracelist_timewin` of an open file. -/
def readTimewin (t : Testing) (c : Adding) (o : Option (Msr → Bool) → Opts) (starttime endtime : Int) (split keep : Bool)
    (r : Reader) (tl : TraceList Rat) : Res (Code × TraceList Rat) :=
  readTraceList c (o (some (test t (timewin starttime endtime)))) split keep r tl

end Verif.Model.SelectRead
