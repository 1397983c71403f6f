import Verif.Model.Reader
import Verif.Model.TraceList
import Verif.Model.SampleTime
import Verif.Model.Rate
/-!
# Model of reading records into trace lists

libmseed/tracelist.c:363-463 (the values that `mstl3_addmsr_recordptr` computes of a record), 864-978
`mstl3_readbuffer_selection` and libmseed/fileutils.c:675-747 `ms3_readtracelist_selection`.

Pointers are valid, the list exists, allocation succeeds, diagnostic output is not modelled.  The
contents of record pointers (tracelist.c:956-961, fileutils.c:728-733) are not modelled.
-/
namespace Verif.Model.ReadTrace
open Verif.Model Verif.Model.Steim Verif.Model.Samples Verif.Model.Record3 Verif.Model.Reader
open Verif.Model.Trace (Arrival)
open Verif.Model.TraceList (TraceList addMsr)
open Verif.Model.SampleTime (Leap toInt64 endtime nsperiod)

/-- What adding a record depends on: rounding of `double` operations, leap seconds, the value of a sample
rate field, the tolerance functions (libmseed.h:611-615; the one for rates is constant, -1 without it),
the bits of the `float` computed for GEOSCOPE samples and the byte order of the host. -/
structure Adding where
  rnd : Rat → Rat
  leaps : List Leap
  rate : Nat → Rat
  timetol : Option (Msr → Rat) := none
  ratetol : Rat := -1
  floatBits : Int × Nat → Nat := fun _ => 0
  hostBE : Bool := false

/-- msrutils.c:346-354 `msr3_sampratehz` -/
def hertz (rnd : Rat → Rat) (r : Rat) : Rat := if r < 0 then rnd (-1 / r) else r

/-- The sample type and the samples (libmseed.h:358-382 `sampletype`, `datasamples`) of a record.  The
type is set by `ms_decode_data` (unpack.c:1299) if there are samples to decode, otherwise it is NUL
(msrutils.c:69). -/
def typeOf (floatBits : Int × Nat → Nat) (s : Samples) : Char × List Int :=
  if s.count = 0 then ('\x00', [])
  else
    match s with
    | .text b => ('t', b.map fun x => Int.ofNat x.toNat)
    | .ints v => ('i', v)
    | .floats v => ('f', v.map Int.ofNat)
    | .doubles v => ('d', v.map Int.ofNat)
    | .quotients v => ('f', v.map fun x => Int.ofNat (floatBits x))

/-- tracelist.c:451-455: the time tolerance. -/
def tolerance (c : Adding) (m : Msr) (period : Int) : Out Int :=
  match c.timetol with
  | some f => toInt64 (c.rnd (1000000000 * f m))
  | none => toInt64 (c.rnd (1 / 2 * c.rnd period))

/-- tracelist.c:396-401, 446-463: the values computed of a record, `none` for the error at 398.  The code
computes period and tolerance only if the source is in the list already, the model always: `ub` covers
more than in the code. -/
def arrival (c : Adding) (m : Msr) : Res (Option (Arrival Rat)) :=
  (ofOut (endtime c.rnd c.leaps m.starttime m.samplecnt (c.rate m.samprate))).bind fun stop =>
  if stop = NSTERROR then .ok none
  else
    (ofOut (nsperiod c.rnd (c.rate m.samprate))).bind fun period =>
    (ofOut (tolerance c m period)).bind fun tol =>
    .ok (some
      { sid := m.sid.takeWhile (· ≠ 0), pub := m.pubversion, start := m.starttime, stop, period, tol,
        rate := hertz c.rnd (c.rate m.samprate), samplecnt := m.samplecnt,
        sampletype := (typeOf c.floatBits m.samples).1, data := (typeOf c.floatBits m.samples).2 })

/-- tracelist.c:38, 458-460: the comparison of rates. -/
def Adding.sim (c : Adding) (a b : Rat) : Bool := Rate.similar c.rnd a b c.ratetol

/-- tracelist.c:363-778 `mstl3_addmsr_recordptr` of a record; `false` for NULL. -/
def addRecord (c : Adding) (split autoheal keep : Bool) (tl : TraceList Rat) (m : Msr) :
    Res (TraceList Rat × Bool) :=
  (arrival c m).bind fun a =>
  match a with
  | none => .ok (tl, false)
  | some a => (addMsr c.sim split autoheal keep tl a).bind fun r => .ok (r.1, r.2.isSome)

/-- tracelist.c:937-962, fileutils.c:707-734: add a record and, with a record list (`keep`), find the
bounds of its data; `mem` is the memory at the record.  `false` is the error `MS_GENERROR`. -/
def addChecked (c : Adding) (split keep : Bool) (mem : List UInt8) (tl : TraceList Rat) (m : Msr) :
    Res (TraceList Rat × Bool) :=
  (addRecord c split true keep tl m).bind fun r =>
  if r.2 = true ∧ keep = true then
    match dataBounds c.hostBE m mem with
    | .ok _ => .ok (r.1, true)
    | .err => .ok (r.1, false)
    | .ub => .ub
    | .oob => .oob
  else .ok r

/-- The return value of both functions: the number of records (0 is `MS_NOERROR`) or an error. -/
inductive Code where
  | count (n : Nat)
  | notSeed
  | outOfRange
  | genError
  | invalidCrc
deriving DecidableEq, Repr

/-- tracelist.c:924-946: a record that is asked for: samples, if that has been deferred, and
addition. -/
def takeRecord (c : Adding) (o : Opts) (split keep : Bool) (off : Nat) (mem : List UInt8)
    (tl : TraceList Rat) (m : Msr) : Res (TraceList Rat × Bool) :=
  (if o.unpackdata = true ∧ o.select.isSome = true ∧ m.samplecnt > 0 then o.unpack off mem m
   else .ok (.record m)).bind fun p =>
  match p with
  | .record m' => addChecked c split keep mem tl m'
  | _ => .ok (tl, false)

/-- One pass of the loop: return, or go on with the list, the length of the record and whether it was
added. -/
inductive Step where
  | done (ret : Code) (tl : TraceList Rat)
  | next (added : Bool) (reclen : Int) (tl : TraceList Rat)

/-- tracelist.c:896-965: one pass of the loop at an offset, with the memory from there on; `n` is the
number of records so far. -/
def bufferStep (c : Adding) (o : Opts) (split keep eof : Bool) (off : Nat) (mem : List UInt8) (n : Nat)
    (tl : TraceList Rat) : Res (Step × List UInt8) :=
  (o.parse off mem (o.unpackdata && o.select.isNone) eof).bind fun (p, mem) =>
  match p with
  | .notSeed => .ok (.done .notSeed tl, mem)
  | .outOfRange => .ok (.done .outOfRange tl, mem)
  | .genError => .ok (.done .genError tl, mem)
  | .invalidCrc => .ok (.done .invalidCrc tl, mem)
  | .need _ => .ok (.done (.count n) tl, mem)
  | .record m =>
    if chosen o m then
      (takeRecord c o split keep off mem tl m).bind fun r =>
      if r.2 then .ok (.next true m.reclen r.1, mem) else .ok (.done .genError r.1, mem)
    else .ok (.next false m.reclen tl, mem)

/-- tracelist.c:894-966: the loop.  The first argument bounds the passes, `err` if it is exceeded.  The
length left is computed without sign: behind the end of the buffer, or before its beginning, the loop goes
on and reads there. -/
def bufferLoop (c : Adding) (o : Opts) (split keep eof : Bool) :
    Nat → List UInt8 → Int → Nat → TraceList Rat → Res (Code × TraceList Rat)
  | 0, _, _, _, _ => .err
  | fuel + 1, buf, off, n, tl =>
    if off < 0 ∨ off > buf.length then .oob
    else if (buf.length : Int) - off ≤ 40 then .ok (.count n, tl)
    else
      (bufferStep c o split keep eof off.toNat (buf.drop off.toNat) n tl).bind fun (s, mem) =>
      match s with
      | .done ret tl => .ok (ret, tl)
      | .next added len tl =>
        bufferLoop c o split keep eof fuel (buf.take off.toNat ++ mem) (off + len)
          (if added then n + 1 else n) tl

/-- tracelist.c:864-978 `mstl3_readbuffer_selection`; `eof` is `MSF_ATENDOFFILE` in the flags, `keep` is
`MSF_RECORDLIST`. -/
def readBuffer (c : Adding) (o : Opts) (split keep eof : Bool) (buf : List UInt8) (tl : TraceList Rat) :
    Res (Code × TraceList Rat) :=
  bufferLoop c o split keep eof (buf.length + 1) buf 0 0 tl

/-- fileutils.c:737-738: the return value after the last call. -/
def codeOf : Ret → Code
  | .endOfFile => .count 0
  | .notSeed => .notSeed
  | .outOfRange => .outOfRange
  | .genError => .genError
  | .invalidCrc => .invalidCrc
  | .record _ => .count 0

/-- fileutils.c:704-735: the loop.  The first argument bounds the passes, `err` if it is exceeded. -/
def fileLoop (c : Adding) (o : Opts) (split keep : Bool) :
    Nat → Reader → TraceList Rat → Res (Code × TraceList Rat)
  | 0, _, _ => .err
  | fuel + 1, r, tl =>
    (readmsr o r).bind fun (ret, r) =>
    match ret with
    | .record m =>
      if r.readoffset - m.reclen < 0 then .oob
      else
        (addChecked c split keep (r.buf.drop (r.readoffset - m.reclen).toNat) tl m).bind fun (tl, ok) =>
        if ok then fileLoop c o split keep fuel r tl else .ok (.genError, tl)
    | ret => .ok (codeOf ret, tl)

/-- fileutils.c:675-747 `ms3_readtracelist_selection` of an open file. -/
def readTraceList (c : Adding) (o : Opts) (split keep : Bool) (r : Reader) (tl : TraceList Rat) :
    Res (Code × TraceList Rat) :=
  fileLoop c o split keep (r.unread.length + r.buf.length + 1) r tl

end Verif.Model.ReadTrace
