import Verif.Model.Record3
import Verif.Model.Str
/-!
# Model of the unpacking of version 2 records

libmseed/unpack.c:257-995 `msr3_unpack_mseed2`, 1451-1502, 1566-1667.

Buffers are byte lists, access outside them is `oob`.  Allocation succeeds.  Diagnostic output is
not modelled.  The floating point operations (nominal rate from factor and multiplier, `float` to
`double`) and the JSON text of the extra headers are parameters.
-/
namespace Verif.Model.Record2
open Verif.Model.Bytes Verif.Model.Steim Verif.Model.Samples Verif.Model.Mem Verif.Model.Detect
open Verif.Model.Record3

/-- A field of a blockette that is mapped to extra headers. -/
inductive Field where
  /-- integer, `float` (bit pattern) or flag byte -/
  | num (v : Nat)
  /-- text without trailing spaces -/
  | text (s : List UInt8)
  /-- time stamp -/
  | time (t : Int)
deriving DecidableEq, Repr

/-- The values set in the extra headers, in the order of the calls of `mseh_set_ptr_r` and of
`mseh_add_*_r`. -/
inductive Header where
  /-- boolean `true` at a path -/
  | flag (path : String)
  /-- `/FDSN/Time/LeapSecond` -/
  | leapSecond (v : Int)
  /-- `/FDSN/Time/Correction`, in units of 0.0001 seconds -/
  | correction (v : Int)
  /-- `/FDSN/Time/Quality` -/
  | quality (v : Nat)
  /-- event detection, calibration or timing exception of a blockette type, with the fields read -/
  | blockette (type : Nat) (fields : List Field)
deriving DecidableEq, Repr

/-- The parts left open: the double (bit pattern) of `ms_nomsamprate` (unpack.c:1451-1466) for a
factor and a multiplier, the conversion of a `float` to a `double` (bit patterns), and the extra
header text for a list of values (extraheaders.c). -/
structure Env where
  nominal : Int → Int → Nat
  widen : Nat → Nat
  json : List Header → List UInt8

/-- `ms_strncpclean` into a zeroed buffer, then used as a string. -/
def cleanStr (mem : List UInt8) (length : Nat) : Res (List UInt8) :=
  (ofMem (Str.strncpclean mem length)).bind fun r => .ok (r.1.takeWhile (· != 0))

/-- unpack.c:1476-1502 `ms2_recordsid` into a zeroed array of 64 bytes: the string written, empty
if `ms_nslc2sid` fails. -/
def recordSid (mem : List UInt8) : Res (List UInt8) :=
  (cleanStr (mem.drop 18) 2).bind fun net =>
  (cleanStr (mem.drop 8) 5).bind fun sta =>
  (cleanStr (mem.drop 13) 2).bind fun loc =>
  (peek mem 15 3).bind fun c =>
  let chan := [c.getD 0 0, 95, c.getD 1 0, 95, c.getD 2 0].takeWhile (· != 0)
  match Str.nslc2sid 64 net sta (some loc) chan with
  | some (sid, _) => .ok sid
  | none => .ok []

/-- unpack.c:1643-1667 `ms_btime2nstime` of the 10 bytes at `off`; 1 unit of the last field is
100000 ns.  The year 0 gives `NSTUNSET`. -/
def btime (hostBE swap : Bool) (mem : List UInt8) (off : Nat) : Res Int :=
  (load hostBE swap mem off 2).bind fun year =>
  if year = 0 then .ok NSTUNSET
  else
    (load hostBE swap mem (off + 2) 2).bind fun day =>
    (load hostBE false mem (off + 4) 1).bind fun hour =>
    (load hostBE false mem (off + 5) 1).bind fun min =>
    (load hostBE false mem (off + 6) 1).bind fun sec =>
    (load hostBE swap mem (off + 8) 2).bind fun fract =>
    ofOut (time2nstime year day hour min sec (fract * 100000))

/-- `t += d` of `nstime_t`: undefined outside the signed 64-bit range. -/
def addTime (t d : Int) : Res Int := if fitsInt64 (t + d) then .ok (t + d) else .ub

/-- The reads of a blockette mapped to extra headers; offsets from the start of the blockette. -/
inductive Read where
  /-- `n` bytes as a number in header byte order -/
  | num (off n : Nat)
  /-- `ms_strncpcleantail` of a field of `n` bytes, into a longer array -/
  | text (off n : Nat)
  /-- the same into an array of `n` bytes (libmseed.h:886-887): storing more is undefined -/
  | textTo (off n : Nat)
  /-- `ms_btime2nstime`, an error is the error of the record -/
  | time (off : Nat)
  /-- the same plus the signed byte of microseconds at `micro` -/
  | timeMicro (off micro : Nat)
deriving DecidableEq, Repr

/-- The reads of each blockette type in the order of the code, offsets from mseedformat.h: type 200
unpack.c:452-492, 201 495-525, 300 528-580, 310 583-637, 320 640-688, 390 691-735, 395 738-773, 500
788-818. -/
def reads (type : Nat) : Option (List Read) :=
  if type = 200 then some [.text 28 24, .num 4 4, .num 8 4, .num 12 4, .num 16 1, .time 18]
  else if type = 201 then
    some [.text 36 24, .num 4 4, .num 8 4, .num 12 4, .num 16 1, .time 18, .num 28 1, .num 29 1,
          .num 30 1, .num 31 1, .num 32 1, .num 33 1, .num 34 1, .num 35 1]
  else if type = 300 then
    some [.time 4, .num 14 1, .num 15 1, .num 16 4, .num 20 4, .num 24 4, .text 28 3, .num 32 4,
          .text 36 12, .text 48 12]
  else if type = 310 then
    some [.time 4, .num 15 1, .num 16 4, .num 20 4, .num 24 4, .text 28 3, .num 32 4, .text 36 12,
          .text 48 12]
  else if type = 320 then
    some [.time 4, .num 15 1, .num 16 4, .num 20 4, .text 24 3, .num 28 4, .text 32 12, .text 44 12,
          .text 56 8]
  else if type = 390 then some [.time 4, .num 15 1, .num 16 4, .num 20 4, .text 24 3]
  else if type = 395 then some [.time 4]
  else if type = 500 then
    some [.num 4 4, .timeMicro 8 18, .num 19 1, .num 20 4, .textTo 24 16, .textTo 72 128,
          .text 40 32]
  else none

/-- One read at a blockette at `off`; `none` is the return `MS_GENERROR` for an invalid time. -/
def readField (hostBE swap : Bool) (mem : List UInt8) (off : Nat) : Read → Res (Option Field)
  | .num o n => (load hostBE swap mem (off + o) n).bind fun v => .ok (some (.num v))
  | .text o n =>
    (ofMem (Str.strncpcleantail (mem.drop (off + o)) n)).bind fun r =>
    .ok (some (.text (r.1.takeWhile (· != 0))))
  | .textTo o n =>
    (ofMem (Str.strncpcleantail (mem.drop (off + o)) n)).bind fun r =>
    if r.1.length > n then .ub else .ok (some (.text (r.1.takeWhile (· != 0))))
  | .time o =>
    (btime hostBE swap mem (off + o)).bind fun t =>
    .ok (if t = NSTERROR then none else some (.time t))
  | .timeMicro o m =>
    (btime hostBE swap mem (off + o)).bind fun t =>
    if t = NSTERROR then .ok none
    else
      (load hostBE false mem (off + m) 1).bind fun u =>
      (addTime t (sext 8 u * 1000)).bind fun t => .ok (some (.time t))

/-- All reads of a blockette. -/
def readFields (hostBE swap : Bool) (mem : List UInt8) (off : Nat) :
    List Read → Res (Option (List Field))
  | [] => .ok (some [])
  | r :: rs =>
    (readField hostBE swap mem off r).bind fun f =>
    match f with
    | none => .ok none
    | some f =>
      (readFields hostBE swap mem off rs).bind fun fs => .ok (fs.map (f :: ·))

/-- unpack.c:1566-1622 `ms2_blktlen` of the blockette at `off`. -/
def blktLen (hostBE swap : Bool) (mem : List UInt8) (off type : Nat) : Res Nat :=
  if type = 100 then .ok 12
  else if type = 200 then .ok 28
  else if type = 201 then .ok 36
  else if type = 300 then .ok 32
  else if type = 310 then .ok 32
  else if type = 320 then .ok 28
  else if type = 390 then .ok 28
  else if type = 395 then .ok 16
  else if type = 400 then .ok 16
  else if type = 500 then .ok 8
  else if type = 1000 then .ok 8
  else if type = 1001 then .ok 8
  else if type = 2000 then load hostBE swap mem (off + 4) 2
  else .ok 0

/-- The variables changed in the blockette loop; `b1000` and `b1001` are 0 until the blockette is
found. -/
structure Walk where
  b1000 : Nat := 0
  b1001 : Nat := 0
  samprate : Nat
  reclen : Int
  encoding : Int := -1
  headers : List Header
deriving DecidableEq, Repr

/-- unpack.c:446-872: the effect of one blockette of a type at `off`; `none` is the return
`MS_GENERROR`.  The shift count of line 825 is a byte of the record: 32 and above are undefined, 31
converts to a negative `int32_t`.  The direct text of line 844 is the same value in the extra
headers as the one of line 860. -/
def blockette (env : Env) (hostBE swap : Bool) (mem : List UInt8) (off type : Nat) (w : Walk) :
    Res (Option Walk) :=
  if type = 100 then
    (load hostBE swap mem (off + 4) 4).bind fun f => .ok (some { w with samprate := env.widen f })
  else if type = 1000 then
    (load hostBE false mem (off + 6) 1).bind fun e =>
    if e ≥ 32 then .ub
    else
      (load hostBE false mem (off + 4) 1).bind fun enc =>
      .ok (some { w with b1000 := off, reclen := sext 32 (2 ^ e), encoding := enc })
  else if type = 1001 then
    (load hostBE false mem (off + 4) 1).bind fun q =>
    .ok (some { w with b1001 := off, headers := w.headers ++ [.quality q] })
  else
    match reads type with
    | some rs =>
      (readFields hostBE swap mem off rs).bind fun fs =>
      .ok (fs.map fun fs => { w with headers := w.headers ++ [.blockette type fs] })
    | none => .ok (some w)

/-- unpack.c:874-893: the offset of the next blockette to look at, 0 ends the loop. -/
def nextOff (reclen : Int) (off len next : Nat) : Nat :=
  if next ≠ 0 ∧ next < off + len then 0
  else if next ≠ 0 ∧ (next : Int) > reclen then 0
  else next

/-- unpack.c:411-896, the blockette loop; `none` is the return `MS_GENERROR`.  `fuel` bounds the
iterations, running out of it is the outcome `err` (C29 shows it never happens). -/
def walk (env : Env) (hostBE swap : Bool) (mem : List UInt8) (reclen : Int) :
    Nat → Nat → Walk → Res (Option Walk)
  | 0, _, _ => .err
  | fuel + 1, off, w =>
    if off ≠ 0 ∧ (off : Int) < reclen ∧ off < 10485760 then
      (load hostBE swap mem off 2).bind fun type =>
      (load hostBE swap mem (off + 2) 2).bind fun next =>
      (blktLen hostBE swap mem off type).bind fun len =>
      if len = 0 then .ok (some w)
      else if ((off + len : Nat) : Int) > reclen then .ok (some w)
      else
        (blockette env hostBE swap mem off type w).bind fun r =>
        match r with
        | none => .ok none
        | some w => walk env hostBE swap mem reclen fuel (nextOff reclen off len next) w
    else .ok (some w)

/-- unpack.c:340-350: data quality indicator to publication version. -/
def pubVersion (quality : Nat) : Nat :=
  if quality = 77 then 4
  else if quality = 81 then 3
  else if quality = 68 then 2
  else if quality = 82 then 1
  else 0

/-- unpack.c:352-402: `flags` of the record from the activity, I/O and data quality flags. -/
def mapFlags (act io dq : Nat) : Nat :=
  (if act.testBit 0 then 1 else 0) ||| (if io.testBit 5 then 4 else 0) |||
  (if dq.testBit 7 then 2 else 0)

/-- unpack.c:352-402: the remaining flag bits as extra headers. -/
def flagHeaders (act io dq : Nat) : List Header :=
  (if act.testBit 2 then [.flag "/FDSN/Event/Begin"] else []) ++
  (if act.testBit 3 then [.flag "/FDSN/Event/End"] else []) ++
  (if act.testBit 4 then [.leapSecond 1] else []) ++
  (if act.testBit 5 then [.leapSecond (-1)] else []) ++
  (if act.testBit 6 then [.flag "/FDSN/Event/InProgress"] else []) ++
  (if io.testBit 0 then [.flag "/FDSN/Flags/StationVolumeParityError"] else []) ++
  (if io.testBit 1 then [.flag "/FDSN/Flags/LongRecordRead"] else []) ++
  (if io.testBit 2 then [.flag "/FDSN/Flags/ShortRecordRead"] else []) ++
  (if io.testBit 3 then [.flag "/FDSN/Flags/StartOfTimeSeries"] else []) ++
  (if io.testBit 4 then [.flag "/FDSN/Flags/EndOfTimeSeries"] else []) ++
  (if dq.testBit 0 then [.flag "/FDSN/Flags/AmplifierSaturation"] else []) ++
  (if dq.testBit 1 then [.flag "/FDSN/Flags/DigitizerClipping"] else []) ++
  (if dq.testBit 2 then [.flag "/FDSN/Flags/Spikes"] else []) ++
  (if dq.testBit 3 then [.flag "/FDSN/Flags/Glitches"] else []) ++
  (if dq.testBit 4 then [.flag "/FDSN/Flags/MissingData"] else []) ++
  (if dq.testBit 5 then [.flag "/FDSN/Flags/TelemetrySyncError"] else []) ++
  (if dq.testBit 6 then [.flag "/FDSN/Flags/FilterCharging"] else [])

/-- unpack.c:927-947: the start time: the time of the header, the correction unless bit 1 of the
activity flags says it is applied, and the microseconds of blockette 1001.  `NSTERROR` is the return
`MS_GENERROR` (the corrected time is never tested, so the value is only `NSTERROR` here if the time
of the header is). -/
def startTime (hostBE swap : Bool) (mem : List UInt8) (act b1001 : Nat) (correct : Int) :
    Res (Option Int) :=
  (btime hostBE swap mem 20).bind fun t =>
  if t = NSTERROR then .ok none
  else
    (if correct ≠ 0 ∧ act.testBit 1 = false then addTime t (correct * 100000) else .ok t).bind fun t =>
    if b1001 ≠ 0 then
      (load hostBE false mem (b1001 + 5) 1).bind fun u =>
      (addTime t (sext 8 u * 1000)).bind fun t => .ok (some t)
    else .ok (some t)

/-- unpack.c:953-967: whether the payload needs swapping. -/
def swapData (hostBE swap : Bool) (mem : List UInt8) (b1000 : Nat) : Res Bool :=
  if b1000 ≠ 0 then
    (load hostBE false mem (b1000 + 5) 1).bind fun o =>
    .ok (if hostBE then decide (o = 0) else decide (o > 0))
  else .ok swap

/-- unpack.c:927-994: the fields set after the blockette loop and, if requested, the samples. -/
def finish (env : Env) (hostBE : Bool) (align : Nat) (mem : List UInt8) (swap unpackdata : Bool)
    (sid : List UInt8) (samplecnt quality act io dq : Nat) (correct : Int) (w : Walk) :
    Res Parsed :=
  (startTime hostBE swap mem act w.b1001 correct).bind fun t =>
  match t with
  | none => .ok .genError
  | some starttime =>
    (load hostBE swap mem 44 2).bind fun dataoffset =>
    (swapData hostBE swap mem w.b1000).bind fun swapPayload =>
    withSamples hostBE align mem
      { sid, reclen := w.reclen, swapHeader := swap, swapPayload, formatversion := 2
        flags := mapFlags act io dq, starttime, samprate := w.samprate, encoding := w.encoding
        pubversion := pubVersion quality, samplecnt, crc := 0
        extra := if w.headers = [] then [] else env.json w.headers
        datalength := if dataoffset > 0 then bits 32 (w.reclen - dataoffset) else 0 }
      unpackdata

/-- unpack.c:257-995 `msr3_unpack_mseed2`. -/
def unpack2 (env : Env) (hostBE : Bool) (align : Nat) (mem : List UInt8) (reclen : Int)
    (unpackdata : Bool) : Res Parsed :=
  if reclen < 64 ∨ reclen > 10485760 then (recordSid mem).bind fun _ => .ok .outOfRange
  else
    (peek mem 0 27).bind fun h =>
    if !validHeader2 h then (recordSid mem).bind fun _ => .ok .notSeed
    else
      (load hostBE false mem 20 2).bind fun year =>
      (load hostBE false mem 22 2).bind fun day =>
      let swap := !Detect.validYearDay year day
      (recordSid mem).bind fun sid =>
      (load hostBE swap mem 32 2).bind fun fact =>
      (load hostBE swap mem 34 2).bind fun mult =>
      (load hostBE swap mem 30 2).bind fun samplecnt =>
      (load hostBE false mem 6 1).bind fun quality =>
      (load hostBE false mem 36 1).bind fun act =>
      (load hostBE false mem 37 1).bind fun io =>
      (load hostBE false mem 38 1).bind fun dq =>
      (load hostBE swap mem 40 4).bind fun tc =>
      let correct := sext 32 tc
      (load hostBE swap mem 46 2).bind fun off =>
      (walk env hostBE swap mem reclen 65537 off
        { samprate := env.nominal (sext 16 fact) (sext 16 mult), reclen
          headers := flagHeaders act io dq ++ (if correct ≠ 0 then [.correction correct] else []) }).bind
        fun w =>
      match w with
      | none => .ok .genError
      | some w =>
        finish env hostBE align mem swap unpackdata sid samplecnt quality act io dq correct w

end Verif.Model.Record2
