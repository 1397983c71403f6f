import Verif.Model.Pack2
import Verif.Model.ExtraHeaders
import Verif.Model.TimeStr
/-!
# Model of the extra headers in version 2 headers

libmseed/pack.c:973-986, 991-993, 1040-1102, 1123-1135 and 1160-1594: the values that `msr3_pack_header2` finds in the JSON
text of the extra headers, and the blockettes that it makes of timing exceptions, event detections and calibrations.
Reading JSON is modelled in `Verif.Model.JsonText`, pointers in `Verif.Model.Json`.  The blockettes are filled with
zeros, then fields are set in the order of the code, which is that of their places.  Flags, set one by one in the code,
are written once here.
-/
namespace Verif.Model.Blockettes2
open Verif.Spec.Json
open Verif.Model Verif.Model.Steim Verif.Model.Mem Verif.Model.Pack2
open Verif.Model.ExtraHeaders (lit)

/-- The conversions of numbers (a `double` by its bits), left open: an integer to `double`; a `double` to `float`
(bits); `(uint32_t)(d * 10000 + 0.5)`, `(uint32_t)(d + 0.5)`, `(uint8_t)d` and `(int32_t)(d * 10000 + 0.5)`, `none` if
the value does not fit, which is undefined behaviour; the sign; and the rounding of numbers in time strings. -/
structure Numbers where
  int : Int → UInt64
  narrow : UInt64 → Nat
  tenths : UInt64 → Option Nat
  whole : UInt64 → Option Nat
  byte : UInt64 → Option Nat
  shift : UInt64 → Option Int
  sign : UInt64 → Int
  rnd : Rat → Rat

/-- yyjson.h:7140-7166 `yyjson_ptr_get`, also of no value. -/
def look (v : Option Json) (path : String) : Option Json := Json.docGet v (lit path)

/-- yyjson.h:7729-7738 `yyjson_ptr_get_bool` -/
def getBool (v : Option Json) (path : String) : Option Bool :=
  match look v path with
  | some (.bool b) => some b
  | _ => none

/-- yyjson.h:7744-7756 `yyjson_ptr_get_uint` -/
def getUint (v : Option Json) (path : String) : Option Nat :=
  match look v path with
  | some (.int i) => if 0 ≤ i then some i.toNat else none
  | _ => none

/-- yyjson.h:4682-4702 `unsafe_yyjson_get_num` of a number. -/
def toNum (k : Numbers) : Json → Option UInt64
  | .int i => some (k.int i)
  | .real d => some d
  | _ => none

/-- yyjson.h:7796-7805 `yyjson_ptr_get_num` -/
def getNum (k : Numbers) (v : Option Json) (path : String) : Option UInt64 := (look v path).bind (toNum k)

/-- yyjson.h:7811-7820 `yyjson_ptr_get_str`: the bytes before the first NUL, all that is used of the string. -/
def getStr (v : Option Json) (path : String) : Option (List UInt8) :=
  match look v path with
  | some (.str s) => some (s.takeWhile (· != 0))
  | _ => none

/-- A letter in lower case, in the C locale. -/
def lower (c : UInt8) : UInt8 := if 65 ≤ c.toNat ∧ c.toNat ≤ 90 then c + 32 else c

/-- `strncasecmp (s, t, strlen (t)) == 0` -/
def like (s : List UInt8) (t : String) : Bool := (s.take (lit t).length).map lower == (lit t).map lower

/-- The write of a field, if there is a value for it. -/
def opt (off : Nat) : Option (Res (List UInt8)) → List (Nat × Res (List UInt8))
  | some r => [(off, r)]
  | none => []

/-- A `float`, for example pack.c:1187-1188. -/
def float (hostBE : Bool) (k : Numbers) (e : Json) (path : String) : Option (Res (List UInt8)) :=
  (getNum k (some e) path).map fun d => .ok (big hostBE 4 (k.narrow d))

/-- A `uint32_t` from a `double`, for example pack.c:1445-1446 with `tenths` and 1457-1458 with `whole`. -/
def long (hostBE : Bool) (k : Numbers) (convert : UInt64 → Option Nat) (e : Json) (path : String) :
    Option (Res (List UInt8)) :=
  (getNum k (some e) path).map fun d =>
    match convert d with
    | some v => .ok (big hostBE 4 v)
    | none => .ub

/-- A `uint8_t` from an integer of at most `limit`, for example pack.c:1214-1215. -/
def small (limit : Nat) (e : Json) (path : String) : Option (Res (List UInt8)) :=
  match getUint (some e) path with
  | some u => if u ≤ limit then some (.ok [UInt8.ofNat u]) else none
  | none => none

/-- A text in a field of `n` bytes, for example pack.c:1220-1221. -/
def label (n : Nat) (v : Option Json) (path : String) : Option (Res (List UInt8)) :=
  (getStr v path).map fun s => openField s n

/-- pack.c:2092-2125 `ms_timestr2btime`: the parts of the time; `err` if the text is no time.  `outside` is never
reached (C79). -/
def btime (k : Numbers) (s : List UInt8) : Res DateTime :=
  match TimeStr.timestr2nstime k.rnd (s.map fun b => Char.ofNat b.toNat) with
  | .ok t =>
    if t = NSTERROR then .err
    else
      match nstime2time t with
      | some dt => .ok dt
      | none => .err
  | .ub => .ub
  | .outside => .ub

/-- pack.c:2116-2122: the bytes of the time. -/
def btimeBytes (hostBE : Bool) (t : DateTime) : List UInt8 :=
  big hostBE 2 t.year.toNat ++ big hostBE 2 t.yday.toNat ++
  [UInt8.ofNat t.hour.toNat, UInt8.ofNat t.min.toNat, UInt8.ofNat t.sec.toNat, 0] ++
  big hostBE 2 (t.nsec.toNat / 100000)

/-- A time, for example pack.c:1297-1306. -/
def time (hostBE : Bool) (k : Numbers) (e : Json) (path : String) : Option (Res (List UInt8)) :=
  (getStr (some e) path).map fun s => (btime k s).bind fun t => .ok (btimeBytes hostBE t)

/-- pack.c:1190-1212: a time and its microseconds beyond units of 0.0001 seconds in the byte after it. -/
def timeMicro (hostBE : Bool) (k : Numbers) (e : Json) (path : String) : Option (Res (List UInt8)) :=
  (getStr (some e) path).map fun s => (btime k s).bind fun t =>
    .ok (btimeBytes hostBE t ++ [UInt8.ofNat (microOffset t)])

/-- A bit of flags. -/
def bit (v : Nat) (c : Bool) : Nat := if c then v else 0

/-- A boolean that is true, for example pack.c:1432-1433. -/
def isTrue (e : Json) (path : String) : Bool := getBool (some e) path == some true

/-- A text that is there and begins with another, for example pack.c:1438-1440. -/
def isLike (e : Json) (path : String) (t : String) : Bool :=
  match getStr (some e) path with
  | some s => like s t
  | none => false

/-- pack.c:1170-1229: blockette 500 for a timing exception. -/
def exceptionStep (hostBE : Bool) (k : Numbers) (root : Option Json) (e : Json) : Step :=
  .add 500 200 (
    opt 4 (float hostBE k e "/VCOCorrection") ++
    opt 8 (timeMicro hostBE k e "/Time") ++
    opt 19 (small 255 e "/ReceptionQuality") ++
    opt 20 (match getUint (some e) "/Count" with
      | some u => if u ≤ 4294967295 then some (.ok (big hostBE 4 u)) else none
      | none => none) ++
    opt 24 (label 16 (some e) "/Type") ++
    opt 40 (label 32 root "/FDSN/Clock/Model") ++
    opt 72 (label 128 (some e) "/ClockStatus"))

/-- pack.c:1281-1295: the flags of blockettes 200 and 201. -/
def eventFlags (murdock : Bool) (e : Json) : Nat :=
  (match getStr (some e) "/Wave" with
    | some s => bit 1 (like s "DILATATION")
    | none => bit 4 (!murdock)) +
  (if murdock then 0
    else match getStr (some e) "/Units" with
      | some s => bit 2 (!like s "COUNT")
      | none => 0)

/-- pack.c:1320-1331: the ratios, written one after another without regard of how many there are. -/
def ratios (k : Numbers) (e : Json) : List (Nat × Res (List UInt8)) :=
  match look (some e) "/MEDSNR" with
  | some (.arr l) =>
    (l.filterMap (toNum k)).zipIdx.map fun (d, i) =>
      (28 + i, match k.byte d with
        | some b => .ok [UInt8.ofNat b]
        | none => .ub)
  | _ => []

/-- pack.c:1243-1343: blockette 200 or 201 for an event detection. -/
def detectionStep (hostBE : Bool) (k : Numbers) (e : Json) : Step :=
  let murdock := isLike e "/Type" "MURDOCK"
  let first :=
    opt 4 (float hostBE k e "/SignalAmplitude") ++
    opt 8 (float hostBE k e "/SignalPeriod") ++
    opt 12 (float hostBE k e "/BackgroundEstimate") ++
    [(16, .ok [UInt8.ofNat (eventFlags murdock e)])] ++
    opt 18 (time hostBE k e "/OnsetTime")
  if murdock then
    .add 201 60 (first ++ ratios k e ++ opt 34 (small 254 e "/MEDLookback") ++
      opt 35 (small 254 e "/MEDPickAlgorithm") ++ opt 36 (label 24 (some e) "/Detector"))
  else .add 200 52 (first ++ opt 28 (label 24 (some e) "/Detector"))

/-- The flags for the trigger and for continued calibrations, pack.c:1438-1443 and the like. -/
def triggerFlags (e : Json) : Nat := bit 4 (isLike e "/Trigger" "AUTOMATIC") + bit 8 (isTrue e "/Continued")

/-- pack.c:1412-1465: blockette 300. -/
def stepStep (hostBE : Bool) (k : Numbers) (e : Json) : Step :=
  .add 300 60 (
    opt 4 (time hostBE k e "/BeginTime") ++
    opt 14 (small 255 e "/Steps") ++
    [(15, .ok [UInt8.ofNat (bit 1 (isTrue e "/StepFirstPulsePositive") + bit 2 (isTrue e "/StepAlternateSign") +
      triggerFlags e)])] ++
    opt 16 (long hostBE k k.tenths e "/Duration") ++
    opt 20 (long hostBE k k.tenths e "/StepBetween") ++
    opt 24 (float hostBE k e "/Amplitude") ++
    opt 28 (label 3 (some e) "/InputChannel") ++
    opt 32 (long hostBE k k.whole e "/ReferenceAmplitude") ++
    opt 36 (label 12 (some e) "/Coupling") ++
    opt 48 (label 12 (some e) "/Rolloff"))

/-- pack.c:1412-1425, 1466-1505: blockette 310. -/
def sineStep (hostBE : Bool) (k : Numbers) (e : Json) : Step :=
  .add 310 60 (
    opt 4 (time hostBE k e "/BeginTime") ++
    [(15, .ok [UInt8.ofNat (triggerFlags e + bit 16 (isLike e "/AmplitudeRange" "PEAKTOPEAK") +
      bit 32 (isLike e "/AmplitudeRange" "ZEROTOPEAK") + bit 64 (isLike e "/AmplitudeRange" "RMS"))])] ++
    opt 16 (long hostBE k k.tenths e "/Duration") ++
    opt 20 (float hostBE k e "/SinePeriod") ++
    opt 24 (float hostBE k e "/Amplitude") ++
    opt 28 (label 3 (some e) "/InputChannel") ++
    opt 32 (long hostBE k k.whole e "/ReferenceAmplitude") ++
    opt 36 (label 12 (some e) "/Coupling") ++
    opt 48 (label 12 (some e) "/Rolloff"))

/-- pack.c:1412-1425, 1506-1539: blockette 320. -/
def randomStep (hostBE : Bool) (k : Numbers) (e : Json) : Step :=
  .add 320 64 (
    opt 4 (time hostBE k e "/BeginTime") ++
    [(15, .ok [UInt8.ofNat (triggerFlags e + bit 16 (isLike e "/AmplitudeRange" "RANDOM"))])] ++
    opt 16 (long hostBE k k.tenths e "/Duration") ++
    opt 20 (float hostBE k e "/Amplitude") ++
    opt 24 (label 3 (some e) "/InputChannel") ++
    opt 28 (long hostBE k k.whole e "/ReferenceAmplitude") ++
    opt 32 (label 12 (some e) "/Coupling") ++
    opt 44 (label 12 (some e) "/Rolloff") ++
    opt 56 (label 8 (some e) "/Noise"))

/-- pack.c:1412-1425, 1540-1557: blockette 390. -/
def genericStep (hostBE : Bool) (k : Numbers) (e : Json) : Step :=
  .add 390 28 (
    opt 4 (time hostBE k e "/BeginTime") ++
    [(15, .ok [UInt8.ofNat (triggerFlags e)])] ++
    opt 16 (long hostBE k k.tenths e "/Duration") ++
    opt 20 (float hostBE k e "/Amplitude") ++
    opt 24 (label 3 (some e) "/InputChannel"))

/-- pack.c:1358-1560: the blockette for a calibration, if it has one of the four types. -/
def calibrationStep (hostBE : Bool) (k : Numbers) (e : Json) : Step :=
  match getStr (some e) "/Type" with
  | some s =>
    if like s "STEP" then stepStep hostBE k e
    else if like s "SINE" then sineStep hostBE k e
    else if like s "PSEUDORANDOM" then randomStep hostBE k e
    else if like s "GENERIC" then genericStep hostBE k e
    else .refuse
  | none => if (look (some e) "/EndTime").isSome then .room 16 else .refuse

/-- pack.c:1562-1592: blockette 395 for the end of a calibration. -/
def endSteps (hostBE : Bool) (k : Numbers) (e : Json) : List Step :=
  match getStr (some e) "/EndTime" with
  | some _ => [.add 395 16 (opt 4 (time hostBE k e "/EndTime"))]
  | none => []

/-- The objects of a list, pack.c:1161-1168, 1234-1241 and 1349-1356. -/
def objects (root : Option Json) (path : String) : List Json :=
  match look root path with
  | some (.arr l) => l.filter fun | .obj _ => true | _ => false
  | _ => []

/-- pack.c:1090-1092: a time correction that does not fit 32 bits. -/
def overflow (k : Numbers) (root : Option Json) : List Step :=
  match getNum k root "/FDSN/Time/Correction" with
  | some d => if k.shift d = none then [.undefined] else []
  | none => []

/-- pack.c:1160-1594. -/
def steps (hostBE : Bool) (k : Numbers) (root : Option Json) : List Step :=
  overflow k root ++
  (objects root "/FDSN/Time/Exception").map (exceptionStep hostBE k root) ++
  (objects root "/FDSN/Event/Detection").map (detectionStep hostBE k) ++
  (objects root "/FDSN/Calibration/Sequence").flatMap fun e => calibrationStep hostBE k e :: endSteps hostBE k e

/-- pack.c:991-993 (the first byte of the string, the NUL if it is empty), 1040-1102 and 1123-1135. -/
def extra (hostBE : Bool) (k : Numbers) (root : Option Json) : Extra where
  quality := (getStr root "/FDSN/DataQuality").map fun s => s.headD 0
  flag path := getBool root path == some true
  leap := ((getNum k root "/FDSN/Time/LeapSecond").map k.sign).getD 0
  correction := (getNum k root "/FDSN/Time/Correction").map fun d => (k.shift d).getD 0
  timing := getUint root "/FDSN/Time/Quality"
  steps := steps hostBE k root

/-- pack.c:973-986: the extra headers from their text. -/
def json (reals : JsonText.Reals) (hostBE : Bool) (k : Numbers) (s : List UInt8) : Option Extra :=
  (JsonText.read reals s).map fun v => extra hostBE k (some v)

end Verif.Model.Blockettes2
