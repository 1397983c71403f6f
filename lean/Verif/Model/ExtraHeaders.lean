import Verif.Model.Json
import Verif.Model.JsonText
import Verif.Model.TimeStr
import Verif.Model.Samples
/-!
# Extra headers: libmseed/extraheaders.c

The extra headers of a record (`msr->extra` with `msr->extralength`) are a list of bytes of length at most 65535;
no extra headers are the empty list, and `extra` is not NULL for others.  Strings given by pointers (the pointer,
values, patches) are the bytes up to the terminating NUL, and none of these pointers nor `msr` is NULL.  Reading
and writing JSON text (`yyjson_read_opts`, `yyjson_write_opts`, `yyjson_mut_write_opts`) are the parameter
`Codec`; `Verif.Model.JsonText` has the real ones.  Messages are not modelled and memory is always available.
-/
namespace Verif.Model.ExtraHeaders
open Verif.Spec.Json (Json)
open Verif.Model.Json Verif.Model.Steim

/-- The text of JSON values: reading a text and writing a value, both may fail. -/
structure Codec where
  read : List UInt8 → Option Json
  write : Json → Option (List UInt8)

/-- The texts of yyjson, with the flags used in extraheaders.c:98, 409, 1016, 1109, 1117. -/
def codec (reals : JsonText.Reals) : Codec := ⟨JsonText.read reals, JsonText.write reals⟩

/-- libmseed/extraheaders.h:39-43 `LM_PARSED_JSON`: the immutable document, which has a root, and
the mutable one, which may have none. -/
structure State where
  doc : Option Json
  edit : Option (Option Json)

/-- MS_GENERROR, libmseed.h:1448 -/
def generror : Int := -1

/-- extraheaders.c:55-106 `parse_json` without a state. -/
def parseJson (c : Codec) (extra : List UInt8) : Option State :=
  if extra = [] then some ⟨none, none⟩
  else match c.read extra with
    | none => none
    | some v => some ⟨some v, none⟩

/-- extraheaders.c:187-203, 338-354: the state given, or a new one. -/
def parsed (c : Codec) (extra : List UInt8) : Option State → Option State
  | some s => some s
  | none => parseJson c extra

/-- The value copied to the memory given. -/
inductive Got where
  | nothing
  | number (bits : UInt64)
  | int (i : Int)
  | str (buffer : List UInt8)
  | bool (i : Int)
deriving DecidableEq, Repr

/-- extraheaders.c:240-241: `strncpy` to a buffer of `maxlength` bytes and the terminating NUL.  The length
given for 0 is 2^32 - 1. -/
def copyStr (s : List UInt8) (maxlength : Nat) : Res (List UInt8) :=
  if maxlength = 0 then .oob
  else
    let s := (s.takeWhile (· ≠ 0)).take (maxlength - 1)
    .ok (s ++ List.replicate (maxlength - s.length) 0)

/-- extraheaders.c:221-257: the return value and what is copied, for the value found.  `type` is a
character, `wanted` tells whether `value` is not NULL, and `num` converts an integer to a `double`. -/
def fetch (num : Int → UInt64) (found : Option Json) (type : UInt8) (wanted : Bool) (maxlength : Nat) : Res (Int × Got) :=
  let other : Res (Int × Got) := .ok (if wanted then (2, .nothing) else (0, .nothing))
  match found with
  | none => .ok (1, .nothing)
  | some v =>
    if type = 110 then  -- 'n'
      match v with
      | .real d => .ok (0, if wanted then .number d else .nothing)
      | .int i => .ok (0, if wanted then .number (num i) else .nothing)
      | _ => other
    else if type = 105 then  -- 'i'
      match v with
      -- yyjson.h:4674 `unsafe_yyjson_get_int` returns `int`
      | .int i => .ok (0, if wanted then .int (i.bmod (2 ^ 32)) else .nothing)
      | _ => other
    else if type = 115 then  -- 's'
      match v with
      | .str s => if wanted then (copyStr s maxlength).bind fun b => .ok (0, .str b) else .ok (0, .nothing)
      | _ => other
    else if type = 98 then  -- 'b'
      match v with
      | .bool b => .ok (0, if wanted then .bool (if b then 1 else 0) else .nothing)
      | _ => other
    else other

/-- extraheaders.c:205-219: the immutable document of a state, made from the mutable one if needed. -/
def immutable (s : State) : Option State :=
  match s.edit, s.doc with
  | some none, none => none
  | some (some v), none => some ⟨some v, s.edit⟩
  | _, _ => some s

/-- extraheaders.c:150-265 `mseh_get_ptr_r` with a place for the state (`none` if `*parsestate` is NULL): the
return value, what is copied, and the state. -/
def getr (c : Codec) (num : Int → UInt64) (extra : List UInt8) (state : Option State) (ptr : List UInt8)
    (type : UInt8) (wanted : Bool) (maxlength : Nat) : Res (Int × Got × Option State) :=
  if extra = [] then .ok (1, .nothing, state)
  else if ptr.head? ≠ some 47 then .ok (generror, .nothing, state)
  else match parsed c extra state with
    | none => .ok (generror, .nothing, none)
    | some s =>
      match immutable s with
      | none => .ok (generror, .nothing, some s)
      | some s => (fetch num (docGet s.doc ptr) type wanted maxlength).bind fun r => .ok (r.1, r.2, some s)

/-- extraheaders.c:150-265 `mseh_get_ptr_r` with `parsestate` NULL. -/
def get (c : Codec) (num : Int → UInt64) (extra : List UInt8) (ptr : List UInt8)
    (type : UInt8) (wanted : Bool) (maxlength : Nat) : Res (Int × Got) :=
  (getr c num extra none ptr type wanted maxlength).bind fun r => .ok (r.1, r.2.1)

/-- libmseed.h:942-943 `mseh_exists` -/
def existing (c : Codec) (num : Int → UInt64) (extra ptr : List UInt8) : Res Bool :=
  (get c num extra ptr 0 false 0).bind fun r => .ok (decide (r.1 = 0))

/-- The value given to `mseh_set_ptr_r` with its type. -/
inductive Value where
  | number (bits : UInt64)      -- 'n'
  | int (i : Int)               -- 'i'
  | str (s : List UInt8)        -- 's'
  | bool (i : Int)              -- 'b'
  | merge (patch : List UInt8)  -- 'M'
  | put (v : Json)              -- 'V'
  | append (v : Json)           -- 'A'
  | other                       -- any other type

/-- Is the type 'M'? -/
def Value.isMerge : Value → Bool
  | .merge _ => true
  | _ => false

/-- extraheaders.c:389-460: the changed root, or `none` if `rv` is false.  Nothing has changed then.
A new array and the value appended to it (440-451) are one step. -/
def change (c : Codec) (root : Option Json) (ptr : List UInt8) : Value → Option Json
  | .number d => docSet root ptr (.real d)
  | .int i => docSet root ptr (.int i)
  | .str s => docSet root ptr (.str s)
  | .bool i => docSet root ptr (.bool (decide (i ≠ 0)))
  | .merge patch =>
    match c.read patch with
    | none => none
    | some p =>
      match docGet root ptr with
      | none => none
      | some target => docReplace root ptr (mergePatch (some target) p)
  | .put v => docSet root ptr v
  | .append v =>
    match docGet root ptr with
    | none => docSet root ptr (.arr [v])
    | some _ =>
      match root with
      | none => none
      | some r => appendx ptr.length r ptr v
  | .other => none

/-- extraheaders.c:997-1040 `mseh_serialize`: the return value and the extra headers. -/
def serialize (c : Codec) (extra : List UInt8) (state : Option State) : Int × List UInt8 :=
  match state with
  | none => (0, extra)
  | some s =>
    match s.edit with
    | none => (0, extra)
    | some root =>
      match root.bind c.write with
      | none => (generror, extra)
      | some t => if t.length > 65535 then (generror, extra) else (t.length, t)

/-- extraheaders.c:312-476 `mseh_set_ptr_r` with a place for the state: the return value and the state. -/
def setr (c : Codec) (extra : List UInt8) (state : Option State) (ptr : List UInt8) (value : Value) : Int × Option State :=
  if ptr.head? ≠ some 47 ∧ value.isMerge = false then (generror, state)
  else match parsed c extra state with
    | none => (generror, none)
    | some s =>
      let root := s.edit.getD s.doc
      match change c root ptr value with
      | none => (generror, some ⟨s.doc, some root⟩)
      | some v => (0, some ⟨none, some (some v)⟩)

/-- extraheaders.c:312-476 `mseh_set_ptr_r` with `parsestate` NULL: the return value and the extra headers.  What
`mseh_serialize` returns (463-467) is not looked at. -/
def set (c : Codec) (extra : List UInt8) (ptr : List UInt8) (value : Value) : Int × List UInt8 :=
  let r := setr c extra none ptr value
  (r.1, (serialize c extra r.2).2)

/-- extraheaders.c:1091-1142 `mseh_replace`: the return value and the extra headers; `none` is NULL. -/
def replace (c : Codec) (extra : List UInt8) (json : Option (List UInt8)) : Int × List UInt8 :=
  match json with
  | none => (0, [])
  | some j =>
    match c.read j with
    | none => (generror, extra)
    | some v =>
      match c.write v with
      | none => (generror, extra)
      | some t => if t.length > 65535 then (generror, extra) else (t.length, t)

/-! ## Entries -/

/-- The bytes of a string literal. -/
def lit (s : String) : List UInt8 := s.toList.map fun c => UInt8.ofNat c.toNat

/-- Is a `double` different from 0.0? -/
def nonzero (d : UInt64) : Bool := decide (d ≠ 0 ∧ d ≠ 0x8000000000000000)

/-- Is a `double` at least 0.0?  Not if it is NaN. -/
def geZero (d : UInt64) : Bool := decide (d.toNat ≤ 0x7ff0000000000000 ∨ d = 0x8000000000000000)

abbrev Members := List (List UInt8 × Json)

/-- A string member unless the string is empty. -/
def strMember (k : String) (s : List UInt8) : Members := if s = [] then [] else [(lit k, .str s)]

/-- A real member unless it is 0.0. -/
def realMember (k : String) (d : UInt64) : Members := if nonzero d then [(lit k, .real d)] else []

/-- An integer member unless it is negative. -/
def intMember (k : String) (i : Int) : Members := if i ≥ 0 then [(lit k, .int i)] else []

/-- A boolean member unless the value is negative. -/
def boolMember (k : String) (i : Int) : Members := if i ≥ 0 then [(lit k, .bool (decide (i ≠ 0)))] else []

/-- A member with a time unless it is unset; `none` if the time cannot be formatted. -/
def timeMember (k : String) (t : Int) : Option Members :=
  if t ≠ NSTERROR ∧ t ≠ NSTUNSET then
    let p := TimeStr.nstime2timestr t .isoMonthDayZ .nanoMicroNone
    if p.ok then some [(lit k, .str ((p.text.getD []).map fun c => UInt8.ofNat c.toNat))] else none
  else some []

/-- libmseed.h:823-837 `MSEHEventDetection`.  Strings end within their arrays. -/
structure EventDetection where
  type : List UInt8
  detector : List UInt8
  signalamplitude : UInt64
  signalperiod : UInt64
  backgroundestimate : UInt64
  wave : List UInt8
  units : List UInt8
  onsettime : Int
  medsnr : List UInt8
  medlookback : Int
  medpickalgorithm : Int

/-- libmseed.h:847-869 `MSEHCalibration` -/
structure Calibration where
  type : List UInt8
  begintime : Int
  endtime : Int
  steps : Int
  firstpulsepositive : Int
  alternatesign : Int
  trigger : List UInt8
  continued : Int
  amplitude : UInt64
  inputunits : List UInt8
  amplituderange : List UInt8
  duration : UInt64
  sineperiod : UInt64
  stepbetween : UInt64
  inputchannel : List UInt8
  refamplitude : UInt64
  coupling : List UInt8
  rolloff : List UInt8
  noise : List UInt8

/-- libmseed.h:879-888 `MSEHTimingException`; `vcocorrection` is the `float` converted to `double`. -/
structure TimingException where
  time : Int
  vcocorrection : UInt64
  receptionquality : Int
  count : Nat
  type : List UInt8
  clockstatus : List UInt8

/-- libmseed.h:898-904 `MSEHRecenter` -/
structure Recenter where
  type : List UInt8
  begintime : Int
  endtime : Int
  trigger : List UInt8

/-- extraheaders.c:520-602: the object for an event detection; `none` if it returns an error. -/
def eventEntry (e : EventDetection) : Option Json :=
  (timeMember "OnsetTime" e.onsettime).map fun onset => .obj (
    strMember "Type" e.type ++
    realMember "SignalAmplitude" e.signalamplitude ++
    realMember "SignalPeriod" e.signalperiod ++
    realMember "BackgroundEstimate" e.backgroundestimate ++
    strMember "Wave" e.wave ++
    strMember "Units" e.units ++
    onset ++
    (if e.medsnr ≠ [0, 0, 0, 0, 0, 0] then
      [(lit "MEDSNR", Json.arr (e.medsnr.map fun b => Json.int b.toNat))] else []) ++
    intMember "MEDLookback" e.medlookback ++
    intMember "MEDPickAlgorithm" e.medpickalgorithm ++
    strMember "Detector" e.detector)

/-- extraheaders.c:664-794: the object for a calibration. -/
def calibrationEntry (e : Calibration) : Option Json :=
  (timeMember "BeginTime" e.begintime).bind fun begintime =>
  (timeMember "EndTime" e.endtime).map fun endtime => .obj (
    strMember "Type" e.type ++
    begintime ++
    endtime ++
    intMember "Steps" e.steps ++
    boolMember "StepFirstPulsePositive" e.firstpulsepositive ++
    boolMember "StepAlternateSign" e.alternatesign ++
    strMember "Trigger" e.trigger ++
    boolMember "Continued" e.continued ++
    realMember "Amplitude" e.amplitude ++
    strMember "InputUnits" e.inputunits ++
    strMember "AmplitudeRange" e.amplituderange ++
    realMember "Duration" e.duration ++
    realMember "SinePeriod" e.sineperiod ++
    realMember "StepBetween" e.stepbetween ++
    strMember "InputChannel" e.inputchannel ++
    realMember "ReferenceAmplitude" e.refamplitude ++
    strMember "Coupling" e.coupling ++
    strMember "Rolloff" e.rolloff ++
    strMember "Noise" e.noise)

/-- extraheaders.c:841-886: the object for a timing exception. -/
def exceptionEntry (e : TimingException) : Option Json :=
  (timeMember "Time" e.time).map fun time => .obj (
    time ++
    (if geZero e.vcocorrection then [(lit "VCOCorrection", Json.real e.vcocorrection)] else []) ++
    intMember "ReceptionQuality" e.receptionquality ++
    (if e.count > 0 then [(lit "Count", Json.int e.count)] else []) ++
    strMember "Type" e.type ++
    strMember "ClockStatus" e.clockstatus)

/-- extraheaders.c:931-971: the object for a recenter event. -/
def recenterEntry (e : Recenter) : Option Json :=
  (timeMember "BeginTime" e.begintime).bind fun begintime =>
  (timeMember "EndTime" e.endtime).map fun endtime => .obj (
    strMember "Type" e.type ++
    begintime ++
    endtime ++
    strMember "Trigger" e.trigger)

/-- An entry appended to the list at a path, extraheaders.c:604-612, 796-804, 888-896, 973-981; with a place for
the state. -/
def addr (c : Codec) (extra : List UInt8) (state : Option State) (default : String) (ptr : Option (List UInt8))
    (entry : Option Json) : Int × Option State :=
  match entry with
  | none => (generror, state)
  | some e =>
    let r := setr c extra state (ptr.getD (lit default)) (.append e)
    (if r.1 ≠ 0 then generror else 0, r.2)

/-- The same with `parsestate` NULL. -/
def add (c : Codec) (extra : List UInt8) (default : String) (ptr : Option (List UInt8))
    (entry : Option Json) : Int × List UInt8 :=
  match entry with
  | none => (generror, extra)
  | some e =>
    let r := set c extra (ptr.getD (lit default)) (.append e)
    (if r.1 ≠ 0 then generror else 0, r.2)

/-- extraheaders.c:493-612 `mseh_add_event_detection_r` -/
def addEventDetection (c : Codec) (extra : List UInt8) (state : Option State) (ptr : Option (List UInt8))
    (e : EventDetection) : Int × Option State :=
  addr c extra state "/FDSN/Event/Detection" ptr (eventEntry e)

/-- extraheaders.c:629-804 `mseh_add_calibration_r` -/
def addCalibration (c : Codec) (extra : List UInt8) (state : Option State) (ptr : Option (List UInt8))
    (e : Calibration) : Int × Option State :=
  addr c extra state "/FDSN/Calibration/Sequence" ptr (calibrationEntry e)

/-- extraheaders.c:821-896 `mseh_add_timing_exception_r` -/
def addTimingException (c : Codec) (extra : List UInt8) (state : Option State) (ptr : Option (List UInt8))
    (e : TimingException) : Int × Option State :=
  addr c extra state "/FDSN/Time/Exception" ptr (exceptionEntry e)

/-- extraheaders.c:913-981 `mseh_add_recenter_r` -/
def addRecenter (c : Codec) (extra : List UInt8) (state : Option State) (ptr : Option (List UInt8))
    (e : Recenter) : Int × Option State :=
  addr c extra state "/FDSN/Recenter/Sequence" ptr (recenterEntry e)

/-! ## Printing -/

/-- The message of one call of `ms_log (0, ...)`: logging.c:341-427 cuts at 199 bytes (libmseed.h:1106) and prints a
string, so up to a NUL. -/
def logged (s : List UInt8) : List UInt8 := (s.takeWhile (· ≠ 0)).take 199

/-- `"%*s"` of an empty string: a negative width is the width with the flag for the left side. -/
def spaces (indent : Int) : List UInt8 := List.replicate indent.natAbs 32

/-- extraheaders.c:1181-1219: what is printed for a character, whether it is in a string after it, and the indentation
after it. -/
def printChar (instring : Bool) (indent : Int) (c : UInt8) : List UInt8 × Bool × Int :=
  let instring := if c = 34 then !instring else instring
  if !instring then
    if c = 58 then (logged [58, 32], instring, indent)
    else if c = 44 then (logged (44 :: 10 :: spaces indent), instring, indent)
    else if c = 123 then (logged (123 :: 10 :: spaces (indent + 2)), instring, indent + 2)
    else if c = 91 then (logged (91 :: 10 :: spaces (indent + 2)), instring, indent + 2)
    else if c = 125 then (logged (10 :: (spaces (indent - 2) ++ [125])), instring, indent - 2)
    else if c = 93 then (logged (10 :: (spaces (indent - 2) ++ [93])), instring, indent - 2)
    else (logged [c], instring, indent)
  else (logged [c], instring, indent)

/-- extraheaders.c:1179-1220: the loop. -/
def printChars : Bool → Int → List UInt8 → List UInt8 × Bool × Int
  | instring, indent, [] => ([], instring, indent)
  | instring, indent, c :: t =>
    let (s, instring, indent) := printChar instring indent c
    let (u, instring, indent) := printChars instring indent t
    (s ++ u, instring, indent)

/-- extraheaders.c:1156-1226 `mseh_print`: the text printed, without the warning.  The indentation does not
overflow. -/
def print (extra : List UInt8) (indent : Int) : List UInt8 :=
  if extra = [] then []
  else logged (spaces indent) ++ ((printChars false indent extra.tail.dropLast).1 ++ logged [10])

end Verif.Model.ExtraHeaders
