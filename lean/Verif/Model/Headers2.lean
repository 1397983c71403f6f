import Verif.Model.Record2
import Verif.Model.ExtraHeaders
/-!
# Extra headers of version 2 records: libmseed/unpack.c

How the flags, the time correction and the blockettes of a version 2 record become extra headers.
`Verif.Model.Record2` gives them as a list of `Header` in the order of the code; here every one is the call of the
functions of `Verif.Model.ExtraHeaders`.
-/
namespace Verif.Model.Headers2
open Verif.Model.ExtraHeaders
open Verif.Model.Record2 hiding blockette

/-- The conversions of numbers: a `float` (bits) to `double`, a `uint32_t` to `double`, and an `int32_t` or `uint32_t`
to `double` divided by 10000.0. -/
structure Numbers where
  widen : Nat → UInt64
  num : Nat → UInt64
  tenths : Int → UInt64

/-- What a blockette becomes; with a timing exception the model of the clock. -/
inductive Mapping where
  | event (e : EventDetection)
  | calibration (e : Calibration)
  | exception (e : TimingException) (model : List UInt8)

/-- unpack.c:542-548, 551, 554-557: 1 if a bit is set and -1 otherwise. -/
def flag (flags bit : Nat) : Int := if flags.testBit bit then 1 else -1

/-- unpack.c:549-552, 598-601, 655-658, 706-709 -/
def trigger (flags : Nat) : List UInt8 := lit (if flags.testBit 2 then "AUTOMATIC" else "MANUAL")

/-- unpack.c:452-818: the structures filled from the fields of a blockette (`Verif.Model.Record2.reads`), by type: 200
452-486, 201 495-519, 300 528-574, 310 583-631, 320 640-682, 390 691-729, 395 738-767, 500 788-816. -/
def mapping (n : Numbers) : Nat → List Field → Option Mapping
  | 200, [.text detector, .num amplitude, .num period, .num background, .num flags, .time onset] =>
    some (.event {
      type := lit "GENERIC"
      detector := detector
      signalamplitude := n.widen amplitude
      signalperiod := n.widen period
      backgroundestimate := n.widen background
      wave := if flags.testBit 2 then (if flags.testBit 0 then lit "DILATATION" else lit "COMPRESSION") else []
      units := if flags.testBit 1 then lit "DECONVOLVED" else lit "COUNTS"
      onsettime := onset
      medsnr := [0, 0, 0, 0, 0, 0]
      medlookback := -1
      medpickalgorithm := -1 })
  | 201, [.text detector, .num amplitude, .num period, .num background, .num flags, .time onset, .num s0, .num s1,
      .num s2, .num s3, .num s4, .num s5, .num lookback, .num pick] =>
    some (.event {
      type := lit "MURDOCK"
      detector := detector
      signalamplitude := n.widen amplitude
      signalperiod := n.widen period
      backgroundestimate := n.widen background
      wave := if flags.testBit 0 then lit "DILATATION" else lit "COMPRESSION"
      units := []
      onsettime := onset
      medsnr := [s0, s1, s2, s3, s4, s5].map UInt8.ofNat
      medlookback := lookback
      medpickalgorithm := pick })
  | 300, [.time start, .num steps, .num flags, .num duration, .num interval, .num amplitude, .text channel,
      .num reference, .text coupling, .text rolloff] =>
    some (.calibration {
      type := lit "STEP"
      begintime := start
      endtime := NSTERROR
      steps := steps
      firstpulsepositive := flag flags 0
      alternatesign := flag flags 1
      trigger := trigger flags
      continued := flag flags 3
      amplitude := n.widen amplitude
      inputunits := []
      amplituderange := []
      duration := n.tenths duration
      sineperiod := 0
      stepbetween := n.tenths interval
      inputchannel := channel
      refamplitude := n.num reference
      coupling := coupling
      rolloff := rolloff
      noise := [] })
  | 310, [.time start, .num flags, .num duration, .num period, .num amplitude, .text channel,
      .num reference, .text coupling, .text rolloff] =>
    some (.calibration {
      type := lit "SINE"
      begintime := start
      endtime := NSTERROR
      steps := -1
      firstpulsepositive := -1
      alternatesign := -1
      trigger := trigger flags
      continued := flag flags 3
      amplitude := n.widen amplitude
      inputunits := []
      amplituderange := if flags.testBit 4 then lit "PEAKTOPEAK"
        else if flags.testBit 5 then lit "ZEROTOPEAK"
        else if flags.testBit 6 then lit "RMS" else []
      duration := n.tenths duration
      sineperiod := n.widen period
      stepbetween := 0
      inputchannel := channel
      refamplitude := n.num reference
      coupling := coupling
      rolloff := rolloff
      noise := [] })
  | 320, [.time start, .num flags, .num duration, .num amplitude, .text channel,
      .num reference, .text coupling, .text rolloff, .text noise] =>
    some (.calibration {
      type := lit "PSEUDORANDOM"
      begintime := start
      endtime := NSTERROR
      steps := -1
      firstpulsepositive := -1
      alternatesign := -1
      trigger := trigger flags
      continued := flag flags 3
      amplitude := n.widen amplitude
      inputunits := []
      amplituderange := if flags.testBit 4 then lit "RANDOM" else []
      duration := n.tenths duration
      sineperiod := 0
      stepbetween := 0
      inputchannel := channel
      refamplitude := n.num reference
      coupling := coupling
      rolloff := rolloff
      noise := noise })
  | 390, [.time start, .num flags, .num duration, .num amplitude, .text channel] =>
    some (.calibration {
      type := lit "GENERIC"
      begintime := start
      endtime := NSTERROR
      steps := -1
      firstpulsepositive := -1
      alternatesign := -1
      trigger := trigger flags
      continued := flag flags 3
      amplitude := n.widen amplitude
      inputunits := []
      amplituderange := []
      duration := n.tenths duration
      sineperiod := 0
      stepbetween := 0
      inputchannel := channel
      refamplitude := 0
      coupling := []
      rolloff := []
      noise := [] })
  | 395, [.time stop] =>
    some (.calibration {
      type := lit "ABORT"
      begintime := NSTERROR
      endtime := stop
      steps := -1
      firstpulsepositive := -1
      alternatesign := -1
      trigger := []
      continued := -1
      amplitude := 0
      inputunits := []
      amplituderange := []
      duration := 0
      sineperiod := 0
      stepbetween := 0
      inputchannel := []
      refamplitude := 0
      coupling := []
      rolloff := []
      noise := [] })
  | 500, [.num vco, .time time, .num quality, .num count, .text type, .text status, .text model] =>
    some (.exception {
      time := time
      vcocorrection := n.widen vco
      receptionquality := quality
      count := count
      type := type
      clockstatus := status } model)
  | _, _ => none

/-- unpack.c:845-846: the text for a timing quality (`%d` of a byte). -/
def qualityText (q : Nat) : List UInt8 :=
  lit "{\"FDSN\":{\"Time\":{\"Quality\":" ++ (Nat.toDigits 10 q).map (fun c => UInt8.ofNat c.toNat) ++ lit "}}}"

/-- The extra headers of the record and the state. -/
abbrev Stage := List UInt8 × Option State

/-- A call of `mseh_set_ptr_r`; what it returns is not looked at. -/
def setting (c : Codec) (s : Stage) (ptr : String) (value : Value) : Stage :=
  (s.1, (setr c s.1 s.2 (lit ptr) value).2)

/-- unpack.c:486-490, 519-523, 574-578, 631-635, 682-686, 729-733, 767-771, 809-817: the calls for a blockette; `none` is the
return `MS_GENERROR`. -/
def mapped (c : Codec) (s : Stage) : Mapping → Option Stage
  | .event e =>
    let r := addEventDetection c s.1 s.2 none e
    if r.1 ≠ 0 then none else some (s.1, r.2)
  | .calibration e =>
    let r := addCalibration c s.1 s.2 none e
    if r.1 ≠ 0 then none else some (s.1, r.2)
  | .exception e model =>
    let r := addTimingException c s.1 s.2 none e
    if r.1 ≠ 0 then none else some (setting c (s.1, r.2) "/FDSN/Clock/Model" (.str model))

/-- unpack.c:355-408 and 446-862: what is done for a header. -/
def put (c : Codec) (n : Numbers) (s : Stage) : Header → Option Stage
  | .flag path => some (setting c s path (.bool 1))
  | .leapSecond v => some (setting c s "/FDSN/Time/LeapSecond" (.int v))
  | .correction v => some (setting c s "/FDSN/Time/Correction" (.number (n.tenths v)))
  | .quality q =>
    match s.2 with
    | none => some (qualityText q, none)
    | some _ => some (setting c s "/FDSN/Time/Quality" (.int q))
  | .blockette type fields =>
    match mapping n type fields with
    | some m => mapped c s m
    | none => some s

/-- All of them, one after the other. -/
def putAll (c : Codec) (n : Numbers) : Stage → List Header → Option Stage
  | s, [] => some s
  | s, h :: hs => (put c n s h).bind fun s => putAll c n s hs

/-- The extra headers of a record, unpack.c:352-408, 446-862 and 898-902; what `mseh_serialize` returns is not looked at. -/
def extraText (c : Codec) (n : Numbers) (hs : List Header) : Option (List UInt8) :=
  (putAll c n ([], none) hs).map fun s => (serialize c s.1 s.2).2

/-- The open parts of `Verif.Model.Record2` with the extra headers as they are written. -/
def env (c : Codec) (n : Numbers) (nominal : Int → Int → Nat) : Env :=
  ⟨nominal, fun f => (n.widen f).toNat, fun hs => (extraText c n hs).getD []⟩

end Verif.Model.Headers2
