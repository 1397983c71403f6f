import Verif.Spec.Record2
import Verif.Props.ExtraHeadersDefs
import Verif.Props.JsonTextDefs
import Verif.Model.Headers2
/-!
# The extra headers that version 2 records have

What the flags, the time correction and the blockettes of a record are as extra headers of miniSEED 3 (FDSN).  Of
`Verif.Model.Headers2` only the conversions of numbers are used.
-/
namespace Verif.Props.Headers2
open Verif.Spec.Json Verif.Spec.Record2 Verif.Props.ExtraHeaders
open Verif.Props.JsonText (Finite)
open Verif.Model.Headers2 (Numbers)

/-- A value of a table of names: that of the first that holds. -/
def choice : List (Bool × String) → Json → Prop
  | [], _ => False
  | (c, s) :: l, v => (c = true ∧ v = .str (name s)) ∨ (c = false ∧ choice l v)

/-- The members of an entry for an event detection.  `known` tells whether bit 2 of the flags of blockette 200 says that the
direction of the wave is known (the manual has: unknown). -/
def detection (n : Numbers) (known : Bool → Bool) : Mapped → Option Fields
  | .event amplitude period background flags _ onset detector => some [
      ("Type", choice [(true, "GENERIC")]),
      ("SignalAmplitude", number (n.widen amplitude)),
      ("SignalPeriod", number (n.widen period)),
      ("BackgroundEstimate", number (n.widen background)),
      ("Wave", fun v => known (flags.toNat.testBit 2) = true ∧
        choice [(flags.toNat.testBit 0, "DILATATION"), (true, "COMPRESSION")] v),
      ("Units", choice [(flags.toNat.testBit 1, "DECONVOLVED"), (true, "COUNTS")]),
      ("OnsetTime", time onset.instant),
      ("Detector", text detector.s)]
  | .murdock amplitude period background flags _ onset s0 s1 s2 s3 s4 s5 lookback pick detector => some [
      ("Type", choice [(true, "MURDOCK")]),
      ("SignalAmplitude", number (n.widen amplitude)),
      ("SignalPeriod", number (n.widen period)),
      ("BackgroundEstimate", number (n.widen background)),
      ("Wave", choice [(flags.toNat.testBit 0, "DILATATION"), (true, "COMPRESSION")]),
      ("OnsetTime", time onset.instant),
      ("MEDSNR", fun v => (∃ b ∈ [s0, s1, s2, s3, s4, s5], b ≠ 0) ∧
        v = .arr ([s0, s1, s2, s3, s4, s5].map fun b => .int b.toNat)),
      ("MEDLookback", fun v => v = .int lookback.toNat),
      ("MEDPickAlgorithm", fun v => v = .int pick.toNat),
      ("Detector", text detector.s)]
  | _ => none

/-- The members of an entry for a calibration. -/
def calibration (n : Numbers) : Mapped → Option Fields
  | .step start steps flags duration interval amplitude channel _ reference coupling rolloff => some [
      ("Type", choice [(true, "STEP")]),
      ("BeginTime", time start.instant),
      ("Steps", fun v => v = .int steps.toNat),
      ("StepFirstPulsePositive", fun v => flags.toNat.testBit 0 = true ∧ v = .bool true),
      ("StepAlternateSign", fun v => flags.toNat.testBit 1 = true ∧ v = .bool true),
      ("Trigger", choice [(flags.toNat.testBit 2, "AUTOMATIC"), (true, "MANUAL")]),
      ("Continued", fun v => flags.toNat.testBit 3 = true ∧ v = .bool true),
      ("Amplitude", number (n.widen amplitude)),
      ("Duration", number (n.tenths duration)),
      ("StepBetween", number (n.tenths interval)),
      ("InputChannel", text channel.s),
      ("ReferenceAmplitude", number (n.num reference)),
      ("Coupling", text coupling.s),
      ("Rolloff", text rolloff.s)]
  | .sine start _ flags duration period amplitude channel _ reference coupling rolloff => some [
      ("Type", choice [(true, "SINE")]),
      ("BeginTime", time start.instant),
      ("Trigger", choice [(flags.toNat.testBit 2, "AUTOMATIC"), (true, "MANUAL")]),
      ("Continued", fun v => flags.toNat.testBit 3 = true ∧ v = .bool true),
      ("Amplitude", number (n.widen amplitude)),
      ("AmplitudeRange", choice [(flags.toNat.testBit 4, "PEAKTOPEAK"), (flags.toNat.testBit 5, "ZEROTOPEAK"),
        (flags.toNat.testBit 6, "RMS")]),
      ("Duration", number (n.tenths duration)),
      ("SinePeriod", number (n.widen period)),
      ("InputChannel", text channel.s),
      ("ReferenceAmplitude", number (n.num reference)),
      ("Coupling", text coupling.s),
      ("Rolloff", text rolloff.s)]
  | .random start _ flags duration amplitude channel _ reference coupling rolloff noise => some [
      ("Type", choice [(true, "PSEUDORANDOM")]),
      ("BeginTime", time start.instant),
      ("Trigger", choice [(flags.toNat.testBit 2, "AUTOMATIC"), (true, "MANUAL")]),
      ("Continued", fun v => flags.toNat.testBit 3 = true ∧ v = .bool true),
      ("Amplitude", number (n.widen amplitude)),
      ("AmplitudeRange", choice [(flags.toNat.testBit 4, "RANDOM")]),
      ("Duration", number (n.tenths duration)),
      ("InputChannel", text channel.s),
      ("ReferenceAmplitude", number (n.num reference)),
      ("Coupling", text coupling.s),
      ("Rolloff", text rolloff.s),
      ("Noise", text noise.s)]
  | .generic start _ flags duration amplitude channel _ => some [
      ("Type", choice [(true, "GENERIC")]),
      ("BeginTime", time start.instant),
      ("Trigger", choice [(flags.toNat.testBit 2, "AUTOMATIC"), (true, "MANUAL")]),
      ("Continued", fun v => flags.toNat.testBit 3 = true ∧ v = .bool true),
      ("Amplitude", number (n.widen amplitude)),
      ("Duration", number (n.tenths duration)),
      ("InputChannel", text channel.s)]
  | .abort stop _ _ => some [
      ("Type", choice [(true, "ABORT")]),
      ("EndTime", time stop.instant)]
  | _ => none

/-- The members of an entry for a timing exception; a correction is given unless it is negative. -/
def exception (n : Numbers) : Mapped → Option Fields
  | .clock correction t micro quality count type _ status => some [
      ("Time", time (t.instant + micro * 1000)),
      ("VCOCorrection", fun v => ((n.widen correction).toNat ≤ 2047 * 2 ^ 52 ∨
        (n.widen correction).toNat = 2 ^ 63) ∧ v = .real (n.widen correction)),
      ("ReceptionQuality", fun v => v = .int quality.toNat),
      ("Count", fun v => 0 < count ∧ v = .int count),
      ("Type", text type.s),
      ("ClockStatus", text status.s)]
  | _ => none

/-- The model of the clock in a blockette 500. -/
def clockModel : Blkt → Option (List UInt8)
  | .mapped (.clock _ _ _ _ _ _ model _) => some model.s
  | _ => none

/-- The timing quality in a blockette 1001. -/
def quality : Blkt → Option Nat
  | .timing q _ _ _ => some q.toNat
  | _ => none

/-- The paths of single values: the flags and the others. -/
def singles : List String := flagNames.map (·.2.2) ++
  ["/FDSN/Time/LeapSecond", "/FDSN/Time/Correction", "/FDSN/Time/Quality", "/FDSN/Clock/Model"]

/-- The paths of lists. -/
def lists : List String := ["/FDSN/Event/Detection", "/FDSN/Calibration/Sequence", "/FDSN/Time/Exception"]

/-- All paths. -/
def paths : List String := singles ++ lists

/-- A list with an entry for every element of `fs`, in the same order; there is none if that is empty. -/
def Listing (v : Option Json) (path : String) (fs : List Fields) : Prop :=
  (fs = [] → ∀ u, ¬ At v (name path) u) ∧
  (fs ≠ [] → ∃ l, (∀ u, At v (name path) u ↔ u = .arr l) ∧ l.length = fs.length ∧
    ∀ (i : Nat) e f, l[i]? = some e → fs[i]? = some f → Entry f e)

/-- The entries for the blockettes of a record. -/
def entries (r : Rec) (f : Mapped → Option Fields) : List Fields := r.chain.filterMap fun b => b.1.mapped?.bind f

/-- The extra headers of a record are those that its flags, time correction and blockettes say, and no others.  Of several
blockettes 1001 or 500 the last gives the quality and the model of the clock. -/
structure Documented (n : Numbers) (known : Bool → Bool) (r : Rec) (v : Option Json) : Prop where
  flag : ∀ e ∈ flagNames, ∀ u, At v (name e.2.2) u ↔ (r.flagByte e.1).toNat.testBit e.2.1 = true ∧ u = .bool true
  leap : ∀ u, At v (name "/FDSN/Time/LeapSecond") u ↔
    (r.activity.toNat.testBit 5 = true ∧ u = .int (-1)) ∨
    (r.activity.toNat.testBit 5 = false ∧ r.activity.toNat.testBit 4 = true ∧ u = .int 1)
  correction : ∀ u, At v (name "/FDSN/Time/Correction") u ↔ r.correction ≠ 0 ∧ u = .real (n.tenths r.correction)
  quality : ∀ u, At v (name "/FDSN/Time/Quality") u ↔ ∃ q : Nat, r.last quality = some q ∧ u = .int q
  model : ∀ u, At v (name "/FDSN/Clock/Model") u ↔ ∃ s, r.last clockModel = some s ∧ u = .str s
  detections : Listing v "/FDSN/Event/Detection" (entries r (detection n known))
  calibrations : Listing v "/FDSN/Calibration/Sequence" (entries r (calibration n))
  exceptions : Listing v "/FDSN/Time/Exception" (entries r (exception n))
  only : ∀ w ts u, v = some w → resolve ts w = some u →
    (∃ l, u = .obj l) ∨ ∃ p ∈ paths, ∃ us, name p = pointer us ∧ us <+: ts
  some : v ≠ none → ∃ p ∈ paths, ∃ u, At v (name p) u

/-- Is a 32-bit float a number, neither infinite nor NaN? -/
def Finite32 (f : Nat) : Prop := f / 2 ^ 23 % 256 ≠ 255

/-- The floats of a blockette. -/
def floats : Mapped → List Nat
  | .event amplitude period background _ _ _ _ => [amplitude, period, background]
  | .murdock amplitude period background _ _ _ _ _ _ _ _ _ _ _ _ => [amplitude, period, background]
  | .step _ _ _ _ _ amplitude _ _ _ _ _ => [amplitude]
  | .sine _ _ _ _ period amplitude _ _ _ _ _ => [period, amplitude]
  | .random _ _ _ _ amplitude _ _ _ _ _ _ => [amplitude]
  | .generic _ _ _ _ amplitude _ _ => [amplitude]
  | .abort _ _ _ => []
  | .clock correction _ _ _ _ _ _ _ => [correction]

/-- All floats of the blockettes are numbers. -/
def AllFinite (r : Rec) : Prop := ∀ b ∈ r.chain, ∀ m, b.1.mapped? = some m → ∀ f ∈ floats m, Finite32 f

/-- Numbers are converted to numbers. -/
structure LawfulNumbers (n : Numbers) : Prop where
  widen : ∀ f, Finite32 f → Finite (n.widen f)
  num : ∀ v, v < 2 ^ 32 → Finite (n.num v)
  tenths : ∀ v, -(2 ^ 32) < v → v < 2 ^ 32 → Finite (n.tenths v)

/-- Extra headers with nothing but a timing quality. -/
def onlyQuality (q : Nat) : Json :=
  .obj [(name "FDSN", .obj [(name "Time", .obj [(name "Quality", .int q)])])]

end Verif.Props.Headers2
