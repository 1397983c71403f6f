import Verif.Props.Headers2Defs
import Verif.Spec.Rounding
import Verif.Model.Blockettes2
/-!
# Which blockettes extra headers describe

Of `Verif.Model.Blockettes2` only the conversions of numbers are used.
-/
namespace Verif.Props.Blockettes2
open Verif.Spec.Json Verif.Spec.Record2 Verif.Props.ExtraHeaders Verif.Props.Headers2

/-- A text filled with spaces; if there is none the field is zeros. -/
def Plain (t : Label) : Prop := (t.s ≠ [] → t.rest = []) ∧ (t.s = [] → t.spaces = 0 ∧ ∀ b ∈ t.rest, b = 0)

/-- A float that is a number other than -0. -/
def Usual (f : Nat) : Prop := Finite32 f ∧ f ≠ 2 ^ 31

/-- A time outside of leap seconds. -/
def Ordinary (t : BTime) : Prop := t.second ≤ 59 ∧ t.unused = 0

/-- A blockette that says nothing that has no place in the extra headers.  There is no place for reserved bytes and
flags without a meaning, for -0, for negative clock corrections, and for the direction of a wave if it is said to be
unknown.  The limits of MEDLookback and MEDPickAlgorithm are those of the library. -/
def Canonical : Mapped → Prop
  | .event amplitude period background flags reserved onset detector =>
    Usual amplitude ∧ Usual period ∧ Usual background ∧ flags.toNat < 8 ∧
    ¬ (flags.toNat.testBit 2 = true ∧ flags.toNat.testBit 0 = true) ∧ reserved = 0 ∧ Ordinary onset ∧ Plain detector
  | .murdock amplitude period background flags reserved onset _ _ _ _ _ _ lookback pick detector =>
    Usual amplitude ∧ Usual period ∧ Usual background ∧ flags.toNat < 2 ∧ reserved = 0 ∧ Ordinary onset ∧
    lookback ≠ 255 ∧ pick ≠ 255 ∧ Plain detector
  | .step start _ flags _ _ amplitude channel reserved _ coupling rolloff =>
    Ordinary start ∧ flags.toNat < 16 ∧ Usual amplitude ∧ Plain channel ∧ reserved = 0 ∧ Plain coupling ∧ Plain rolloff
  | .sine start reserved1 flags _ period amplitude channel reserved2 _ coupling rolloff =>
    Ordinary start ∧ reserved1 = 0 ∧ flags.toNat / 4 % 4 * 4 + flags.toNat / 16 * 16 = flags.toNat ∧
    flags.toNat / 16 ∈ [0, 1, 2, 4] ∧ Usual period ∧ Usual amplitude ∧ Plain channel ∧ reserved2 = 0 ∧
    Plain coupling ∧ Plain rolloff
  | .random start reserved1 flags _ amplitude channel reserved2 _ coupling rolloff noise =>
    Ordinary start ∧ reserved1 = 0 ∧ flags.toNat / 4 % 8 * 4 = flags.toNat ∧ Usual amplitude ∧ Plain channel ∧
    reserved2 = 0 ∧ Plain coupling ∧ Plain rolloff ∧ Plain noise
  | .generic start reserved1 flags _ amplitude channel reserved2 =>
    Ordinary start ∧ reserved1 = 0 ∧ flags.toNat / 4 % 4 * 4 = flags.toNat ∧ Usual amplitude ∧ Plain channel ∧
    reserved2 = 0
  | .abort stop reserved1 reserved2 => Ordinary stop ∧ reserved1 = 0 ∧ reserved2 = 0
  | .clock correction time micro _ _ type model status =>
    Finite32 correction ∧ correction ≤ 2 ^ 31 ∧ Ordinary time ∧ 0 ≤ micro ∧ micro ≤ 99 ∧ Plain type ∧
    model.rest = [] ∧ Plain status

/-- A calibration, which may have an end, or only the end of one. -/
inductive Calibrated where
  | shot (m : Mapped) (stop : Option BTime)
  | stop (t : BTime)

/-- The blockettes for it: an end is a blockette 395. -/
def Calibrated.blockettes : Calibrated → List Mapped
  | .shot m none => [m]
  | .shot m (some t) => [m, .abort t 0 0]
  | .stop t => [.abort t 0 0]

/-- The members of its entry: the end of a calibration is part of that of the calibration. -/
def Calibrated.fields (n : Verif.Model.Headers2.Numbers) : Calibrated → Option Fields
  | .shot (.abort ..) _ => none
  | .shot m none => calibration n m
  | .shot m (some t) => (calibration n m).map (· ++ [("EndTime", time t.instant)])
  | .stop t => some [("EndTime", time t.instant)]

/-- The extra headers describe these timing exceptions, event detections and calibrations, and no others. -/
structure Describes (n : Verif.Model.Headers2.Numbers) (v : Option Json) (clocks events : List Mapped)
    (shots : List Calibrated) : Prop where
  exceptions : (∀ m ∈ clocks, (exception n m).isSome) ∧ Listing v "/FDSN/Time/Exception" (clocks.filterMap (exception n))
  model : ∀ m ∈ clocks, ∀ s, clockModel (.mapped m) = some s → At v (name "/FDSN/Clock/Model") (.str s)
  detections : (∀ m ∈ events, (detection n not m).isSome) ∧
    Listing v "/FDSN/Event/Detection" (events.filterMap (detection n not))
  calibrations : (∀ c ∈ shots, (c.fields n).isSome) ∧
    Listing v "/FDSN/Calibration/Sequence" (shots.filterMap (Calibrated.fields n))

/-- The blockettes for extra headers. -/
def blockettes (clocks events : List Mapped) (shots : List Calibrated) : List Mapped :=
  clocks ++ events ++ shots.flatMap Calibrated.blockettes

/-- Numbers read from blockettes are converted back to what they were. -/
structure Inverse (n : Verif.Model.Headers2.Numbers) (k : Verif.Model.Blockettes2.Numbers) : Prop where
  narrow : ∀ f, f < 2 ^ 32 → Finite32 f → k.narrow (n.widen f) = f
  widen_zero : ∀ f, f < 2 ^ 32 → (n.widen f).toNat % 2 ^ 63 = 0 → f % 2 ^ 31 = 0
  widen_sign : ∀ f, f ≤ 2 ^ 31 → Finite32 f → (n.widen f).toNat ≤ 2047 * 2 ^ 52 ∨ (n.widen f).toNat = 2 ^ 63
  tenths : ∀ v : Nat, v < 2 ^ 32 → k.tenths (n.tenths v) = some v
  tenths_zero : ∀ v : Nat, v < 2 ^ 32 → (n.tenths v).toNat % 2 ^ 63 = 0 → v = 0
  whole : ∀ v, v < 2 ^ 32 → k.whole (n.num v) = some v
  whole_zero : ∀ v, v < 2 ^ 32 → (n.num v).toNat % 2 ^ 63 = 0 → v = 0
  byte : ∀ b : Nat, b < 256 → k.byte (k.int b) = some b
  rnd : Verif.Spec.Rounding k.rnd

/-- A number among the extra headers, with its value as `double`. -/
def Number (k : Verif.Model.Blockettes2.Numbers) (v : Option Json) (path : String) (d : UInt64) : Prop :=
  At v (name path) (.real d) ∨ ∃ i, At v (name path) (.int i) ∧ d = k.int i

/-- The values taken from extra headers, apart from entries: those of the flags that are `true`, the first character of
the data quality, the sign of the leap second, the time correction in units of 0.0001 seconds and the timing quality. -/
structure Meant (k : Verif.Model.Blockettes2.Numbers) (v : Option Json) (x : Verif.Model.Pack2.Extra) : Prop where
  flag : ∀ path : String, x.flag path = true ↔ At v (name path) (.bool true)
  quality : ∀ c, x.quality = some c ↔ ∃ s, At v (name "/FDSN/DataQuality") (.str s) ∧ c = s.headD 0
  leap : (∃ d, Number k v "/FDSN/Time/LeapSecond" d ∧ x.leap = k.sign d) ∨
    ((∀ d, ¬ Number k v "/FDSN/Time/LeapSecond" d) ∧ x.leap = 0)
  correction : ∀ c, x.correction = some c ↔ ∃ d, Number k v "/FDSN/Time/Correction" d ∧ k.shift d = some c
  timing : ∀ q : Nat, x.timing = some q ↔ At v (name "/FDSN/Time/Quality") (.int q)

/-- A time correction among the extra headers fits 32 bits. -/
def Corrected (k : Verif.Model.Blockettes2.Numbers) (v : Option Json) : Prop :=
  ∀ d, Number k v "/FDSN/Time/Correction" d → ∃ c, k.shift d = some c ∧ -2147483648 ≤ c ∧ c ≤ 2147483647

/-- The list of ratios of no event detection has more than `n` elements. -/
def Few (n : Nat) (v : Option Json) : Prop := ∀ l, At v (name "/FDSN/Event/Detection") (.arr l) → ∀ e ∈ l, ∀ r,
  At (some e) (name "/MEDSNR") (.arr r) → r.length ≤ n

/-- A header that carries extra headers: flags, leap second, time correction and timing quality, which is 0 if it is more
than 255 or if there is none but the start time has microseconds beyond units of 0.0001 seconds; and these blockettes. -/
structure Carries (k : Verif.Model.Blockettes2.Numbers) (v : Option Json) (start : Int) (ms : List Mapped) (r : Rec) : Prop where
  order : r.be = true
  blockettes : (r.chain.filterMap fun b => b.1.mapped?) = ms
  flag : ∀ e ∈ flagNames, (r.flagByte e.1).toNat.testBit e.2.1 = true ↔ At v (name e.2.2) (.bool true)
  positive : r.activity.toNat.testBit 4 = true ↔ ∃ d, Number k v "/FDSN/Time/LeapSecond" d ∧ k.sign d > 0
  negative : r.activity.toNat.testBit 5 = true ↔ ∃ d, Number k v "/FDSN/Time/LeapSecond" d ∧ k.sign d < 0
  applied : r.activity.toNat.testBit 1 = true ↔ ∃ d, Number k v "/FDSN/Time/Correction" d
  correction : (∃ d, Number k v "/FDSN/Time/Correction" d ∧ k.shift d = some r.correction) ∨
    ((∀ d, ¬ Number k v "/FDSN/Time/Correction" d) ∧ r.correction = 0)
  timing : (∃ q : Nat, At v (name "/FDSN/Time/Quality") (.int q) ∧ r.last quality = some (if q ≤ 255 then q else 0)) ∨
    ((∀ q : Nat, ¬ At v (name "/FDSN/Time/Quality") (.int q)) ∧
      r.last quality = if start / 1000 % 100 = 0 then none else some 0)

/-- The blockettes of events, calibrations and timing of a record. -/
def mapped (r : Rec) : List Mapped := r.chain.filterMap fun b => b.1.mapped?

/-- A record without blockettes 200 and 395, and with the same text for the model of the clock in all blockettes 500. -/
structure Convertible (r : Rec) : Prop where
  types : ∀ m ∈ mapped r, m.type ≠ 200 ∧ m.type ≠ 395
  model : ∀ m ∈ mapped r, ∀ s, clockModel (.mapped m) = some s → r.last clockModel = some s

end Verif.Props.Blockettes2
