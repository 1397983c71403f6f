import Verif.Spec.JsonText
import Verif.Model.ExtraHeaders
import Verif.Props.TimeStrDefs
/-!
# What querying and changing extra headers mean

The extra headers of a record are a JSON value or none.  Of the model only the types of arguments and results are
used, and the length of the text written.
-/
namespace Verif.Props.ExtraHeaders
open Verif.Spec Verif.Spec.Json Verif.Model.ExtraHeaders
open Verif.Model.JsonText (Reals write)

/-- The bytes of the extra headers are a text of the value; there are no bytes if there is no value. -/
def Holds (reals : List UInt8 → Option UInt64) (extra : List UInt8) : Option Json → Prop
  | none => extra = []
  | some v => Document reals v extra

/-- The value that a pointer finds. -/
def At (v : Option Json) (ptr : List UInt8) (u : Json) : Prop :=
  ∃ r ts, v = some r ∧ ptr = pointer ts ∧ resolve ts r = some u

/-- A string copied to a buffer: the bytes before the first NUL, as many as leave one for a NUL. -/
def Copied (s : List UInt8) (maxlength : Nat) (b : List UInt8) : Prop :=
  b.length = maxlength ∧ b.takeWhile (· ≠ 0) = (s.takeWhile (· ≠ 0)).take (maxlength - 1) ∧
  b.getLast? = some 0

/-- What a value is as a value of a type (`n`, `i`, `s` or `b`): a number, an integer of 32 bits, a string or a
boolean.  Nothing is said of integers beyond 32 bits. -/
inductive As (num : Int → UInt64) (maxlength : Nat) : UInt8 → Json → Got → Prop
  | real {d} : As num maxlength 110 (.real d) (.number d)
  | number {i} : As num maxlength 110 (.int i) (.number (num i))
  | int {i j} : (-(2 ^ 31) ≤ i ∧ i < 2 ^ 31 → j = i) → As num maxlength 105 (.int i) (.int j)
  | str {s b} : Copied s maxlength b → As num maxlength 115 (.str s) (.str b)
  | bool {b} : As num maxlength 98 (.bool b) (.bool (if b then 1 else 0))

/-- Is this a value of a type? -/
def OfType : UInt8 → Json → Prop
  | 110, .real _ => True
  | 110, .int _ => True
  | 105, .int _ => True
  | 115, .str _ => True
  | 98, .bool _ => True
  | _, _ => False

/-- The answer to a query: the return value and what is copied. -/
inductive Answer (num : Int → UInt64) (v : Option Json) (ptr : List UInt8) (type : UInt8) (wanted : Bool)
    (maxlength : Nat) : Int → Got → Prop
  | malformed : ptr.head? ≠ some 47 → Answer num v ptr type wanted maxlength (-1) .nothing
  | missing : ptr.head? = some 47 → (∀ u, ¬ At v ptr u) → Answer num v ptr type wanted maxlength 1 .nothing
  | there {u} : ptr.head? = some 47 → At v ptr u → wanted = false → Answer num v ptr type wanted maxlength 0 .nothing
  | copied {u g} : ptr.head? = some 47 → At v ptr u → wanted = true → As num maxlength type u g →
      Answer num v ptr type wanted maxlength 0 g
  | unlike {u} : ptr.head? = some 47 → At v ptr u → wanted = true → ¬ OfType type u →
      Answer num v ptr type wanted maxlength 2 .nothing

/-- The JSON value that a call of `mseh_set_*` gives. -/
def given : Value → Option Json
  | .number d => some (.real d)
  | .int i => some (.int i)
  | .str s => some (.str s)
  | .bool i => some (.bool (decide (i ≠ 0)))
  | .put v => some v
  | _ => none

/-- Placing a value at a pointer, in a new object if there is nothing: the value after it, or `none` if that
is refused. -/
inductive Put (v : Option Json) (ptr : List UInt8) (new : Json) : Option Json → Prop
  | placed {t ts w} : ptr = pointer (t :: ts) → Settable (t :: ts) (v.getD (.obj [])) →
      Placed (t :: ts) new (v.getD (.obj [])) w → Put v ptr new (some w)
  | refused : (∀ t ts, ptr = pointer (t :: ts) → ¬ Settable (t :: ts) (v.getD (.obj []))) → Put v ptr new none

/-- A change of the extra headers: the value after it, or `none` if that is refused. -/
inductive Edited (reals : List UInt8 → Option UInt64) (v : Option Json) (ptr : List UInt8) : Value → Option Json → Prop
  | put {value new r} : given value = some new → Put v ptr new r → Edited reals v ptr value r
  | appended {e r t ts a w} : v = some r → ptr = pointer (t :: ts) → resolve (t :: ts) r = some (.arr a) →
      Placed (t :: ts) (.arr (a ++ [e])) r w → Edited reals v ptr (.append e) (some w)
  | notList {e u} : At v ptr u → (∀ a, u ≠ .arr a) → Edited reals v ptr (.append e) none
  | newList {e r} : (∀ u, ¬ At v ptr u) → Put v ptr (.arr [e]) r → Edited reals v ptr (.append e) r
  | merged {patch r ts old p m w} : Document reals p patch → v = some r → ptr = pointer ts → resolve ts r = some old →
      (Distinct p → Merged (some old) p m) → Placed ts m r w → Edited reals v ptr (.merge patch) (some w)
  | notMerged {patch} : (∀ p u, Document reals p patch → ¬ At v ptr u) → Edited reals v ptr (.merge patch) none
  | root {e} : ptr.head? ≠ some 47 → Edited reals v ptr (.append e) none
  | other : Edited reals v ptr .other none

/-! ## Entries of lists -/

/-- The bytes of a name. -/
def name (s : String) : List UInt8 := s.toList.map fun c => UInt8.ofNat c.toNat

/-- Members of an object: names, and what their values are if there are any. -/
abbrev Fields := List (String × (Json → Prop))

/-- An object with these members only, none of them twice. -/
def Entry (fields : Fields) (e : Json) : Prop :=
  ∃ l, e = .obj l ∧ (l.map Prod.fst).Nodup ∧
    ∀ k v, member k l = some v ↔ ∃ n P, (n, P) ∈ fields ∧ k = name n ∧ P v

/-- A string that is not empty. -/
def text (s : List UInt8) (v : Json) : Prop := s ≠ [] ∧ v = .str s

/-- A number other than 0. -/
def number (d : UInt64) (v : Json) : Prop := d.toNat % 2 ^ 63 ≠ 0 ∧ v = .real d

/-- An integer that is not negative. -/
def count (i : Int) (v : Json) : Prop := 0 ≤ i ∧ v = .int i

/-- A boolean, unless it is unset. -/
def truth (i : Int) (v : Json) : Prop := 0 ≤ i ∧ v = .bool (decide (i ≠ 0))

/-- A time, unless it is unset: the date and the time of the day with a `Z`, with nine digits of a fraction, or six if
the last three are zeros, or none. -/
def time (t : Int) (v : Json) : Prop :=
  t ≠ -2145916800000000000 ∧ t ≠ -2145916799999999999 ∧ ∃ f month mday, Verif.Props.TimeStr.Dated t f month mday ∧
    v = .str ((Verif.Props.TimeStr.shown .isoMonthDayZ (Verif.Props.TimeStr.fractionDigits .nanoMicroNone t) f month mday).map
      fun c => UInt8.ofNat c.toNat)

/-- The extra headers of miniSEED 3 (FDSN): an event detection. -/
def eventFields (e : EventDetection) : Fields := [
  ("Type", text e.type),
  ("SignalAmplitude", number e.signalamplitude),
  ("SignalPeriod", number e.signalperiod),
  ("BackgroundEstimate", number e.backgroundestimate),
  ("Wave", text e.wave),
  ("Units", text e.units),
  ("OnsetTime", time e.onsettime),
  ("MEDSNR", fun v => (∃ b ∈ e.medsnr, b ≠ 0) ∧ v = .arr (e.medsnr.map fun b => .int b.toNat)),
  ("MEDLookback", count e.medlookback),
  ("MEDPickAlgorithm", count e.medpickalgorithm),
  ("Detector", text e.detector)]

/-- A calibration. -/
def calibrationFields (e : Calibration) : Fields := [
  ("Type", text e.type),
  ("BeginTime", time e.begintime),
  ("EndTime", time e.endtime),
  ("Steps", count e.steps),
  ("StepFirstPulsePositive", truth e.firstpulsepositive),
  ("StepAlternateSign", truth e.alternatesign),
  ("Trigger", text e.trigger),
  ("Continued", truth e.continued),
  ("Amplitude", number e.amplitude),
  ("InputUnits", text e.inputunits),
  ("AmplitudeRange", text e.amplituderange),
  ("Duration", number e.duration),
  ("SinePeriod", number e.sineperiod),
  ("StepBetween", number e.stepbetween),
  ("InputChannel", text e.inputchannel),
  ("ReferenceAmplitude", number e.refamplitude),
  ("Coupling", text e.coupling),
  ("Rolloff", text e.rolloff),
  ("Noise", text e.noise)]

/-- A timing exception; a correction is given if it is not negative. -/
def exceptionFields (e : TimingException) : Fields := [
  ("Time", time e.time),
  ("VCOCorrection", fun v => (e.vcocorrection.toNat ≤ 2047 * 2 ^ 52 ∨
    e.vcocorrection.toNat = 2 ^ 63) ∧ v = .real e.vcocorrection),
  ("ReceptionQuality", count e.receptionquality),
  ("Count", fun v => 0 < e.count ∧ v = .int e.count),
  ("Type", text e.type),
  ("ClockStatus", text e.clockstatus)]

/-- A recenter event. -/
def recenterFields (e : Recenter) : Fields := [
  ("Type", text e.type),
  ("BeginTime", time e.begintime),
  ("EndTime", time e.endtime),
  ("Trigger", text e.trigger)]

/-- What is added to a list. -/
inductive Item where
  | event (e : EventDetection)
  | calibration (e : Calibration)
  | exception (e : TimingException)
  | recenter (e : Recenter)

/-- The members of its entry. -/
def Item.fields : Item → Fields
  | .event e => eventFields e
  | .calibration e => calibrationFields e
  | .exception e => exceptionFields e
  | .recenter e => recenterFields e

/-- The list for it, unless another is given. -/
def Item.list : Item → List Token
  | .event _ => [name "FDSN", name "Event", name "Detection"]
  | .calibration _ => [name "FDSN", name "Calibration", name "Sequence"]
  | .exception _ => [name "FDSN", name "Time", name "Exception"]
  | .recenter _ => [name "FDSN", name "Recenter", name "Sequence"]

/-- The times are of 64 bits, and there are six ratios. -/
def Item.Typed : Item → Prop
  | .event e => InInt64 e.onsettime ∧ e.medsnr.length = 6
  | .calibration e => InInt64 e.begintime ∧ InInt64 e.endtime
  | .exception e => InInt64 e.time
  | .recenter e => InInt64 e.begintime ∧ InInt64 e.endtime

/-- The function that adds it. -/
def Item.add (c : Codec) (extra : List UInt8) (state : Option State) (ptr : Option (List UInt8)) : Item → Int × Option State
  | .event e => addEventDetection c extra state ptr e
  | .calibration e => addCalibration c extra state ptr e
  | .exception e => addTimingException c extra state ptr e
  | .recenter e => addRecenter c extra state ptr e

/-- The function that adds it to a record at once. -/
def Item.addNow (c : Codec) (extra : List UInt8) (ptr : Option (List UInt8)) : Item → Int × List UInt8
  | .event e => Verif.Model.ExtraHeaders.add c extra "/FDSN/Event/Detection" ptr (eventEntry e)
  | .calibration e => Verif.Model.ExtraHeaders.add c extra "/FDSN/Calibration/Sequence" ptr (calibrationEntry e)
  | .exception e => Verif.Model.ExtraHeaders.add c extra "/FDSN/Time/Exception" ptr (exceptionEntry e)
  | .recenter e => Verif.Model.ExtraHeaders.add c extra "/FDSN/Recenter/Sequence" ptr (recenterEntry e)

/-- Calls with the same state. -/
inductive Op where
  | add (ptr : Option (List UInt8)) (item : Item)
  | get (ptr : List UInt8) (type : UInt8) (wanted : Bool) (maxlength : Nat)
  | set (ptr : List UInt8) (value : Value)
  | serialize

/-- Are the values of the types they have? -/
def Op.Typed : Op → Prop
  | .add _ item => item.Typed
  | _ => True

open Verif.Model.Steim in
/-- A call on a record's extra headers and a state: the return value, what is copied, and what there is
after it. -/
def call (reals : Reals) (num : Int → UInt64) (extra : List UInt8) (state : Option State) :
    Op → Res (Int × Got × List UInt8 × Option State)
  | .get ptr type wanted maxlength =>
    (getr (codec reals) num extra state ptr type wanted maxlength).bind fun r => .ok (r.1, r.2.1, extra, r.2.2)
  | .set ptr value =>
    let r := setr (codec reals) extra state ptr value
    .ok (r.1, .nothing, extra, r.2)
  | .add ptr item =>
    let r := item.add (codec reals) extra state ptr
    .ok (r.1, .nothing, extra, r.2)
  | .serialize =>
    let r := serialize (codec reals) extra state
    .ok (r.1, .nothing, r.2, state)

open Verif.Model.Steim in
/-- Calls one after the other, with what they return. -/
def calls (reals : Reals) (num : Int → UInt64) (extra : List UInt8) (state : Option State) :
    List Op → Res (List (Op × Int × Got) × List UInt8 × Option State)
  | [] => .ok ([], extra, state)
  | op :: ops => (call reals num extra state op).bind fun r =>
    (calls reals num r.2.2.1 r.2.2.2 ops).bind fun q => .ok ((op, r.1, r.2.1) :: q.1, q.2)

/-- The value of the record's extra headers, and the one that is being changed. -/
structure Held where
  record : Option Json
  current : Option Json

/-- What a call does: its return value, what it copies, and what there is after it.  `reals.read` gives the
numbers of numerals; of the text written (C107) the length matters. -/
inductive Does (reals : Reals) (num : Int → UInt64) (h : Held) : Op → Int → Got → Held → Prop
  | noHeaders {ptr type wanted maxlength} : h.record = none →
      Does reals num h (.get ptr type wanted maxlength) 1 .nothing h
  | get {ptr type wanted maxlength ret got} : h.record ≠ none →
      Answer num h.current ptr type wanted maxlength ret got →
      Does reals num h (.get ptr type wanted maxlength) ret got h
  | set {ptr value w} : Edited reals.read h.current ptr value (some w) →
      Does reals num h (.set ptr value) 0 .nothing ⟨h.record, some w⟩
  | refused {ptr value} : Edited reals.read h.current ptr value none → Does reals num h (.set ptr value) (-1) .nothing h
  | added {ptr item e w} : Entry item.fields e →
      Edited reals.read h.current (ptr.getD (pointer item.list)) (.append e) (some w) →
      Does reals num h (.add ptr item) 0 .nothing ⟨h.record, some w⟩
  | notAdded {ptr item e} : Entry item.fields e →
      Edited reals.read h.current (ptr.getD (pointer item.list)) (.append e) none →
      Does reals num h (.add ptr item) (-1) .nothing h
  | unchanged : h.record = h.current → Does reals num h .serialize 0 .nothing h
  | serialized {v t} : h.current = some v → Document reals.read v t → t.length ≤ 65535 →
      Does reals num h .serialize t.length .nothing ⟨h.current, h.current⟩
  | unwritten : (∀ v, h.current = some v → Proper v → ∃ t, write reals v = some t ∧ 65535 < t.length) →
      Does reals num h .serialize (-1) .nothing h

/-- What a call without a state does to the bytes of the extra headers: the new value is written, or nothing is if it
has no text or a text of more than 65535 bytes. -/
def Written (reals : Reals) (w : Json) (extra extra' : List UInt8) : Prop :=
  (Document reals.read w extra' ∧ extra'.length ≤ 65535) ∨
  (extra' = extra ∧ (Proper w → ∃ t, write reals w = some t ∧ 65535 < t.length))

/-- Calls one after the other, each with its return value and what it copies. -/
inductive Session (reals : Reals) (num : Int → UInt64) : Held → List (Op × Int × Got) → Held → Prop
  | nil {h} : Session reals num h [] h
  | cons {h h' h'' op ret got l} : Does reals num h op ret got h' → Session reals num h' l h'' →
      Session reals num h ((op, ret, got) :: l) h''

/-! ## Printing -/

mutual
/-- How deep arrays and objects are nested. -/
def depth : Json → Nat
  | .arr l => depthItems l + 1
  | .obj l => depthMembers l + 1
  | _ => 0

/-- The deepest of the elements. -/
def depthItems : List Json → Nat
  | [] => 0
  | v :: t => max (depth v) (depthItems t)

/-- The deepest of the members. -/
def depthMembers : List (List UInt8 × Json) → Nat
  | [] => 0
  | (_, v) :: t => max (depth v) (depthMembers t)
end

mutual
/-- No string has a quotation mark. -/
def Quoteless : Json → Prop
  | .str s => 34 ∉ s
  | .arr l => QuotelessItems l
  | .obj l => QuotelessMembers l
  | _ => True

/-- `Quoteless` for all elements. -/
def QuotelessItems : List Json → Prop
  | [] => True
  | v :: t => Quoteless v ∧ QuotelessItems t

/-- `Quoteless` for all members and their names. -/
def QuotelessMembers : List (List UInt8 × Json) → Prop
  | [] => True
  | (k, v) :: t => 34 ∉ k ∧ Quoteless v ∧ QuotelessMembers t
end

end Verif.Props.ExtraHeaders
