import Verif.Model.TimeStr
import Verif.Spec.TimeStr
import Verif.Spec.Rounding
/-! Definitions used in the statements about time strings. -/
namespace Verif.Props.TimeStr
open Verif.Spec Verif.Spec.TimeStr Verif.Model.TimeStr

/-- A date with its month and day, of an instant. -/
structure Dated (t : Int) (f : Fields) (month mday : Int) : Prop where
  valid : f.Valid
  instant : f.instant = t
  inYear : 1 ≤ month ∧ month ≤ 12
  inMonth : 1 ≤ mday ∧ mday ≤ monthLen f.year month
  dayOfYear : f.yday = daysBeforeMonth f.year month + mday

/-- The number of digits of the fraction of a second that each option asks for. -/
def fractionDigits (sub : Sub) (t : Int) : Nat :=
  match sub with
  | .none => 0
  | .micro => 6
  | .nano => 9
  | .microNone => if t % 1000000000 / 1000 = 0 then 0 else 6
  | .nanoNone => if t % 1000000000 = 0 then 0 else 9
  | .nanoMicro => if t % 1000 = 0 then 6 else 9
  | .nanoMicroNone => if t % 1000000000 = 0 then 0 else if t % 1000 = 0 then 6 else 9

/-- The text of a date and time with `k` digits of a fraction, in the calendar formats. -/
def shown (fmt : Format) (k : Nat) (f : Fields) (month mday : Int) : List Char :=
  let time := clock f.hour.toNat f.min.toNat f.sec.toNat ++ fraction k f.nsec.toNat
  let day := date f.year.toNat month.toNat mday.toNat
  match fmt with
  | .isoMonthDay => day ++ 'T' :: time
  | .isoMonthDayZ => day ++ 'T' :: time ++ ['Z']
  | .isoMonthDaySpace => day ++ ' ' :: time
  | .isoMonthDaySpaceZ => day ++ ' ' :: time ++ ['Z']
  | .isoMonthDayDoy => day ++ 'T' :: time ++ " (".toList ++ dec 3 f.yday.toNat ++ [')']
  | .isoMonthDayDoyZ => day ++ 'T' :: time ++ "Z (".toList ++ dec 3 f.yday.toNat ++ [')']
  | .seedOrdinal => dec 4 f.year.toNat ++ ',' :: dec 3 f.yday.toNat ++ ',' :: time
  | .unixEpoch => []
  | .nanosecondEpoch => []

/-- Seconds since 1970 as text: the sign, the whole seconds and `k` digits of the fraction. -/
def secondsShown (k : Nat) (t : Int) : List Char :=
  (if t < 0 then ['-'] else []) ++ (Nat.repr (t.natAbs / 1000000000)).toList ++
    fraction k (t.natAbs % 1000000000)

/-- The formats by calendar date. -/
def Calendar (fmt : Format) : Prop := fmt ≠ .unixEpoch ∧ fmt ≠ .nanosecondEpoch

/-- The formats that can be read back. -/
def Readable (fmt : Format) : Prop :=
  fmt = .isoMonthDay ∨ fmt = .isoMonthDayZ ∨ fmt = .isoMonthDaySpace ∨ fmt = .isoMonthDaySpaceZ ∨
  fmt = .seedOrdinal

end Verif.Props.TimeStr
