/-!
# Independent specification: proleptic Gregorian calendar and epoch nanoseconds

Nothing here refers to the C code or to the model.  A reader can check it against
the textbook definition of the Gregorian calendar.
-/
namespace Verif.Spec

/-- A year is a leap year iff divisible by 4 and not by 100, or divisible by 400. -/
def IsLeap (y : Int) : Prop := (4 ∣ y ∧ ¬ 100 ∣ y) ∨ 400 ∣ y

instance (y : Int) : Decidable (IsLeap y) := by unfold IsLeap; infer_instance

/-- Number of days of a year. -/
def yearLen (y : Int) : Int := if IsLeap y then 366 else 365

/-- Number of days of a month, 1 = January.  Zero outside 1..12. -/
def monthLen (y : Int) (month : Int) : Int :=
  if month = 2 then (if IsLeap y then 29 else 28)
  else if month = 4 ∨ month = 6 ∨ month = 9 ∨ month = 11 then 30
  else if 1 ≤ month ∧ month ≤ 12 then 31
  else 0

/-- `Σ_{i<n} f i`. -/
def sumTo (f : Nat → Int) : Nat → Int
  | 0 => 0
  | n + 1 => sumTo f n + f n

/-- Day number of 1 January of year `y`, counted from 1 January 1970:
the lengths of the years in between are added up (subtracted for earlier years). -/
def jan1 (y : Int) : Int :=
  if 1970 ≤ y then sumTo (fun i => yearLen (1970 + i)) (y - 1970).toNat
  else - sumTo (fun i => yearLen (1969 - i)) (1970 - y).toNat

/-- Days of the year before the first day of `month`. -/
def daysBeforeMonth (y month : Int) : Int :=
  sumTo (fun i => monthLen y (i + 1)) (month - 1).toNat

/-- Calendar fields by day of year. -/
structure Fields where
  year : Int
  yday : Int      -- 1..366
  hour : Int
  min : Int
  sec : Int
  nsec : Int
deriving DecidableEq, Repr

/-- The fields name a real instant (no leap second). -/
structure Fields.Valid (f : Fields) : Prop where
  yday : 1 ≤ f.yday ∧ f.yday ≤ yearLen f.year
  hour : 0 ≤ f.hour ∧ f.hour ≤ 23
  min : 0 ≤ f.min ∧ f.min ≤ 59
  sec : 0 ≤ f.sec ∧ f.sec ≤ 59
  nsec : 0 ≤ f.nsec ∧ f.nsec ≤ 999999999

/-- Nanoseconds since 1970-01-01T00:00:00 of an instant given by fields. -/
def Fields.instant (f : Fields) : Int :=
  ((((jan1 f.year + (f.yday - 1)) * 24 + f.hour) * 60 + f.min) * 60 + f.sec) * 1000000000 + f.nsec

/-- The range of a signed 64-bit integer. -/
def InInt64 (t : Int) : Prop := -9223372036854775808 ≤ t ∧ t ≤ 9223372036854775807

instance (t : Int) : Decidable (InInt64 t) := by unfold InInt64; infer_instance

/-- Lexicographic "strictly earlier" on fields. -/
def Fields.Earlier (f g : Fields) : Prop :=
  f.year < g.year ∨ (f.year = g.year ∧
  (f.yday < g.yday ∨ (f.yday = g.yday ∧
  (f.hour < g.hour ∨ (f.hour = g.hour ∧
  (f.min < g.min ∨ (f.min = g.min ∧
  (f.sec < g.sec ∨ (f.sec = g.sec ∧ f.nsec < g.nsec)))))))))

end Verif.Spec
