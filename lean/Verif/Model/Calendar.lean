/-!
# Model of the calendar conversions

Models `libmseed/gmtime64.c` and the date part of `libmseed/genutils.c`.
C integers are modelled by unbounded `Int`; C's `/` and `%` truncate towards zero and are
`Int.tdiv` and `Int.tmod`.  Where the 64-bit result could overflow the model has an explicit
`ub` outcome.
-/
namespace Verif.Model

/-- Result of an operation that may run into C undefined behaviour (here: signed overflow). -/
inductive Out (α : Type) where
  | ok (v : α)
  | ub
deriving DecidableEq, Repr

/-- libmseed.h:235 `NSTERROR`. -/
def NSTERROR : Int := -2145916800000000000
/-- libmseed.h:240 `NSTUNSET`. -/
def NSTUNSET : Int := -2145916799999999999
/-- libmseed.h:230 `NSTMODULUS`. -/
def NSTMODULUS : Int := 1000000000

/-- The values of a 64-bit signed integer (`int64_t`, `nstime_t`). -/
def fitsInt64 (x : Int) : Bool := decide (-9223372036854775808 ≤ x ∧ x ≤ 9223372036854775807)

/-- gmtime64.c:41-44 `days_in_month[leap][mon]`. -/
def daysInMonth (leap : Bool) (mon : Nat) : Int :=
  ((if leap then [31, 29, 31, 30, 31, 30, 31, 31, 30, 31, 30, 31]
    else [31, 28, 31, 30, 31, 30, 31, 31, 30, 31, 30, 31] : List Int)[mon]?).getD 0

/-- gmtime64.c:46-49 `julian_days_by_month[leap][mon]`. -/
def julianDaysByMonth (leap : Bool) (mon : Nat) : Int :=
  ((if leap then [0, 31, 60, 91, 121, 152, 182, 213, 244, 274, 305, 335]
    else [0, 31, 59, 90, 120, 151, 181, 212, 243, 273, 304, 334] : List Int)[mon]?).getD 0

/-- gmtime64.c:51 `length_of_year[leap]`. -/
def lengthOfYear (leap : Bool) : Int := if leap then 366 else 365

/-- gmtime64.c:66 `IS_LEAP(n)`, `n` counted from 1900. -/
def isLeapTm (n : Int) : Bool :=
  Int.tmod (n + 1900) 400 == 0 || (Int.tmod (n + 1900) 4 == 0 && !(Int.tmod (n + 1900) 100 == 0))

/-- gmtime64.c:120-127, the forward loop over years.  The first argument bounds the number of
iterations; callers pass more than the loop can take, every iteration takes at least 365 off `m`. -/
def yearsFwd : Nat → Int → Int → Int × Int
  | 0, year, m => (year, m)
  | fuel + 1, year, m =>
    if m ≥ lengthOfYear (isLeapTm year) then
      yearsFwd fuel (year + 1) (m - lengthOfYear (isLeapTm year))
    else (year, m)

/-- gmtime64.c:129-135, the forward loop over months, at most 12 iterations. -/
def monthsFwd (leap : Bool) : Nat → Nat → Int → Nat × Int
  | 0, mon, m => (mon, m)
  | fuel + 1, mon, m =>
    if m ≥ daysInMonth leap mon then monthsFwd leap fuel (mon + 1) (m - daysInMonth leap mon)
    else (mon, m)

/-- gmtime64.c:149-156, the backward loop over years (see `yearsFwd` for the bound). -/
def yearsBwd : Nat → Int → Int → Int × Int
  | 0, year, m => (year, m)
  | fuel + 1, year, m =>
    if m < - lengthOfYear (isLeapTm year) then
      yearsBwd fuel (year - 1) (m + lengthOfYear (isLeapTm year))
    else (year, m)

/-- gmtime64.c:158-165, the backward loop over months, starting at month 11. -/
def monthsBwd (leap : Bool) : Nat → Nat → Int → Nat × Int
  | 0, mon, m => (mon, m + daysInMonth leap mon)
  | fuel + 1, mon, m =>
    if m < - daysInMonth leap mon then monthsBwd leap fuel (mon - 1) (m + daysInMonth leap mon)
    else (mon, m + daysInMonth leap mon)

/-- The fields of `struct tm` set by gmtime64.c:168-182. -/
structure Tm where
  sec : Int
  min : Int
  hour : Int
  mday : Int
  mon : Int
  year : Int
  yday : Int
  wday : Int
deriving DecidableEq, Repr

/-- gmtime64.c:69 `WRAP_TIME64(a, b, m)`: returns the new `(a, b)`. -/
def wrapTime (a b m : Int) : Int × Int := if a < 0 then (a + m, b - 1) else (a, b)

/-- gmtime64.c:102-166: from a day number (days since 1970) to
`(year since 1900, month 0..11, day of month 0.., leap)`. -/
def dayToYmd (tday : Int) : Int × Nat × Int × Bool :=
  -- gmtime64.c:104-108
  let (year, m) := if tday ≥ 13879 then ((108 : Int), tday - 13879) else (70, tday)
  if m ≥ 0 then
    -- gmtime64.c:112-118
    let cycles := Int.tdiv m 146097
    let (year, m) := if cycles ≠ 0 then (year + cycles * 400, m - cycles * 146097) else (year, m)
    let (year, m) := yearsFwd (m.toNat + 1) year m
    let leap := isLeapTm year
    let (mon, m) := monthsFwd leap 12 0 m
    (year, mon, m, leap)
  else
    -- gmtime64.c:139-147
    let year := year - 1
    let cycles := Int.tdiv m 146097 + 1
    let (year, m) := if cycles ≠ 0 then (year + cycles * 400, m - cycles * 146097) else (year, m)
    let (year, m) := yearsBwd ((-m).toNat + 1) year m
    let leap := isLeapTm year
    let (mon, m) := monthsBwd leap 11 11 m
    (year, mon, m, leap)

/-- gmtime64.c:71-185 `ms_gmtime64_r`.  `none` is the NULL return when the year does not fit an
`int` (lines 168-173). -/
def gmtime64 (time : Int) : Option Tm :=
  let sec := Int.tmod time 60
  let time := Int.tdiv time 60
  let min := Int.tmod time 60
  let time := Int.tdiv time 60
  let hour := Int.tmod time 24
  let tday := Int.tdiv time 24
  let (sec, min) := wrapTime sec min 60
  let (min, hour) := wrapTime min hour 60
  let (hour, tday) := wrapTime hour tday 24
  let wday := Int.tmod (tday + 4) 7
  let wday := if wday < 0 then wday + 7 else wday
  let (year, mon, m, leap) := dayToYmd tday
  if -2147483648 ≤ year ∧ year ≤ 2147483647 then
    some { sec, min, hour, mday := m + 1, mon := mon, year,
           yday := julianDaysByMonth leap mon + m, wday }
  else none

/-- genutils.c:866-875 (and the same lines 946-956): split into whole seconds and a fraction in
`[0, 10^9)`. -/
def splitNs (nstime : Int) : Int × Int :=
  let isec := Int.tdiv nstime NSTMODULUS
  let ifract := nstime - isec * NSTMODULUS
  if nstime < 0 ∧ ifract ≠ 0 then (isec - 1, NSTMODULUS - (-ifract)) else (isec, ifract)

/-- Output of `ms_nstime2time`. -/
structure DateTime where
  year : Int
  yday : Int
  hour : Int
  min : Int
  sec : Int
  nsec : Int
deriving DecidableEq, Repr

/-- genutils.c:858-900 `ms_nstime2time`, with all output pointers given.  The stores into
`uint16_t`/`uint8_t`/`uint32_t` are the reductions modulo 2^16, 2^8, 2^32. -/
def nstime2time (nstime : Int) : Option DateTime :=
  let (isec, ifract) := splitNs nstime
  match gmtime64 isec with
  | none => none
  | some tms => some
    { year := (tms.year + 1900) % 65536, yday := (tms.yday + 1) % 65536,
      hour := tms.hour % 256, min := tms.min % 256, sec := tms.sec % 256,
      nsec := ifract % 4294967296 }

/-- genutils.c:118 `LEAPYEAR(year)`. -/
def leapYear (year : Int) : Bool :=
  (Int.tmod year 4 == 0 && Int.tmod year 100 != 0) || Int.tmod year 400 == 0

/-- genutils.c:114-115 `monthdays`, `monthdays_leap`. -/
def monthDays (leap : Bool) (idx : Nat) : Int :=
  ((if leap then [31, 29, 31, 30, 31, 30, 31, 31, 30, 31, 30, 31]
    else [31, 28, 31, 30, 31, 30, 31, 31, 30, 31, 30, 31] : List Int)[idx]?).getD 0

/-- genutils.c:121 `VALIDYEAR`. -/
def validYear (year : Int) : Bool := decide (1678 ≤ year ∧ year ≤ 2262)
/-- genutils.c:124 `VALIDMONTH`. -/
def validMonth (m : Int) : Bool := decide (1 ≤ m ∧ m ≤ 12)
/-- genutils.c:127 `VALIDMONTHDAY` (the lower bound really is 0 in the code). -/
def validMonthDay (year month mday : Int) : Bool :=
  decide (0 ≤ mday ∧ mday ≤ monthDays (leapYear year) (month - 1).toNat)
/-- genutils.c:130 `VALIDYEARDAY`. -/
def validYearDay (year yday : Int) : Bool :=
  decide (1 ≤ yday ∧ yday ≤ 365 + (if leapYear year then 1 else 0))
/-- genutils.c:133 `VALIDHOUR`. -/
def validHour (h : Int) : Bool := decide (0 ≤ h ∧ h ≤ 23)
/-- genutils.c:136 `VALIDMIN`. -/
def validMin (m : Int) : Bool := decide (0 ≤ m ∧ m ≤ 59)
/-- genutils.c:139 `VALIDSEC`. -/
def validSec (s : Int) : Bool := decide (0 ≤ s ∧ s ≤ 60)
/-- genutils.c:142 `VALIDNANOSEC`; the argument is unsigned in C, so the model requires `0 ≤ n`
at the call sites. -/
def validNano (n : Int) : Bool := decide (n ≤ 999999999)

/-- genutils.c:766-776, loop of `ms_doy2md`: `none` means the loop ended without setting the
outputs. -/
def doy2mdLoop (leap : Bool) : Nat → Nat → Int → Option (Int × Int)
  | 0, _, _ => none
  | fuel + 1, idx, yday =>
    let yday := yday - monthDays leap idx
    if yday ≤ 0 then some ((idx : Int) + 1, monthDays leap idx + yday)
    else doy2mdLoop leap fuel (idx + 1) yday

/-- genutils.c:740-779 `ms_doy2md`; `none` is the error return. -/
def doy2md (year yday : Int) : Option (Int × Int) :=
  if !validYear year then none
  else if !validYearDay year yday then none
  else doy2mdLoop (leapYear year) 12 0 yday

/-- genutils.c:827-836, loop of `ms_md2doy`. -/
def md2doyLoop (leap : Bool) (month0 mday : Int) : Nat → Nat → Int → Int
  | 0, _, yday => yday
  | fuel + 1, idx, yday =>
    if (idx : Int) = month0 then yday + mday
    else md2doyLoop leap month0 mday fuel (idx + 1) (yday + monthDays leap idx)

/-- genutils.c:794-839 `ms_md2doy`; `none` is the error return. -/
def md2doy (year month mday : Int) : Option Int :=
  if !validYear year then none
  else if !validMonth month then none
  else if !validMonthDay year month mday then none
  else some (md2doyLoop (leapYear year) (month - 1) mday 12 0 0)

/-- genutils.c:1175-1182: day number computed from year and day of year.  `>>` of a negative value
is the arithmetic shift, i.e. floor division. -/
def daysFromYearDay (year yday : Int) : Int :=
  let shortyear := year - 1900
  let a4 := shortyear / 4 + 475 - (if shortyear % 4 = 0 then 1 else 0)
  let a100 := Int.tdiv a4 25 - (if Int.tmod a4 25 < 0 then 1 else 0)
  let a400 := a100 / 4
  let intervening := (a4 - 492) - (a100 - 19) + (a400 - 4)
  365 * (shortyear - 70) + intervening + (yday - 1)

/-- genutils.c:1166-1187 `ms_time2nstime_int`.  `ub` when the multiplication or the addition leaves
the signed 64-bit range. -/
def time2nstimeInt (year yday hour min sec nsec : Int) : Out Int :=
  let days := daysFromYearDay year yday
  let prod := (60 * (60 * (24 * days + hour) + min) + sec) * NSTMODULUS
  if fitsInt64 prod && fitsInt64 (prod + nsec) then .ok (prod + nsec) else .ub

/-- genutils.c:1204-1244 `ms_time2nstime`; `nsec` is unsigned in C (callers: `0 ≤ nsec`).
The error return is the value `NSTERROR`. -/
def time2nstime (year yday hour min sec nsec : Int) : Out Int :=
  if !validYear year then .ok NSTERROR
  else if !validYearDay year yday then .ok NSTERROR
  else if !validHour hour then .ok NSTERROR
  else if !validMin min then .ok NSTERROR
  else if !validSec sec then .ok NSTERROR
  else if !validNano nsec then .ok NSTERROR
  else time2nstimeInt year yday hour min sec nsec

end Verif.Model
