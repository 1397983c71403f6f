import Verif.Model.Calendar
/-!
# Model of time strings

libmseed/genutils.c:926-1156 (`ms_nstime2timestr`, `ms_nstime2timestrz`) and 1278-1609
(`ms_timestr2nstime`, `ms_mdtimestr2nstime`, `ms_seedtimestr2nstime`).  Strings are lists of
characters without a NUL; pointers are not null.  `double` values are rational numbers: every
operation gives the exact result rounded by `rnd`.
-/
namespace Verif.Model.TimeStr
open Verif.Model

/-! ## Printing -/

/-- libmseed.h `ms_timeformat_t`; other values of the C enumeration are not modelled. -/
inductive Format where
  | isoMonthDay | isoMonthDayZ | isoMonthDayDoy | isoMonthDayDoyZ
  | isoMonthDaySpace | isoMonthDaySpaceZ | seedOrdinal | unixEpoch | nanosecondEpoch
deriving DecidableEq, Repr

/-- libmseed.h `ms_subseconds_t`; other values of the C enumeration are not modelled. -/
inductive Sub where
  | none | micro | nano | microNone | nanoNone | nanoMicro | nanoMicroNone
deriving DecidableEq, Repr

/-- `%d` and `%lld` of `printf`. -/
def printD (n : Int) : List Char :=
  if n < 0 then '-' :: Nat.toDigits 10 (-n).toNat else Nat.toDigits 10 n.toNat

/-- `%0wd` of `printf`: zeros are put between the sign and the digits. -/
def print0 (w : Nat) (n : Int) : List Char :=
  if n < 0 then
    '-' :: (List.replicate (w - 1 - (Nat.toDigits 10 (-n).toNat).length) '0' ++
      Nat.toDigits 10 (-n).toNat)
  else List.replicate (w - (Nat.toDigits 10 n.toNat).length) '0' ++ Nat.toDigits 10 n.toNat

/-- `%wd` of `printf`: spaces are put in front. -/
def printW (w : Nat) (n : Int) : List Char :=
  List.replicate (w - (printD n).length) ' ' ++ printD n

/-- genutils.c:994-1003, 1038-1047, 1082-1091: the four ISO month-day formats; `fraction` is empty
or `.%06d` or `.%09d`. -/
def isoText (sep : Char) (z : Bool) (tms : Tm) (fraction : List Char) : List Char :=
  printW 4 (tms.year + 1900) ++ '-' :: print0 2 (tms.mon + 1) ++ '-' :: print0 2 tms.mday ++
    sep :: print0 2 tms.hour ++ ':' :: print0 2 tms.min ++ ':' :: print0 2 tms.sec ++
    fraction ++ (if z then ['Z'] else [])

/-- genutils.c:1004-1012, 1048-1056, 1092-1100: the formats with a day of year. -/
def doyText (z : Bool) (tms : Tm) (fraction : List Char) : List Char :=
  printW 4 (tms.year + 1900) ++ '-' :: print0 2 (tms.mon + 1) ++ '-' :: print0 2 tms.mday ++
    'T' :: print0 2 tms.hour ++ ':' :: print0 2 tms.min ++ ':' :: print0 2 tms.sec ++
    fraction ++ (if z then ['Z'] else []) ++ ' ' :: '(' :: print0 3 (tms.yday + 1) ++ [')']

/-- genutils.c:1013-1018, 1057-1062, 1101-1106: the SEED ordinal format. -/
def seedText (tms : Tm) (fraction : List Char) : List Char :=
  printW 4 (tms.year + 1900) ++ ',' :: print0 3 (tms.yday + 1) ++
    ',' :: print0 2 tms.hour ++ ':' :: print0 2 tms.min ++ ':' :: print0 2 tms.sec ++ fraction

/-- `expected` and the text formatted, before it is cut to the size given to `snprintf`.  `digits`
is the number of digits of the fraction: 0, 6 or 9. -/
def formatted (fmt : Format) (digits : Nat) (tms : Tm) (nstime rawisec fraction rawfraction : Int) :
    Int × List Char :=
  let frac := if digits = 0 then [] else '.' :: print0 digits fraction
  let extra : Int := if digits = 0 then 0 else digits + 1
  match fmt with
  | .isoMonthDay => (19 + extra, isoText 'T' false tms frac)
  | .isoMonthDayZ => (20 + extra, isoText 'T' true tms frac)
  | .isoMonthDaySpace => (19 + extra, isoText ' ' false tms frac)
  | .isoMonthDaySpaceZ => (20 + extra, isoText ' ' true tms frac)
  | .isoMonthDayDoy => (25 + extra, doyText false tms frac)
  | .isoMonthDayDoyZ => (26 + extra, doyText true tms frac)
  | .seedOrdinal => (17 + extra, seedText tms frac)
  | .unixEpoch =>
    (-1, printD rawisec ++ (if digits = 0 then [] else '.' :: print0 digits rawfraction))
  | .nanosecondEpoch => (-1, printD nstime)

/-- What `ms_nstime2timestr` does: whether it returns the buffer (and not NULL), and the text put
into the buffer, without the terminating NUL (`none` if the buffer is not written at all).  The bytes
written are those of the text and the NUL. -/
structure Printed where
  ok : Bool
  text : Option (List Char)
deriving DecidableEq, Repr

/-- The `snprintf` with the text and `expected` given, genutils.c:1116-1120. -/
def write (p : Int × List Char) : Printed :=
  -- the size given is `expected + 1`, or 22
  let size : Nat := if p.1 < 0 then 22 else (p.1 + 1).toNat
  { ok := !(decide (p.1 = 0) || (decide (p.1 > 0) && decide ((p.2.length : Int) ≠ p.1))),
    text := some (p.2.take (size - 1)) }

/-- genutils.c:967-977: whether the format needs the date and time. -/
def needsDate : Format → Bool
  | .unixEpoch => false
  | .nanosecondEpoch => false
  | _ => true

/-- genutils.c:980-983, 1024-1027, 1068-1071: the number of digits printed; `none` is the unhandled
combination. -/
def resolution (sub : Sub) (nanosec microsec submicro : Int) : Option Nat :=
  if sub = .none ∨ (sub = .microNone ∧ microsec = 0) ∨ (sub = .nanoNone ∧ nanosec = 0) ∨
      (sub = .nanoMicroNone ∧ nanosec = 0) then some 0
  else if sub = .micro ∨ (sub = .microNone ∧ microsec ≠ 0) ∨ (sub = .nanoMicro ∧ submicro = 0) ∨
      (sub = .nanoMicroNone ∧ submicro = 0) then some 6
  else if sub = .nano ∨ (sub = .nanoNone ∧ nanosec ≠ 0) ∨ (sub = .nanoMicro ∧ submicro ≠ 0) ∨
      (sub = .nanoMicroNone ∧ submicro ≠ 0) then some 9
  else none

/-- genutils.c:926-1123 `ms_nstime2timestr`. -/
def nstime2timestr (nstime : Int) (fmt : Format) (sub : Sub) : Printed :=
  let rawisec := Int.tdiv nstime NSTMODULUS
  let raw := nstime - rawisec * NSTMODULUS
  let isec := (splitNs nstime).1
  let nanosec := (splitNs nstime).2
  let rawnanosec := if nstime < 0 ∧ raw ≠ 0 then raw * -1 else raw
  let microsec := Int.tdiv nanosec 1000
  let submicro := nanosec - microsec * 1000
  match (if needsDate fmt then gmtime64 isec else some ⟨0, 0, 0, 0, 0, 0, 0, 0⟩) with
  | none => { ok := false, text := none }
  | some tms =>
    match resolution sub nanosec microsec submicro with
    | none => { ok := false, text := none }
    | some 0 => write (formatted fmt 0 tms nstime rawisec 0 0)
    | some 6 => write (formatted fmt 6 tms nstime rawisec microsec (Int.tdiv rawnanosec 1000))
    | some k => write (formatted fmt k tms nstime rawisec nanosec rawnanosec)

/-- genutils.c:1143-1156 `ms_nstime2timestrz`. -/
def nstime2timestrz (nstime : Int) (fmt : Format) (sub : Sub) : Printed :=
  nstime2timestr nstime
    (if fmt = .isoMonthDay then .isoMonthDayZ
     else if fmt = .isoMonthDayDoy then .isoMonthDayDoyZ
     else if fmt = .isoMonthDaySpace then .isoMonthDaySpaceZ
     else fmt) sub

/-! ## Reading -/

/-- Outcome of reading a time string. -/
inductive Got (α : Type) where
  | ok (v : α)
  /-- undefined behaviour: a number that does not fit the type it is converted to, or overflow -/
  | ub
  /-- a real number with an exponent, in hexadecimal, infinite or not a number: not modelled.
  `ms_timestr2nstime` never gets here, see `Verif.Props.TimeStr.C79_modelled`. -/
  | outside
deriving DecidableEq, Repr

def Got.bind {α β} (r : Got α) (f : α → Got β) : Got β :=
  match r with
  | .ok v => f v
  | .ub => .ub
  | .outside => .outside

/-- Decimal digits. -/
def isDigit (c : Char) : Bool := decide (48 ≤ c.toNat ∧ c.toNat ≤ 57)

/-- `isspace` in the C locale. -/
def isSpace (c : Char) : Bool := decide (c.toNat = 32 ∨ (9 ≤ c.toNat ∧ c.toNat ≤ 13))

/-- The number written by digits. -/
def number (s : List Char) : Nat := s.foldl (fun v c => v * 10 + (c.toNat - 48)) 0

/-- An optional sign. -/
def sign : List Char → Bool × List Char
  | '-' :: t => (true, t)
  | '+' :: t => (false, t)
  | t => (false, t)

/-- `%d` or `%lld` of `sscanf` without its bounds: leading space is skipped; `none` is a matching
failure. -/
def scanInt (s : List Char) : Option (Int × List Char) :=
  let (neg, s) := sign (s.dropWhile isSpace)
  let digits := s.takeWhile isDigit
  if digits = [] then none
  else some (if neg then -(number digits : Int) else number digits, s.dropWhile isDigit)

/-- `%*[...]` of `sscanf`. -/
def scanSet (set : List Char) (s : List Char) : Option (List Char) :=
  if s.takeWhile (set.contains ·) = [] then none else some (s.dropWhile (set.contains ·))

/-- The letters with which a number in hexadecimal, an exponent, an infinity or a NaN goes on. -/
def special (s : List Char) : Bool :=
  match s with
  | c :: _ => "xXeEiInN".toList.contains c
  | [] => false

/-- `%lf` of `sscanf` before rounding: leading space, a sign, digits with at most one period. -/
def scanReal (s : List Char) : Got (Option (Rat × List Char)) :=
  let (neg, s) := sign (s.dropWhile isSpace)
  let whole := s.takeWhile isDigit
  let s := s.dropWhile isDigit
  let (frac, rest) :=
    match s with
    | '.' :: t => (t.takeWhile isDigit, t.dropWhile isDigit)
    | _ => ([], s)
  if special rest then .outside
  else if whole = [] ∧ frac = [] then .ok none
  else
    let v : Rat := (number (whole ++ frac) : Rat) / 10 ^ frac.length
    .ok (some (if neg then -v else v, rest))

/-- A directive of a `sscanf` format: an integer with the bounds of its type, a set of characters not
assigned, a `double`. -/
inductive Dir where
  | int (bound : Nat)
  | set (chars : List Char)
  | real

/-- The values assigned by `sscanf`: the integers in order, and the `double` if it was assigned. -/
structure Scanned where
  ints : List Int
  real : Option Rat
deriving DecidableEq

/-- `sscanf`.  The behaviour is undefined if an integer does not fit its type. -/
def sscanf (rnd : Rat → Rat) : List Dir → List Char → Got Scanned
  | [], _ => .ok ⟨[], none⟩
  | .int bound :: ds, s =>
    match scanInt s with
    | none => .ok ⟨[], none⟩
    | some (n, rest) =>
      if -(bound : Int) ≤ n ∧ n < bound then
        (sscanf rnd ds rest).bind fun r => .ok { r with ints := n :: r.ints }
      else .ub
  | .set chars :: ds, s =>
    match scanSet chars s with
    | none => .ok ⟨[], none⟩
    | some rest => sscanf rnd ds rest
  | .real :: _, s =>
    (scanReal s).bind fun r =>
    match r with
    | none => .ok ⟨[], none⟩
    | some (v, _) => .ok ⟨[], some (rnd v)⟩

/-- `(uint32_t)(fsec * 1000000000.0 + 0.5)` if `fsec` is not zero (genutils.c:1454-1457,
1560-1563): undefined unless the value without its fraction fits. -/
def toNanos (rnd : Rat → Rat) (fsec : Rat) : Got Int :=
  if fsec = 0 then .ok 0
  else
    let x := rnd (rnd (fsec * 1000000000) + 1 / 2)
    if x ≤ -1 ∨ 4294967296 ≤ x then .ub else .ok (if x < 0 then 0 else x.floor)

/-- `(int)(fsec * 1000000000.0 + 0.5)` (genutils.c:1362-1368). -/
def toInt (rnd : Rat → Rat) (fsec : Rat) : Got Int :=
  let x := rnd (rnd (fsec * 1000000000) + 1 / 2)
  if x ≤ -2147483649 ∨ 2147483648 ≤ x then .ub
  else .ok (if x < 0 then -((-x).floor) else x.floor)

/-- The overflow of `ms_time2nstime_int` is undefined behaviour. -/
def ofOut : Out Int → Got Int
  | .ok v => .ok v
  | .ub => .ub

/-- genutils.c:1450-1451, the format of `ms_mdtimestr2nstime`. -/
def mdFormat : List Dir :=
  [.int (2 ^ 31), .set "-,/:.".toList, .int (2 ^ 31), .set "-,/:.".toList, .int (2 ^ 31),
   .set "-,/:.Tt ".toList, .int (2 ^ 31), .set "-,/:.".toList, .int (2 ^ 31),
   .set "-,/:.".toList, .int (2 ^ 31), .real]

/-- genutils.c:1431-1515 `ms_mdtimestr2nstime`. -/
def mdtimestr2nstime (rnd : Rat → Rat) (s : List Char) : Got Int :=
  (sscanf rnd mdFormat s).bind fun r =>
  let year := r.ints[0]?.getD 0
  let mon := r.ints[1]?.getD 1
  let mday := r.ints[2]?.getD 1
  let hour := r.ints[3]?.getD 0
  let min := r.ints[4]?.getD 0
  let sec := r.ints[5]?.getD 0
  (toNanos rnd (r.real.getD 0)).bind fun nsec =>
  if r.ints = [] then .ok NSTERROR
  else if !validYear year then .ok NSTERROR
  else if !validMonth mon then .ok NSTERROR
  else if !validMonthDay year mon mday then .ok NSTERROR
  else if !validHour hour then .ok NSTERROR
  else if !validMin min then .ok NSTERROR
  else if !validSec sec then .ok NSTERROR
  else if !validNano nsec then .ok NSTERROR
  else
    match md2doy year mon mday with
    | none => .ok NSTERROR
    | some yday => ofOut (time2nstimeInt year yday hour min sec nsec)

/-- genutils.c:1557-1558, the format of `ms_seedtimestr2nstime`. -/
def seedFormat : List Dir :=
  [.int (2 ^ 31), .set "-,:.".toList, .int (2 ^ 31), .set "-,:.Tt ".toList, .int (2 ^ 31),
   .set "-,:.".toList, .int (2 ^ 31), .set "-,:.".toList, .int (2 ^ 31), .real]

/-- genutils.c:1539-1609 `ms_seedtimestr2nstime`. -/
def seedtimestr2nstime (rnd : Rat → Rat) (s : List Char) : Got Int :=
  (sscanf rnd seedFormat s).bind fun r =>
  let year := r.ints[0]?.getD 0
  let yday := r.ints[1]?.getD 1
  let hour := r.ints[2]?.getD 0
  let min := r.ints[3]?.getD 0
  let sec := r.ints[4]?.getD 0
  (toNanos rnd (r.real.getD 0)).bind fun nsec =>
  if r.ints = [] then .ok NSTERROR
  else if !validYear year then .ok NSTERROR
  else if !validYearDay year yday then .ok NSTERROR
  else if !validHour hour then .ok NSTERROR
  else if !validMin min then .ok NSTERROR
  else if !validSec sec then .ok NSTERROR
  else if !validNano nsec then .ok NSTERROR
  else ofOut (time2nstimeInt year yday hour min sec nsec)

/-- The variables of genutils.c:1281-1286 during the walk over the characters. -/
structure Walk where
  firstdelimiter : Option Char := none
  separator : Bool := false
  delimiters : Nat := 0
  numberlike : Nat := 0
  /-- the number of characters passed: `cp - timestr` -/
  length : Nat := 0
  error : Bool := false
deriving DecidableEq, Repr

/-- genutils.c:1301-1347: the walk over the characters. -/
def walk : List Char → Walk → Walk
  | [], w => w
  | c :: t, w =>
    if c = '-' ∨ c = '/' ∨ c = ',' ∨ c = ':' ∨ c = '.' then
      walk t { w with
        firstdelimiter := if w.firstdelimiter = none then some c else w.firstdelimiter
        delimiters := if w.separator then w.delimiters else w.delimiters + 1
        numberlike := if (c = '-' ∧ w.length = 0) ∨ c = '.' then w.numberlike + 1 else w.numberlike
        length := w.length + 1 }
    else if c = '+' ∧ w.length = 0 then
      walk t { w with numberlike := w.numberlike + 1, length := w.length + 1 }
    else if w.separator = false ∧ (c = 'T' ∨ c = ' ') then
      walk t { w with separator := true, length := w.length + 1 }
    else if isDigit c then
      walk t { w with numberlike := w.numberlike + 1, length := w.length + 1 }
    else if (c = 'Z' ∨ c = 'z') ∧ t = [] then { w with length := w.length + 1 }
    else { w with length := w.length + 1, error := true }

/-- genutils.c:1354, the format of an epoch time. -/
def epochFormat : List Dir := [.int (2 ^ 63), .real]

/-- genutils.c:1352-1372: an epoch time. -/
def epoch (rnd : Rat → Rat) (s : List Char) : Got Int :=
  (sscanf rnd epochFormat s).bind fun r =>
  match r.ints with
  | [] => .ok NSTERROR
  | sec :: _ =>
    let nstime := sec * NSTMODULUS
    if !fitsInt64 nstime then .ub
    else if r.real.getD 0 = 0 then .ok nstime
    else
      (toInt rnd (r.real.getD 0)).bind fun n =>
      let nstime := if nstime ≥ 0 then nstime + n else nstime - n
      if fitsInt64 nstime then .ok nstime else .ub

/-- genutils.c:1278-1405 `ms_timestr2nstime`. -/
def timestr2nstime (rnd : Rat → Rat) (s : List Char) : Got Int :=
  let w := walk s {}
  if w.error = false ∧ w.length = w.numberlike ∧
      (w.length ≠ 4 ∨ (w.length = 4 ∧ (s.head? = some '-' ∨ s.head? = some '+'))) then
    epoch rnd s
  else if w.error = false ∧ w.length ≥ 4 ∧ w.length ≤ 32 then
    match w.firstdelimiter with
    | some c =>
      if (c = '-' ∨ c = '/') ∧ w.delimiters = 2 then mdtimestr2nstime rnd s
      else if c = '-' ∧ w.delimiters = 1 then seedtimestr2nstime rnd s
      else if c = ',' then seedtimestr2nstime rnd s
      else .ok NSTERROR
    | none =>
      if w.length = 4 ∧ w.separator = false then seedtimestr2nstime rnd s else .ok NSTERROR
  else .ok NSTERROR

end Verif.Model.TimeStr
