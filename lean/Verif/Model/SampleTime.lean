import Verif.Model.TimeStr
/-!
# Model of sample times and of leap second lists

libmseed/genutils.c:75-113 (the list in the library), 1637-1671 `ms_sampletime`, 1729-1853
`ms_readleapsecondfile`, libmseed/msrutils.c:201-213 `msr3_endtime` and 365-379 `msr3_nsperiod`.

`double` values are rational numbers, so neither infinite nor NaN: every operation gives the exact
result rounded by `rnd`.  Overflow of `int64_t` is `ub`.
-/
namespace Verif.Model.SampleTime
open Verif.Model Verif.Model.TimeStr

/-- libmseed.h `LeapSecond` without the link. -/
structure Leap where
  leapsecond : Int
  TAIdelta : Int
deriving DecidableEq, Repr

/-- The conversion of a `double` to `int64_t`: the fraction is dropped, undefined unless the result
fits. -/
def toInt64 (x : Rat) : Out Int :=
  let n := if x < 0 then -((-x).floor) else x.floor
  if fitsInt64 n then .ok n else .ub

/-- genutils.c:1640-1652: the span from the first sample. -/
def rawSpan (rnd : Rat → Rat) (offset : Int) (samprate : Rat) : Out Int :=
  if offset > 0 then
    if samprate > 0 then
      toInt64 (rnd (rnd (rnd (rnd offset / samprate) * NSTMODULUS) + 1 / 2))
    else if samprate < 0 then
      toInt64 (rnd (rnd (rnd (rnd offset * -samprate) * NSTMODULUS) + 1 / 2))
    else .ok 0
  else .ok 0

/-- genutils.c:1655-1668: the walk over the list of leap seconds. -/
def adjust (time span : Int) : List Leap → Out Int
  | [] => .ok span
  | l :: ls =>
    if l.leapsecond > time then
      if !(fitsInt64 (time + span) && fitsInt64 (time + span - NSTMODULUS)) then .ub
      else if l.leapsecond ≤ time + span - NSTMODULUS then .ok (span - NSTMODULUS)
      else adjust time span ls
    else adjust time span ls

/-- genutils.c:1637-1671 `ms_sampletime` with a list of leap seconds. -/
def sampletime (rnd : Rat → Rat) (leaps : List Leap) (time offset : Int) (samprate : Rat) :
    Out Int :=
  match rawSpan rnd offset samprate with
  | .ub => .ub
  | .ok span =>
    match adjust time span leaps with
    | .ub => .ub
    | .ok span => if fitsInt64 (time + span) then .ok (time + span) else .ub

/-- msrutils.c:201-213 `msr3_endtime` of a record with these fields. -/
def endtime (rnd : Rat → Rat) (leaps : List Leap) (starttime samplecnt : Int) (samprate : Rat) :
    Out Int :=
  sampletime rnd leaps starttime (if samplecnt > 0 then samplecnt - 1 else 0) samprate

/-- msrutils.c:365-379 `msr3_nsperiod` of a record with the sample rate. -/
def nsperiod (rnd : Rat → Rat) (samprate : Rat) : Out Int :=
  if samprate > 0 then toInt64 (rnd (rnd (NSTMODULUS / samprate) + 1 / 2))
  else if samprate < 0 then toInt64 (rnd (rnd (NSTMODULUS * -samprate) + 1 / 2))
  else .ok 0

/-! ## Leap second files -/

/-- genutils.c:76 `NTPPOSIXEPOCHDELTA` -/
def NTPPOSIXEPOCHDELTA : Int := 2208988800

/-- genutils.c:77 `NTPEPOCH2NSTIME` with libmseed.h:244 -/
def ntpEpoch2nstime (x : Int) : Int := (x - NTPPOSIXEPOCHDELTA) * NSTMODULUS

/-- genutils.c:80-108 `embedded_leapsecondlist`: the list until a file is read. -/
def embedded : List Leap :=
  [(2272060800, 10), (2287785600, 11), (2303683200, 12), (2335219200, 13), (2366755200, 14),
   (2398291200, 15), (2429913600, 16), (2461449600, 17), (2492985600, 18), (2524521600, 19),
   (2571782400, 20), (2603318400, 21), (2634854400, 22), (2698012800, 23), (2776982400, 24),
   (2840140800, 25), (2871676800, 26), (2918937600, 27), (2950473600, 28), (2982009600, 29),
   (3029443200, 30), (3076704000, 31), (3124137600, 32), (3345062400, 33), (3439756800, 34),
   (3550089600, 35), (3644697600, 36), (3692217600, 37)].map
    fun p => ⟨ntpEpoch2nstime p.1, p.2⟩

/-- `fgets` of at most `n` characters: up to and with a newline. -/
def fgets : Nat → List Char → List Char × List Char
  | 0, s => ([], s)
  | _ + 1, [] => ([], [])
  | n + 1, c :: s =>
    if c = '\n' then ([c], s)
    else
      let p := fgets n s
      (c :: p.1, p.2)

/-- genutils.c:1769-1778: the string in `readline` after the line is read: it ends before the first
NUL or newline. -/
def lineText (s : List Char) : List Char := s.takeWhile fun c => c ≠ '\x00' && c ≠ '\n'

/-- What a line does: nothing, a message that the file has expired, a new entry, or a message that
the line is not recognized. -/
inductive Effect where
  | skip
  | expired
  | entry (l : Leap)
  | unrecognized (text : List Char)
deriving DecidableEq, Repr

/-- genutils.c:1785-1805: the line with the date of expiry; `now` is `time (NULL)`.  Numbers that do
not fit are undefined, as is overflow. -/
def expiry (now : Int) (line : List Char) : Out Effect :=
  match scanInt (line.drop 2) with
  | none => .ok .skip
  | some (n, _) =>
    if !(fitsInt64 n && fitsInt64 (n - NTPPOSIXEPOCHDELTA)) then .ub
    else if now > n - NTPPOSIXEPOCHDELTA then
      if fitsInt64 ((n - NTPPOSIXEPOCHDELTA) * NSTMODULUS) then .ok .expired else .ub
    else .ok .skip

/-- genutils.c:1811-1844: a line with a leap second.  The rest of a line after the numbers is not
looked at. -/
def entryLine (line : List Char) : Out Effect :=
  match scanInt line with
  | none => .ok (.unrecognized line)
  | some (n, rest) =>
    if !fitsInt64 n then .ub
    else
      match scanInt rest with
      | none => .ok (.unrecognized line)
      | some (d, _) =>
        if !(decide (-2147483648 ≤ d ∧ d ≤ 2147483647)) then .ub
        else if fitsInt64 (n - NTPPOSIXEPOCHDELTA) && fitsInt64 (ntpEpoch2nstime n) then
          .ok (.entry ⟨ntpEpoch2nstime n, d⟩)
        else .ub

/-- genutils.c:1781-1845: a line. -/
def lineEffect (now : Int) (line : List Char) : Out Effect :=
  if line = [] then .ok .skip
  else if line.take 2 = ['#', '@'] then expiry now line
  else if line.take 1 = ['#'] then .ok .skip
  else entryLine line

/-- What `ms_readleapsecondfile` does: its result, the list after the call and the messages. -/
structure Loaded where
  ret : Int
  list : List Leap
  expired : Nat := 0
  unrecognized : List (List Char) := []
deriving DecidableEq, Repr

/-- The effect of a line on what has been read: entries go to the end. -/
def apply (a : Loaded) : Effect → Loaded
  | .skip => a
  | .expired => { a with expired := a.expired + 1 }
  | .entry l => { a with ret := a.ret + 1, list := a.list ++ [l] }
  | .unrecognized t => { a with unrecognized := a.unrecognized ++ [t] }

/-- genutils.c:1769-1845: the loop over the lines; `fuel` bounds the number of lines, each of which
has at least a character. -/
def readLines (now : Int) : Nat → List Char → Loaded → Out Loaded
  | 0, _, a => .ok a
  | fuel + 1, s, a =>
    let p := fgets 198 s
    if p.1 = [] then .ok a
    else
      match lineEffect now (lineText p.1) with
      | .ub => .ub
      | .ok e => readLines now fuel p.2 (apply a e)

/-- genutils.c:1729-1853 `ms_readleapsecondfile` with the contents of the file, `none` if it cannot
be opened.  Reading does not fail and memory is available. -/
def readleapsecondfile (now : Int) (file : Option (List Char)) (list : List Leap) : Out Loaded :=
  match file with
  | none => .ok { ret := -1, list }
  | some s => readLines now (s.length + 1) s { ret := 0, list := [] }

/-- genutils.c:1699-1710 `ms_readleapseconds`: `env` is the value of the environment variable, here
the file it names. -/
def readleapseconds (now : Int) (env : Option (Option (List Char))) (list : List Leap) :
    Out Loaded :=
  match env with
  | none => .ok { ret := -2, list }
  | some file => readleapsecondfile now file list

end Verif.Model.SampleTime
