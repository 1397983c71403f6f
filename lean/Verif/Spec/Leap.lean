import Verif.Spec.TimeStr
/-!
# Independent specification: leap seconds, leap second files

Times are nanoseconds since 1970 on a scale without leap seconds: a leap second has the values of the
second following it.  Nothing here refers to the C code or to the model.
-/
namespace Verif.Spec.Leap
open Verif.Spec Verif.Spec.TimeStr

/-- The time that elapses from the time `t` to the time `u`, where `leaps` are the times of the
seconds following a leap second: each of them passed adds a second. -/
def elapsed (leaps : List Int) (t u : Int) : Int :=
  u - t + 1000000000 * (leaps.filter fun l => t < l ∧ l ≤ u).length

/-- The exact time in nanoseconds from the first sample to the sample number `k` (from 0) at a rate in
samples per second, or a period in seconds if negative. -/
def exactSpan (k : Int) (rate : Rat) : Rat :=
  if rate > 0 then k / rate * 1000000000 else if rate < 0 then k * -rate * 1000000000 else 0

/-- `rate` is a rate of a sample each `p` nanoseconds, or a period of `p` nanoseconds if negative, up
to the accuracy of `double`. -/
def HasPeriod (p : Nat) (rate : Rat) : Prop :=
  (0 < rate ∧ 1000000000 - 1000000000 / 2 ^ 53 ≤ rate * p ∧
    rate * p ≤ 1000000000 + 1000000000 / 2 ^ 53) ∨
  (rate < 0 ∧ (p : Rat) - p / 2 ^ 53 ≤ -rate * 1000000000 ∧
    -rate * 1000000000 ≤ (p : Rat) + p / 2 ^ 53)

/-- The beginning of a day given by year, month and day. -/
def day (y m d : Int) : Int := (Fields.mk y (daysBeforeMonth y m + d) 0 0 0 0).instant

/-- The days that followed a leap second, as announced until 2023 (IERS Bulletin C). -/
def days : List (Int × Int) :=
  [(1972, 7), (1973, 1), (1974, 1), (1975, 1), (1976, 1), (1977, 1), (1978, 1), (1979, 1), (1980, 1),
   (1981, 7), (1982, 7), (1983, 7), (1985, 7), (1988, 1), (1990, 1), (1991, 1), (1992, 7), (1993, 7),
   (1994, 7), (1996, 1), (1997, 7), (1999, 1), (2006, 1), (2009, 1), (2012, 7), (2015, 7), (2017, 1)]

/-- Space between fields. -/
def Blank (s : List Char) : Prop := ∀ c ∈ s, c = ' ' ∨ c = '\t'

/-- What a line of a leap second file says.  Times are seconds since 1900. -/
inductive Said where
  | nothing
  | expires (ntp : Nat)
  | entry (ntp tai : Nat)
  /-- not a line of such a file -/
  | unknown
deriving DecidableEq

/-- The lines of a leap second file (NTP `leap-seconds.list`, RFC 8633 3.7) without their newline. -/
inductive Line : List Char → Said → Prop
  | empty : Line [] .nothing
  | comment (t : List Char) : (∀ u, t ≠ '@' :: u) → Line ('#' :: t) .nothing
  | expires {ws a t : List Char} {n : Nat} : Blank ws → Numeral a n → (∀ c u, t = c :: u → ¬ Digit c) →
      Line ('#' :: '@' :: (ws ++ (a ++ t))) (.expires n)
  | entry {lead a ws b t : List Char} {n d : Nat} : Blank lead → Numeral a n → Blank ws → ws ≠ [] →
      Numeral b d → (∀ c u, t = c :: u → ¬ Digit c) →
      Line (lead ++ (a ++ (ws ++ (b ++ t)))) (.entry n d)
  | other {lead t : List Char} {c : Char} : Blank lead → 33 ≤ c.toNat → ¬ Digit c → c ≠ '#' →
      c ≠ '+' → c ≠ '-' → Line (lead ++ c :: t) .unknown
  | lacking {lead a ws : List Char} {n : Nat} : Blank lead → Numeral a n → n ≤ 11432360836 →
      Blank ws → Line (lead ++ (a ++ ws)) .unknown

/-- The time of an entry. -/
def ntpTime (n : Nat) : Int := ((n : Int) - 2208988800) * 1000000000

/-- 1900 and 1970 are that many seconds apart. -/
example : (jan1 1970 - jan1 1900) * 86400 = 2208988800 := by decide +kernel

/-- The numbers of a line are in range: times up to the year 2262, below 2^31 for the difference. -/
def Said.InRange : Said → Prop
  | .nothing => True
  | .unknown => True
  | .expires n => n ≤ 11432360836
  | .entry n d => n ≤ 11432360836 ∧ d < 2147483648

/-- The table of a file: the entries in order, each with its time and difference. -/
def table : List Said → List (Int × Int)
  | [] => []
  | .entry n d :: l => (ntpTime n, (d : Int)) :: table l
  | _ :: l => table l

/-- The number of dates of expiry that have passed at the time `now` in seconds. -/
def passed (now : Int) : List Said → Nat
  | [] => 0
  | .expires n :: l => (if now > (n : Int) - 2208988800 then 1 else 0) + passed now l
  | _ :: l => passed now l

/-- The text of a file of lines, each ended by a newline but maybe the last. -/
def fileText (lines : List (List Char)) (last : Bool) : List Char :=
  match lines with
  | [] => []
  | [s] => if last then s ++ ['\n'] else s
  | s :: l => s ++ '\n' :: fileText l last

end Verif.Spec.Leap
