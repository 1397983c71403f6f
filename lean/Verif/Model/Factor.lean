import Verif.Model.Calendar
import Verif.Model.Steim
import Verif.Model.Rate
/-!
# Model of the sample rate factor and multiplier

`ms_nomsamprate` (unpack.c:1451-1466), `ms_ratapprox`, `ms_reduce_rate` and `ms_genfactmult`
(pack.c:1812-2071).  `double` values are rationals, operations are rounded by `rnd`; infinities and NaN
are told apart where they can occur.  Overflow of `int` and conversion of values out of range are
the outcome `ub`.
-/
namespace Verif.Model.Factor
open Verif.Model.Steim Verif.Model.Rate

/-- unpack.c:1451-1466 `ms_nomsamprate` -/
def nomsamprate (rnd : Rat → Rat) (factor multiplier : Int) : Rat :=
  let samprate : Rat :=
    if factor > 0 then factor else if factor < 0 then rnd (-1 / (factor : Rat)) else 0
  if multiplier > 0 then rnd (samprate * multiplier)
  else if multiplier < 0 then rnd (-1 * rnd (samprate / multiplier))
  else samprate

/-- The value in the range of `int`. -/
def int32 (x : Int) : Res Int := if -2147483648 ≤ x ∧ x ≤ 2147483647 then .ok x else .ub

/-- `(int)x`: truncation towards zero. -/
def toInt (x : Rat) : Res Int := int32 (if x < 0 then -((-x).floor) else x.floor)

/-- `(int16_t)x` -/
def int16 (x : Int) : Int := (x + 32768) % 65536 - 32768

/-- The variables of `ms_ratapprox`; `realj` is `none` if it is infinite. -/
structure Approx where
  realj : Option Rat
  aj : Int
  aj1 : Int
  bj : Int
  bj1 : Int
  num : Int
  den : Int
  pnum : Int
  pden : Int
deriving Repr

/-- `1 / (realj - bj)` of pack.c:1841 and 1859; zero gives an infinity. -/
def inverse (rnd : Rat → Rat) (realj : Rat) (b : Int) : Option Rat :=
  let d := rnd (realj - b)
  if d = 0 then none else some (rnd (1 / d))

/-- pack.c:1851 `fabs (preal - (double)Aj / (double)Bj) > precision`; with `Bj` zero the quotient is an
infinity or, with `Aj` zero too, NaN. -/
def far (rnd : Rat → Rat) (preal precision : Rat) (aj bj : Int) : Bool :=
  if bj = 0 then decide (aj ≠ 0)
  else decide (fabs (rnd (preal - rnd (aj / bj))) > precision)

/-- pack.c:1854-1868: the body of the loop. -/
def approxStep (rnd : Rat → Rat) (precision : Rat) (v : Approx) : Res Approx :=
  match v.realj with
  | none => .ub
  | some realj =>
    (toInt (rnd (realj + precision))).bind fun b =>
    (int32 (b * v.aj)).bind fun x =>
    (int32 (x + v.aj1)).bind fun aj =>
    (int32 (b * v.bj)).bind fun y =>
    (int32 (y + v.bj1)).bind fun bj =>
    .ok { realj := inverse rnd realj b, aj := aj, aj1 := v.aj, bj := bj, bj1 := v.bj,
          num := v.pnum, den := v.pden, pnum := aj, pden := bj }

/-- pack.c:1851-1870: the loop; `err` if `fuel` passes are not enough. -/
def approxLoop (rnd : Rat → Rat) (preal precision : Rat) (maxval : Int) : Nat → Approx → Res Approx
  | 0, _ => .err
  | fuel + 1, v =>
    if far rnd preal precision v.aj v.bj = true ∧ v.aj < maxval ∧ v.bj < maxval then
      (approxStep rnd precision v).bind (approxLoop rnd preal precision maxval fuel)
    else .ok v

/-- pack.c:1812-1878 `ms_ratapprox` of a number that is not negative: numerator and denominator. -/
def ratapprox (rnd : Rat → Rat) (fuel : Nat) (real : Rat) (maxval : Int) (precision : Rat) :
    Res (Int × Int) :=
  (toInt (rnd (real + precision))).bind fun b =>
  (approxLoop rnd real precision maxval fuel
    { realj := inverse rnd real b, aj := b, aj1 := 1, bj := 1, bj1 := 0, num := b, den := 1,
      pnum := b, pden := 1 }).bind fun v =>
  .ok (if v.pnum < maxval ∧ v.pden < maxval then (v.pnum, v.pden) else (v.num, v.den))

/-- pack.c:1967-1987: the search for a divisor from `s` on downwards; `err` if `fuel` passes are not
enough, division by zero is `ub`. -/
def search (n : Int) : Nat → Int → Int → Int → Res Int
  | 0, _, _, _ => .err
  | fuel + 1, s, closestdiff, closest =>
    if s = 0 then .ub
    else if n % s = 0 then .ok s
    else if s - 1 = 0 then .ub
    else
      let diff := n - (s - 1) * (n / (s - 1))
      let closestdiff' := if diff < closestdiff then diff else closestdiff
      let closest' := if diff < closestdiff then s - 1 else closest
      if s - 1 - 1 = 0 then .ub
      else if n / (s - 1 - 1) > 32767 then .ok closest'
      else search n fuel (s - 1) closestdiff' closest'

/-- pack.c:1935-2012 `ms_reduce_rate` of a positive rate; `none` is the return value -1.  `root` is
`(int)(1.0 / ms_rsqrt64 (samprate))` (1962, 1897-1916). -/
def reduceRate (rnd : Rat → Rat) (root : Rat → Int) (fuel : Nat) (samprate : Rat) :
    Res (Option (Int × Int)) :=
  (toInt (rnd (samprate + 1 / 2))).bind fun n =>
  if fabs (rnd (samprate - n)) < rnd (1 / 10000000) then
    if n ≤ 32767 then .ok (some (int16 n, 1))
    else if n ≤ 32767 * 32767 then
      let s := root samprate
      (search n fuel s s s).bind fun s =>
      if s = 0 then .ub
      else if s ≤ 32767 ∧ n / s ≤ 32767 then .ok (some (int16 s, int16 (n / s)))
      else .ok none
    else .ok none
  else if samprate ≤ 32767 then
    (ratapprox rnd fuel samprate 32767 (rnd (1 / 100000000))).bind fun (num, den) =>
    .ok (some (int16 num, int16 (-den)))
  else .ok none

/-- pack.c:2028-2071 `ms_genfactmult`; `none` is the return value -1. -/
def genfactmult (rnd : Rat → Rat) (root : Rat → Int) (fuel : Nat) (samprate : Rat) :
    Res (Option (Int × Int)) :=
  let samprate := if samprate < 0 then rnd (-1 / samprate) else samprate
  if samprate = 0 then .ok (some (0, 0))
  else if 1 ≤ samprate then reduceRate rnd root fuel samprate
  else
    (reduceRate rnd root fuel (rnd (1 / samprate))).bind fun r =>
    .ok (r.map fun (f1, f2) => (int16 (-f1), int16 (-f2)))

end Verif.Model.Factor
