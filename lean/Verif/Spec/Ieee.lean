/-!
# Values of IEEE 754 numbers

Sign bit, exponent with bias, fraction with hidden bit; exponent zero for subnormal numbers, largest
exponent for infinities and NaN, which have no value here.
-/
namespace Verif.Spec.Ieee

/-- The value of a finite binary32 number. -/
def value32 (w : UInt32) : Option Rat :=
  let sign : Rat := if 2 ^ 31 ≤ w.toNat then -1 else 1
  let exponent : Nat := w.toNat / 2 ^ 23 % 2 ^ 8
  let fraction : Nat := w.toNat % 2 ^ 23
  if exponent = 255 then none
  else if exponent = 0 then some (sign * ((fraction : Rat) * (2 : Rat) ^ (-149 : Int)))
  else some (sign * ((2 ^ 23 + fraction : Nat) * (2 : Rat) ^ ((exponent : Int) - 150)))

/-- The value of a finite binary64 number, given as its low and its high 32 bits. -/
def value64 (lo hi : UInt32) : Option Rat :=
  let bits : Nat := hi.toNat * 2 ^ 32 + lo.toNat
  let sign : Rat := if 2 ^ 63 ≤ bits then -1 else 1
  let exponent : Nat := bits / 2 ^ 52 % 2 ^ 11
  let fraction : Nat := bits % 2 ^ 52
  if exponent = 2047 then none
  else if exponent = 0 then some (sign * ((fraction : Rat) * (2 : Rat) ^ (-1074 : Int)))
  else some (sign * ((2 ^ 52 + fraction : Nat) * (2 : Rat) ^ ((exponent : Int) - 1075)))

/-- The value of a 32-bit integer in two's complement. -/
def valueInt (w : UInt32) : Int := if w.toNat < 2 ^ 31 then w.toNat else (w.toNat : Int) - 2 ^ 32

/-- The value of sample `k` of a buffer of 32-bit integers (`i`), `float` (`f`) or `double` (`d`), low
half of a `double` first; none if it is not finite or not in the buffer. -/
def sampleValue (type : Char) (buffer : List UInt32) (k : Nat) : Option Rat :=
  if type = 'i' then buffer[k]?.map fun w => (valueInt w : Rat)
  else if type = 'f' then buffer[k]?.bind value32
  else if type = 'd' then buffer[2 * k]?.bind fun lo => buffer[2 * k + 1]?.bind fun hi => value64 lo hi
  else none

end Verif.Spec.Ieee
