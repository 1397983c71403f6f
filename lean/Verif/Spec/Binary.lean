import Verif.Spec.Rounding
/-!
# Rounding to nearest, ties to even

The rounding of IEEE 754 to binary numbers of `p` bits, without limits of the exponent: `p = 53` for
`double`, `p = 24` for `float`.
-/
namespace Verif.Spec.Binary

/-- The exponent `e` with `2^e ≤ x < 2^(e+1)` of a positive number. -/
def exponent (x : Rat) : Int :=
  let k : Int := (x.num.toNat.log2 : Int) - (x.den.log2 : Int)
  if (2 : Rat) ^ k ≤ x then k else k - 1

/-- The nearest integer, the even one of two. -/
def halfEven (x : Rat) : Int :=
  let n := x.floor
  if x - n < 1 / 2 then n else if 1 / 2 < x - n then n + 1 else if n % 2 = 0 then n else n + 1

/-- The unit of the last of `p` bits of a positive number. -/
def ulp (p : Nat) (x : Rat) : Rat := 2 ^ (exponent x - ((p : Int) - 1))

/-- A positive number rounded to `p` bits. -/
def roundPos (p : Nat) (x : Rat) : Rat := halfEven (x / ulp p x) * ulp p x

/-- A number rounded to `p` bits. -/
def round (p : Nat) (x : Rat) : Rat :=
  if 0 < x then roundPos p x else if x < 0 then -roundPos p (-x) else 0

/-- Rounding to `double`. -/
def binary64 (x : Rat) : Rat := round 53 x

/-- Rounding to `float`. -/
def binary32 (x : Rat) : Rat := round 24 x

end Verif.Spec.Binary
