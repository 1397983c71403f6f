import Verif.Model.TimeStr
/-!
# Numbers written by `printf`

The conversions `%.<p>f` and `%.<p>g` of finite `double` values, as the C standard (7.21.6.1) says and with
the exact value rounded to the nearest decimal, halves to even, as the GNU C library does: not code of
/repo, but used by it in libmseed/tracelist.c:2199-2216, 2298-2300, 2389-2404.  Negative zero is not a
value of the model.
-/
namespace Verif.Model.Printf
open Verif.Model.TimeStr (print0)

/-- The nearest natural number, halves to even (7.21.6.1 with IEC 60559; as used at
libmseed/tracelist.c:2199). -/
def halfEven (x : Rat) : Nat :=
  let f := x.floor.toNat
  if x - f < 1 / 2 then f
  else if x - f > 1 / 2 then f + 1
  else if f % 2 = 0 then f else f + 1

/-- The sign before a number (libmseed/tracelist.c:2199). -/
def minus (x : Rat) : List Char := if x < 0 then ['-'] else []

/-- `%.<p>f`, p positive (libmseed/tracelist.c:2199-2201). -/
def fixed (p : Nat) (x : Rat) : List Char :=
  let n := halfEven (x.abs * 10 ^ p)
  minus x ++ Nat.toDigits 10 (n / 10 ^ p) ++ '.' :: print0 p (n % 10 ^ p : Nat)

/-- `n / 10^d` with `d` decimals, of which zeros at the end are removed, and the point if none is left
(libmseed/tracelist.c:2205). -/
def trimmed (n d : Nat) : List Char :=
  let f := if d = 0 then [] else ((print0 d (n % 10 ^ d : Nat)).reverse.dropWhile (· = '0')).reverse
  Nat.toDigits 10 (n / 10 ^ d) ++ if f = [] then [] else '.' :: f

/-- The exponent of a positive number in scientific notation, before rounding (libmseed/tracelist.c:2205). -/
def magnitude (x : Rat) : Int :=
  let k : Int := (Nat.toDigits 10 x.num.toNat).length - (Nat.toDigits 10 x.den).length
  if 10 ^ k ≤ x then k else k - 1

/-- The `p` digits of a positive number as an integer, and the exponent of the first
(libmseed/tracelist.c:2205). -/
def scientific (p : Nat) (x : Rat) : Nat × Int :=
  let e := magnitude x
  let n := halfEven (x * 10 ^ (p - 1 - e : Int))
  if n = 10 ^ p then (10 ^ (p - 1), e + 1) else (n, e)

/-- `%.<p>g`, p positive (libmseed/tracelist.c:2205, 2214, 2298). -/
def general (p : Nat) (x : Rat) : List Char :=
  if x = 0 then ['0']
  else
    let (n, e) := scientific p x.abs
    minus x ++
      if -4 ≤ e ∧ e < p then trimmed n (p - 1 - e).toNat
      else trimmed n (p - 1) ++ 'e' :: (if e < 0 then '-' else '+') :: print0 2 e.natAbs

end Verif.Model.Printf
