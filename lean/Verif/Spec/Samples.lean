import Verif.Spec.Steim
/-!
# Specification of the sample encodings without compression

Code words and values of the encodings defined by SEED (appendix D and the FDSN encoding list).
A value of a gain-ranged format that divides is given as numerator and power of two.
-/
namespace Verif.Spec.Samples
open Verif.Spec.Steim

/-- The `i`-th group of `n` bytes. -/
def group (n i : Nat) (b : List UInt8) : List UInt8 := (b.drop (n * i)).take n

/-- The integers of `w` bytes stored in a byte sequence. -/
def ints (be : Bool) (w n : Nat) (b : List UInt8) : List Int :=
  (List.range n).map fun i => signed (8 * w) (num be (group w i b))

/-- The bit patterns (unsigned numbers) of `w` bytes stored in a byte sequence. -/
def patterns (be : Bool) (w n : Nat) (b : List UInt8) : List Nat :=
  (List.range n).map fun i => num be (group w i b)

/-- CDSN: 2 bits select the multiplier 1, 4, 16 or 128; 14 bits hold the mantissa plus 8191. -/
def cdsn (v : Nat) : Int :=
  ((v % 16384 : Nat) - 8191 : Int) * (match v / 16384 with | 0 => 1 | 1 => 4 | 2 => 16 | _ => 128)

/-- SRO: 4 bits gain range `g` (0 to 10), 12 bits signed mantissa times `2^(10-g)`. -/
def sro (v : Nat) : Option Int :=
  if v / 4096 ≤ 10 then some (signed 12 (v % 4096) * 2 ^ (10 - v / 4096)) else none

/-- DWWSSN: 16-bit integers. -/
def dwwssn (v : Nat) : Int := signed 16 v

/-- GEOSCOPE 16-bit with 3-bit exponent: mantissa biased by 2048, divided by `2^exponent`; the
highest bit is unused. -/
def geoscope163 (v : Nat) : Int × Nat := ((v % 4096 : Nat) - 2048, v / 4096 % 8)

/-- GEOSCOPE 16-bit with 4-bit exponent. -/
def geoscope164 (v : Nat) : Int × Nat := ((v % 4096 : Nat) - 2048, v / 4096)

/-- GEOSCOPE 24-bit integers. -/
def geoscope24 (v : Nat) : Int × Nat := (signed 24 v, 0)

end Verif.Spec.Samples
