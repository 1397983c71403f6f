/-!
# Specification of the sample rate factor and multiplier

SEED manual, fixed section of the data header, fields 10 and 11: a positive factor is a number of
samples per second, a negative one (less its sign) of seconds per sample; a positive multiplier is
multiplied with the rate, a negative one (less its sign) divides it.
-/
namespace Verif.Spec.Factor

/-- The nominal sample rate. -/
def rate (factor multiplier : Int) : Rat :=
  let samples : Rat := if 0 < factor then factor else 1 / (-factor : Int)
  if 0 < multiplier then samples * multiplier else samples / (-multiplier : Int)

end Verif.Spec.Factor
