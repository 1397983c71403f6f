/-!
# Comparison of sample rates (tracelist.c:38, libmseed.h:144)

`double` values are rationals, operations are rounded by `rnd`.
-/
namespace Verif.Model.Rate

/-- `fabs` -/
def fabs (x : Rat) : Rat := if x < 0 then -x else x

/-- libmseed.h:144 `MS_ISRATETOLERABLE`.  Division by zero gives an infinity or NaN, which is not
below the limit. -/
def tolerable (rnd : Rat → Rat) (a b : Rat) : Bool :=
  if b = 0 then false else decide (fabs (rnd (1 - rnd (a / b))) < rnd (1 / 10000))

/-- tracelist.c:38 `IS_SAMPRATE_SIMILAR` -/
def similar (rnd : Rat → Rat) (a b tol : Rat) : Bool :=
  if tol > 0 then decide (fabs (rnd (a - b)) > tol) else tolerable rnd a b

end Verif.Model.Rate
