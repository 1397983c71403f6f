import Verif.Spec.TimeStr
/-!
# Independent specification: numbers written in decimal

What number a text such as `-12.5` or `1.5e-07` writes.  Nothing here refers to the C code or to the model.
-/
namespace Verif.Spec.Decimal
open Verif.Spec.TimeStr (Numeral)

/-- Digits, maybe a point and more digits. -/
inductive Plain : List Char → Rat → Prop
  | whole {s n} : Numeral s n → Plain s n
  | point {s n f m} : Numeral s n → Numeral f m → Plain (s ++ '.' :: f) (n + m / 10 ^ f.length)

/-- The same, maybe with an exponent of ten. -/
inductive Positive : List Char → Rat → Prop
  | plain {s x} : Plain s x → Positive s x
  | up {s x e n} : Plain s x → Numeral e n → Positive (s ++ 'e' :: '+' :: e) (x * 10 ^ n)
  | down {s x e n} : Plain s x → Numeral e n → Positive (s ++ 'e' :: '-' :: e) (x / 10 ^ n)

/-- The same, maybe with a minus sign. -/
inductive Writes : List Char → Rat → Prop
  | pos {s x} : Positive s x → Writes s x
  | neg {s x} : Positive s x → Writes ('-' :: s) (-x)

/-- `x` has at most `p` decimal digits. -/
def HasDigits (p : Nat) (x : Rat) : Prop := ∃ (m : Int) (k : Int), m.natAbs < 10 ^ p ∧ x = m * 10 ^ k

end Verif.Spec.Decimal
