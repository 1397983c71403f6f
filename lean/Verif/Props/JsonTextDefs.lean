import Verif.Spec.JsonText
import Verif.Model.JsonText
/-!
# What is required of the conversion between numerals and `double` numbers
-/
namespace Verif.Props.JsonText
open Verif.Spec.Json Verif.Model.JsonText

/-- Is a `double` a number, neither infinite nor NaN? -/
def Finite (d : UInt64) : Prop := d.toNat / 2 ^ 52 % 2048 ≠ 2047

/-- A number is written with a fraction or an exponent and is read again as the same, and numerals are read as
numbers. -/
structure LawfulReals (reals : Reals) : Prop where
  back : ∀ d, Finite d → ∃ neg n f e, Frac f ∧ Expo e ∧ (f ≠ [] ∨ e ≠ []) ∧
    reals.write d = minus neg ++ index n ++ f ++ e ∧ reals.read (reals.write d) = some d
  finite : ∀ t d, reals.read t = some d → Finite d

end Verif.Props.JsonText
