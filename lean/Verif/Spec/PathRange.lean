/-!
# Specification of byte ranges in path names

A path name may end in `@START`, `@START-END` or `@-END` with decimal numbers of up to 20 digits.
-/
namespace Verif.Spec.PathRange

def Digit (c : UInt8) : Prop := 48 ≤ c.toNat ∧ c.toNat ≤ 57

/-- A number of at most 20 digits, possibly none. -/
def Number (s : List UInt8) : Prop := (∀ c ∈ s, Digit c) ∧ s.length ≤ 20

/-- The number that digits stand for. -/
def value : List UInt8 → Nat
  | [] => 0
  | c :: s => (c.toNat - 48) * 10 ^ s.length + value s

/-- A documented range after the `@`: `START`, `START-END` or `-END`. -/
def Range (s a b : List UInt8) : Prop :=
  Number a ∧ Number b ∧ ((s = a ∧ a ≠ [] ∧ b = []) ∨ (s = a ++ 45 :: b ∧ b ≠ []))

/-- The forms `nothing`, `-` and `START-`, which are not documented. -/
def Incomplete (s a : List UInt8) : Prop :=
  Number a ∧ ((s = [] ∧ a = []) ∨ s = a ++ [45])

end Verif.Spec.PathRange
