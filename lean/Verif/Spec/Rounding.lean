/-!
# Rounding of floating point operations

What the proofs assume of `double` arithmetic: every operation gives the exact result rounded by a
function with the properties below.  Rounding to nearest of IEEE 754 binary64 has them as long as
results neither overflow nor underflow (are zero or between 2^-1022 and 2^1024 in size).
-/
namespace Verif.Spec

structure Rounding (rnd : Rat → Rat) : Prop where
  /-- Order is kept. -/
  mono : ∀ x y, x ≤ y → rnd x ≤ rnd y
  /-- Sign does not matter. -/
  odd : ∀ x, rnd (-x) = -rnd x
  /-- The relative error is at most 2^-53. -/
  near : ∀ x, 0 ≤ x → x - x / 2 ^ 53 ≤ rnd x ∧ rnd x ≤ x + x / 2 ^ 53
  /-- Integers of up to 53 bits are exact. -/
  exact : ∀ n : Int, -2 ^ 53 ≤ n → n ≤ 2 ^ 53 → rnd n = n
  /-- What is rounded is not changed by rounding. -/
  idem : ∀ x, rnd (rnd x) = rnd x

/-- No rounding at all is an example. -/
theorem rounding_id : Rounding fun x => x := by
  refine ⟨fun x y h => h, fun x => rfl, fun x h => ⟨?_, ?_⟩, fun n _ _ => rfl, fun x => rfl⟩
  · grind
  · grind

end Verif.Spec
