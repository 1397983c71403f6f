import Verif.Model.Rate
import Verif.Spec.Rounding
import Verif.Props.TraceList
/-!
# Comparison of sample rates (C42)
-/
namespace Verif.Props.Rate
open Verif.Model.Rate Verif.Spec

/-- **C42** (violated).  With a positive tolerance, rates are similar if they differ by *more* than
the tolerance, and equal rates are not similar. -/
theorem C42_tolerance_inverted_violated {rnd : Rat → Rat} (h : Rounding rnd) :
    (∃ a b tol, 0 < tol ∧ b - a > tol ∧ similar rnd a b tol = true) ∧
    (∀ a tol, 0 < tol → similar rnd a a tol = false) := by
  constructor
  · refine ⟨1, 100, 1, by grind, by grind, ?_⟩
    unfold similar
    rw [if_pos (by grind)]
    have e : rnd (1 - 100) = -99 := by
      have := h.exact (-99) (by decide) (by decide)
      have e2 : ((1 : Rat) - 100) = ((-99 : Int) : Rat) := by grind
      rw [e2, this]
      rfl
    rw [e]
    unfold fabs
    simp only [decide_eq_true_eq]
    rw [if_pos (by grind)]
    grind
  · intro a tol ht
    unfold similar
    rw [if_pos ht]
    have e : rnd (a - a) = 0 := by
      have := h.exact 0 (by decide) (by decide)
      have e2 : a - a = ((0 : Int) : Rat) := by grind
      rw [e2, this]
      rfl
    rw [e]
    unfold fabs
    rw [if_neg (by grind)]
    simp only [decide_eq_false_iff_not]
    grind

example : Rounding fun x => x := rounding_id

theorem rnd_bounds {rnd : Rat → Rat} (h : Rounding rnd) (x : Rat) :
    (0 ≤ x → x - x / 2 ^ 53 ≤ rnd x ∧ rnd x ≤ x + x / 2 ^ 53) ∧
    (x ≤ 0 → x + x / 2 ^ 53 ≤ rnd x ∧ rnd x ≤ x - x / 2 ^ 53) := by
  refine ⟨h.near x, fun hx => ?_⟩
  have := h.near (-x) (by grind)
  rw [h.odd] at this
  grind

/-- **C42** (part).  Without a tolerance, rates are similar if their ratio differs from one by at most
0.0001, up to the rounding of the calculation.

Missing: the same with a positive tolerance, `C42_tolerance_inverted_violated`. -/
theorem C42_default_tolerance_partial {rnd : Rat → Rat} (h : Rounding rnd) {a b tol : Rat}
    (ht : tol ≤ 0) (hb : b ≠ 0) :
    ((1 - a / b ≤ 1 / 10000 - 1 / 2 ^ 50 ∧ a / b - 1 ≤ 1 / 10000 - 1 / 2 ^ 50) →
      similar rnd a b tol = true) ∧
    (similar rnd a b tol = true →
      1 - a / b < 1 / 10000 + 1 / 2 ^ 50 ∧ a / b - 1 < 1 / 10000 + 1 / 2 ^ 50) := by
  unfold similar
  rw [if_neg (by grind)]
  unfold tolerable
  rw [if_neg hb]
  simp only [decide_eq_true_eq]
  generalize a / b = q
  have hq := rnd_bounds h q
  have hc := rnd_bounds h (1 / 10000)
  have hv := rnd_bounds h (1 - rnd q)
  unfold fabs
  generalize rnd (1 - rnd q) = w at *
  generalize rnd q = r at *
  generalize rnd (1 / 10000) = c at *
  constructor
  · intro hd
    split <;> grind
  · split <;> grind

example : ∃ a b tol : Rat, tol ≤ 0 ∧ b ≠ 0 ∧ a ≠ b ∧
    (1 - a / b ≤ 1 / 10000 - 1 / 2 ^ 50 ∧ a / b - 1 ≤ 1 / 10000 - 1 / 2 ^ 50) :=
  ⟨20001 / 20000, 1, 0, by grind, by grind, by grind, by grind, by grind⟩

end Verif.Props.Rate
