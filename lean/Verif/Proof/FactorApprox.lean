import Verif.Proof.Factor
/-! The continued fraction of `ms_ratapprox` in exact arithmetic. -/
namespace Verif.Proof.Factor
open Verif.Model.Steim Verif.Model.Rate Verif.Model.Factor
open Verif.Spec
open Verif.Proof.Mem

/-- Between `-d` and `d`. -/
def Within (z d : Rat) : Prop := -d ≤ z ∧ z ≤ d

theorem within_fabs (z d : Rat) : fabs z ≤ d ↔ Within z d := by
  unfold fabs Within
  constructor
  · intro h
    by_cases hz : z < 0
    · rw [if_pos hz] at h; grind
    · rw [if_neg hz] at h; grind
  · intro h
    by_cases hz : z < 0
    · rw [if_pos hz]; grind
    · rw [if_neg hz]; grind

/-- A product that is 1 or -1 with a factor of at least `c`. -/
theorem within_of_mul {z w c : Rat} (h : z * w = 1 ∨ z * w = -1) (hc : 0 < c) (hw : c ≤ w) :
    Within (z * c) 1 := by
  have hw0 : 0 < w := by grind
  unfold Within
  by_cases hz : 0 ≤ z
  · have h1 : z * c ≤ z * w := Rat.mul_le_mul_of_nonneg_left hw hz
    have h2 : 0 ≤ z * c := Rat.mul_nonneg hz (by grind)
    grind
  · have h1 : (-z) * c ≤ (-z) * w := Rat.mul_le_mul_of_nonneg_left hw (by grind)
    have h2 : 0 ≤ (-z) * c := Rat.mul_nonneg (by grind) (by grind)
    grind

structure Inv (eps : Rat) (max : Int) (x : Rat) (v : Approx) : Prop where
  a : 1 ≤ v.aj
  a1 : 1 ≤ v.aj1
  b : 1 ≤ v.bj
  b1 : 0 ≤ v.bj1
  det : v.aj * v.bj1 - v.aj1 * v.bj = 1 ∨ v.aj * v.bj1 - v.aj1 * v.bj = -1
  close : Within (x * v.bj - v.aj) 1
  quot : ∀ t, v.realj = some t →
    x * (t * v.bj + v.bj1) = t * v.aj + v.aj1 ∧ (1 < t ∨ Within (x * v.bj - v.aj) eps)
  exact : v.realj = none → x * v.bj = v.aj
  p : v.pnum = v.aj ∧ v.pden = v.bj
  prev : (v.num = v.aj ∧ v.den = v.bj ∧ v.aj < max ∧ v.bj < max) ∨
    (1 ≤ v.num ∧ v.num < max ∧ 1 ≤ v.den ∧ v.den < max ∧ Within ((x * v.den - v.num) * v.bj) 2)

theorem int32_cases (x : Int) : int32 x = .ok x ∨ int32 x = .ub := by
  unfold int32
  split
  · exact Or.inl rfl
  · exact Or.inr rfl

theorem inverse_spec (t : Rat) (b : Int) (eps : Rat) (h1 : (b : Rat) ≤ t + eps) (h2 : t + eps < (b : Rat) + 1)
    (he : 0 < eps) :
    (inverse (fun x => x) t b = none ∧ t = (b : Rat)) ∨
    ∃ u, inverse (fun x => x) t b = some u ∧ u * (t - b) = 1 ∧ (1 < u ∨ (-eps ≤ t - b ∧ t - b < 0)) := by
  unfold inverse
  simp only
  by_cases h : t - (b : Rat) = 0
  · rw [if_pos h]
    exact Or.inl ⟨rfl, by grind⟩
  · rw [if_neg h]
    have hm : 1 / (t - (b : Rat)) * (t - b) = 1 := Rat.div_mul_cancel h
    refine Or.inr ⟨_, rfl, hm, ?_⟩
    by_cases hs : 0 < t - (b : Rat)
    · left
      refine Rat.lt_of_mul_lt_mul_right (c := t - (b : Rat)) ?_ (by grind)
      rw [hm]
      grind
    · right
      grind

theorem floor_bounds (z : Rat) : ((z.floor : Int) : Rat) ≤ z ∧ z < (z.floor : Rat) + 1 := by
  refine ⟨Rat.floor_le z, ?_⟩
  have := Rat.lt_floor_add_one z
  rw [Rat.intCast_add] at this
  exact this

theorem step_inv {eps : Rat} (he : 0 < eps ∧ eps ≤ 1 / 4) {max : Int} {x : Rat} (hx : 1 ≤ x) {v : Approx}
    (i : Inv eps max x v) (hfar : ¬ Within (x * v.bj - v.aj) eps) (hm : v.aj < max ∧ v.bj < max) :
    approxStep (fun x => x) eps v = .ub ∨ ∃ w, approxStep (fun x => x) eps v = .ok w ∧
      Inv eps max x w ∧ v.aj + 1 ≤ w.aj := by
  cases hv : v.realj with
  | none =>
    have := i.exact hv
    exact absurd (show Within (x * v.bj - v.aj) eps by rw [this]; unfold Within; grind) hfar
  | some t =>
    obtain ⟨q1, q2⟩ := i.quot t hv
    have ht : 1 < t := q2.resolve_right hfar
    unfold approxStep
    rw [hv]
    simp only
    obtain ⟨f1, f2⟩ := floor_bounds (t + eps)
    have hb1 : 1 ≤ (t + eps).floor := by
      rw [Rat.le_floor_iff]
      show (1 : Rat) ≤ _
      grind
    generalize hbd : (t + eps).floor = b at *
    have hti : toInt (t + eps) = int32 b := by
      unfold toInt
      rw [if_neg (by grind), hbd]
    rw [hti]
    rcases int32_cases b with h | h
    rotate_left
    · rw [h]; exact Or.inl rfl
    rw [h, bind_ok]
    rcases int32_cases (b * v.aj) with h | h
    rotate_left
    · rw [h]; exact Or.inl rfl
    rw [h, bind_ok]
    rcases int32_cases (b * v.aj + v.aj1) with h | h
    rotate_left
    · rw [h]; exact Or.inl rfl
    rw [h, bind_ok]
    rcases int32_cases (b * v.bj) with h | h
    rotate_left
    · rw [h]; exact Or.inl rfl
    rw [h, bind_ok]
    rcases int32_cases (b * v.bj + v.bj1) with h | h
    rotate_left
    · rw [h]; exact Or.inl rfl
    rw [h, bind_ok]
    clear h
    refine Or.inr ⟨_, rfl, ?_, ?_⟩
    rotate_left
    · have := Int.mul_le_mul_of_nonneg_right hb1 (show 0 ≤ v.aj by have := i.a; omega)
      have := i.a1
      simp only
      omega
    have ia := i.a
    have ia1 := i.a1
    have ib := i.b
    have ib1 := i.b1
    have ba : v.aj ≤ b * v.aj := by
      have := Int.mul_le_mul_of_nonneg_right hb1 (show 0 ≤ v.aj by omega)
      omega
    have bb : v.bj ≤ b * v.bj := by
      have := Int.mul_le_mul_of_nonneg_right hb1 (show 0 ≤ v.bj by omega)
      omega
    -- the numbers as rationals
    have cb : (1 : Rat) ≤ (v.bj : Rat) := by
      have : ((1 : Int) : Rat) ≤ (v.bj : Rat) := Rat.intCast_le_intCast.2 ib
      exact this
    have cb1 : (0 : Rat) ≤ (v.bj1 : Rat) := by
      have : ((0 : Int) : Rat) ≤ (v.bj1 : Rat) := Rat.intCast_le_intCast.2 ib1
      exact this
    have cbb : (1 : Rat) ≤ (b : Rat) := by
      have : ((1 : Int) : Rat) ≤ (b : Rat) := Rat.intCast_le_intCast.2 hb1
      exact this
    have eA : ((b * v.aj + v.aj1 : Int) : Rat) = b * v.aj + v.aj1 := by
      rw [Rat.intCast_add, Rat.intCast_mul]
    have eB : ((b * v.bj + v.bj1 : Int) : Rat) = b * v.bj + v.bj1 := by
      rw [Rat.intCast_add, Rat.intCast_mul]
    have cdet : (v.aj : Rat) * v.bj1 - v.aj1 * v.bj = 1 ∨ (v.aj : Rat) * v.bj1 - v.aj1 * v.bj = -1 := by
      rcases i.det with h | h
      · left
        have := congrArg (fun z : Int => (z : Rat)) h
        simp only [Rat.intCast_sub, Rat.intCast_mul] at this
        exact this
      · right
        have := congrArg (fun z : Int => (z : Rat)) h
        simp only [Rat.intCast_sub, Rat.intCast_mul] at this
        exact this
    have cclose := i.close
    generalize hAr : (v.aj : Rat) = A at *
    generalize hA1r : (v.aj1 : Rat) = A1 at *
    generalize hBr : (v.bj : Rat) = B at *
    generalize hB1r : (v.bj1 : Rat) = B1 at *
    -- (x B - A) (t B + B1) = ± 1
    have hprod : (x * B - A) * (t * B + B1) = 1 ∨ (x * B - A) * (t * B + B1) = -1 := by
      have e : (x * B - A) * (t * B + B1) = -(A * B1 - A1 * B) := by
        have : (x * B - A) * (t * B + B1) = B * (x * (t * B + B1)) - A * (t * B + B1) := by grind
        rw [this, q1]
        grind
      rw [e]
      rcases cdet with h | h <;> rw [h] <;> grind
    have htB : B ≤ t * B + B1 := by
      have := Rat.mul_le_mul_of_nonneg_right (Rat.le_of_lt ht) (show 0 ≤ B by grind)
      grind
    have hxB : Within (x * B - A) 1 := by
      have := within_of_mul hprod (c := 1) (by decide) (by grind)
      rw [Rat.mul_one] at this
      exact this
    -- x B2 - A2 = -(t - b) (x B - A)
    have hnew : x * (b * B + B1) - (b * A + A1) = -((t - b) * (x * B - A)) := by
      have : x * (b * B + B1) - (b * A + A1) =
          x * (t * B + B1) - (t * A + A1) - (t - b) * (x * B - A) := by grind
      rw [this, q1]
      grind
    have htb : -eps ≤ t - b ∧ t - b < 1 := by grind
    have hnewsmall : ∀ d : Rat, 0 ≤ d → Within (t - b) d → Within (x * (b * B + B1) - (b * A + A1)) d := by
      intro d hd0 hd
      rw [hnew]
      generalize x * B - A = z at hxB
      generalize t - (b : Rat) = w at hd
      unfold Within at *
      by_cases hz : 0 ≤ z
      · have h1 := Rat.mul_le_mul_of_nonneg_right hd.1 hz
        have h2 := Rat.mul_le_mul_of_nonneg_right hd.2 hz
        have h3 := Rat.mul_le_mul_of_nonneg_left hxB.2 hd0
        grind
      · have h1 := Rat.mul_le_mul_of_nonneg_right hd.1 (show 0 ≤ -z by grind)
        have h2 := Rat.mul_le_mul_of_nonneg_right hd.2 (show 0 ≤ -z by grind)
        have h3 := Rat.mul_le_mul_of_nonneg_left (show -z ≤ 1 by grind) hd0
        grind
    constructor
    · show 1 ≤ b * v.aj + v.aj1; omega
    · exact ia
    · show 1 ≤ b * v.bj + v.bj1; omega
    · show 0 ≤ v.bj; omega
    · show (b * v.aj + v.aj1) * v.bj - v.aj * (b * v.bj + v.bj1) = 1 ∨ _ = -1
      have e : (b * v.aj + v.aj1) * v.bj - v.aj * (b * v.bj + v.bj1) = -(v.aj * v.bj1 - v.aj1 * v.bj) := by
        grind
      rw [e]
      have := i.det
      omega
    · show Within (x * ((b * v.bj + v.bj1 : Int) : Rat) - ((b * v.aj + v.aj1 : Int) : Rat)) 1
      rw [eA, eB]
      exact hnewsmall 1 (by decide) (by unfold Within; grind)
    · intro u hu
      show x * (u * ((b * v.bj + v.bj1 : Int) : Rat) + (v.bj : Rat)) =
        u * ((b * v.aj + v.aj1 : Int) : Rat) + (v.aj : Rat) ∧ (1 < u ∨
        Within (x * ((b * v.bj + v.bj1 : Int) : Rat) - ((b * v.aj + v.aj1 : Int) : Rat)) eps)
      rw [eA, eB, hBr, hAr]
      have hu : inverse (fun x => x) t b = some u := hu
      rcases inverse_spec t b eps f1 f2 he.1 with ⟨h, -⟩ | ⟨u', h, hm, hs⟩
      · rw [h] at hu; cases hu
      · rw [h] at hu
        injection hu with hu
        subst hu
        constructor
        · have e1 : x * (u' * (b * B + B1) + B) - (u' * (b * A + A1) + A) =
              u' * (x * (b * B + B1) - (b * A + A1)) + (x * B - A) := by grind
          have e2 : u' * -((t - b) * (x * B - A)) = -(u' * (t - b)) * (x * B - A) := by grind
          rw [hnew, e2, hm] at e1
          grind
        · rcases hs with hs | hs
          · exact Or.inl hs
          · exact Or.inr (hnewsmall eps (by grind) (by unfold Within; grind))
    · intro hu
      show x * ((b * v.bj + v.bj1 : Int) : Rat) = ((b * v.aj + v.aj1 : Int) : Rat)
      rw [eA, eB]
      have hu : inverse (fun x => x) t b = none := hu
      rcases inverse_spec t b eps f1 f2 he.1 with ⟨-, h⟩ | ⟨u', h, -, -⟩
      · have : t - (b : Rat) = 0 := by grind
        rw [this] at hnew
        grind
      · rw [h] at hu; cases hu
    · exact ⟨rfl, rfl⟩
    · right
      show 1 ≤ v.pnum ∧ v.pnum < max ∧ 1 ≤ v.pden ∧ v.pden < max ∧
        Within ((x * (v.pden : Rat) - (v.pnum : Rat)) * ((b * v.bj + v.bj1 : Int) : Rat)) 2
      rw [i.p.1, i.p.2, eB, hBr, hAr]
      refine ⟨ia, hm.1, ib, hm.2, ?_⟩
      -- b B + B1 ≤ t B + B1 + eps B ≤ 2 (t B + B1)
      have h1 : b * B + B1 ≤ 2 * (t * B + B1) := by
        have h2 := Rat.mul_le_mul_of_nonneg_right f1 (show 0 ≤ B by grind)
        have h3 := Rat.mul_le_mul_of_nonneg_right he.2 (show 0 ≤ B by grind)
        grind
      have h0 : 0 < b * B + B1 := by
        have h2 := Rat.mul_le_mul_of_nonneg_right cbb (show 0 ≤ B by grind)
        grind
      have h4 := within_of_mul (c := (b * B + B1) / 2) hprod (by grind) (by grind)
      unfold Within at *
      grind

theorem loop_inv {eps : Rat} (he : 0 < eps ∧ eps ≤ 1 / 4) {max : Int} {x : Rat} (hx : 1 ≤ x) (fuel : Nat)
    {v : Approx} (i : Inv eps max x v) (hf : max < v.aj + (fuel : Int)) (h0 : 0 < fuel) :
    approxLoop (fun x => x) x eps max fuel v = .ub ∨
    ∃ w, approxLoop (fun x => x) x eps max fuel v = .ok w ∧ Inv eps max x w ∧
      (Within (x * w.bj - w.aj) (eps * w.bj) ∨ max ≤ w.aj ∨ max ≤ w.bj) := by
  induction fuel generalizing v with
  | zero => omega
  | succ fuel ih =>
    rw [approxLoop]
    have cb : (1 : Rat) ≤ (v.bj : Rat) := by
      have : ((1 : Int) : Rat) ≤ (v.bj : Rat) := Rat.intCast_le_intCast.2 i.b
      exact this
    have hbne : (v.bj : Rat) ≠ 0 := by grind
    -- what `far` says
    have hfar : far (fun x => x) x eps v.aj v.bj = true ↔ ¬ Within (x * v.bj - v.aj) (eps * v.bj) := by
      unfold far
      rw [if_neg (by have := i.b; omega)]
      rw [decide_eq_true_iff]
      have e : x * (v.bj : Rat) - v.aj = (x - v.aj / v.bj) * v.bj := by
        have := Rat.div_mul_cancel (a := (v.aj : Rat)) hbne
        grind
      rw [e, GT.gt, ← Rat.not_le]
      rw [within_fabs]
      unfold Within
      generalize x - (v.aj : Rat) / v.bj = z
      generalize (v.bj : Rat) = B at cb
      have hB : 0 < B := by grind
      constructor
      · intro h h'
        apply h
        constructor
        · exact Rat.le_of_mul_le_mul_right (c := B) (by grind) hB
        · exact Rat.le_of_mul_le_mul_right (c := B) (by grind) hB
      · intro h h'
        apply h
        constructor
        · have := Rat.mul_le_mul_of_nonneg_right h'.1 (Rat.le_of_lt hB)
          grind
        · exact Rat.mul_le_mul_of_nonneg_right h'.2 (Rat.le_of_lt hB)
    by_cases hc : far (fun x => x) x eps v.aj v.bj = true ∧ v.aj < max ∧ v.bj < max
    · rw [if_pos hc]
      have hnw : ¬ Within (x * v.bj - v.aj) eps := by
        have h1 := hfar.1 hc.1
        intro h2
        apply h1
        have h3 := Rat.mul_le_mul_of_nonneg_left cb (Rat.le_of_lt he.1)
        unfold Within at *
        grind
      rcases step_inv he hx i hnw hc.2 with h | ⟨w, h1, h2, h3⟩
      · left; rw [h]; rfl
      · rw [h1, bind_ok]
        have := hc.2.1
        exact ih h2 (by omega) (by omega)
    · rw [if_neg hc]
      refine Or.inr ⟨v, rfl, i, ?_⟩
      by_cases h1 : v.aj < max
      · by_cases h2 : v.bj < max
        · left
          apply Classical.byContradiction
          intro h
          exact hc ⟨hfar.2 h, h1, h2⟩
        · exact Or.inr (Or.inr (by omega))
      · exact Or.inr (Or.inl (by omega))

theorem initial_inv {eps : Rat} (he : 0 < eps ∧ eps ≤ 1 / 4) {max : Int} (hmax : 2 ≤ max) {x : Rat}
    (hx : 1 ≤ x) {b : Int} (f1 : (b : Rat) ≤ x + eps) (f2 : x + eps < (b : Rat) + 1) (hb1 : 1 ≤ b)
    (hbm : b < max) : Inv eps max x
      { realj := inverse (fun x => x) x b, aj := b, aj1 := 1, bj := 1, bj1 := 0, num := b, den := 1,
        pnum := b, pden := 1 } := by
  have e1 : ((1 : Int) : Rat) = 1 := rfl
  have e0 : ((0 : Int) : Rat) = 0 := rfl
  constructor
  · exact hb1
  · show (1 : Int) ≤ 1; omega
  · show (1 : Int) ≤ 1; omega
  · show (0 : Int) ≤ 0; omega
  · show b * 0 - 1 * 1 = 1 ∨ b * 0 - 1 * 1 = -1; omega
  · show Within (x * ((1 : Int) : Rat) - (b : Rat)) 1
    unfold Within; rw [e1]; grind
  · intro t ht
    show x * (t * ((1 : Int) : Rat) + ((0 : Int) : Rat)) = t * (b : Rat) + ((1 : Int) : Rat) ∧
      (1 < t ∨ Within (x * ((1 : Int) : Rat) - (b : Rat)) eps)
    rw [e1, e0]
    have ht : inverse (fun x => x) x b = some t := ht
    rcases inverse_spec x b eps f1 f2 he.1 with ⟨h, -⟩ | ⟨u', h, hm, hs⟩
    · rw [h] at ht; cases ht
    · rw [h] at ht
      injection ht with ht
      subst ht
      refine ⟨by grind, ?_⟩
      unfold Within
      grind
  · intro ht
    show x * ((1 : Int) : Rat) = (b : Rat)
    have ht : inverse (fun x => x) x b = none := ht
    rw [e1]
    rcases inverse_spec x b eps f1 f2 he.1 with ⟨-, h⟩ | ⟨u', h, -, -⟩
    · grind
    · rw [h] at ht; cases ht
  · exact ⟨rfl, rfl⟩
  · left; exact ⟨rfl, rfl, hbm, by show 1 < max; omega⟩

/-- The approximation in exact arithmetic, if no `int` overflows. -/
theorem ratapprox_spec {eps : Rat} (he : 0 < eps ∧ eps ≤ 1 / 4) {max : Int} (hmax : 2 ≤ max) {x : Rat}
    (hx : 1 ≤ x) (hxm : x + eps < (max : Rat)) (fuel : Nat) (hf : max ≤ (fuel : Int)) :
    ratapprox (fun x => x) fuel x max eps = .ub ∨
    ∃ n d, ratapprox (fun x => x) fuel x max eps = .ok (n, d) ∧ 1 ≤ n ∧ n < max ∧ 1 ≤ d ∧ d < max ∧
      (Within (x * d - n) (eps * d) ∨ Within ((x * d - n) * (max - 1 : Int)) (2 * x)) := by
  obtain ⟨f1, f2⟩ := floor_bounds (x + eps)
  have hb1 : 1 ≤ (x + eps).floor := by
    rw [Rat.le_floor_iff]
    show (1 : Rat) ≤ _
    grind
  have hbm : (x + eps).floor < max := by
    rw [Rat.floor_lt_iff]
    exact hxm
  unfold ratapprox
  have hti : toInt (x + eps) = int32 (x + eps).floor := by
    unfold toInt
    rw [if_neg (by grind)]
  rw [hti]
  generalize (x + eps).floor = b at *
  rcases int32_cases b with h | h
  rotate_left
  · rw [h]; exact Or.inl rfl
  rw [h, bind_ok]
  clear h
  have e1 : ((1 : Int) : Rat) = 1 := rfl
  have hinv := initial_inv he hmax hx f1 f2 hb1 hbm
  rcases loop_inv he hx fuel hinv (by show max < b + (fuel : Int); omega) (by omega) with h | ⟨w, h1, iw, h2⟩
  · rw [h]; exact Or.inl rfl
  · rw [h1, bind_ok]
    right
    rw [iw.p.1, iw.p.2]
    by_cases hc : w.aj < max ∧ w.bj < max
    · rw [if_pos hc]
      refine ⟨_, _, rfl, iw.a, hc.1, iw.b, hc.2, Or.inl ?_⟩
      rcases h2 with h2 | h2 | h2
      · exact h2
      · omega
      · omega
    · rw [if_neg hc]
      rcases iw.prev with ⟨-, -, p3, p4⟩ | ⟨p1, p2, p3, p4, p5⟩
      · exact absurd ⟨p3, p4⟩ hc
      · refine ⟨_, _, rfl, p1, p2, p3, p4, Or.inr ?_⟩
        -- max - 1 ≤ x B
        have hB : ((max - 1 : Int) : Rat) ≤ x * w.bj := by
          have cb : (1 : Rat) ≤ (w.bj : Rat) := by
            have : ((1 : Int) : Rat) ≤ (w.bj : Rat) := Rat.intCast_le_intCast.2 iw.b
            exact this
          have hcl := iw.close
          by_cases ha : w.aj < max
          · have hb : max ≤ w.bj := by
              apply Classical.byContradiction
              intro h'
              exact hc ⟨ha, by omega⟩
            have h3 : ((max - 1 : Int) : Rat) ≤ (w.bj : Rat) := Rat.intCast_le_intCast.2 (by omega)
            have h4 := Rat.mul_le_mul_of_nonneg_right hx (show 0 ≤ (w.bj : Rat) by grind)
            grind
          · have h3 : ((max - 1 : Int) : Rat) ≤ ((w.aj - 1 : Int) : Rat) := Rat.intCast_le_intCast.2 (by omega)
            rw [Rat.intCast_sub w.aj 1, e1] at h3
            unfold Within at hcl
            grind
        have hB0 : (0 : Rat) ≤ ((max - 1 : Int) : Rat) := by
          have : ((0 : Int) : Rat) ≤ ((max - 1 : Int) : Rat) := Rat.intCast_le_intCast.2 (by omega)
          exact this
        generalize ((max - 1 : Int) : Rat) = M at *
        generalize x * (w.den : Rat) - w.num = z at *
        generalize (w.bj : Rat) = B at *
        unfold Within at *
        by_cases hz : 0 ≤ z
        · have h3 := Rat.mul_le_mul_of_nonneg_left hB hz
          have h4 := Rat.mul_le_mul_of_nonneg_left p5.2 (show 0 ≤ x by grind)
          have h5 := Rat.mul_nonneg hz hB0
          grind
        · have h3 := Rat.mul_le_mul_of_nonneg_left hB (show 0 ≤ -z by grind)
          have h4 := Rat.mul_le_mul_of_nonneg_left p5.1 (show 0 ≤ x by grind)
          have h5 := Rat.mul_nonneg (show 0 ≤ -z by grind) hB0
          grind

/-! ### Rates that are ratios of small whole numbers -/

/-- A product of integers that is not zero is at least 1 away from it. -/
theorem ratio_gap {x : Rat} {p q : Int} (hq : 0 < q) (hx : x * q = p) (a b : Int)
    (h : x * (b : Rat) ≠ a) : (1 ≤ (x * b - a) * q ∨ (x * b - a) * q ≤ -1) := by
  have e : (x * (b : Rat) - a) * q = ((p * b - a * q : Int) : Rat) := by
    rw [Rat.intCast_sub, Rat.intCast_mul, Rat.intCast_mul, ← hx]
    grind
  have hne : p * b - a * q ≠ 0 := by
    intro h0
    rw [h0] at e
    have hq' : (q : Rat) ≠ 0 := by
      intro h'
      have : (q : Rat) = ((0 : Int) : Rat) := h'
      have := Rat.intCast_inj.1 this
      omega
    have e : (x * (b : Rat) - a) * q = 0 := e
    rcases Rat.mul_eq_zero.1 e with h1 | h1
    · apply h; grind
    · exact hq' h1
  rw [e]
  by_cases hs : 1 ≤ p * b - a * q
  · left
    have : ((1 : Int) : Rat) ≤ ((p * b - a * q : Int) : Rat) := Rat.intCast_le_intCast.2 hs
    exact this
  · right
    have : ((p * b - a * q : Int) : Rat) ≤ ((-1 : Int) : Rat) := Rat.intCast_le_intCast.2 (by omega)
    exact this

/-- The quotient that follows an inexact convergent. -/
theorem quot_bound {eps : Rat} {max : Int} {x : Rat} {v : Approx} (i : Inv eps max x v)
    {p q : Int} (hq : 0 < q) (hqe : eps * q < 1) (hx : x * q = p) (hne : x * (v.bj : Rat) ≠ v.aj) :
    ∃ t, v.realj = some t ∧ 1 < t ∧ t * v.bj + v.bj1 ≤ q := by
  cases hv : v.realj with
  | none => exact absurd (i.exact hv) hne
  | some t =>
    obtain ⟨q1, q2⟩ := i.quot t hv
    have hq0 : (0 : Rat) < (q : Rat) := by
      have : ((0 : Int) : Rat) < (q : Rat) := Rat.intCast_lt_intCast.2 hq
      exact this
    have gap := ratio_gap hq hx v.aj v.bj hne
    have ht : 1 < t := by
      refine q2.resolve_right ?_
      intro hw
      unfold Within at hw
      have h1 := Rat.mul_le_mul_of_nonneg_right hw.1 (Rat.le_of_lt hq0)
      have h2 := Rat.mul_le_mul_of_nonneg_right hw.2 (Rat.le_of_lt hq0)
      grind
    refine ⟨t, rfl, ht, ?_⟩
    have cb : (1 : Rat) ≤ (v.bj : Rat) := by
      have : ((1 : Int) : Rat) ≤ (v.bj : Rat) := Rat.intCast_le_intCast.2 i.b
      exact this
    have cb1 : (0 : Rat) ≤ (v.bj1 : Rat) := by
      have : ((0 : Int) : Rat) ≤ (v.bj1 : Rat) := Rat.intCast_le_intCast.2 i.b1
      exact this
    have cdet : (v.aj : Rat) * v.bj1 - v.aj1 * v.bj = 1 ∨ (v.aj : Rat) * v.bj1 - v.aj1 * v.bj = -1 := by
      rcases i.det with h | h
      · left
        have := congrArg (fun z : Int => (z : Rat)) h
        simp only [Rat.intCast_sub, Rat.intCast_mul] at this
        exact this
      · right
        have := congrArg (fun z : Int => (z : Rat)) h
        simp only [Rat.intCast_sub, Rat.intCast_mul] at this
        exact this
    generalize (v.aj : Rat) = A at *
    generalize (v.aj1 : Rat) = A1 at *
    generalize (v.bj : Rat) = B at *
    generalize (v.bj1 : Rat) = B1 at *
    have hprod : (x * B - A) * (t * B + B1) = 1 ∨ (x * B - A) * (t * B + B1) = -1 := by
      have e : (x * B - A) * (t * B + B1) = -(A * B1 - A1 * B) := by
        have : (x * B - A) * (t * B + B1) = B * (x * (t * B + B1)) - A * (t * B + B1) := by grind
        rw [this, q1]
        grind
      rw [e]
      rcases cdet with h | h <;> rw [h] <;> grind
    have hw0 : 0 < t * B + B1 := by
      have := Rat.mul_pos (show 0 < t by grind) (show 0 < B by grind)
      grind
    generalize t * B + B1 = w at *
    generalize x * B - A = z at *
    -- z w = ±1, |z q| ≥ 1
    rcases gap with g | g
    · have h1 := Rat.mul_le_mul_of_nonneg_right g (Rat.le_of_lt hw0)
      have e1 : z * q * w = z * w * q := by grind
      rw [e1] at h1
      rcases hprod with h | h <;> rw [h] at h1 <;> grind
    · have h1 := Rat.mul_le_mul_of_nonneg_right g (Rat.le_of_lt hw0)
      have e1 : z * q * w = z * w * q := by grind
      rw [e1] at h1
      rcases hprod with h | h <;> rw [h] at h1 <;> grind

/-- No overflow on the way to a ratio of small numbers. -/
theorem step_ok {eps : Rat} (he : 0 < eps ∧ eps ≤ 1 / 4) {max : Int} (hmax : max ≤ 32767) {x : Rat}
    {v : Approx} (i : Inv eps max x v) (hm : v.aj < max ∧ v.bj < max) (hord : v.aj1 ≤ v.aj ∧ v.bj1 ≤ v.bj)
    {p q : Int} (hq : 0 < q) (hqm : q ≤ 32767) (hqe : eps * q < 1) (hx : x * q = p)
    (hne : x * (v.bj : Rat) ≠ v.aj) :
    ∃ w, approxStep (fun x => x) eps v = .ok w ∧ w.aj1 ≤ w.aj ∧ w.bj1 ≤ w.bj := by
  obtain ⟨t, hv, ht, htq⟩ := quot_bound i hq hqe hx hne
  have ia := i.a
  have ia1 := i.a1
  have ib := i.b
  have ib1 := i.b1
  have cb : (1 : Rat) ≤ (v.bj : Rat) := by
    have : ((1 : Int) : Rat) ≤ (v.bj : Rat) := Rat.intCast_le_intCast.2 i.b
    exact this
  have cb1 : (0 : Rat) ≤ (v.bj1 : Rat) := by
    have : ((0 : Int) : Rat) ≤ (v.bj1 : Rat) := Rat.intCast_le_intCast.2 i.b1
    exact this
  have htq' : t ≤ (q : Rat) := by
    have := Rat.mul_le_mul_of_nonneg_left cb (show 0 ≤ t by grind)
    grind
  have hb1 : 1 ≤ (t + eps).floor := by
    rw [Rat.le_floor_iff]
    show (1 : Rat) ≤ _
    grind
  have hbq : (t + eps).floor ≤ q := by
    have : (t + eps).floor < q + 1 := by
      rw [Rat.floor_lt_iff, Rat.intCast_add]
      show t + eps < (q : Rat) + 1
      grind
    omega
  unfold approxStep
  rw [hv]
  simp only
  have hti : toInt (t + eps) = int32 (t + eps).floor := by
    unfold toInt
    rw [if_neg (by grind)]
  rw [hti]
  generalize (t + eps).floor = b at *
  have b1 : b * v.aj ≤ 32767 * 32766 := Int.mul_le_mul (by omega) (by omega) (by omega) (by omega)
  have b2 : b * v.bj ≤ 32767 * 32766 := Int.mul_le_mul (by omega) (by omega) (by omega) (by omega)
  have ba : v.aj ≤ b * v.aj := by
    have := Int.mul_le_mul_of_nonneg_right hb1 (show 0 ≤ v.aj by omega)
    omega
  have bb : v.bj ≤ b * v.bj := by
    have := Int.mul_le_mul_of_nonneg_right hb1 (show 0 ≤ v.bj by omega)
    omega
  rw [int32_ok (by omega), bind_ok, int32_ok (by omega), bind_ok, int32_ok (by omega), bind_ok,
    int32_ok (by omega), bind_ok, int32_ok (by omega), bind_ok]
  exact ⟨_, rfl, by show v.aj ≤ b * v.aj + v.aj1; omega, by show v.bj ≤ b * v.bj + v.bj1; omega⟩

theorem exact_bounds {eps : Rat} {max : Int} {x : Rat} {v : Approx} (i : Inv eps max x v)
    {p q : Int} (hp : 0 < p) (hq : 0 < q) (hx : x * q = p) (h : x * (v.bj : Rat) = v.aj) :
    v.aj ≤ p ∧ v.bj ≤ q := by
  have e : p * v.bj = v.aj * q := by
    have : ((p * v.bj : Int) : Rat) = ((v.aj * q : Int) : Rat) := by
      rw [Rat.intCast_mul, Rat.intCast_mul, ← hx, ← h]
      grind
    exact Rat.intCast_inj.1 this
  have hb : v.bj ∣ q := by
    rcases i.det with d | d
    · refine ⟨p * v.bj1 - v.aj1 * q, ?_⟩
      have : q = q * (v.aj * v.bj1 - v.aj1 * v.bj) := by rw [d]; omega
      grind
    · refine ⟨-(p * v.bj1 - v.aj1 * q), ?_⟩
      have : q = -(q * (v.aj * v.bj1 - v.aj1 * v.bj)) := by rw [d]; omega
      grind
  have ha : v.aj ∣ p := by
    rcases i.det with d | d
    · refine ⟨p * v.bj1 - v.aj1 * q, ?_⟩
      have : p = p * (v.aj * v.bj1 - v.aj1 * v.bj) := by rw [d]; omega
      grind
    · refine ⟨-(p * v.bj1 - v.aj1 * q), ?_⟩
      have : p = -(p * (v.aj * v.bj1 - v.aj1 * v.bj)) := by rw [d]; omega
      grind
  exact ⟨Int.le_of_dvd hp ha, Int.le_of_dvd hq hb⟩

theorem loop_ratio {eps : Rat} (he : 0 < eps ∧ eps ≤ 1 / 4) {max : Int} (hmax : max ≤ 32767) {x : Rat}
    (hx1 : 1 ≤ x) {p q : Int} (hq : 0 < q) (hqm : q < max) (hpm : p < max) (hqe : eps * q < 1)
    (hx : x * q = p) (fuel : Nat)
    {v : Approx} (i : Inv eps max x v) (hord : v.aj1 ≤ v.aj ∧ v.bj1 ≤ v.bj)
    (hf : max < v.aj + (fuel : Int)) (h0 : 0 < fuel) :
    ∃ w, approxLoop (fun x => x) x eps max fuel v = .ok w := by
  induction fuel generalizing v with
  | zero => omega
  | succ fuel ih =>
    rw [approxLoop]
    by_cases hc : far (fun x => x) x eps v.aj v.bj = true ∧ v.aj < max ∧ v.bj < max
    · rw [if_pos hc]
      have cb : (1 : Rat) ≤ (v.bj : Rat) := by
        have : ((1 : Int) : Rat) ≤ (v.bj : Rat) := Rat.intCast_le_intCast.2 i.b
        exact this
      have hnw : ¬ Within (x * v.bj - v.aj) eps := by
        intro h
        have h1 := hc.1
        unfold far at h1
        rw [if_neg (by have := i.b; omega), decide_eq_true_iff, GT.gt, ← Rat.not_le] at h1
        apply h1
        rw [within_fabs]
        have e : x * (v.bj : Rat) - v.aj = (x - v.aj / v.bj) * v.bj := by
          have := Rat.div_mul_cancel (a := (v.aj : Rat)) (show (v.bj : Rat) ≠ 0 by grind)
          grind
        rw [e] at h
        generalize x - (v.aj : Rat) / v.bj = z at *
        generalize (v.bj : Rat) = B at *
        unfold Within at *
        have h2 := Rat.mul_le_mul_of_nonneg_left cb (Rat.le_of_lt he.1)
        exact ⟨Rat.le_of_mul_le_mul_right (c := B) (by grind) (by grind),
          Rat.le_of_mul_le_mul_right (c := B) (by grind) (by grind)⟩
      have hne : x * (v.bj : Rat) ≠ v.aj := by
        intro h
        apply hnw
        rw [h]
        unfold Within
        grind
      obtain ⟨w, h1, h2, h3⟩ := step_ok he hmax i hc.2 hord hq (by omega) hqe hx hne
      rcases step_inv he hx1 i hnw hc.2 with h | ⟨w', h1', h2', h3'⟩
      · rw [h1] at h; cases h
      · rw [h1] at h1'
        injection h1' with h1'
        subst h1'
        rw [h1, bind_ok]
        have := hc.2.1
        exact ih h2' ⟨h2, h3⟩ (by omega) (by omega)
    · rw [if_neg hc]
      exact ⟨v, rfl⟩

/-- The approximation of a ratio of small numbers in exact arithmetic. -/
theorem ratapprox_ratio {eps : Rat} (he : 0 < eps ∧ eps ≤ 1 / 4) {max : Int} (hmax : max ≤ 32767) {x : Rat}
    (hx1 : 1 ≤ x) {p q : Int} (hq : 0 < q) (hqm : q < max) (hpm : p < max) (hqe : eps * q < 1)
    (hx : x * q = p) (hxm : x + eps < (max : Rat)) (fuel : Nat) (hf : max ≤ (fuel : Int)) :
    ∃ n d, ratapprox (fun x => x) fuel x max eps = .ok (n, d) ∧ 1 ≤ n ∧ n < max ∧ 1 ≤ d ∧ d < max ∧
      Within (x * d - n) (eps * d) ∧ (eps * q * q ≤ 1 → x * d = n) := by
  have hq0 : (1 : Rat) ≤ (q : Rat) := by
    have : ((1 : Int) : Rat) ≤ (q : Rat) := Rat.intCast_le_intCast.2 hq
    exact this
  have hp : 0 < p := by
    have h1 : (1 : Rat) ≤ (p : Rat) := by
      rw [← hx]
      have := Rat.mul_le_mul_of_nonneg_right hx1 (show 0 ≤ (q : Rat) by grind)
      grind
    have h1 : ((1 : Int) : Rat) ≤ (p : Rat) := h1
    have := Rat.intCast_le_intCast.1 h1
    omega
  obtain ⟨f1, f2⟩ := floor_bounds (x + eps)
  have hb1 : 1 ≤ (x + eps).floor := by
    rw [Rat.le_floor_iff]
    show (1 : Rat) ≤ _
    grind
  have hbm : (x + eps).floor < max := by
    rw [Rat.floor_lt_iff]
    exact hxm
  unfold ratapprox
  have hti : toInt (x + eps) = int32 (x + eps).floor := by
    unfold toInt
    rw [if_neg (by grind)]
  rw [hti]
  generalize (x + eps).floor = b at *
  rw [int32_ok (by omega), bind_ok]
  have hinv := initial_inv he (by omega) hx1 f1 f2 hb1 hbm
  obtain ⟨w, h1⟩ := loop_ratio he hmax hx1 hq hqm hpm hqe hx fuel hinv
    ⟨hb1, by show (0 : Int) ≤ 1; omega⟩ (by show max < b + (fuel : Int); omega) (by omega)
  rcases loop_inv he hx1 fuel hinv (by show max < b + (fuel : Int); omega) (by omega) with h | ⟨w', h1', iw, h2⟩
  · rw [h1] at h; cases h
  · rw [h1] at h1'
    injection h1' with h1'
    subst h1'
    rw [h1, bind_ok, iw.p.1, iw.p.2]
    have cb : (1 : Rat) ≤ (w.bj : Rat) := by
      have : ((1 : Int) : Rat) ≤ (w.bj : Rat) := Rat.intCast_le_intCast.2 iw.b
      exact this
    have cb1 : (0 : Rat) ≤ (w.bj1 : Rat) := by
      have : ((0 : Int) : Rat) ≤ (w.bj1 : Rat) := Rat.intCast_le_intCast.2 iw.b1
      exact this
    have heB : 0 ≤ eps * (w.bj : Rat) := Rat.mul_nonneg (Rat.le_of_lt he.1) (by grind)
    by_cases hex : x * (w.bj : Rat) = w.aj
    · obtain ⟨e1, e2⟩ := exact_bounds iw hp hq hx hex
      rw [if_pos ⟨by omega, by omega⟩]
      refine ⟨_, _, rfl, iw.a, by omega, iw.b, by omega, ?_, fun _ => hex⟩
      rw [hex]
      unfold Within
      grind
    · obtain ⟨t, hv, ht, htq⟩ := quot_bound iw hq hqe hx hex
      have hBq : w.bj < q := by
        have h3 := Rat.mul_lt_mul_of_pos_right ht (show 0 < (w.bj : Rat) by grind)
        have : (w.bj : Rat) < (q : Rat) := by grind
        exact Rat.intCast_lt_intCast.1 this
      have hBq' : (w.bj : Rat) + 1 ≤ (q : Rat) := by
        have : ((w.bj + 1 : Int) : Rat) ≤ (q : Rat) := Rat.intCast_le_intCast.2 (by omega)
        rw [Rat.intCast_add] at this
        exact this
      have hA : w.aj < max := by
        have hcl := iw.close
        have h3 := Rat.mul_le_mul_of_nonneg_left hBq' (show 0 ≤ x by grind)
        rw [hx] at h3
        unfold Within at hcl
        have : (w.aj : Rat) ≤ (p : Rat) := by grind
        have := Rat.intCast_le_intCast.1 this
        omega
      rw [if_pos ⟨hA, by omega⟩]
      have hw : Within (x * w.bj - w.aj) (eps * w.bj) := by
        rcases h2 with h2 | h2 | h2
        · exact h2
        · omega
        · omega
      refine ⟨_, _, rfl, iw.a, hA, iw.b, by omega, hw, fun heq => ?_⟩
      exfalso
      have gap := ratio_gap hq hx w.aj w.bj hex
      have h3 : eps * (w.bj : Rat) * q < 1 := by
        have h4 : (w.bj : Rat) * (eps * q) < q * (eps * q) :=
          Rat.mul_lt_mul_of_pos_right (by grind) (Rat.mul_pos he.1 (by grind))
        grind
      unfold Within at hw
      have h4 := Rat.mul_le_mul_of_nonneg_right hw.1 (show 0 ≤ (q : Rat) by grind)
      have h5 := Rat.mul_le_mul_of_nonneg_right hw.2 (show 0 ≤ (q : Rat) by grind)
      grind

theorem toInt_cases (x : Rat) (h : 0 ≤ x) (hm : x < 2147483648) :
    ∃ n : Int, toInt x = .ok n ∧ (n : Rat) ≤ x ∧ x < (n : Rat) + 1 ∧ 0 ≤ n := by
  obtain ⟨f1, f2⟩ := floor_bounds x
  have h0 : 0 ≤ x.floor := by
    rw [Rat.le_floor_iff]; exact h
  have h1 : x.floor < 2147483648 := by
    rw [Rat.floor_lt_iff]; exact hm
  refine ⟨x.floor, ?_, f1, f2, h0⟩
  unfold toInt
  rw [if_neg (by grind), int32_ok (by omega)]

theorem reduce_ratio (root : Rat → Int) (fuel : Nat) (hf : 32767 ≤ fuel) {x : Rat} (hx1 : 1 ≤ x)
    {p q : Int} (hq : 0 < q) (hqm : q < 32767) (hpm : p < 32767) (hx : x * q = p) :
    ∃ n d e, reduceRate (fun x => x) root fuel x = .ok (some (n, e)) ∧ (e = -d ∨ (e = 1 ∧ d = 1)) ∧
      1 ≤ n ∧ n ≤ 32767 ∧ 1 ≤ d ∧ d ≤ 32767 ∧
      Within (x * d - n) (1 / 100000000 * d) ∧ (q ≤ 10000 → x * d = n) := by
  have hq0 : (1 : Rat) ≤ (q : Rat) := by
    have : ((1 : Int) : Rat) ≤ (q : Rat) := Rat.intCast_le_intCast.2 hq
    exact this
  have hq1 : (q : Rat) < 32767 := by
    have : (q : Rat) < ((32767 : Int) : Rat) := Rat.intCast_lt_intCast.2 hqm
    exact this
  have hp1 : (p : Rat) ≤ 32766 := by
    have : (p : Rat) ≤ ((32766 : Int) : Rat) := Rat.intCast_le_intCast.2 (by omega)
    exact this
  have hxm : x ≤ 32766 := by
    have := Rat.mul_le_mul_of_nonneg_left hq0 (show 0 ≤ x by grind)
    grind
  obtain ⟨n, t1, t2, t3, t4⟩ := toInt_cases (x + 1 / 2) (by grind) (by grind)
  unfold reduceRate
  simp only
  rw [t1, bind_ok]
  have e1 : ((1 : Int) : Rat) = 1 := rfl
  by_cases hint : x = (n : Rat)
  · have hz : fabs (x - (n : Rat)) < 1 / 10000000 := by
      rw [hint]
      unfold fabs
      rw [if_neg (by grind)]
      grind
    have hn1 : ((1 : Int) : Rat) ≤ (n : Rat) := by rw [← hint]; exact hx1
    have hn1 := Rat.intCast_le_intCast.1 hn1
    have hn2 : (n : Rat) ≤ ((32767 : Int) : Rat) := by
      rw [← hint]
      show x ≤ 32767
      grind
    have hn2 := Rat.intCast_le_intCast.1 hn2
    rw [if_pos hz, if_pos hn2, int16_id (by omega)]
    refine ⟨n, 1, 1, rfl, Or.inr ⟨rfl, rfl⟩, hn1, hn2, by omega, by omega, ?_, fun _ => ?_⟩
    · rw [e1]; unfold Within; grind
    · rw [e1]; grind
  · have hz : ¬ fabs (x - (n : Rat)) < 1 / 10000000 := by
      intro h
      have hw := (within_fabs (x - (n : Rat)) (1 / 10000000)).1 (by grind)
      have gap := ratio_gap hq hx n 1 (by rw [e1]; grind)
      rw [e1] at gap
      unfold Within at hw
      have h4 := Rat.mul_le_mul_of_nonneg_right hw.1 (show 0 ≤ (q : Rat) by grind)
      have h5 := Rat.mul_le_mul_of_nonneg_right hw.2 (show 0 ≤ (q : Rat) by grind)
      grind
    rw [if_neg hz, if_pos (by grind)]
    have c : (0 : Rat) < 1 / 100000000 ∧ (1 : Rat) / 100000000 ≤ 1 / 4 := by decide +kernel
    obtain ⟨n, d, r1, r2, r3, r4, r5, r6, r7⟩ := ratapprox_ratio (eps := 1 / 100000000) c (max := 32767)
      (by omega) hx1 hq hqm hpm (by grind) hx
      (by show x + 1 / 100000000 < 32767; grind) fuel (by omega)
    rw [r1, bind_ok]
    simp only
    rw [int16_id (by omega), int16_id (by omega)]
    refine ⟨n, d, -d, rfl, Or.inl rfl, r2, by omega, r4, by omega, r6, fun h => r7 ?_⟩
    have hq2 : (q : Rat) ≤ 10000 := by
      have : (q : Rat) ≤ ((10000 : Int) : Rat) := Rat.intCast_le_intCast.2 h
      exact this
    have h8 := Rat.mul_le_mul_of_nonneg_left hq2 (show 0 ≤ (q : Rat) by grind)
    grind

end Verif.Proof.Factor
