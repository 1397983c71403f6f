import Verif.Proof.FactorApprox
import Verif.Proof.Binary
import Verif.Spec.Factor
/-!
# C51: sample rate factor and multiplier

`Spec.Factor.rate` is the rule of the SEED manual.  `rnd` is the rounding of `double` operations;
`Spec.Binary.binary64` is one (`rounding_binary64`).
-/
namespace Verif.Props.Factor
open Verif.Model.Steim Verif.Model.Factor
open Verif.Proof.Factor
open Verif.Proof.Mem
open Verif.Spec
open Verif.Spec.Factor
open Verif.Spec.Binary

/-- The 16-bit numbers other than zero. -/
def Short (x : Int) : Prop := x ≠ 0 ∧ -32768 ≤ x ∧ x ≤ 32767

theorem cast_pos {x : Int} (h : 0 < x) : (1 : Rat) ≤ (x : Rat) := by
  have : ((1 : Int) : Rat) ≤ (x : Rat) := Rat.intCast_le_intCast.2 h
  exact this

theorem nom_pos {rnd : Rat → Rat} (hr : Rounding rnd) (f m : Int) (hf : Short f) (hm : Short m)
    (h : 0 < f) : nomsamprate rnd f m = rnd (rate f m) := by
  unfold nomsamprate rate
  simp only [if_pos (show f > 0 from h), if_pos h]
  by_cases h2 : 0 < m
  · rw [if_pos h2, if_pos h2]
  · have h3 : m < 0 := by have := hm.1; omega
    rw [if_neg h2, if_neg h2, if_pos h3]
    have e : (f : Rat) / (m : Rat) = -((f : Rat) / ((-m : Int) : Rat)) := by
      rw [Rat.intCast_neg]
      have hm0 : (m : Rat) ≠ 0 := by
        intro h'
        have : (m : Rat) = ((0 : Int) : Rat) := h'
        have := Rat.intCast_inj.1 this
        omega
      grind
    rw [e, hr.odd]
    have e2 : -1 * -rnd ((f : Rat) / ((-m : Int) : Rat)) = rnd ((f : Rat) / ((-m : Int) : Rat)) := by grind
    rw [e2, hr.idem]

theorem one_div_pos {x : Rat} (h : 0 < x) : 0 < 1 / x := by
  rw [Rat.div_def, Rat.one_mul]
  exact Rat.inv_pos.2 h

/-- Two roundings. -/
theorem two_round {rnd : Rat → Rat} (hr : Rounding rnd) (a c : Rat) (ha : 0 ≤ a) (hc : 0 ≤ c) :
    a * c - a * c / 2 ^ 51 ≤ rnd (rnd a * c) ∧ rnd (rnd a * c) ≤ a * c + a * c / 2 ^ 51 := by
  have h1 := hr.near a ha
  have k : (2 : Rat) ^ 53 = 4 * 2 ^ 51 := by decide +kernel
  have k1 : (1 : Rat) ≤ 2 ^ 51 := by decide +kernel
  have hra : 0 ≤ rnd a := by
    have := hr.mono 0 a ha
    rw [rnd_zero hr] at this
    exact this
  have h2 := hr.near (rnd a * c) (Rat.mul_nonneg hra hc)
  have h3 := Rat.mul_le_mul_of_nonneg_right h1.1 hc
  have h4 := Rat.mul_le_mul_of_nonneg_right h1.2 hc
  have hac := Rat.mul_nonneg ha hc
  rw [k] at *
  clear k hr
  have hk : (0 : Rat) < 2 ^ 51 := by grind
  generalize (2 : Rat) ^ 51 = K at *
  generalize rnd a * c = y at *
  generalize rnd y = z at *
  have e1 : (a - a / (4 * K)) * c = a * c - a * c / (4 * K) := by grind
  have e2 : (a + a / (4 * K)) * c = a * c + a * c / (4 * K) := by grind
  rw [e1] at h3
  rw [e2] at h4
  generalize a * c = w at *
  have i : (0 : Rat) < 1 / K := one_div_pos hk
  have i2 : 1 / K ≤ 1 := by
    refine Rat.le_of_mul_le_mul_right (c := K) ?_ hk
    rw [Rat.div_mul_cancel (by grind)]
    grind
  have d1 : ∀ u : Rat, u / (4 * K) = u * (1 / K) / 4 := by intro u; grind
  have d2 : ∀ u : Rat, u / K = u * (1 / K) := by intro u; grind
  rw [d1] at *
  rw [d1] at *
  rw [d2]
  clear d1 d2 e1 e2
  generalize 1 / K = k at *
  have hwk : 0 ≤ w * k := Rat.mul_nonneg hac (by grind)
  have hwkk : w * k * k ≤ w * k * 1 := Rat.mul_le_mul_of_nonneg_left i2 hwk
  have hyk : y * k ≤ (w + w * k / 4) * k := Rat.mul_le_mul_of_nonneg_right h4 (by grind)
  grind

/-- **C51** The nominal rate follows the rule of the SEED manual: it is the rounded rate if the factor
is positive, and within two roundings of the rate otherwise. -/
theorem C51_rule {rnd : Rat → Rat} (hr : Rounding rnd) (f m : Int) (hf : Short f) (hm : Short m) :
    (0 < f → nomsamprate rnd f m = rnd (rate f m)) ∧
    rate f m - rate f m / 2 ^ 51 ≤ nomsamprate rnd f m ∧
    nomsamprate rnd f m ≤ rate f m + rate f m / 2 ^ 51 := by
  refine ⟨nom_pos hr f m hf hm, ?_⟩
  by_cases h : 0 < f
  · rw [nom_pos hr f m hf hm h]
    have hpos : 0 ≤ rate f m := by
      have c := cast_pos h
      unfold rate
      simp only [if_pos h]
      by_cases h2 : 0 < m
      · rw [if_pos h2]
        have c2 := cast_pos h2
        exact Rat.mul_nonneg (by grind) (by grind)
      · rw [if_neg h2]
        have c2 := cast_pos (show 0 < -m by have := hm.1; omega)
        rw [Rat.div_def]
        exact Rat.mul_nonneg (by grind) (Rat.le_of_lt (Rat.inv_pos.2 (by grind)))
    have h1 := hr.near _ hpos
    have k : (2 : Rat) ^ 53 = 4 * 2 ^ 51 := by decide +kernel
    have k1 : (0 : Rat) < 2 ^ 51 := by decide +kernel
    rw [k] at h1
    clear k hr
    generalize rate f m = w at *
    generalize (2 : Rat) ^ 51 = K at *
    have d : w / (4 * K) = w / K / 4 := by grind
    have d0 : 0 ≤ w / K := by
      rw [Rat.div_def]
      exact Rat.mul_nonneg hpos (Rat.le_of_lt (Rat.inv_pos.2 k1))
    grind
  · have hneg : f < 0 := by have := hf.1; omega
    have c := cast_pos (show 0 < -f by omega)
    have ha : (0 : Rat) ≤ 1 / ((-f : Int) : Rat) := by
      rw [Rat.div_def, Rat.one_mul]
      exact Rat.le_of_lt (Rat.inv_pos.2 (by grind))
    have e : (-1 : Rat) / (f : Rat) = 1 / ((-f : Int) : Rat) := by
      rw [Rat.intCast_neg] at *
      grind
    unfold nomsamprate rate
    simp only [if_neg (show ¬ f > 0 from h), if_pos hneg]
    rw [e]
    generalize 1 / ((-f : Int) : Rat) = a at *
    by_cases h2 : 0 < m
    · rw [if_pos h2, if_pos h2]
      have c2 := cast_pos h2
      exact two_round hr a m ha (by grind)
    · have h3 : m < 0 := by have := hm.1; omega
      have c2 := cast_pos (show 0 < -m by omega)
      rw [if_neg h2, if_neg h2, if_pos h3]
      have e1 : rnd a / (m : Rat) = -(rnd a * (1 / ((-m : Int) : Rat))) := by
        rw [Rat.intCast_neg] at *
        clear hr
        grind
      have e2 : a / ((-m : Int) : Rat) = a * (1 / ((-m : Int) : Rat)) := by clear hr; grind
      rw [e1, e2, hr.odd]
      generalize hcd : 1 / ((-m : Int) : Rat) = b
      have hb : 0 ≤ b := by
        rw [← hcd, Rat.div_def, Rat.one_mul]
        exact Rat.le_of_lt (Rat.inv_pos.2 (by grind))
      have e3 : -1 * -rnd (rnd a * b) = rnd (rnd a * b) := by grind
      rw [e3, hr.idem]
      exact two_round hr a b ha hb

example : Short (-7) ∧ Short (-3) ∧ rate (-7) (-3) = 1 / 21 ∧ Rounding binary64 ∧
    nomsamprate binary64 (-7) (-3) = binary64 (1 / 21) := by
  refine ⟨by unfold Short; omega, by unfold Short; omega, by decide +kernel,
    Verif.Proof.Binary.rounding_binary64, by decide +kernel⟩

/-- **C51** A whole number of samples per second up to 32767 is stored as such and read back. -/
theorem C51_integer_rate {rnd : Rat → Rat} (hr : Rounding rnd) (root : Rat → Int) (fuel : Nat) (n : Int)
    (h : 1 ≤ n ∧ n ≤ 32767) :
    genfactmult rnd root fuel (n : Rat) = .ok (some (n, 1)) ∧ rate n 1 = n ∧
      nomsamprate rnd n 1 = n := by
  refine ⟨genfactmult_int hr root fuel n h.1 h.2, ?_, ?_⟩
  · unfold rate
    simp only [if_pos (show 0 < n by omega), if_pos (show (0 : Int) < 1 by omega)]
    show (n : Rat) * 1 = n
    grind
  · rw [nom_pos hr n 1 ⟨by omega, by omega, by omega⟩ ⟨by omega, by omega, by omega⟩ (by omega)]
    have e : rate n 1 = n := by
      unfold rate
      simp only [if_pos (show 0 < n by omega), if_pos (show (0 : Int) < 1 by omega)]
      show (n : Rat) * 1 = n
      clear hr
      grind
    rw [e]
    exact hr.exact n (by omega) (by omega)

example : 1 ≤ (200 : Int) ∧ (200 : Int) ≤ 32767 := by omega

/-- **C51** A whole number of seconds per sample up to 32767, given as a period or as the rate nearest
to it, is stored as such and read back as that rate. -/
theorem C51_integer_period {rnd : Rat → Rat} (hr : Rounding rnd) (root : Rat → Int) (fuel : Nat) (p : Int)
    (h : 2 ≤ p ∧ p ≤ 32767) :
    genfactmult rnd root fuel (-(p : Rat)) = .ok (some (-p, -1)) ∧
    genfactmult rnd root fuel (rnd (1 / (p : Rat))) = .ok (some (-p, -1)) ∧
    rate (-p) (-1) = 1 / (p : Rat) ∧ nomsamprate rnd (-p) (-1) = rnd (1 / (p : Rat)) := by
  obtain ⟨a1, a2⟩ := genfactmult_period hr root fuel p h.1 h.2
  refine ⟨a2, a1, ?_, ?_⟩
  · unfold rate
    simp only [if_neg (show ¬ 0 < -p by omega), if_neg (show ¬ (0 : Int) < -1 by omega)]
    rw [Int.neg_neg]
    show 1 / (p : Rat) / 1 = 1 / p
    grind
  · unfold nomsamprate
    simp only [if_neg (show ¬ -p > 0 by omega), if_neg (show ¬ (-1 : Int) > 0 by omega),
      if_pos (show -p < 0 by omega), if_pos (show (-1 : Int) < 0 by omega)]
    have c := cast_pos (show 0 < p by omega)
    have e : (-1 : Rat) / ((-p : Int) : Rat) = 1 / (p : Rat) := by
      rw [Rat.intCast_neg]
      clear hr
      grind
    rw [e]
    have e2 : rnd (1 / (p : Rat)) / ((-1 : Int) : Rat) = -rnd (1 / (p : Rat)) := by
      show rnd (1 / (p : Rat)) / (-1) = _
      clear hr
      grind
    rw [e2, hr.odd, hr.idem]
    have e3 : -1 * -rnd (1 / (p : Rat)) = rnd (1 / (p : Rat)) := by clear hr; grind
    rw [e3, hr.idem]

example : 2 ≤ (60 : Int) ∧ (60 : Int) ≤ 32767 := by omega

/-- **C51** A larger whole rate, up to 32764 squared: the product of factor and multiplier, which is
what is read back, is at most the rate and less than its square root away from it, and it is the rate if
that is a product of two 16-bit numbers.  `root` is the whole part of the square root as the code
computes it, which may be one too small for a square number. -/
theorem C51_large_rate {rnd : Rat → Rat} (hr : Rounding rnd) (root : Rat → Int) (fuel : Nat) (n : Int)
    (h0 : 32768 ≤ n) (h1 : n ≤ 32764 * 32764) (hf : 32767 ≤ fuel)
    (hroot : 0 ≤ root n ∧ root n * root n ≤ n ∧ n ≤ (root n + 1) * (root n + 1)) :
    ∃ f m, genfactmult rnd root fuel (n : Rat) = .ok (some (f, m)) ∧ Short f ∧ Short m ∧
      0 < f ∧ 0 < m ∧ nomsamprate rnd f m = ((f * m : Int) : Rat) ∧ rate f m = ((f * m : Int) : Rat) ∧
      f * m ≤ n ∧ n - f * m < root n ∧
      ((∃ j k, 1 ≤ j ∧ j ≤ k ∧ k ≤ 32767 ∧ j ≤ root n ∧ j * k = n) → f * m = n) := by
  obtain ⟨r, a1, a2, a3, a4, a5, a6⟩ := genfactmult_large hr root fuel n h0 h1 hf hroot
  have hdm := Int.mul_ediv_add_emod n r
  have hm0 := Int.emod_nonneg n (show r ≠ 0 by omega)
  have hm1 := Int.emod_lt_of_pos n (show 0 < r by omega)
  have hmp : 0 < n / r := by
    apply Classical.byContradiction
    intro hc
    have : r * (n / r) ≤ 0 := Int.mul_nonpos_of_nonneg_of_nonpos (by omega) (by omega)
    omega
  have hs1 : Short r := ⟨by omega, by omega, by omega⟩
  have hs2 : Short (n / r) := ⟨by omega, by omega, by omega⟩
  have hrate : rate r (n / r) = ((r * (n / r) : Int) : Rat) := by
    unfold rate
    simp only [if_pos (show 0 < r by omega), if_pos hmp]
    rw [Rat.intCast_mul]
  refine ⟨r, n / r, a1, hs1, hs2, by omega, hmp, ?_, hrate, by omega, by omega, ?_⟩
  · rw [nom_pos hr r (n / r) hs1 hs2 (by omega), hrate]
    exact hr.exact _ (by omega) (by omega)
  · rintro ⟨j, k, j1, j2, j3, j4, j5⟩
    have hj : n % j = 0 := by rw [← j5]; exact Int.mul_emod_right j k
    have hk : n / j = k := by rw [← j5]; exact Int.mul_ediv_cancel_left k (by omega)
    have := a6 j j1 j4 hj (by omega)
    omega

example : 32768 ≤ (100000 : Int) ∧ (100000 : Int) ≤ 32764 * 32764 ∧
    (316 : Int) * 316 ≤ 100000 ∧ (100000 : Int) ≤ (316 + 1) * (316 + 1) ∧
    (250 : Int) * 400 = 100000 := by omega

/-- **C51** (partial: in exact arithmetic; what rounding does to the continued fraction is not covered,
see `C51_ratio_violated`.)  A rate that is a ratio of numbers below 32767: factor and multiplier are
found without overflow, the rate (from 1 on) or the period (below 1) they stand for is within 1e-8, and
exact if the smaller of the two numbers is at most 10000. -/
theorem C51_ratio_partial (root : Rat → Int) (fuel : Nat) (hf : 32767 ≤ fuel) (p q : Int)
    (hp : 0 < p ∧ p < 32767) (hq : 0 < q ∧ q < 32767) :
    ∃ f m, genfactmult (fun x => x) root fuel ((p : Rat) / q) = .ok (some (f, m)) ∧ Short f ∧ Short m ∧
      (q ≤ p → (p : Rat) / q - 1 / 100000000 ≤ rate f m ∧ rate f m ≤ (p : Rat) / q + 1 / 100000000) ∧
      (p < q → (q : Rat) / p - 1 / 100000000 ≤ 1 / rate f m ∧ 1 / rate f m ≤ (q : Rat) / p + 1 / 100000000) ∧
      ((q ≤ p ∧ q ≤ 10000) ∨ (p < q ∧ p ≤ 10000) → rate f m = (p : Rat) / q) := by
  have cp := cast_pos hp.1
  have cq := cast_pos hq.1
  have hq0 : (q : Rat) ≠ 0 := by grind
  have hp0 : (p : Rat) ≠ 0 := by grind
  -- the rate of the pair found
  have key : ∀ (x : Rat) (n d : Int), 1 ≤ n → 1 ≤ d → Within (x * d - n) (1 / 100000000 * d) →
      x - 1 / 100000000 ≤ (n : Rat) / d ∧ (n : Rat) / d ≤ x + 1 / 100000000 := by
    intro x n d h1 h2 hw
    have cd := cast_pos (show 0 < d by omega)
    unfold Within at hw
    have e : (n : Rat) / d * d = n := Rat.div_mul_cancel (by grind)
    constructor
    · exact Rat.le_of_mul_le_mul_right (c := (d : Rat)) (by grind) (by grind)
    · exact Rat.le_of_mul_le_mul_right (c := (d : Rat)) (by grind) (by grind)
  by_cases hpq : q ≤ p
  · have hx1 : 1 ≤ (p : Rat) / q := by
      refine Rat.le_of_mul_le_mul_right (c := (q : Rat)) ?_ (by grind)
      rw [Rat.div_mul_cancel hq0, Rat.one_mul]
      exact Rat.intCast_le_intCast.2 hpq
    have hx : (p : Rat) / q * q = p := Rat.div_mul_cancel hq0
    rw [genfactmult_ge root fuel _ hx1]
    obtain ⟨n, d, e, r1, r2, r3, r4, r5, r6, r7, r8⟩ := reduce_ratio root fuel hf hx1 hq.1 hq.2 hp.2 hx
    have hrate : rate n e = (n : Rat) / d := by
      unfold rate
      simp only [if_pos (show 0 < n by omega)]
      rcases r2 with h | ⟨h, h'⟩
      · subst h
        rw [if_neg (by omega), Int.neg_neg]
      · subst h
        subst h'
        rw [if_pos (by omega)]
        show (n : Rat) * 1 = n / 1
        grind
    refine ⟨n, e, r1, ⟨by omega, by omega, by omega⟩, ⟨by omega, by omega, by omega⟩, fun _ => ?_,
      fun h => by omega, fun h9 => ?_⟩
    · rw [hrate]
      exact key _ n d r3 r5 r7
    · rw [hrate, ← r8 (by omega)]
      have cd := cast_pos (show 0 < d by omega)
      grind
  · have hx1 : 1 ≤ (q : Rat) / p := by
      refine Rat.le_of_mul_le_mul_right (c := (p : Rat)) ?_ (by grind)
      rw [Rat.div_mul_cancel hp0, Rat.one_mul]
      exact Rat.intCast_le_intCast.2 (by omega)
    have hx : (q : Rat) / p * p = q := Rat.div_mul_cancel hp0
    have hlt : (p : Rat) / q < 1 := by
      refine Rat.lt_of_mul_lt_mul_right (c := (q : Rat)) ?_ (by grind)
      rw [Rat.div_mul_cancel hq0, Rat.one_mul]
      exact Rat.intCast_lt_intCast.2 (by omega)
    have hpos : 0 < (p : Rat) / q := by
      rw [Rat.div_def]
      exact Rat.mul_pos (by grind) (Rat.inv_pos.2 (by grind))
    have hinv : 1 / ((p : Rat) / q) = (q : Rat) / p := by grind
    obtain ⟨n, d, e, r1, r2, r3, r4, r5, r6, r7, r8⟩ := reduce_ratio root fuel hf hx1 hp.1 hp.2 hq.2 hx
    have hg : genfactmult (fun x => x) root fuel ((p : Rat) / q) = .ok (some (-n, -e)) := by
      unfold genfactmult
      simp only [if_neg (show ¬ (p : Rat) / q < 0 by grind)]
      rw [if_neg (by grind), if_neg (by grind), hinv, r1, bind_ok]
      show Res.ok (some (int16 (-n), int16 (-e))) = _
      rw [int16_id (by omega), int16_id (by omega)]
    have cn := cast_pos (show 0 < n by omega)
    have cd := cast_pos (show 0 < d by omega)
    have hrate : rate (-n) (-e) = (d : Rat) / n := by
      unfold rate
      simp only [if_neg (show ¬ 0 < -n by omega), Int.neg_neg]
      rcases r2 with h | ⟨h, h'⟩
      · subst h
        rw [if_pos (by omega), Int.neg_neg]
        grind
      · subst h
        subst h'
        rw [if_neg (by omega)]
        show 1 / (n : Rat) / 1 = 1 / n
        grind
    have hri : 1 / ((d : Rat) / n) = (n : Rat) / d := by grind
    refine ⟨-n, -e, hg, ⟨by omega, by omega, by omega⟩, ⟨by omega, by omega, by omega⟩, fun h => by omega,
      fun _ => ?_, fun h9 => ?_⟩
    · rw [hrate, hri]
      exact key _ n d r3 r5 r7
    · rw [hrate]
      have h8 := r8 (by omega)
      grind

example : ∃ root : Rat → Int, genfactmult (fun x => x) root 32767 (1250 / 99) = .ok (some (1250, -99)) :=
  ⟨fun _ => 0, by decide +kernel⟩

/-- The way through the code for rates that are not next to a whole number. -/
theorem genfactmult_ratio {rnd : Rat → Rat} (root : Rat → Int) (fuel : Nat) (x : Rat) (n : Int)
    (h1 : 1 ≤ x) (h2 : toInt (rnd (x + 1 / 2)) = .ok n)
    (h3 : ¬ Verif.Model.Rate.fabs (rnd (x - n)) < rnd (1 / 10000000)) (h4 : x ≤ 32767) :
    genfactmult rnd root fuel x = (ratapprox rnd fuel x 32767 (rnd (1 / 100000000))).bind fun r =>
      .ok (some (int16 r.1, int16 (-r.2))) := by
  rw [genfactmult_ge root fuel x h1]
  unfold reduceRate
  rw [h2, bind_ok, if_neg h3, if_pos h4]

/-- **C51** is violated: 30001/16001 samples per second, read from the 16-bit pair 30001 and -16001, are
written as another pair, which stands for another rate. -/
theorem C51_ratio_violated (root : Rat → Int) :
    nomsamprate binary64 30001 (-16001) = binary64 (30001 / 16001) ∧
    genfactmult binary64 root 32767 (binary64 (30001 / 16001)) = .ok (some (25713, -13714)) ∧
    nomsamprate binary64 25713 (-13714) ≠ binary64 (30001 / 16001) := by
  refine ⟨by decide +kernel, ?_, by decide +kernel⟩
  rw [genfactmult_ratio root 32767 _ 2 (by decide +kernel) (by decide +kernel) (by decide +kernel)
    (by decide +kernel)]
  have h : ratapprox binary64 32767 (binary64 (30001 / 16001)) 32767 (binary64 (1 / 100000000)) =
    .ok (25713, 13714) := by decide +kernel
  rw [h, bind_ok]
  decide

/-- **C51** is violated: `int` overflows for a rate half a millionth above 20000. -/
theorem C51_overflow_violated (root : Rat → Int) :
    genfactmult binary64 root 32767 (binary64 (20000 + 5 / 10000000)) = .ub := by
  rw [genfactmult_ratio root 32767 _ 20000 (by decide +kernel) (by decide +kernel) (by decide +kernel)
    (by decide +kernel)]
  have h : ratapprox binary64 32767 (binary64 (20000 + 5 / 10000000)) 32767 (binary64 (1 / 100000000)) =
    .ub := by decide +kernel
  rw [h]
  rfl

/-- **C51** is violated: rates from 2^31 on are converted to `int` out of its range. -/
theorem C51_range_violated (root : Rat → Int) (fuel : Nat) :
    genfactmult binary64 root fuel 2147483648 = .ub := by
  rw [genfactmult_ge root fuel _ (by decide +kernel)]
  unfold reduceRate
  have h : toInt (binary64 (2147483648 + 1 / 2)) = .ub := by decide +kernel
  rw [h]
  rfl

theorem int16_fits (x : Int) : -32768 ≤ int16 x ∧ int16 x ≤ 32767 := by
  unfold int16
  omega

theorem reduceRate_fits {rnd : Rat → Rat} {root : Rat → Int} {fuel : Nat} {rate : Rat} {f m : Int}
    (h : reduceRate rnd root fuel rate = .ok (some (f, m))) :
    (-32768 ≤ f ∧ f ≤ 32767) ∧ -32768 ≤ m ∧ m ≤ 32767 := by
  unfold reduceRate at h
  obtain ⟨n, -, h⟩ := bind_eq_ok.1 h
  split at h
  · split at h
    · simp only [Res.ok.injEq, Option.some.injEq, Prod.mk.injEq] at h
      exact ⟨h.1 ▸ int16_fits _, by omega⟩
    · split at h
      · obtain ⟨s, -, h⟩ := bind_eq_ok.1 h
        split at h
        · cases h
        · split at h
          · simp only [Res.ok.injEq, Option.some.injEq, Prod.mk.injEq] at h
            exact ⟨h.1 ▸ int16_fits _, h.2 ▸ int16_fits _⟩
          · cases h
      · cases h
  · split at h
    · obtain ⟨⟨x, y⟩, -, h⟩ := bind_eq_ok.1 h
      simp only [Res.ok.injEq, Option.some.injEq, Prod.mk.injEq] at h
      exact ⟨h.1 ▸ int16_fits _, h.2 ▸ int16_fits _⟩
    · cases h

/-- **C51** (size).  Whatever the rate and however `double` operations round, the factor and the multiplier fit the
16-bit fields of the header. -/
theorem C51_fits (rnd : Rat → Rat) (root : Rat → Int) (fuel : Nat) (rate : Rat) (f m : Int)
    (h : genfactmult rnd root fuel rate = .ok (some (f, m))) :
    (-32768 ≤ f ∧ f ≤ 32767) ∧ -32768 ≤ m ∧ m ≤ 32767 := by
  unfold genfactmult at h
  dsimp only at h
  generalize (if rate < 0 then rnd (-1 / rate) else rate) = x at h
  split at h
  · simp only [Res.ok.injEq, Option.some.injEq, Prod.mk.injEq] at h
    omega
  · split at h
    · exact reduceRate_fits h
    · obtain ⟨r, -, h⟩ := bind_eq_ok.1 h
      cases r with
      | none => cases h
      | some q =>
        simp only [Option.map_some, Res.ok.injEq, Option.some.injEq, Prod.mk.injEq] at h
        exact ⟨h.1 ▸ int16_fits _, h.2 ▸ int16_fits _⟩

example : genfactmult (fun x => x) (fun _ => 200) 100 40000 = .ok (some (200, 200)) := by decide +kernel

end Verif.Props.Factor
