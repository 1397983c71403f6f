import Verif.Model.Factor
import Verif.Spec.Factor
import Verif.Spec.Rounding
import Verif.Proof.Mem
/-! Lemmas on the sample rate factor and multiplier. -/
namespace Verif.Proof.Factor
open Verif.Model.Steim Verif.Model.Rate Verif.Model.Factor
open Verif.Spec
open Verif.Proof.Mem

theorem int32_ok {x : Int} (h : -2147483648 ≤ x ∧ x ≤ 2147483647) : int32 x = .ok x := by
  unfold int32
  rw [if_pos h]

theorem toInt_ok {x : Rat} {n : Int} (h0 : 0 ≤ n) (h1 : (n : Rat) ≤ x) (h2 : x < (n : Rat) + 1)
    (h : n ≤ 2147483647) : toInt x = .ok n := by
  have hn : ((0 : Int) : Rat) ≤ (n : Rat) := Rat.intCast_le_intCast.2 h0
  have hn : (0 : Rat) ≤ (n : Rat) := hn
  have hf : x.floor = n := by
    have a1 := Rat.le_floor_iff.2 h1
    have a2 : x.floor < n + 1 := by
      rw [Rat.floor_lt_iff, Rat.intCast_add]
      exact h2
    omega
  unfold toInt
  rw [if_neg (by grind), hf]
  exact int32_ok ⟨by omega, h⟩

theorem int16_id {x : Int} (h : -32768 ≤ x ∧ x ≤ 32767) : int16 x = x := by
  unfold int16
  omega

theorem rnd_zero {rnd : Rat → Rat} (hr : Rounding rnd) : rnd 0 = 0 := hr.exact 0 (by decide) (by decide)

theorem rnd_abs {rnd : Rat → Rat} (hr : Rounding rnd) (x d : Rat) (hx : -d ≤ x ∧ x ≤ d) :
    fabs (rnd x) ≤ d + d / 2 ^ 53 := by
  have hmono := hr.mono
  have hodd := hr.odd
  have hd : 0 ≤ d := by grind
  have h1 := (hr.near d hd).2
  have h2 := hmono x d hx.2
  have h3 := hmono (-d) x hx.1
  rw [hodd] at h3
  clear hmono hodd hr
  unfold fabs
  split <;> grind

theorem tiny {rnd : Rat → Rat} (hr : Rounding rnd) : (1 : Rat) / 20000000 < rnd (1 / 10000000) := by
  have h := (hr.near (1 / 10000000) (by decide +kernel)).1
  have : (1 : Rat) / 20000000 < 1 / 10000000 - 1 / 10000000 / 2 ^ 53 := by decide +kernel
  grind

/-- A rate next to a whole number. -/
theorem near_int {rnd : Rat → Rat} (hr : Rounding rnd) (y : Rat) (n : Int) (h0 : 1 ≤ n)
    (h1 : n ≤ 1073676289) (hy : (n : Rat) - 1 / 2 ^ 30 ≤ y ∧ y ≤ (n : Rat) + 1 / 2 ^ 30) :
    toInt (rnd (y + 1 / 2)) = .ok n ∧ fabs (rnd (y - n)) < rnd (1 / 10000000) := by
  have hn1 : ((1 : Int) : Rat) ≤ (n : Rat) := Rat.intCast_le_intCast.2 h0
  have hn1 : (1 : Rat) ≤ (n : Rat) := hn1
  have hn2 : (n : Rat) ≤ ((1073676289 : Int) : Rat) := Rat.intCast_le_intCast.2 h1
  have hn2 : (n : Rat) ≤ 1073676289 := hn2
  have c30 : (0 : Rat) < 1 / 2 ^ 30 ∧ (1 : Rat) / 2 ^ 30 < 1 / 4 := by decide +kernel
  constructor
  · have hz : 0 ≤ y + 1 / 2 := by grind
    have hnear := hr.near (y + 1 / 2) hz
    have herr : (y + 1 / 2) / 2 ^ 53 ≤ 1 / 4 := by
      have : y + 1 / 2 ≤ 1073676291 := by grind
      have c : (1073676291 : Rat) / 2 ^ 53 ≤ 1 / 4 := by decide +kernel
      grind
    refine toInt_ok (by omega) ?_ ?_ (by omega)
    · grind
    · grind
  · have h2 := rnd_abs hr (y - n) (1 / 2 ^ 30) ⟨by grind, by grind⟩
    have h3 := tiny hr
    have c : (1 : Rat) / 2 ^ 30 + 1 / 2 ^ 30 / 2 ^ 53 < 1 / 20000000 := by decide +kernel
    grind

theorem reduce_int {rnd : Rat → Rat} (hr : Rounding rnd) (root : Rat → Int) (fuel : Nat) (y : Rat)
    (n : Int) (h0 : 1 ≤ n) (h1 : n ≤ 32767)
    (hy : (n : Rat) - 1 / 2 ^ 30 ≤ y ∧ y ≤ (n : Rat) + 1 / 2 ^ 30) :
    reduceRate rnd root fuel y = .ok (some (n, 1)) := by
  obtain ⟨a1, a2⟩ := near_int hr y n h0 (by omega) hy
  unfold reduceRate
  rw [a1, bind_ok, if_pos a2, if_pos h1, int16_id (by omega)]

/-- The inverse of a rounded inverse. -/
theorem inverse_near {rnd : Rat → Rat} (hr : Rounding rnd) (p : Int) (h0 : 1 ≤ p) (h1 : p ≤ 32767) :
    rnd (1 / (p : Rat)) * p ≤ 1 + 1 / 2 ^ 53 ∧ 1 - 1 / 2 ^ 53 ≤ rnd (1 / (p : Rat)) * p ∧
      (p : Rat) - 1 / 2 ^ 30 ≤ rnd (1 / rnd (1 / (p : Rat))) ∧
      rnd (1 / rnd (1 / (p : Rat))) ≤ (p : Rat) + 1 / 2 ^ 30 := by
  have hp1 : ((1 : Int) : Rat) ≤ (p : Rat) := Rat.intCast_le_intCast.2 h0
  have hp1 : (1 : Rat) ≤ (p : Rat) := hp1
  have hp2 : (p : Rat) ≤ ((32767 : Int) : Rat) := Rat.intCast_le_intCast.2 h1
  have hp2 : (p : Rat) ≤ 32767 := hp2
  generalize (p : Rat) = P at *
  have hP : P ≠ 0 := by grind
  have hi : 1 / P * P = 1 := Rat.div_mul_cancel hP
  have hi0 : 0 ≤ 1 / P := by
    refine Rat.le_of_mul_le_mul_right (c := P) ?_ (by grind)
    rw [hi]; grind
  have hn := hr.near (1 / P) hi0
  generalize hR : rnd (1 / P) = R at *
  generalize hI : 1 / P = I at *
  have c53 : (0 : Rat) < 1 / 2 ^ 53 ∧ (1 : Rat) / 2 ^ 53 < 1 / 2 := by decide +kernel
  have e53 : ∀ z : Rat, z / 2 ^ 53 = z * (1 / 2 ^ 53) := by intro z; grind
  rw [e53] at hn
  generalize hk : (1 : Rat) / 2 ^ 53 = k at *
  have b1 : R * P ≤ 1 + k := by
    have := Rat.mul_le_mul_of_nonneg_right hn.2 (show 0 ≤ P by grind)
    grind
  have b2 : 1 - k ≤ R * P := by
    have := Rat.mul_le_mul_of_nonneg_right hn.1 (show 0 ≤ P by grind)
    grind
  refine ⟨b1, b2, ?_⟩
  -- R is positive and at least half of I
  have hR0 : 0 < R := by
    refine Rat.lt_of_mul_lt_mul_right (c := P) ?_ (by grind)
    grind
  have hRne : R ≠ 0 := by grind
  have hq : 1 / R * R = 1 := Rat.div_mul_cancel hRne
  have hq0 : 0 ≤ 1 / R := by
    refine Rat.le_of_mul_le_mul_right (c := R) ?_ hR0
    rw [hq]; grind
  generalize hQ : 1 / R = Q at *
  -- Q ≤ 2 P
  have hQ2 : Q ≤ 2 * P := by
    refine Rat.le_of_mul_le_mul_right (c := R) ?_ hR0
    rw [hq]
    have : 2 * P * R = 2 * (R * P) := by grind
    rw [this]
    grind
  -- Q - P = Q (1 - R P)
  have d1 : Q - P = Q * (1 - R * P) := by grind
  have d2 : Q * (1 - R * P) ≤ Q * k := Rat.mul_le_mul_of_nonneg_left (by grind) hq0
  have d3 : Q * (-k) ≤ Q * (1 - R * P) := Rat.mul_le_mul_of_nonneg_left (by grind) hq0
  have d4 : Q * k ≤ 65534 * k := Rat.mul_le_mul_of_nonneg_right (by grind) (by grind)
  have hn2 := hr.near Q hq0
  rw [e53] at hn2
  have c : 131068 * k ≤ 1 / 2 ^ 30 := by rw [← hk]; decide +kernel
  clear hr
  constructor <;> grind

theorem genfactmult_period {rnd : Rat → Rat} (hr : Rounding rnd) (root : Rat → Int) (fuel : Nat)
    (p : Int) (h0 : 2 ≤ p) (h1 : p ≤ 32767) :
    genfactmult rnd root fuel (rnd (1 / (p : Rat))) = .ok (some (-p, -1)) ∧
    genfactmult rnd root fuel (-(p : Rat)) = .ok (some (-p, -1)) := by
  obtain ⟨a1, a2, a3, a4⟩ := inverse_near hr p (by omega) h1
  have hp1 : ((2 : Int) : Rat) ≤ (p : Rat) := Rat.intCast_le_intCast.2 h0
  have hp1 : (2 : Rat) ≤ (p : Rat) := hp1
  have hpos : 0 < rnd (1 / (p : Rat)) := by
    refine Rat.lt_of_mul_lt_mul_right (c := (p : Rat)) ?_ (by grind)
    have : (1 : Rat) / 2 ^ 53 < 1 := by decide +kernel
    grind
  have hlt : rnd (1 / (p : Rat)) < 1 := by
    refine Rat.lt_of_mul_lt_mul_right (c := (p : Rat)) ?_ (by grind)
    have : (1 : Rat) / 2 ^ 53 < 1 := by decide +kernel
    grind
  have hred := reduce_int hr root fuel (rnd (1 / rnd (1 / (p : Rat)))) p (by omega) h1 ⟨a3, a4⟩
  have key : genfactmult rnd root fuel (rnd (1 / (p : Rat))) = .ok (some (-p, -1)) := by
    unfold genfactmult
    simp only
    rw [if_neg (by grind), if_neg (by grind), if_neg (by grind), hred, bind_ok]
    simp only [Option.map_some]
    rw [int16_id (by omega), int16_id (by omega)]
  refine ⟨key, ?_⟩
  have e : -1 / (-(p : Rat)) = 1 / (p : Rat) := by grind
  have key2 := key
  unfold genfactmult at key2 ⊢
  simp only at key2 ⊢
  rw [if_neg (show ¬ rnd (1 / (p : Rat)) < 0 by grind)] at key2
  rw [if_pos (show -(p : Rat) < 0 by grind), e]
  exact key2

theorem genfactmult_ge {rnd : Rat → Rat} (root : Rat → Int) (fuel : Nat) (x : Rat) (h : 1 ≤ x) :
    genfactmult rnd root fuel x = reduceRate rnd root fuel x := by
  unfold genfactmult
  simp only [if_neg (show ¬ x < 0 by grind)]
  rw [if_neg (by grind), if_pos h]

theorem genfactmult_int {rnd : Rat → Rat} (hr : Rounding rnd) (root : Rat → Int) (fuel : Nat)
    (n : Int) (h0 : 1 ≤ n) (h1 : n ≤ 32767) :
    genfactmult rnd root fuel (n : Rat) = .ok (some (n, 1)) := by
  have hn1 : ((1 : Int) : Rat) ≤ (n : Rat) := Rat.intCast_le_intCast.2 h0
  have hn1 : (1 : Rat) ≤ (n : Rat) := hn1
  have c30 : (0 : Rat) < 1 / 2 ^ 30 := by decide +kernel
  rw [genfactmult_ge root fuel _ hn1]
  exact reduce_int hr root fuel (n : Rat) n h0 h1 ⟨by grind, by grind⟩

/-! ### The search for factors -/

theorem div_le_iff' {n a c : Int} (ha : 0 < a) : n / a ≤ c ↔ n < (c + 1) * a := by
  rw [← Int.lt_add_one_iff, Int.ediv_lt_iff_lt_mul ha]

theorem search_spec (n s0 : Int) (hn : 32768 ≤ n) (fuel : Nat) (s d c : Int) (h3 : 3 ≤ s)
    (hs0 : s ≤ s0) (hI : n / (s - 1) ≤ 32767) (hf : s < (fuel : Int))
    (hJ : (c = s ∧ d = s ∧ s = s0) ∨
      (s ≤ c ∧ c < s0 ∧ d = n % c ∧ (∀ k, s ≤ k → k < s0 → n % c ≤ n % k) ∧ n % s0 ≠ 0)) :
    ∃ r, search n fuel s d c = .ok r ∧ 2 ≤ r ∧ r ≤ s0 ∧ n / r ≤ 32767 ∧
      ∀ k, 1 ≤ k → k ≤ s0 → n % k = 0 → n / k ≤ 32767 → n % r = 0 := by
  induction fuel generalizing s d c with
  | zero => omega
  | succ fuel ih =>
    have hI' := (div_le_iff' (show 0 < s - 1 by omega)).1 hI
    have hdiv : ∀ a, s - 1 ≤ a → n / a ≤ 32767 := by
      intro a ha
      rw [div_le_iff' (by omega)]
      have : (32767 + 1) * (s - 1) ≤ (32767 + 1) * a := by omega
      omega
    rw [search, if_neg (by omega)]
    by_cases hm : n % s = 0
    · rw [if_pos hm]
      exact ⟨s, rfl, by omega, hs0, hdiv s (by omega), fun _ _ _ _ _ => hm⟩
    · rw [if_neg hm, if_neg (by omega)]
      simp only
      have hdiff : n - (s - 1) * (n / (s - 1)) = n % (s - 1) := by
        have := Int.emod_add_mul_ediv n (s - 1)
        omega
      rw [hdiff]
      have hlt : n % (s - 1) < s - 1 := Int.emod_lt_of_pos _ (by omega)
      rw [if_neg (show ¬ s - 1 - 1 = 0 by omega)]
      -- the closest one so far
      have hJ' : ∃ d' c', (if n % (s - 1) < d then n % (s - 1) else d) = d' ∧
          (if n % (s - 1) < d then s - 1 else c) = c' ∧
          s - 1 ≤ c' ∧ c' < s0 ∧ d' = n % c' ∧ (∀ k, s - 1 ≤ k → k < s0 → n % c' ≤ n % k) ∧
          n % s0 ≠ 0 := by
        refine ⟨_, _, rfl, rfl, ?_⟩
        rcases hJ with ⟨j1, j2, j3⟩ | ⟨j1, j2, j3, j4, j5⟩
        · subst j3
          rw [if_pos (by omega), if_pos (by omega)]
          refine ⟨by omega, by omega, rfl, ?_, hm⟩
          intro k k1 k2
          have : k = s - 1 := by omega
          subst this
          exact Int.le_refl _
        · by_cases hlt' : n % (s - 1) < d
          · rw [if_pos hlt', if_pos hlt']
            refine ⟨by omega, by omega, rfl, ?_, j5⟩
            intro k k1 k2
            by_cases hk : k = s - 1
            · subst hk; exact Int.le_refl _
            · have := j4 k (by omega) k2
              omega
          · rw [if_neg hlt', if_neg hlt']
            refine ⟨by omega, j2, j3, ?_, j5⟩
            intro k k1 k2
            by_cases hk : k = s - 1
            · subst hk; omega
            · exact j4 k (by omega) k2
      obtain ⟨d', c', e1, e2, j1, j2, j3, j4, j5⟩ := hJ'
      rw [e1, e2]
      by_cases hb : n / (s - 1 - 1) > 32767
      · rw [if_pos hb]
        refine ⟨c', rfl, by omega, by omega, hdiv c' j1, ?_⟩
        intro k k1 k2 k3 k4
        have hk : s - 1 ≤ k := by
          have h1 := (div_le_iff' (show 0 < k by omega)).1 k4
          have h2 : ¬ n < (32767 + 1) * (s - 1 - 1) := by
            rw [← div_le_iff' (by omega)]
            omega
          omega
        have hk0 : k ≠ s0 := by
          rintro rfl
          exact j5 k3
        have h1 := j4 k hk (by omega)
        have h2 := Int.emod_nonneg n (show c' ≠ 0 by omega)
        omega
      · rw [if_neg hb]
        have h3' : 3 ≤ s - 1 := by
          by_cases hs : s = 3
          · subst hs
            have : n / (3 - 1 - 1) = n := by
              show n / 1 = n
              exact Int.ediv_one n
            rw [this] at hb
            omega
          · omega
        exact ih (s - 1) d' c' h3' (by omega) (by omega) (by omega)
          (Or.inr ⟨j1, j2, j3, j4, j5⟩)

/-- The whole search from the square root on. -/
theorem search_root (n s : Int) (hn : 32768 ≤ n) (hs0 : 0 ≤ s) (h1 : s * s ≤ n) (h2 : n ≤ (s + 1) * (s + 1))
    (hs : s ≤ 32764) (fuel : Nat) (hf : 32767 ≤ fuel) :
    ∃ r, search n fuel s s s = .ok r ∧ 2 ≤ r ∧ r ≤ s ∧ n / r ≤ 32767 ∧
      ∀ k, 1 ≤ k → k ≤ s → n % k = 0 → n / k ≤ 32767 → n % r = 0 := by
  have hs10 : 100 ≤ s := by
    apply Classical.byContradiction
    intro h
    have : (s + 1) * (s + 1) ≤ 100 * 100 := Int.mul_le_mul (by omega) (by omega) (by omega) (by omega)
    omega
  have hI : n / (s - 1) ≤ 32767 := by
    rw [div_le_iff' (by omega)]
    have e : (s + 1) * (s + 1) = (s + 3) * (s - 1) + 4 := by
      simp only [Int.add_mul, Int.mul_add, Int.mul_sub, Int.mul_one, Int.one_mul]
      omega
    have h3 : (s + 4) * (s - 1) ≤ (32767 + 1) * (s - 1) :=
      Int.mul_le_mul_of_nonneg_right (by omega) (by omega)
    have h4 : (s + 4) * (s - 1) = (s + 3) * (s - 1) + (s - 1) := by
      simp only [Int.add_mul]
      omega
    omega
  exact search_spec n s hn fuel s s s (by omega) (by omega) hI (by omega) (Or.inl ⟨rfl, rfl, rfl⟩)

theorem genfactmult_large {rnd : Rat → Rat} (hr : Rounding rnd) (root : Rat → Int) (fuel : Nat)
    (n : Int) (h0 : 32768 ≤ n) (h1 : n ≤ 32764 * 32764) (hf : 32767 ≤ fuel)
    (hroot : 0 ≤ root n ∧ root n * root n ≤ n ∧ n ≤ (root n + 1) * (root n + 1)) :
    ∃ r, genfactmult rnd root fuel (n : Rat) = .ok (some (r, n / r)) ∧ 2 ≤ r ∧ r ≤ root n ∧
      r ≤ 32767 ∧ n / r ≤ 32767 ∧
      ∀ k, 1 ≤ k → k ≤ root n → n % k = 0 → n / k ≤ 32767 → n % r = 0 := by
  have hn1 : ((1 : Int) : Rat) ≤ (n : Rat) := Rat.intCast_le_intCast.2 (by omega)
  have hn1 : (1 : Rat) ≤ (n : Rat) := hn1
  have c30 : (0 : Rat) < 1 / 2 ^ 30 := by decide +kernel
  have hs : root n ≤ 32764 := by
    apply Classical.byContradiction
    intro h
    have : 32765 * 32765 ≤ root n * root n := Int.mul_le_mul (by omega) (by omega) (by omega) (by omega)
    omega
  obtain ⟨a1, a2⟩ := near_int hr (n : Rat) n (by omega) (by omega) ⟨by grind, by grind⟩
  obtain ⟨r, b1, b2, b3, b4, b5⟩ := search_root n (root n) h0 hroot.1 hroot.2.1 hroot.2.2 hs fuel hf
  refine ⟨r, ?_, b2, b3, by omega, b4, b5⟩
  have hq : 0 ≤ n / r := Int.ediv_nonneg (by omega) (by omega)
  rw [genfactmult_ge root fuel _ hn1]
  unfold reduceRate
  rw [a1, bind_ok, if_pos a2, if_neg (by omega), if_pos (by omega)]
  simp only
  rw [b1, bind_ok, if_neg (by omega), if_pos ⟨by omega, b4⟩, int16_id (by omega), int16_id (by omega)]

end Verif.Proof.Factor
