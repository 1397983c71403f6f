import Verif.Proof.Convert
/-! The samples before and after a conversion. -/
namespace Verif.Proof.Convert
open Verif.Model.Steim (Res)
open Verif.Model.Convert
open Verif.Spec.Binary (exponent halfEven ulp)
open Verif.Spec.Ieee
open Verif.Proof.Binary
open Verif.Proof.Mem

theorem word_nat {n : Nat} (h : n < 2 ^ 32) : (UInt32.ofNat n).toNat = n := by
  rw [UInt32.toNat_ofNat', Nat.mod_eq_of_lt h]

theorem decodeMag_nonneg (f : Format) (b : Nat) : 0 ≤ decodeMag f b := by
  unfold decodeMag
  split
  · exact Rat.mul_nonneg (natCast_nonneg _) (Rat.le_of_lt (two_pos _))
  · exact Rat.mul_nonneg (natCast_nonneg _) (Rat.le_of_lt (two_pos _))

theorem decodeMag_zero (f : Format) : decodeMag f 0 = 0 := by
  unfold decodeMag
  rw [if_pos (Nat.two_pow_pos _)]
  show 0 * _ = (0 : Rat)
  grind

theorem encodeMag_zero (f : Format) : encodeMag f 0 = 0 := by
  unfold encodeMag
  rw [if_pos rfl]

theorem unit_le (f : Format) (n : Nat) (s : Int) (h0 : 0 < n) (h : n < 2 ^ f.p)
    (hs : f.q0 ≤ s) : unitExp f ((n : Rat) * 2 ^ s) ≤ s := by
  have hx : 0 < (n : Rat) * 2 ^ s := Rat.mul_pos (natCast_pos h0) (two_pos s)
  have h1 := (exponent_spec _ hx).1
  have h2 : (n : Rat) * 2 ^ s < (2 : Rat) ^ ((f.p : Int) + s) := by
    rw [two_add, two_nat]
    exact Rat.mul_lt_mul_of_pos_right (Rat.natCast_lt_natCast.2 h) (two_pos s)
  have h3 : exponent ((n : Rat) * 2 ^ s) < (f.p : Int) + s := by
    apply Classical.byContradiction
    intro hc
    have := two_mono (show (f.p : Int) + s ≤ exponent ((n : Rat) * 2 ^ s) by omega)
    grind
  unfold unitExp
  omega

theorem fin_single : single.infBits < 2 ^ (single.p - 1 + single.ew) := by decide
theorem fin_double : double.infBits < 2 ^ (double.p - 1 + double.ew) := by decide

/-- The `float` written for a number. -/
theorem floatOf_value (neg : Bool) (x : Rat) (h : encodeMag single x < single.infBits) :
    value32 (floatOf (.fin neg x)) = some (if neg then -decodeMag single (encodeMag single x)
      else decodeMag single (encodeMag single x)) := by
  rw [← decode_value32]
  have hlt : encode single (.fin neg x) < 2 ^ 32 := by
    unfold encode
    simp only
    rw [top_single]
    rw [inf_single] at h
    cases neg
    · rw [if_neg (by decide)]; omega
    · rw [if_pos rfl]; omega
  unfold floatOf
  rw [word_nat hlt, decode_encode single neg x fin_single h]
  rfl

/-- The `double` written for a number. -/
theorem doubleOf_value (neg : Bool) (x : Rat) (h : encodeMag double x < double.infBits) :
    ∃ lo hi, doubleOf (.fin neg x) = [lo, hi] ∧
      value64 lo hi = some (if neg then -decodeMag double (encodeMag double x)
        else decodeMag double (encodeMag double x)) := by
  have hlt : encode double (.fin neg x) < 2 ^ 64 := by
    unfold encode
    simp only
    rw [top_double]
    rw [inf_double] at h
    cases neg
    · rw [if_neg (by decide)]; omega
    · rw [if_pos rfl]; omega
  refine ⟨_, _, rfl, ?_⟩
  rw [← decode_value64, word_nat (by omega), word_nat (by omega)]
  have : encode double (.fin neg x) / 2 ^ 32 * 2 ^ 32 + encode double (.fin neg x) % 2 ^ 32 =
      encode double (.fin neg x) := by omega
  rw [this, decode_encode double neg x fin_double h]
  rfl

/-- Integers fit a `double`. -/
theorem encode_nat (f : Format) (hf : f = single ∨ f = double) (n : Nat)
    (h : n < 2 ^ f.p) : encodeMag f (n : Rat) < f.infBits ∧ decodeMag f (encodeMag f (n : Rat)) = n := by
  by_cases h0 : n = 0
  · subst h0
    have : ((0 : Nat) : Rat) = 0 := rfl
    rw [this, encodeMag_zero, decodeMag_zero]
    refine ⟨?_, rfl⟩
    rcases hf with rfl | rfl <;> decide
  · have hq : f.q0 ≤ 0 := by rcases hf with rfl | rfl <;> decide
    have := unit_le f n 0 (by omega) h hq
    have hg := encode_grid f (by rcases hf with rfl | rfl <;> decide) (by rcases hf with rfl | rfl <;> decide)
      n 0 (by omega) h hq
    rw [Rat.zpow_zero, Rat.mul_one] at *
    refine hg ?_
    rcases hf with rfl | rfl
    · have : single.q0 = -149 := rfl
      have : (2 : Int) ^ single.ew = 256 := by decide
      omega
    · have : double.q0 = -1074 := rfl
      have : (2 : Int) ^ double.ew = 2048 := by decide
      omega

theorem valueInt_range (w : UInt32) : -2147483648 ≤ valueInt w ∧ valueInt w ≤ 2147483647 := by
  have := w.toNat_lt
  unfold valueInt
  split <;> omega

theorem wordInt_eq (w : UInt32) : wordInt w = valueInt w := rfl

theorem intWord_value (n : Int) (h : -2147483648 ≤ n ∧ n ≤ 2147483647) : valueInt (intWord n) = n := by
  unfold valueInt intWord
  have hw : (UInt32.ofNat (n % 2 ^ 32).toNat).toNat = (n % 2 ^ 32).toNat := word_nat (by omega)
  rw [hw]
  split <;> omega

theorem ofInt_sign (n : Int) : (if decide (n < 0) = true then -((n.natAbs : Nat) : Rat) else ((n.natAbs : Nat) : Rat)) = (n : Rat) := by
  by_cases h : n < 0
  · rw [if_pos (by simpa using h)]
    have : (n : Rat) = ((-(n.natAbs : Int) : Int) : Rat) := by congr 1; omega
    rw [this, Rat.intCast_neg, Rat.intCast_natCast]
  · rw [if_neg (by simpa using h)]
    have : (n : Rat) = (((n.natAbs : Int) : Int) : Rat) := by congr 1; omega
    rw [this, Rat.intCast_natCast]

theorem int_to_double (n : Int) (h : -2147483648 ≤ n ∧ n ≤ 2147483647) :
    ∃ lo hi, doubleOf (ofInt n) = [lo, hi] ∧ value64 lo hi = some (n : Rat) := by
  unfold ofInt
  have hp : double.p = 53 := rfl
  obtain ⟨h1, h2⟩ := encode_nat double (Or.inr rfl) n.natAbs (by rw [hp]; omega)
  obtain ⟨lo, hi, e1, e2⟩ := doubleOf_value (decide (n < 0)) (n.natAbs : Nat) h1
  refine ⟨lo, hi, e1, ?_⟩
  rw [e2, h2, ofInt_sign]

theorem int_to_float (n : Int) (h : -16777216 ≤ n ∧ n ≤ 16777216) :
    value32 (floatOf (ofInt n)) = some (n : Rat) := by
  unfold ofInt
  have hp : single.p = 24 := rfl
  by_cases hlt : n.natAbs < 2 ^ 24
  · obtain ⟨h1, h2⟩ := encode_nat single (Or.inl rfl) n.natAbs (by rw [hp]; omega)
    rw [floatOf_value _ _ h1, h2, ofInt_sign]
  · have hn : n.natAbs = 16777216 := by omega
    have e : ((n.natAbs : Nat) : Rat) = ((1 : Nat) : Rat) * 2 ^ (24 : Int) := by
      rw [hn]; decide +kernel
    have hu := unit_le single 1 24 (by decide) (by decide) (by decide)
    obtain ⟨h1, h2⟩ := encode_grid single (by decide) (by decide) 1 24 (by decide) (by decide) (by decide)
      (by
        have : single.q0 = -149 := rfl
        have : (2 : Int) ^ single.ew = 256 := by decide
        omega)
    rw [← e] at h1 h2
    rw [floatOf_value _ _ h1, h2, ofInt_sign]

/-- A finite number has a sign and a size. -/
theorem decode_fin (f : Format) (bits : Nat) (v : Rat) (h : (decode f bits).value = some v) :
    ∃ neg b, decode f bits = .fin neg (decodeMag f b) ∧ b < f.infBits ∧
      v = if neg then -decodeMag f b else decodeMag f b := by
  unfold decode at *
  simp only at *
  by_cases h1 : bits % 2 ^ (f.p - 1 + f.ew) < f.infBits
  · rw [if_pos h1] at *
    refine ⟨_, _, rfl, h1, ?_⟩
    injection h with h
    exact h.symm
  · rw [if_neg h1] at h
    split at h <;> cases h

theorem float_to_double (w : UInt32) (v : Rat) (h : value32 w = some v) :
    ∃ lo hi, doubleOf (decode single w.toNat) = [lo, hi] ∧ value64 lo hi = some v := by
  rw [← decode_value32] at h
  obtain ⟨neg, b, e1, e2, e3⟩ := decode_fin single _ v h
  rw [e1, e3]
  have key : encodeMag double (decodeMag single b) < double.infBits ∧
      decodeMag double (encodeMag double (decodeMag single b)) = decodeMag single b := by
    by_cases h0 : b = 0
    · subst h0
      rw [decodeMag_zero, encodeMag_zero, decodeMag_zero]
      exact ⟨by decide, rfl⟩
    · obtain ⟨n, j, g1, g2, g3, g4, -⟩ := decode_grid single (by decide) b (by omega)
      have hp : single.p = 24 := rfl
      have hq : single.q0 = -149 := rfl
      have hp' : double.p = 53 := rfl
      have hq' : double.q0 = -1074 := rfl
      rw [hp] at g3 g4
      rw [inf_single] at e2
      rw [g1, hq]
      have hj : j ≤ 254 := by omega
      have hu := unit_le double n ((j : Int) + -149) g2 (by rw [hp']; omega) (by omega)
      refine encode_grid double (by decide) (by decide) n ((j : Int) + -149) g2 (by rw [hp']; omega) (by omega) ?_
      have : (2 : Int) ^ double.ew = 2048 := by decide
      omega
  obtain ⟨lo, hi, a1, a2⟩ := doubleOf_value neg _ key.1
  refine ⟨lo, hi, a1, ?_⟩
  rw [a2, key.2]

theorem double_to_float (lo hi w : UInt32) (v : Rat) (h : value64 lo hi = some v) (hw : value32 w = some v) :
    value32 (floatOf (decode double (hi.toNat * 2 ^ 32 + lo.toNat))) = some v := by
  rw [← decode_value64] at h
  rw [← decode_value32] at hw
  obtain ⟨neg, b, e1, e2, e3⟩ := decode_fin double _ v h
  obtain ⟨neg', b', e1', e2', e3'⟩ := decode_fin single _ v hw
  have n1 := decodeMag_nonneg double b
  have n2 := decodeMag_nonneg single b'
  have hxy : decodeMag double b = decodeMag single b' := by
    rw [e3] at e3'
    cases neg <;> cases neg' <;> simp only [if_pos, Bool.false_eq_true, if_false] at e3' <;> grind
  rw [e1, hxy]
  have hb := encode_decode single (by decide) b' e2'
  rw [floatOf_value neg _ (by rw [hb]; exact e2'), hb, e3, hxy]

/-! ### Integers -/

theorem rounded_zero (f : Format) : rounded f 0 = 0 := by
  unfold rounded
  rw [if_neg (by decide), encodeMag_zero, decodeMag_zero]

theorem unit_small (f : Format) (hf : f = single ∨ f = double) (x : Rat) (hx : 0 < x) (h : x < 1) :
    unitExp f x ≤ -24 := by
  have h1 := (exponent_spec x hx).1
  have h2 : exponent x < 0 := by
    apply Classical.byContradiction
    intro hc
    have := two_mono (show (0 : Int) ≤ exponent x by omega)
    rw [Rat.zpow_zero] at this
    grind
  unfold unitExp
  rcases hf with rfl | rfl
  · show max (exponent x - ((24 : Int) - 1)) (-149) ≤ -24
    omega
  · show max (exponent x - ((53 : Int) - 1)) (-1074) ≤ -24
    omega

theorem rounded_fraction (f : Format) (hf : f = single ∨ f = double) (x : Rat) (h0 : 0 ≤ x) (h : x < 1) :
    x - 1 / 2 ^ 25 ≤ rounded f x := by
  by_cases hz : x = 0
  · subst hz
    rw [rounded_zero]
    decide +kernel
  · have hx : 0 < x := by grind
    unfold rounded
    rw [if_neg (by grind)]
    have hu := unit_small f hf x hx h
    have hew : (2 : Int) ^ f.ew - 4 ≥ -24 - f.q0 := by
      rcases hf with rfl | rfl
      · decide
      · decide
    have hn := (encode_near f (by rcases hf with rfl | rfl <;> decide) (by rcases hf with rfl | rfl <;> decide)
      x hx (by omega)).1
    have h2 := two_mono hu
    have h3 : (2 : Rat) ^ (-24 : Int) = 1 / 2 ^ 24 := by decide +kernel
    rw [h3] at h2
    have h4 : (1 : Rat) / 2 ^ 24 = 2 * (1 / 2 ^ 25) := by decide +kernel
    grind

theorem rounded_sum (x : Rat) (h0 : 0 < x) (h : x < 2 ^ 31) :
    x - 1 / 1000000 ≤ rounded double x ∧ rounded double x ≤ x + 1 / 1000000 := by
  unfold rounded
  rw [if_neg (by grind)]
  have h1 := (exponent_spec x h0).1
  have h2 : exponent x < 31 := by
    apply Classical.byContradiction
    intro hc
    have := two_mono (show (31 : Int) ≤ exponent x by omega)
    have e : (2 : Rat) ^ (31 : Int) = 2 ^ 31 := by decide +kernel
    grind
  have hu : unitExp double x ≤ -22 := by
    show max (exponent x - ((53 : Int) - 1)) (-1074) ≤ -22
    omega
  have hn := encode_near double (by decide) (by decide) x h0 (by
    show unitExp double x - -1074 ≤ (2 : Int) ^ 11 - 4
    omega)
  have h3 := two_mono hu
  have h4 : (2 : Rat) ^ (-22 : Int) / 2 ≤ 1 / 1000000 := by decide +kernel
  grind

theorem floor_eq {x : Rat} {n : Int} (h1 : (n : Rat) ≤ x) (h2 : x < (n : Rat) + 1) : x.floor = n := by
  have a1 := Rat.le_floor_iff.2 h1
  have a2 : x.floor < n + 1 := by
    rw [Rat.floor_lt_iff, Rat.intCast_add]
    exact h2
  omega

theorem toInt32_floor {x : Rat} {n : Int} (h0 : 0 ≤ x) (h1 : (n : Rat) ≤ x) (h2 : x < (n : Rat) + 1)
    (hn : 0 ≤ n ∧ n ≤ 2147483647) : toInt32 x = .ok n := by
  unfold toInt32
  simp only [if_neg (show ¬ x < 0 by grind), floor_eq h1 h2]
  rw [if_pos (by omega)]

theorem half_ok (x : Fl) (v : Rat) (n : Int) (hv : x.value = some v) (h0 : 0 ≤ n ∧ n ≤ 2147483646)
    (h1 : (n : Rat) ≤ v) (h2 : v ≤ (n : Rat) + 1 / 4) : half x = .ok n := by
  have hn : (0 : Rat) ≤ (n : Rat) := by
    have : ((0 : Int) : Rat) ≤ (n : Rat) := Rat.intCast_le_intCast.2 h0.1
    exact this
  have hn2 : (n : Rat) ≤ 2147483646 := by
    have : (n : Rat) ≤ ((2147483646 : Int) : Rat) := Rat.intCast_le_intCast.2 h0.2
    exact this
  have e : (2 : Rat) ^ 31 = 2147483648 := by decide +kernel
  have hr := rounded_sum (v + 1 / 2) (by grind) (by rw [e]; grind)
  unfold half
  rw [hv]
  simp only
  exact toInt32_floor (by grind) (by grind) (by grind) (by omega)

/-- Conversion of a sample that is not negative. -/
theorem intOf_nonneg (f : Format) (hf : f = single ∨ f = double) (x : Fl) (v : Rat) (hv : x.value = some v)
    (h0 : 0 ≤ v) (h1 : v < 2147483647) :
    ∃ o, intOf f false x = .ok o ∧
      (∀ w, o = some w → ((valueInt w : Int) : Rat) ≤ v ∧ v ≤ (valueInt w : Rat) + 11 / 10000000) ∧
      ((∃ n : Int, v = n) → o ≠ none) := by
  obtain ⟨f1, f2⟩ := (show ((v.floor : Int) : Rat) ≤ v ∧ v < (v.floor : Rat) + 1 by
    refine ⟨Rat.floor_le v, ?_⟩
    have := Rat.lt_floor_add_one v
    rw [Rat.intCast_add] at this
    exact this)
  have g0 : 0 ≤ v.floor := by rw [Rat.le_floor_iff]; exact h0
  have g1 : v.floor < 2147483647 := by rw [Rat.floor_lt_iff]; exact h1
  have hfl : flToInt32 x = .ok v.floor := by
    unfold flToInt32
    rw [hv]
    exact toInt32_floor h0 f1 f2 (by omega)
  have hint : (∃ n : Int, v = n) → v - (v.floor : Rat) = 0 := by
    rintro ⟨n, rfl⟩
    rw [Rat.floor_intCast]
    grind
  generalize v.floor = n at *
  unfold intOf lossy
  rw [if_neg (by decide), hfl, bind_ok, hv]
  simp only [bind_ok]
  by_cases hc : rounded f (v - n) > rounded double (1 / 1000000)
  · refine ⟨none, ?_, fun w h => (by cases h), ?_⟩
    · rw [if_pos (by simpa using hc)]
    · intro hi
      exfalso
      rw [hint hi, rounded_zero] at hc
      have : ¬ (0 : Rat) > rounded double (1 / 1000000) := by decide +kernel
      exact this hc
  · have hd : v - n ≤ 11 / 10000000 := by
      have a1 := rounded_fraction f hf (v - n) (by grind) (by grind)
      have a2 : rounded double (1 / 1000000) + 1 / 2 ^ 25 ≤ 11 / 10000000 := by decide +kernel
      grind
    rw [if_neg (by simpa using hc), half_ok x v n hv (by omega) f1 (by grind), bind_ok]
    refine ⟨some (intWord n), rfl, ?_, fun _ h => by cases h⟩
    intro w hw
    injection hw with hw
    subst hw
    rw [intWord_value n (by omega)]
    exact ⟨f1, by grind⟩

/-- Conversion of a negative whole number. -/
theorem intOf_negative (f : Format) (truncate : Bool) (x : Fl) (n : Int) (hv : x.value = some (n : Rat))
    (h : -2147483648 ≤ n ∧ n < 0) :
    ∃ w, intOf f truncate x = .ok (some w) ∧ valueInt w = n + 1 := by
  have hn : (n : Rat) < 0 := by
    have : (n : Rat) < ((0 : Int) : Rat) := Rat.intCast_lt_intCast.2 h.2
    exact this
  have hn1 : (n : Rat) ≤ -1 := by
    have : (n : Rat) ≤ ((-1 : Int) : Rat) := Rat.intCast_le_intCast.2 (by omega)
    exact this
  have hneg : -(n : Rat) = ((n.natAbs : Nat) : Rat) := by
    have e : -(n : Rat) = ((-n : Int) : Rat) := by rw [Rat.intCast_neg]
    rw [e, ← Rat.intCast_natCast]
    congr 1
    omega
  have hlossy : lossy f truncate x = .ok false := by
    unfold lossy
    cases truncate
    · rw [if_neg (by decide)]
      have hfl : flToInt32 x = .ok n := by
        unfold flToInt32 toInt32
        rw [hv]
        simp only [if_pos hn]
        have e : -(n : Rat) = ((-n : Int) : Rat) := by rw [Rat.intCast_neg]
        rw [e, Rat.floor_intCast, Int.neg_neg, if_pos (by omega)]
      rw [hfl, bind_ok, hv]
      simp only
      have e : (n : Rat) - n = 0 := by grind
      rw [e, rounded_zero]
      have : decide ((0 : Rat) > rounded double (1 / 1000000)) = false := by decide +kernel
      rw [this]
    · rw [if_pos rfl]
  have hhalf : half x = .ok (n + 1) := by
    unfold half
    rw [hv]
    simp only
    have hr : rounded double ((n : Rat) + 1 / 2) = (n : Rat) + 1 / 2 := by
      unfold rounded
      rw [if_pos (by grind)]
      have e : -((n : Rat) + 1 / 2) = ((2 * n.natAbs - 1 : Nat) : Rat) * 2 ^ (-1 : Int) := by
        have h2 : ((2 * n.natAbs - 1 : Nat) : Rat) + 1 = 2 * -(n : Rat) := by
          rw [hneg]
          have : ((2 * n.natAbs - 1 : Nat) : Rat) + ((1 : Nat) : Rat) = ((2 : Nat) : Rat) * ((n.natAbs : Nat) : Rat) := by
            rw [← Rat.natCast_add, ← Rat.natCast_mul]
            congr 1
            omega
          exact this
        have h3 : (2 : Rat) ^ (-1 : Int) = 1 / 2 := by decide +kernel
        rw [h3]
        grind
      have hu := unit_le double (2 * n.natAbs - 1) (-1) (by omega) (by
        show 2 * n.natAbs - 1 < 2 ^ 53; omega) (by decide)
      have hg := (encode_grid double (by decide) (by decide) (2 * n.natAbs - 1) (-1) (by omega) (by
        show 2 * n.natAbs - 1 < 2 ^ 53; omega) (by decide) (by
          show unitExp double _ - -1074 ≤ (2 : Int) ^ 11 - 3
          omega)).2
      rw [e, hg, ← e]
      grind
    rw [hr]
    unfold toInt32
    simp only [if_pos (show (n : Rat) + 1 / 2 < 0 by grind)]
    have hfl : (-((n : Rat) + 1 / 2)).floor = -n - 1 := by
      apply floor_eq
      · rw [Rat.intCast_sub, Rat.intCast_neg]
        show -(n : Rat) - 1 ≤ _
        grind
      · rw [Rat.intCast_sub, Rat.intCast_neg]
        show _ < -(n : Rat) - 1 + 1
        grind
    rw [hfl]
    have : -(-n - 1) = n + 1 := by omega
    rw [this, if_pos (by omega)]
  unfold intOf
  rw [hlossy, bind_ok, hhalf]
  exact ⟨intWord (n + 1), rfl, intWord_value _ (by omega)⟩

/-! ### Reading samples -/

theorem getFloat_ok {d : List UInt32} {k : Nat} (h : k < d.length) :
    getFloat d k = .ok (decode single d[k].toNat) := by
  unfold getFloat
  rw [word_ok h, bind_ok]

theorem getInt_ok {d : List UInt32} {k : Nat} (h : k < d.length) :
    getInt d k = .ok (ofInt (valueInt d[k])) := by
  unfold getInt
  rw [word_ok h, bind_ok]
  rfl

theorem getDouble_ok {d : List UInt32} {k : Nat} (h : 2 * k + 1 < d.length) :
    getDouble d k = .ok (decode double (d[2 * k + 1].toNat * 2 ^ 32 + d[2 * k].toNat)) := by
  unfold getDouble
  rw [word_ok (show 2 * k < d.length by omega), bind_ok, word_ok h, bind_ok]

theorem word_local (d d' : List UInt32) (j i : Nat) (hi : j ≤ i) (h : ∀ i, j ≤ i → d'[i]? = d[i]?) :
    word d' i = word d i := by
  unfold word
  rw [h i hi]

theorem local_float {α} (g : Fl → Res α) (d d' : List UInt32) (j : Nat) (h : ∀ i, j ≤ i → d'[i]? = d[i]?) :
    (getFloat d' j).bind g = (getFloat d j).bind g := by
  unfold getFloat
  rw [word_local d d' j j (by omega) h]

theorem local_int {α} (g : Fl → Res α) (d d' : List UInt32) (j : Nat) (h : ∀ i, j ≤ i → d'[i]? = d[i]?) :
    (getInt d' j).bind g = (getInt d j).bind g := by
  unfold getInt
  rw [word_local d d' j j (by omega) h]

theorem local_double {α} (g : Fl → Res α) (d d' : List UInt32) (j : Nat) (h : ∀ i, j ≤ i → d'[i]? = d[i]?) :
    (getDouble d' j).bind g = (getDouble d j).bind g := by
  unfold getDouble
  rw [word_local d d' j (2 * j) (by omega) h, word_local d d' j (2 * j + 1) (by omega) h]

end Verif.Proof.Convert
