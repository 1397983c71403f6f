import Verif.Model.Convert
import Verif.Spec.Ieee
import Verif.Proof.Binary
import Verif.Proof.Mem
/-! Lemmas about floating point formats and the conversion of samples. -/
namespace Verif.Proof.Convert
open Verif.Model.Steim (Res)
open Verif.Model.Convert
open Verif.Spec.Binary (exponent halfEven ulp)
open Verif.Spec.Ieee
open Verif.Proof.Binary
open Verif.Proof.Mem

theorem exponent_unique {x : Rat} {e : Int} (h1 : (2 : Rat) ^ e ≤ x) (h2 : x < 2 ^ (e + 1)) :
    exponent x = e := by
  have hx : 0 < x := by have := two_pos e; grind
  obtain ⟨a1, a2⟩ := exponent_spec x hx
  by_cases hc : exponent x < e
  · have := two_mono (show exponent x + 1 ≤ e by omega)
    grind
  · by_cases hd : e < exponent x
    · have := two_mono (show e + 1 ≤ exponent x by omega)
      grind
    · omega

theorem natCast_pos {n : Nat} (h : 0 < n) : (0 : Rat) < (n : Rat) := by
  have : ((0 : Nat) : Rat) < (n : Rat) := Rat.natCast_lt_natCast.2 h
  exact this

theorem natCast_nonneg (n : Nat) : (0 : Rat) ≤ (n : Rat) := by
  have : ((0 : Nat) : Rat) ≤ (n : Rat) := Rat.natCast_le_natCast.2 (Nat.zero_le n)
  exact this

theorem decode_form (f : Format) (k m : Nat)
    (h : (k = 0 ∧ m ≤ 2 ^ (f.p - 1)) ∨ (2 ^ (f.p - 1) ≤ m ∧ m ≤ 2 * 2 ^ (f.p - 1))) :
    decodeMag f (k * 2 ^ (f.p - 1) + m) = (m : Rat) * 2 ^ ((k : Int) + f.q0) := by
  unfold decodeMag
  have hP : 0 < 2 ^ (f.p - 1) := Nat.two_pow_pos _
  generalize 2 ^ (f.p - 1) = P at *
  by_cases h1 : k * P + m < P
  · rw [if_pos h1]
    have hk : k = 0 := by
      rcases h with h | h
      · exact h.1
      · omega
    subst hk
    simp
  · rw [if_neg h1]
    by_cases h2 : m = 2 * P
    · have hd : (k * P + m) / P = k + 2 := by
        rw [h2, ← Nat.add_mul, Nat.mul_div_cancel _ hP]
      have hm : (k * P + m) % P = 0 := by
        rw [h2, ← Nat.add_mul, Nat.mul_mod_left]
      rw [hd, hm, h2]
      have e : (((k + 2 : Nat) : Int) - 1 + f.q0) = ((k : Int) + f.q0) + 1 := by omega
      rw [e, two_succ, Rat.natCast_mul]
      have : ((2 : Nat) : Rat) = 2 := rfl
      rw [this]
      show (P : Rat) * _ = _
      grind
    · have h3 : P ≤ m ∧ m < 2 * P := by
        rcases h with ⟨rfl, h⟩ | h
        · omega
        · omega
      have hd : (k * P + m) / P = k + 1 := by
        rw [Nat.div_eq_iff hP]
        constructor
        · rw [Nat.add_mul]; omega
        · rw [Nat.add_mul]; omega
      have hm : (k * P + m) % P = m - P := by
        have := Nat.div_add_mod (k * P + m) P
        rw [hd, Nat.mul_add, Nat.mul_one, Nat.mul_comm P k] at this
        omega
      rw [hd, hm]
      have e : (((k + 1 : Nat) : Int) - 1 + f.q0) = (k : Int) + f.q0 := by omega
      have e2 : P + (m - P) = m := by omega
      rw [e, e2]

/-- The parts of an encoding. -/
theorem encode_parts (f : Format) (hp : 1 ≤ f.p) (x : Rat) (hx : 0 < x) :
    ∃ k m : Nat, encodeMag f x = min (k * 2 ^ (f.p - 1) + m) f.infBits ∧
      ((k = 0 ∧ m ≤ 2 ^ (f.p - 1)) ∨ (2 ^ (f.p - 1) ≤ m ∧ m ≤ 2 * 2 ^ (f.p - 1))) ∧
      (k : Int) + f.q0 = unitExp f x ∧ (m : Int) = halfEven (x / (2 : Rat) ^ unitExp f x) := by
  refine ⟨(unitExp f x - f.q0).toNat, (halfEven (x / (2 : Rat) ^ unitExp f x)).toNat, ?_, ?_, ?_, ?_⟩
  · unfold encodeMag
    rw [if_neg (by grind)]
  · have hP2 : 2 * 2 ^ (f.p - 1) = 2 ^ f.p := by
      have : f.p = (f.p - 1) + 1 := by omega
      rw [this, Nat.pow_succ]
      have : f.p - 1 + 1 - 1 = f.p - 1 := by omega
      rw [this]
      omega
    unfold unitExp
    by_cases hc : f.q0 ≤ exponent x - ((f.p : Int) - 1)
    · right
      rw [Int.max_eq_left hc]
      obtain ⟨s1, s2⟩ := scaled f.p hp x hx
      unfold ulp at s1 s2
      have hu := two_pos (exponent x - ((f.p : Int) - 1))
      generalize (2 : Rat) ^ (exponent x - ((f.p : Int) - 1)) = u at *
      have g1 : (((2 ^ (f.p - 1) : Nat) : Int) : Rat) ≤ x / u := by
        refine Rat.le_of_mul_le_mul_right (c := u) ?_ hu
        rw [div_mul _ _ hu, Rat.intCast_natCast]
        exact s1
      have g2 : x / u ≤ (((2 ^ f.p : Nat) : Int) : Rat) := by
        refine Rat.le_of_mul_le_mul_right (c := u) ?_ hu
        rw [div_mul _ _ hu, Rat.intCast_natCast]
        exact Rat.le_of_lt s2
      have a1 := halfEven_mono g1
      have a2 := halfEven_mono g2
      rw [halfEven_int] at a1 a2
      rw [hP2]
      omega
    · left
      rw [Int.max_eq_right (by omega)]
      refine ⟨by omega, ?_⟩
      have h2 := (exponent_spec x hx).2
      have h3 := two_mono (show exponent x + 1 ≤ ((f.p - 1 : Nat) : Int) + f.q0 by omega)
      rw [two_add ((f.p - 1 : Nat) : Int) f.q0, two_nat] at h3
      have hu := two_pos f.q0
      generalize (2 : Rat) ^ f.q0 = u at *
      have g2 : x / u ≤ (((2 ^ (f.p - 1) : Nat) : Int) : Rat) := by
        refine Rat.le_of_mul_le_mul_right (c := u) ?_ hu
        rw [div_mul _ _ hu, Rat.intCast_natCast]
        grind
      have a2 := halfEven_mono g2
      rw [halfEven_int] at a2
      omega
  · have : f.q0 ≤ unitExp f x := by unfold unitExp; omega
    omega
  · have hu := two_pos (unitExp f x)
    have g : ((0 : Int) : Rat) ≤ x / (2 : Rat) ^ unitExp f x := by
      refine Rat.le_of_mul_le_mul_right (c := (2 : Rat) ^ unitExp f x) ?_ hu
      rw [div_mul _ _ hu]
      show 0 * _ ≤ x
      grind
    have := halfEven_mono g
    rw [halfEven_int] at this
    omega

/-- A number on the grid of the format is encoded exactly. -/
theorem encode_grid (f : Format) (hp : 1 ≤ f.p) (hew : 2 ≤ f.ew) (n : Nat) (s : Int) (h0 : 0 < n) (h : n < 2 ^ f.p)
    (hs : f.q0 ≤ s) (hmax : unitExp f ((n : Rat) * 2 ^ s) - f.q0 ≤ (2 : Int) ^ f.ew - 3) :
    encodeMag f ((n : Rat) * 2 ^ s) < f.infBits ∧
      decodeMag f (encodeMag f ((n : Rat) * 2 ^ s)) = (n : Rat) * 2 ^ s := by
  have hn0 := natCast_pos h0
  have hx : 0 < (n : Rat) * 2 ^ s := Rat.mul_pos hn0 (two_pos s)
  obtain ⟨k, m, e1, e2, e3, e4⟩ := encode_parts f hp _ hx
  have hPe : 2 * 2 ^ (f.p - 1) = 2 ^ f.p := by
    have : f.p = (f.p - 1) + 1 := by omega
    rw [this, Nat.pow_succ]
    have : f.p - 1 + 1 - 1 = f.p - 1 := by omega
    rw [this]
    omega
  -- the unit divides the number
  have hq : unitExp f ((n : Rat) * 2 ^ s) ≤ s := by
    have h1 := (exponent_spec _ hx).1
    have h2 : (n : Rat) * 2 ^ s < (2 : Rat) ^ ((f.p : Int) + s) := by
      rw [two_add, two_nat]
      exact Rat.mul_lt_mul_of_pos_right (Rat.natCast_lt_natCast.2 h) (two_pos s)
    have h3 : exponent ((n : Rat) * 2 ^ s) < (f.p : Int) + s := by
      apply Classical.byContradiction
      intro hc
      have := two_mono (show (f.p : Int) + s ≤ exponent ((n : Rat) * 2 ^ s) by omega)
      grind
    unfold unitExp
    omega
  generalize hqd : unitExp f ((n : Rat) * 2 ^ s) = q at *
  have hdiv : (n : Rat) * 2 ^ s / 2 ^ q = ((n * 2 ^ (s - q).toNat : Nat) : Rat) := by
    have hu := two_pos q
    have e : (2 : Rat) ^ s = ((2 ^ (s - q).toNat : Nat) : Rat) * 2 ^ q := by
      rw [← two_nat, ← two_add]
      congr 1
      omega
    rw [e, Rat.natCast_mul]
    generalize (2 : Rat) ^ q = u at *
    grind
  have hmv : (m : Int) = ((n * 2 ^ (s - q).toNat : Nat) : Int) := by
    rw [e4, hdiv, ← Rat.intCast_natCast, halfEven_int]
  have hval : (m : Rat) * 2 ^ q = (n : Rat) * 2 ^ s := by
    have : m = n * 2 ^ (s - q).toNat := by omega
    rw [this, ← hdiv, div_mul _ _ (two_pos q)]
  have hm2 : m < 2 * 2 ^ (f.p - 1) := by
    rcases e2 with ⟨-, e2⟩ | ⟨-, e2⟩
    · have := Nat.two_pow_pos (f.p - 1)
      omega
    · -- m = 2^p would be a larger exponent
      by_cases hc : m = 2 * 2 ^ (f.p - 1)
      · exfalso
        rw [hPe] at hc
        have h1 : (2 : Rat) ^ ((f.p : Int) + q) = (n : Rat) * 2 ^ s := by
          rw [← hval, hc, two_add, two_nat]
        have h2 : exponent ((n : Rat) * 2 ^ s) = (f.p : Int) + q := by
          apply exponent_unique
          · rw [h1]; exact Rat.le_refl
          · rw [← h1, two_succ]
            have := two_pos ((f.p : Int) + q)
            grind
        unfold unitExp at hqd
        omega
      · omega
  have hlt : k * 2 ^ (f.p - 1) + m < f.infBits := by
    unfold Format.infBits
    have h4 : (4 : Nat) ≤ 2 ^ f.ew := by
      have := Nat.pow_le_pow_right (n := 2) (by decide) hew
      simpa using this
    have h4' : ((2 ^ f.ew : Nat) : Int) = (2 : Int) ^ f.ew := by
      rw [Int.natCast_pow]; rfl
    have hk : k + 2 ≤ 2 ^ f.ew - 1 := by omega
    have := Nat.mul_le_mul_right (2 ^ (f.p - 1)) hk
    rw [Nat.add_mul] at this
    omega
  rw [e1, Nat.min_eq_left (Nat.le_of_lt hlt)]
  refine ⟨hlt, ?_⟩
  rw [decode_form f k m e2, e3, hval]

/-- The error of an encoding. -/
theorem encode_near (f : Format) (hp : 1 ≤ f.p) (hew : 2 ≤ f.ew) (x : Rat) (hx : 0 < x)
    (hmax : unitExp f x - f.q0 ≤ (2 : Int) ^ f.ew - 4) :
    x - 2 ^ unitExp f x / 2 ≤ decodeMag f (encodeMag f x) ∧
      decodeMag f (encodeMag f x) ≤ x + 2 ^ unitExp f x / 2 ∧ encodeMag f x < f.infBits := by
  obtain ⟨k, m, e1, e2, e3, e4⟩ := encode_parts f hp x hx
  have hlt : k * 2 ^ (f.p - 1) + m < f.infBits := by
    unfold Format.infBits
    have h4 : (4 : Nat) ≤ 2 ^ f.ew := by
      have := Nat.pow_le_pow_right (n := 2) (by decide) hew
      simpa using this
    have h4' : ((2 ^ f.ew : Nat) : Int) = (2 : Int) ^ f.ew := by
      rw [Int.natCast_pow]; rfl
    have hk : k + 3 ≤ 2 ^ f.ew - 1 := by omega
    have := Nat.mul_le_mul_right (2 ^ (f.p - 1)) hk
    rw [Nat.add_mul] at this
    have := Nat.two_pow_pos (f.p - 1)
    omega
  rw [e1, Nat.min_eq_left (Nat.le_of_lt hlt), decode_form f k m e2, e3]
  have h := halfEven_near (x / (2 : Rat) ^ unitExp f x)
  rw [← e4, Rat.intCast_natCast] at h
  have hu := two_pos (unitExp f x)
  have hd := div_mul x _ hu
  generalize (2 : Rat) ^ unitExp f x = u at *
  generalize x / u = y at *
  have h1 := Rat.mul_le_mul_of_nonneg_right h.1 (Rat.le_of_lt hu)
  have h2 := Rat.mul_le_mul_of_nonneg_right h.2 (Rat.le_of_lt hu)
  refine ⟨?_, ?_, hlt⟩
  · grind
  · grind

/-- The form of the numbers of a format. -/
theorem decode_grid (f : Format) (hp : 1 ≤ f.p) (b : Nat) (h0 : 0 < b) :
    ∃ (n : Nat) (j : Nat), decodeMag f b = (n : Rat) * 2 ^ ((j : Int) + f.q0) ∧ 0 < n ∧ n < 2 ^ f.p ∧
      j * 2 ^ (f.p - 1) + n = b ∧ (j = 0 ∨ 2 ^ (f.p - 1) ≤ n) := by
  have hPe : 2 * 2 ^ (f.p - 1) = 2 ^ f.p := by
    have : f.p = (f.p - 1) + 1 := by omega
    rw [this, Nat.pow_succ]
    have : f.p - 1 + 1 - 1 = f.p - 1 := by omega
    rw [this]
    omega
  have hP : 0 < 2 ^ (f.p - 1) := Nat.two_pow_pos _
  by_cases h : b < 2 ^ (f.p - 1)
  · refine ⟨b, 0, ?_, h0, by omega, by omega, Or.inl rfl⟩
    unfold decodeMag
    rw [if_pos h]
    simp
  · rw [← hPe]
    unfold decodeMag
    rw [if_neg h]
    generalize 2 ^ (f.p - 1) = P at *
    have hm := Nat.mod_lt b hP
    have hd := Nat.div_add_mod b P
    have h1 : 1 ≤ b / P := by
      rw [Nat.le_div_iff_mul_le hP]; omega
    refine ⟨P + b % P, b / P - 1, ?_, by omega, by omega, ?_, Or.inr (by omega)⟩
    · have : ((b / P : Nat) : Int) - 1 = ((b / P - 1 : Nat) : Int) := by omega
      rw [this]
    · rw [Nat.sub_mul, Nat.mul_comm]
      have : P * 1 ≤ P * (b / P) := Nat.mul_le_mul_left P h1
      omega

/-- Encoding a number of the format gives its bits. -/
theorem encode_decode (f : Format) (hp : 1 ≤ f.p) (b : Nat) (h : b < f.infBits) :
    encodeMag f (decodeMag f b) = b := by
  by_cases h0 : b = 0
  · subst h0
    unfold decodeMag encodeMag
    rw [if_pos (Nat.two_pow_pos _)]
    have : ((0 : Nat) : Rat) * 2 ^ f.q0 = 0 := by
      show 0 * _ = 0
      grind
    rw [this, if_pos rfl]
  · obtain ⟨n, j, e, n0, np, hb, hj⟩ := decode_grid f hp b (by omega)
    rw [e]
    have hn0 := natCast_pos n0
    have hx : 0 < (n : Rat) * 2 ^ ((j : Int) + f.q0) := Rat.mul_pos hn0 (two_pos _)
    have hq : unitExp f ((n : Rat) * 2 ^ ((j : Int) + f.q0)) = (j : Int) + f.q0 := by
      have up : exponent ((n : Rat) * 2 ^ ((j : Int) + f.q0)) < (f.p : Int) + ((j : Int) + f.q0) := by
        have h1 := (exponent_spec _ hx).1
        have h2 : (n : Rat) * 2 ^ ((j : Int) + f.q0) < (2 : Rat) ^ ((f.p : Int) + ((j : Int) + f.q0)) := by
          rw [two_add (f.p : Int), two_nat]
          exact Rat.mul_lt_mul_of_pos_right (Rat.natCast_lt_natCast.2 np) (two_pos _)
        apply Classical.byContradiction
        intro hc
        have := two_mono (show (f.p : Int) + ((j : Int) + f.q0) ≤ exponent ((n : Rat) * 2 ^ ((j : Int) + f.q0)) by omega)
        grind
      rcases hj with rfl | hj
      · unfold unitExp
        omega
      · have lo : ((f.p - 1 : Nat) : Int) + ((j : Int) + f.q0) ≤ exponent ((n : Rat) * 2 ^ ((j : Int) + f.q0)) := by
          have h1 := (exponent_spec _ hx).2
          have h2 : (2 : Rat) ^ (((f.p - 1 : Nat) : Int) + ((j : Int) + f.q0)) ≤ (n : Rat) * 2 ^ ((j : Int) + f.q0) := by
            rw [two_add ((f.p - 1 : Nat) : Int), two_nat]
            exact Rat.mul_le_mul_of_nonneg_right (Rat.natCast_le_natCast.2 hj) (Rat.le_of_lt (two_pos _))
          apply Classical.byContradiction
          intro hc
          have := two_mono (show exponent ((n : Rat) * 2 ^ ((j : Int) + f.q0)) + 1 ≤ ((f.p - 1 : Nat) : Int) + ((j : Int) + f.q0) by omega)
          grind
        unfold unitExp
        omega
    unfold encodeMag
    rw [if_neg (by grind)]
    simp only [hq]
    have hd : (n : Rat) * 2 ^ ((j : Int) + f.q0) / 2 ^ ((j : Int) + f.q0) = ((n : Int) : Rat) := by
      have := two_pos ((j : Int) + f.q0)
      rw [Rat.intCast_natCast]
      generalize (2 : Rat) ^ ((j : Int) + f.q0) = u at *
      grind
    rw [hd, halfEven_int]
    have : ((j : Int) + f.q0 - f.q0).toNat = j := by omega
    rw [this, Int.toNat_natCast, hb, Nat.min_eq_left (Nat.le_of_lt h)]

/-! ### The two formats -/

theorem inf_single : single.infBits = 255 * 2 ^ 23 := by decide
theorem inf_double : double.infBits = 2047 * 2 ^ 52 := by decide

theorem encodeMag_le (f : Format) (x : Rat) : encodeMag f x ≤ f.infBits := by
  unfold encodeMag
  split
  · exact Nat.zero_le _
  · exact Nat.min_le_right _ _

theorem top_single : 2 ^ (single.p - 1 + single.ew) = 2 ^ 31 := by decide
theorem top_double : 2 ^ (double.p - 1 + double.ew) = 2 ^ 63 := by decide

theorem m1 (x : Rat) : -1 * x = -x := by grind

theorem decode_value32 (w : UInt32) : (decode single w.toNat).value = value32 w := by
  have hw := w.toNat_lt
  unfold decode value32
  simp only
  rw [top_single, inf_single]
  generalize w.toNat = n at *
  have e1 : n / 2 ^ 23 % 2 ^ 8 = (n % 2 ^ 31) / 2 ^ 23 := by omega
  have e2 : n % 2 ^ 23 = (n % 2 ^ 31) % 2 ^ 23 := by omega
  have e3 : (n / 2 ^ 31 % 2 = 1) ↔ 2 ^ 31 ≤ n := by omega
  have hb : n % 2 ^ 31 < 2 ^ 31 := by omega
  rw [e1, e2]
  simp only [e3]
  generalize n % 2 ^ 31 = b at *
  by_cases h1 : b < 255 * 2 ^ 23
  · rw [if_pos h1, if_neg (by omega)]
    unfold decodeMag
    show some (if decide (2 ^ 31 ≤ n) = true then
      -(if b < 2 ^ 23 then (b : Rat) * 2 ^ (-149 : Int) else ((2 ^ 23 + b % 2 ^ 23 : Nat) : Rat) * 2 ^ (((b / 2 ^ 23 : Nat) : Int) - 1 + -149))
      else (if b < 2 ^ 23 then (b : Rat) * 2 ^ (-149 : Int) else ((2 ^ 23 + b % 2 ^ 23 : Nat) : Rat) * 2 ^ (((b / 2 ^ 23 : Nat) : Int) - 1 + -149))) = _
    have e4 : ((b / 2 ^ 23 : Nat) : Int) - 1 + -149 = ((b / 2 ^ 23 : Nat) : Int) - 150 := by omega
    rw [e4]
    by_cases h2 : b < 2 ^ 23
    · have h3 : b / 2 ^ 23 = 0 := by omega
      have h4 : b % 2 ^ 23 = b := by omega
      rw [if_pos h2, if_pos h3, h4]
      by_cases hs : 2 ^ 31 ≤ n
      · rw [if_pos (by simpa using hs), if_pos hs, m1]
      · rw [if_neg (by simpa using hs), if_neg hs, Rat.one_mul]
    · have h3 : ¬ b / 2 ^ 23 = 0 := by omega
      rw [if_neg h2, if_neg h3]
      by_cases hs : 2 ^ 31 ≤ n
      · rw [if_pos (by simpa using hs), if_pos hs, m1]
      · rw [if_neg (by simpa using hs), if_neg hs, Rat.one_mul]
  · rw [if_neg h1, if_pos (show b / 2 ^ 23 = 255 by omega)]
    split <;> rfl

theorem decode_value64 (lo hi : UInt32) :
    (decode double (hi.toNat * 2 ^ 32 + lo.toNat)).value = value64 lo hi := by
  have hw : hi.toNat * 2 ^ 32 + lo.toNat < 2 ^ 64 := by
    have := lo.toNat_lt
    have := hi.toNat_lt
    omega
  unfold decode value64
  simp only
  rw [top_double, inf_double]
  generalize hi.toNat * 2 ^ 32 + lo.toNat = n at *
  have e1 : n / 2 ^ 52 % 2 ^ 11 = (n % 2 ^ 63) / 2 ^ 52 := by omega
  have e2 : n % 2 ^ 52 = (n % 2 ^ 63) % 2 ^ 52 := by omega
  have e3 : (n / 2 ^ 63 % 2 = 1) ↔ 2 ^ 63 ≤ n := by omega
  have hb : n % 2 ^ 63 < 2 ^ 63 := by omega
  rw [e1, e2]
  simp only [e3]
  generalize n % 2 ^ 63 = b at *
  by_cases h1 : b < 2047 * 2 ^ 52
  · rw [if_pos h1, if_neg (by omega)]
    unfold decodeMag
    show some (if decide (2 ^ 63 ≤ n) = true then
      -(if b < 2 ^ 52 then (b : Rat) * 2 ^ (-1074 : Int) else ((2 ^ 52 + b % 2 ^ 52 : Nat) : Rat) * 2 ^ (((b / 2 ^ 52 : Nat) : Int) - 1 + -1074))
      else (if b < 2 ^ 52 then (b : Rat) * 2 ^ (-1074 : Int) else ((2 ^ 52 + b % 2 ^ 52 : Nat) : Rat) * 2 ^ (((b / 2 ^ 52 : Nat) : Int) - 1 + -1074))) = _
    have e4 : ((b / 2 ^ 52 : Nat) : Int) - 1 + -1074 = ((b / 2 ^ 52 : Nat) : Int) - 1075 := by omega
    rw [e4]
    by_cases h2 : b < 2 ^ 52
    · have h3 : b / 2 ^ 52 = 0 := by omega
      have h4 : b % 2 ^ 52 = b := by omega
      rw [if_pos h2, if_pos h3, h4]
      by_cases hs : 2 ^ 63 ≤ n
      · rw [if_pos (by simpa using hs), if_pos hs, m1]
      · rw [if_neg (by simpa using hs), if_neg hs, Rat.one_mul]
    · have h3 : ¬ b / 2 ^ 52 = 0 := by omega
      rw [if_neg h2, if_neg h3]
      by_cases hs : 2 ^ 63 ≤ n
      · rw [if_pos (by simpa using hs), if_pos hs, m1]
      · rw [if_neg (by simpa using hs), if_neg hs, Rat.one_mul]
  · rw [if_neg h1, if_pos (show b / 2 ^ 52 = 2047 by omega)]
    split <;> rfl

theorem decode_encode (f : Format) (neg : Bool) (x : Rat) (hi : f.infBits < 2 ^ (f.p - 1 + f.ew))
    (h : encodeMag f x < f.infBits) :
    decode f (encode f (.fin neg x)) = .fin neg (decodeMag f (encodeMag f x)) := by
  unfold decode encode
  simp only
  generalize 2 ^ (f.p - 1 + f.ew) = T at *
  have e1 : ((if neg = true then T else 0) + encodeMag f x) % T = encodeMag f x := by
    cases neg
    · rw [if_neg (by decide), Nat.zero_add, Nat.mod_eq_of_lt (by omega)]
    · rw [if_pos rfl, Nat.add_mod_left, Nat.mod_eq_of_lt (by omega)]
  have e2 : decide (((if neg = true then T else 0) + encodeMag f x) / T % 2 = 1) = neg := by
    cases neg
    · rw [if_neg (by decide), Nat.zero_add, Nat.div_eq_of_lt (by omega)]
      rfl
    · rw [if_pos rfl, Nat.add_div_left _ (by omega), Nat.div_eq_of_lt (by omega)]
      rfl
  rw [e1, e2, if_pos h]

/-! ### Loops -/

/-- Sample `j` is read from word `j` on. -/
def Local (get : List UInt32 → Nat → Res (Option UInt32)) : Prop :=
  ∀ d d' j, (∀ i, j ≤ i → d'[i]? = d[i]?) → get d' j = get d j

theorem loop_spec (get : List UInt32 → Nat → Res (Option UInt32)) (hl : Local get) (n idx : Nat)
    (d : List UInt32) (hlen : idx + n ≤ d.length)
    (h : ∀ j, idx ≤ j → j < idx + n → ∃ o, get d j = .ok o) :
    ∃ b d', loop get n idx d = .ok (b, d') ∧ d'.length = d.length ∧
      (b = true → (∀ j, idx ≤ j → j < idx + n → ∃ w, get d j = .ok (some w) ∧ d'[j]? = some w)) ∧
      (∀ j, (j < idx ∨ idx + n ≤ j) → d'[j]? = d[j]?) ∧
      (b = false → ∃ j, idx ≤ j ∧ j < idx + n ∧ get d j = .ok none) := by
  induction n generalizing idx d with
  | zero =>
    exact ⟨true, d, rfl, rfl, fun _ j h1 h2 => by omega, fun j _ => rfl, fun h => by cases h⟩
  | succ n ih =>
    obtain ⟨o, ho⟩ := h idx (by omega) (by omega)
    rw [loop, ho, bind_ok]
    cases o with
    | none =>
      exact ⟨false, d, rfl, rfl, fun h => (by cases h), fun j _ => rfl, fun _ => ⟨idx, by omega, by omega, ho⟩⟩
    | some w =>
      simp only
      have hloc : ∀ j, idx + 1 ≤ j → get (d.set idx w) j = get d j := by
        intro j hj
        apply hl
        intro i hi
        rw [List.getElem?_set_ne (by omega)]
      obtain ⟨b, d', e1, e2, e3, e4, e5⟩ := ih (idx + 1) (d.set idx w) (by rw [List.length_set]; omega)
        (fun j h1 h2 => by rw [hloc j h1]; exact h j (by omega) (by omega))
      refine ⟨b, d', e1, by rw [e2, List.length_set], ?_, ?_, ?_⟩
      · intro hb j h1 h2
        by_cases hj : j = idx
        · subst hj
          refine ⟨w, ho, ?_⟩
          rw [e4 j (Or.inl (by omega)), List.getElem?_set_self (by omega)]
        · obtain ⟨w', a1, a2⟩ := e3 hb j (by omega) (by omega)
          rw [hloc j (by omega)] at a1
          exact ⟨w', a1, a2⟩
      · intro j hj
        rw [e4 j (by omega), List.getElem?_set_ne (by omega)]
      · intro hb
        obtain ⟨j, a1, a2, a3⟩ := e5 hb
        rw [hloc j a1] at a3
        exact ⟨j, by omega, by omega, a3⟩

theorem word_ok {d : List UInt32} {i : Nat} (h : i < d.length) : word d i = .ok d[i] := by
  unfold word
  rw [List.getElem?_eq_getElem h]

theorem doubleOf_length (x : Fl) : (doubleOf x).length = 2 := rfl

theorem widen_spec (get : List UInt32 → Nat → Res Fl) (d : List UInt32) (n idx : Nat) (v : Nat → Fl)
    (h : ∀ j, idx ≤ j → j < idx + n → get d j = .ok (v j)) :
    ∃ r, widen get d n idx = .ok r ∧ r.length = 2 * n ∧
      ∀ j, j < n → r[2 * j]? = (doubleOf (v (idx + j)))[0]? ∧ r[2 * j + 1]? = (doubleOf (v (idx + j)))[1]? := by
  induction n generalizing idx with
  | zero => exact ⟨[], rfl, rfl, fun j hj => by omega⟩
  | succ n ih =>
    obtain ⟨r, e1, e2, e3⟩ := ih (idx + 1) (fun j h1 h2 => h j (by omega) (by omega))
    refine ⟨doubleOf (v idx) ++ r, ?_, ?_, ?_⟩
    · rw [widen, h idx (by omega) (by omega), bind_ok, e1, bind_ok]
    · rw [List.length_append, doubleOf_length, e2]; omega
    · intro j hj
      cases j with
      | zero => exact ⟨rfl, rfl⟩
      | succ j =>
        obtain ⟨a1, a2⟩ := e3 j (by omega)
        rw [List.getElem?_append_right (by rw [doubleOf_length]; omega),
          List.getElem?_append_right (by rw [doubleOf_length]; omega), doubleOf_length]
        have x1 : 2 * (j + 1) - 2 = 2 * j := by omega
        have x2 : 2 * (j + 1) + 1 - 2 = 2 * j + 1 := by omega
        have x3 : idx + (j + 1) = idx + 1 + j := by omega
        rw [x1, x2, x3]
        exact ⟨a1, a2⟩

end Verif.Proof.Convert
