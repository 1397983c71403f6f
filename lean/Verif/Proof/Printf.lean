import Verif.Model.Printf
import Verif.Spec.Decimal
import Verif.Proof.TimeStrRead
/-!
# Lemmas on numbers written by `printf`
-/
namespace Verif.Proof.Printf
open Verif.Model.Printf Verif.Spec.Decimal Verif.Spec.TimeStr Verif.Model.TimeStr Verif.Proof.TimeStr

theorem halfEven_near {x : Rat} (h : 0 ≤ x) : (halfEven x : Rat) - x ≤ 1 / 2 ∧ x - halfEven x ≤ 1 / 2 := by
  have h1 := Rat.floor_le x
  have h2 := Rat.lt_floor_add_one x
  have h0 : 0 ≤ x.floor := Rat.le_floor_iff.2 (by simpa using h)
  have e : ((x.floor.toNat : Nat) : Rat) = (x.floor : Rat) := by
    rw [← Rat.intCast_natCast, Int.toNat_of_nonneg h0]
  have h3 : ((x.floor + 1 : Int) : Rat) = (x.floor : Rat) + 1 := by rw [Rat.intCast_add]; rfl
  unfold halfEven
  simp only
  rw [e]
  have e' : ((x.floor.toNat + 1 : Nat) : Rat) = (x.floor : Rat) + 1 := by
    rw [Rat.natCast_add, e]; rfl
  split
  · rw [e]; grind
  · split
    · rw [e']; grind
    · split
      · rw [e]; grind
      · rw [e']; grind

theorem halfEven_nat (n : Nat) : halfEven (n : Rat) = n := by
  have e : (n : Rat).floor = n := by
    rw [← Rat.intCast_natCast, Rat.floor_intCast]
  unfold halfEven
  simp only [e, Int.toNat_natCast]
  rw [if_pos (by rw [Rat.sub_self]; grind)]

theorem halfEven_le {x : Rat} {n : Nat} (h : x ≤ n) (h0 : 0 ≤ x) : halfEven x ≤ n := by
  have h1 := (halfEven_near h0).1
  have : (halfEven x : Rat) < ((n + 1 : Nat) : Rat) := by
    rw [Rat.natCast_add]
    have e : ((1 : Nat) : Rat) = 1 := rfl
    grind
  have := Rat.natCast_lt_natCast.1 this
  omega

theorem halfEven_ge {x : Rat} {n : Nat} (h : (n : Rat) ≤ x) : n ≤ halfEven x := by
  have hn : (0 : Rat) ≤ n := by exact_mod_cast Nat.zero_le n
  have h1 := (halfEven_near (x := x) (by grind)).2
  have : (n : Rat) < ((halfEven x + 1 : Nat) : Rat) := by
    rw [Rat.natCast_add]
    have e : ((1 : Nat) : Rat) = 1 := rfl
    grind
  have := Rat.natCast_lt_natCast.1 this
  omega

theorem le_div {a b c : Rat} (hc : 0 < c) : a ≤ b / c ↔ a * c ≤ b := by
  rw [← Rat.not_lt, ← Rat.not_lt, Rat.div_lt_iff hc]

/-! ## Powers of ten -/

theorem ten_ne : (10 : Rat) ≠ 0 := by grind
theorem ten_pos : (0 : Rat) < 10 := by grind

theorem zadd (m n : Int) : (10 : Rat) ^ (m + n) = 10 ^ m * 10 ^ n := Rat.zpow_add ten_ne m n

theorem zpos (n : Int) : (0 : Rat) < 10 ^ n := Rat.zpow_pos ten_pos

theorem npos (n : Nat) : (0 : Rat) < 10 ^ n := Rat.pow_pos ten_pos

theorem znat (n : Nat) : (10 : Rat) ^ (n : Int) = 10 ^ n := Rat.zpow_natCast _ _

theorem cast_pow (n : Nat) : ((10 ^ n : Nat) : Rat) = 10 ^ n := by rw [Rat.natCast_pow]; rfl

theorem zle_one {n : Int} (h : 0 ≤ n) : (1 : Rat) ≤ 10 ^ n := by
  obtain ⟨k, rfl⟩ := Int.eq_ofNat_of_zero_le h
  rw [znat, ← cast_pow]
  have : 1 ≤ 10 ^ k := Nat.pow_pos (by decide)
  exact_mod_cast this

theorem zmono {m n : Int} (h : m ≤ n) : (10 : Rat) ^ m ≤ 10 ^ n := by
  have e : n = m + (n - m) := by omega
  rw [e, zadd]
  have h1 := zle_one (n := n - m) (by omega)
  have h2 := zpos m
  have := Rat.mul_le_mul_of_nonneg_left h1 (Rat.le_of_lt h2)
  rw [Rat.mul_one] at this
  exact this

/-! ## Digits -/

theorem numeral_print0 (p n : Nat) (hp : 0 < p) (h : n < 10 ^ p) : Numeral (print0 p (n : Nat)) n := by
  rw [print0_dec p n hp (by omega) (by simpa using h)]
  exact dec_numeral p _ hp (by simpa using h)

theorem print0_length (p n : Nat) (hp : 0 < p) (h : n < 10 ^ p) : (print0 p (n : Nat)).length = p := by
  rw [print0_dec p n hp (by omega) (by simpa using h), dec_length]

theorem digits_two (n : Nat) : Numeral (print0 2 (n : Nat)) n := by
  have hn := numeral_toDigits n
  unfold print0
  rw [if_neg (by omega)]
  simp only [Int.toNat_natCast]
  refine ⟨by simp [Nat.toDigits_ne_nil], ?_, ?_⟩
  · intro c hc
    rcases List.mem_append.1 hc with hc | hc
    · rw [List.eq_of_mem_replicate hc]; decide
    · exact hn.2.1 c hc
  · have : ∀ (k : Nat) (s : List Char), value (List.replicate k '0' ++ s) = value s := by
      intro k s
      induction k with
      | zero => rfl
      | succ k ih => rw [List.replicate_succ, List.cons_append]; exact ih
    rw [this]
    exact hn.2.2

/-- Zeros at the end of a fraction. -/
theorem trim_value (s : List Char) (hs : ∀ c ∈ s, Digit c) :
    let f := (s.reverse.dropWhile (· = '0')).reverse
    (∀ c ∈ f, Digit c) ∧ f.length ≤ s.length ∧
      (value f : Rat) / 10 ^ f.length = (value s : Rat) / 10 ^ s.length := by
  suffices h : ∀ (r : List Char), (∀ c ∈ r, Digit c) →
      let f := (r.dropWhile (· = '0')).reverse
      (∀ c ∈ f, Digit c) ∧ f.length ≤ r.length ∧
        (value f : Rat) / 10 ^ f.length = (value r.reverse : Rat) / 10 ^ r.length by
    have := h s.reverse (by simpa using hs)
    simpa using this
  intro r
  induction r with
  | nil => intro _; exact ⟨by simp, by simp, rfl⟩
  | cons c t ih =>
    intro hc
    by_cases h0 : c = '0'
    · have ht := ih fun x hx => hc x (List.mem_cons_of_mem _ hx)
      rw [List.dropWhile_cons, if_pos (by simpa using h0)]
      refine ⟨ht.1, Nat.le_trans ht.2.1 (by simp), ?_⟩
      refine ht.2.2.trans ?_
      rw [List.reverse_cons, value_append, h0]
      have e1 : (('0' : Char).toNat - 48) = 0 := rfl
      rw [e1, Nat.add_zero, Rat.natCast_mul, List.length_cons, Rat.pow_succ]
      have := npos t.length
      have e2 : ((10 : Nat) : Rat) = 10 := rfl
      rw [e2]
      generalize (10 : Rat) ^ t.length = q at *
      generalize (value t.reverse : Rat) = v at *
      grind
    · rw [List.dropWhile_cons, if_neg (by simpa using h0)]
      exact ⟨fun x hx => hc x (List.mem_reverse.1 hx), by simp, by simp⟩

theorem div_mod_cast (n d : Nat) :
    ((n / 10 ^ d : Nat) : Rat) + ((n % 10 ^ d : Nat) : Rat) / 10 ^ d = (n : Rat) / 10 ^ d := by
  have h := Nat.div_add_mod n (10 ^ d)
  have h' : ((10 ^ d * (n / 10 ^ d) + n % 10 ^ d : Nat) : Rat) = n := by rw [h]
  rw [Rat.natCast_add, Rat.natCast_mul, cast_pow] at h'
  have := npos d
  rw [← h']
  grind

theorem trimmed_plain (n d : Nat) : Plain (trimmed n d) ((n : Rat) / 10 ^ d) := by
  unfold trimmed
  by_cases hd : d = 0
  · subst hd
    simp only [if_true, Nat.pow_zero, Nat.div_one, Rat.pow_zero]
    rw [List.append_nil, show (n : Rat) / 1 = n by grind]
    exact Plain.whole (numeral_toDigits n)
  · simp only [if_neg hd]
    have hlt : n % 10 ^ d < 10 ^ d := Nat.mod_lt _ (Nat.pow_pos (by decide))
    have hn := numeral_print0 d (n % 10 ^ d) (by omega) hlt
    have hl := print0_length d (n % 10 ^ d) (by omega) hlt
    have ht := trim_value _ hn.2.1
    simp only at ht
    rw [hn.2.2, hl] at ht
    rw [← div_mod_cast, ← ht.2.2]
    generalize ((print0 d (n % 10 ^ d : Nat)).reverse.dropWhile (· = '0')).reverse = f at *
    by_cases hf : f = []
    · subst hf
      rw [if_pos rfl, List.append_nil]
      have e : ((n / 10 ^ d : Nat) : Rat) + ((value [] : Nat) : Rat) / 10 ^ ([] : List Char).length
          = ((n / 10 ^ d : Nat) : Rat) := by
        have : ((value [] : Nat) : Rat) = 0 := rfl
        rw [this, show (0 : Rat) / _ = 0 by rw [Rat.div_def, Rat.zero_mul], Rat.add_zero]
      rw [e]
      exact Plain.whole (numeral_toDigits _)
    · rw [if_neg hf]
      exact Plain.point (numeral_toDigits _) ⟨hf, ht.1, rfl⟩

theorem minus_writes {s : List Char} {x y : Rat} (h : Positive s y) :
    Writes (minus x ++ s) (if x < 0 then -y else y) := by
  unfold minus
  split
  · exact Writes.neg h
  · exact Writes.pos h

/-- The number written by `%.<p>f`. -/
theorem fixed_writes (p : Nat) (hp : 0 < p) (x : Rat) :
    ∃ y, Writes (fixed p x) y ∧ y - x ≤ 1 / 2 / 10 ^ p ∧ x - y ≤ 1 / 2 / 10 ^ p := by
  have habs := Rat.abs_nonneg (x := x)
  have hp10 := npos p
  have hnear := halfEven_near (x := x.abs * 10 ^ p) (Rat.mul_nonneg habs (Rat.le_of_lt hp10))
  generalize hn : halfEven (x.abs * 10 ^ p) = n at hnear
  refine ⟨if x < 0 then -((n : Rat) / 10 ^ p) else (n : Rat) / 10 ^ p, ?_, ?_⟩
  · unfold fixed
    simp only [hn]
    rw [List.append_assoc]
    refine minus_writes (Positive.plain ?_)
    have hlt : n % 10 ^ p < 10 ^ p := Nat.mod_lt _ (Nat.pow_pos (by decide))
    have hm := numeral_print0 p (n % 10 ^ p) hp hlt
    have := Plain.point (numeral_toDigits (n / 10 ^ p)) hm
    rw [print0_length p _ hp hlt, div_mod_cast] at this
    exact this
  · have e : (n : Rat) = (n : Rat) / 10 ^ p * 10 ^ p := by
      rw [Rat.div_mul_cancel (Rat.ne_of_gt hp10)]
    have h1 : (n : Rat) / 10 ^ p - x.abs ≤ 1 / 2 / 10 ^ p := by
      rw [le_div hp10]
      grind
    have h2 : x.abs - (n : Rat) / 10 ^ p ≤ 1 / 2 / 10 ^ p := by
      rw [le_div hp10]
      grind
    by_cases hx : x < 0
    · rw [if_pos hx]
      rw [Rat.abs_of_nonpos (Rat.le_of_lt hx)] at h1 h2
      grind
    · rw [if_neg hx]
      rw [Rat.abs_of_nonneg (by grind)] at h1 h2
      grind

/-! ## Scientific notation -/

theorem toDigits_bounds (n : Nat) (h : 0 < n) :
    10 ^ ((Nat.toDigits 10 n).length - 1) ≤ n ∧ n < 10 ^ (Nat.toDigits 10 n).length := by
  have hl := Nat.length_toDigits_pos (b := 10) (n := n)
  constructor
  · by_cases h1 : (Nat.toDigits 10 n).length = 1
    · rw [h1]; exact h
    · have := mt (Nat.length_toDigits_le_iff (n := n) (b := 10) (k := (Nat.toDigits 10 n).length - 1)
        (by decide) (by omega)).2 (by omega)
      omega
  · exact (Nat.length_toDigits_le_iff (by decide) hl).1 (Nat.le_refl _)

theorem magnitude_spec {x : Rat} (h : 0 < x) : 10 ^ magnitude x ≤ x ∧ x < 10 ^ (magnitude x + 1) := by
  have hnum : 0 < x.num := by
    have h1 := Rat.num_nonneg.2 (Rat.le_of_lt h)
    have h2 : x.num ≠ 0 := fun e => Rat.ne_of_gt h (Rat.num_eq_zero.1 e)
    omega
  have hden : 0 < x.den := x.den_pos
  have hn := toDigits_bounds x.num.toNat (by omega)
  have hd := toDigits_bounds x.den hden
  have ln := Nat.length_toDigits_pos (b := 10) (n := x.num.toNat)
  have ld := Nat.length_toDigits_pos (b := 10) (n := x.den)
  have ex : x = (x.num.toNat : Rat) / (x.den : Rat) := by
    have e : ((x.num.toNat : Nat) : Rat) = (x.num : Rat) := by
      rw [← Rat.intCast_natCast, Int.toNat_of_nonneg (by omega)]
    rw [e]
    rw [← Rat.intCast_natCast, ← Rat.divInt_eq_div]
    exact (Rat.num_divInt_den x).symm
  unfold magnitude
  generalize (Nat.toDigits 10 x.num.toNat).length = a at *
  generalize (Nat.toDigits 10 x.den).length = b at *
  have n1 : (10 : Rat) ^ ((a : Int) - 1) ≤ (x.num.toNat : Rat) := by
    have e : (a : Int) - 1 = ((a - 1 : Nat) : Int) := by omega
    rw [e, znat, ← cast_pow]; exact_mod_cast hn.1
  have n2 : (x.num.toNat : Rat) < 10 ^ (a : Int) := by
    rw [znat, ← cast_pow]; exact_mod_cast hn.2
  have d1 : (10 : Rat) ^ ((b : Int) - 1) ≤ (x.den : Rat) := by
    have e : (b : Int) - 1 = ((b - 1 : Nat) : Int) := by omega
    rw [e, znat, ← cast_pow]; exact_mod_cast hd.1
  have d2 : (x.den : Rat) < 10 ^ (b : Int) := by
    rw [znat, ← cast_pow]; exact_mod_cast hd.2
  have dp : (0 : Rat) < (x.den : Rat) := by exact_mod_cast hden
  have lower : (10 : Rat) ^ ((a : Int) - b - 1) ≤ x := by
    rw [ex, le_div dp]
    have e : (a : Int) - 1 = ((a : Int) - b - 1) + b := by omega
    rw [e, zadd] at n1
    have := Rat.mul_le_mul_of_nonneg_left (Rat.le_of_lt d2) (Rat.le_of_lt (zpos ((a : Int) - b - 1)))
    exact Rat.le_trans this n1
  have upper : x < (10 : Rat) ^ ((a : Int) - b + 1) := by
    rw [ex, Rat.div_lt_iff dp]
    have e : (a : Int) = ((a : Int) - b + 1) + (b - 1) := by omega
    rw [e, zadd] at n2
    have := Rat.mul_le_mul_of_nonneg_left d1 (Rat.le_of_lt (zpos ((a : Int) - b + 1)))
    exact Std.lt_of_lt_of_le n2 this
  simp only
  split
  · exact ⟨by assumption, upper⟩
  · rename_i hk
    refine ⟨lower, ?_⟩
    have e : (a : Int) - b - 1 + 1 = a - b := by omega
    rw [e]
    exact Rat.not_le.1 hk

/-- The digits of scientific notation: `p` of them, and the number they make with the exponent. -/
theorem scientific_spec {p : Nat} (hp : 0 < p) {x : Rat} (h : 0 < x) :
    10 ^ (p - 1) ≤ (scientific p x).1 ∧ (scientific p x).1 < 10 ^ p ∧
      ((scientific p x).1 : Rat) * 10 ^ ((scientific p x).2 - (p - 1))
        = (halfEven (x * 10 ^ (p - 1 - magnitude x : Int)) : Rat) * 10 ^ (magnitude x - (p - 1)) := by
  have hm := magnitude_spec h
  have lo : ((10 ^ (p - 1) : Nat) : Rat) ≤ x * 10 ^ (p - 1 - magnitude x : Int) := by
    rw [cast_pow, ← znat]
    have e : ((p - 1 : Nat) : Int) = magnitude x + (p - 1 - magnitude x : Int) := by omega
    rw [e, zadd]
    exact Rat.mul_le_mul_of_nonneg_right hm.1 (Rat.le_of_lt (zpos _))
  have hi : x * 10 ^ (p - 1 - magnitude x : Int) ≤ ((10 ^ p : Nat) : Rat) := by
    rw [cast_pow, ← znat]
    have e : ((p : Nat) : Int) = (magnitude x + 1) + (p - 1 - magnitude x : Int) := by omega
    rw [e, zadd]
    have e2 : (magnitude x + 1 + (p - 1 - magnitude x : Int) - 1 - magnitude x) = (p - 1 - magnitude x : Int) := by
      omega
    rw [e2]
    exact Rat.mul_le_mul_of_nonneg_right (Rat.le_of_lt hm.2) (Rat.le_of_lt (zpos _))
  have h0 : 0 ≤ x * 10 ^ (p - 1 - magnitude x : Int) := Rat.mul_nonneg (Rat.le_of_lt h) (Rat.le_of_lt (zpos _))
  have l := halfEven_ge lo
  have u := halfEven_le hi h0
  unfold scientific
  simp only
  split
  · rename_i he
    refine ⟨Nat.le_refl _, Nat.pow_lt_pow_right (by decide) (by omega), ?_⟩
    rw [he]
    simp only
    rw [cast_pow, cast_pow, ← znat, ← znat, ← zadd, ← zadd]
    congr 1
    omega
  · exact ⟨l, by omega, rfl⟩

theorem general_writes (p : Nat) (hp : 0 < p) (x : Rat) (hx : x ≠ 0) :
    Writes (general p x) (if x < 0 then
        -((halfEven (x.abs * 10 ^ (p - 1 - magnitude x.abs : Int)) : Rat) * 10 ^ (magnitude x.abs - (p - 1)))
      else (halfEven (x.abs * 10 ^ (p - 1 - magnitude x.abs : Int)) : Rat) * 10 ^ (magnitude x.abs - (p - 1))) := by
  have hpos : 0 < x.abs := Rat.abs_pos_iff.2 hx
  obtain ⟨_, _, e⟩ := scientific_spec hp hpos
  rw [← e]
  unfold general
  rw [if_neg hx]
  simp only
  generalize (scientific p x.abs).1 = n at *
  generalize (scientific p x.abs).2 = k at *
  refine minus_writes ?_
  split
  · rename_i h
    refine Positive.plain ?_
    have := trimmed_plain n (p - 1 - k).toNat
    have e2 : (n : Rat) / 10 ^ (p - 1 - k).toNat = (n : Rat) * 10 ^ (k - (p - 1)) := by
      rw [Rat.div_def, ← znat, ← Rat.zpow_neg]
      congr 2
      omega
    rw [e2] at this
    exact this
  · have hpl := trimmed_plain n (p - 1)
    have e3 : (n : Rat) / 10 ^ (p - 1) = (n : Rat) * 10 ^ (-(p - 1) : Int) := by
      rw [Rat.div_def, ← znat, ← Rat.zpow_neg]
      congr 2
      omega
    have e4 : k - (p - 1 : Int) = -(p - 1 : Int) + k := by omega
    rw [e4, zadd, ← Rat.mul_assoc, ← e3]
    split
    · have := Positive.down hpl (digits_two k.natAbs)
      have e6 : (n : Rat) / 10 ^ (p - 1) / 10 ^ k.natAbs = (n : Rat) / 10 ^ (p - 1) * 10 ^ k := by
        rw [Rat.div_def ((n : Rat) / 10 ^ (p - 1)), ← znat k.natAbs, ← Rat.zpow_neg,
          show -((k.natAbs : Nat) : Int) = k by omega]
      rw [e6] at this
      exact this
    · have := Positive.up hpl (digits_two k.natAbs)
      have e6 : (n : Rat) / 10 ^ (p - 1) * 10 ^ k.natAbs = (n : Rat) / 10 ^ (p - 1) * 10 ^ k := by
        rw [← znat k.natAbs, show ((k.natAbs : Nat) : Int) = k by omega]
      rw [e6] at this
      exact this

theorem sub_mul (a b c : Rat) : (a - b) * c = a * c - b * c := by grind

theorem zmul_neg (k : Int) : (10 : Rat) ^ k * 10 ^ (-k) = 1 := by
  rw [← zadd, show k + -k = 0 by omega]
  exact Rat.zpow_zero _

/-- The number written by `%.<p>g` is the value to `p` digits. -/
theorem general_near (p : Nat) (hp : 0 < p) (x : Rat) :
    ∃ y, Writes (general p x) y ∧ (y - x).abs ≤ x.abs * (1 / 2 / 10 ^ (p - 1)) := by
  by_cases hx : x = 0
  · subst hx
    refine ⟨((0 : Nat) : Rat), ?_, ?_⟩
    · show Writes (general p 0) _
      unfold general
      rw [if_pos rfl]
      exact Writes.pos (Positive.plain (Plain.whole ⟨by decide, by decide, by decide⟩))
    · rw [Rat.abs_zero, Rat.zero_mul]
      show (0 - 0 : Rat).abs ≤ 0
      decide +kernel
  · refine ⟨_, general_writes p hp x hx, ?_⟩
    have hpos : 0 < x.abs := Rat.abs_pos_iff.2 hx
    have hm := (magnitude_spec hpos).1
    have hz := zpos (p - 1 - magnitude x.abs : Int)
    have hz' := zpos (magnitude x.abs - (p - 1) : Int)
    have hn := halfEven_near (x := x.abs * 10 ^ (p - 1 - magnitude x.abs : Int))
      (Rat.mul_nonneg (Rat.le_of_lt hpos) (Rat.le_of_lt hz))
    have hone : (10 : Rat) ^ (p - 1 - magnitude x.abs : Int) * 10 ^ (magnitude x.abs - (p - 1) : Int) = 1 := by
      have := zmul_neg (p - 1 - magnitude x.abs : Int)
      rw [show (-(p - 1 - magnitude x.abs : Int)) = magnitude x.abs - (p - 1) by omega] at this
      exact this
    -- half a unit of the last digit
    have hu : 1 / 2 * (10 : Rat) ^ (magnitude x.abs - (p - 1) : Int) ≤ x.abs * (1 / 2 / 10 ^ (p - 1)) := by
      have e : (10 : Rat) ^ (magnitude x.abs - (p - 1) : Int) = 10 ^ magnitude x.abs * (10 ^ (p - 1))⁻¹ := by
        rw [show (magnitude x.abs - (p - 1) : Int) = magnitude x.abs + -((p - 1 : Nat) : Int) by omega, zadd,
          Rat.zpow_neg, znat]
      rw [e]
      have hi : (0 : Rat) < (10 ^ (p - 1))⁻¹ := Rat.inv_pos.2 (npos _)
      have := Rat.mul_le_mul_of_nonneg_right hm (Rat.le_of_lt hi)
      rw [Rat.div_def (1 / 2)]
      grind
    have d1 := Rat.mul_le_mul_of_nonneg_right hn.1 (Rat.le_of_lt hz')
    have d2 := Rat.mul_le_mul_of_nonneg_right hn.2 (Rat.le_of_lt hz')
    rw [sub_mul, Rat.mul_assoc, hone, Rat.mul_one] at d1 d2
    generalize (halfEven (x.abs * 10 ^ (p - 1 - magnitude x.abs : Int)) : Rat) *
      10 ^ (magnitude x.abs - (p - 1) : Int) = w at *
    generalize 1 / 2 * (10 : Rat) ^ (magnitude x.abs - (p - 1) : Int) = u at *
    generalize x.abs * (1 / 2 / 10 ^ (p - 1)) = v at *
    have key : ∀ z : Rat, z ≤ v → -z ≤ v → z.abs ≤ v := by
      intro z h1 h2
      by_cases h : 0 ≤ z
      · rw [Rat.abs_of_nonneg h]; exact h1
      · rw [Rat.abs_of_nonpos (by grind)]; exact h2
    by_cases hx0 : x < 0
    · rw [if_pos hx0]
      rw [Rat.abs_of_nonpos (Rat.le_of_lt hx0)] at d1 d2
      exact key _ (by grind) (by grind)
    · rw [if_neg hx0]
      rw [Rat.abs_of_nonneg (by grind)] at d1 d2
      exact key _ (by grind) (by grind)

theorem abs_cases (x : Rat) : x = if x < 0 then -x.abs else x.abs := by
  split
  · rename_i h
    rw [Rat.abs_of_nonpos (Rat.le_of_lt h), Rat.neg_neg]
  · rename_i h
    rw [Rat.abs_of_nonneg (Rat.not_lt.1 h)]

/-- A value of at most `p` digits is written by `%.<p>g` as it is. -/
theorem general_exact (p : Nat) (hp : 0 < p) (x : Rat) (h : HasDigits p x) : Writes (general p x) x := by
  by_cases hx : x = 0
  · subst hx
    unfold general
    rw [if_pos rfl]
    exact Writes.pos (Positive.plain (Plain.whole ⟨by decide, by decide, by decide⟩))
  · have hw := general_writes p hp x hx
    have hpos : 0 < x.abs := Rat.abs_pos_iff.2 hx
    have hm := (magnitude_spec hpos).1
    obtain ⟨m, k, hlt, e⟩ := h
    have ea : x.abs = (m.natAbs : Rat) * 10 ^ k := by
      have hk := zpos k
      by_cases hm0 : 0 ≤ m
      · have : (0 : Rat) ≤ m := by exact_mod_cast hm0
        rw [e, Rat.abs_of_nonneg (Rat.mul_nonneg this (Rat.le_of_lt hk))]
        have : ((m.natAbs : Nat) : Int) = m := by omega
        rw [← Rat.intCast_natCast, this]
      · have h1 : (0 : Rat) ≤ ((-m : Int) : Rat) := by
          have : 0 ≤ -m := by omega
          exact_mod_cast this
        have h2 : ((m.natAbs : Nat) : Int) = -m := by omega
        have h3 : ((-m : Int) : Rat) = -(m : Rat) := Rat.intCast_neg _
        rw [e, ← Rat.intCast_natCast, h2, h3]
        rw [h3] at h1
        have := Rat.mul_nonneg h1 (Rat.le_of_lt hk)
        rw [Rat.abs_of_nonpos (by grind)]
        grind
    -- the last digit of `x` is not below the last one written
    have hk : magnitude x.abs - (p - 1) ≤ k := by
      refine Int.not_lt.1 fun hlt' => ?_
      have h1 : (10 : Rat) ^ magnitude x.abs < 10 ^ (p : Int) * 10 ^ k := by
        refine Std.lt_of_le_of_lt hm ?_
        rw [ea]
        have : (m.natAbs : Rat) < 10 ^ (p : Int) := by
          rw [znat, ← cast_pow]; exact_mod_cast hlt
        exact Rat.mul_lt_mul_of_pos_right this (zpos k)
      rw [← zadd] at h1
      have h2 := zmono (m := (p : Int) + k) (n := magnitude x.abs) (by omega)
      exact absurd h1 (Rat.not_lt.2 h2)
    have hi : x.abs * 10 ^ (p - 1 - magnitude x.abs : Int)
        = ((m.natAbs * 10 ^ (k - (magnitude x.abs - (p - 1))).toNat : Nat) : Rat) := by
      rw [Rat.natCast_mul, cast_pow, ← znat]
      generalize magnitude x.abs = g at *
      rw [ea, Rat.mul_assoc, ← zadd]
      congr 2
      omega
    have hone : (10 : Rat) ^ (p - 1 - magnitude x.abs : Int) * 10 ^ (magnitude x.abs - (p - 1) : Int) = 1 := by
      have := zmul_neg (p - 1 - magnitude x.abs : Int)
      rw [show (-(p - 1 - magnitude x.abs : Int)) = magnitude x.abs - (p - 1) by omega] at this
      exact this
    have hv : (halfEven (x.abs * 10 ^ (p - 1 - magnitude x.abs : Int)) : Rat) *
        10 ^ (magnitude x.abs - (p - 1) : Int) = x.abs := by
      rw [hi, halfEven_nat, ← hi, Rat.mul_assoc, hone, Rat.mul_one]
    rw [hv, ← abs_cases x] at hw
    exact hw

/-! ## Length and characters -/

/-- The characters of a number. -/
def Inked (c : Char) : Prop := Digit c ∨ c = '-' ∨ c = '+' ∨ c = '.' ∨ c = 'e'

theorem plain_inked {s : List Char} {x : Rat} (h : Plain s x) : s ≠ [] ∧ ∀ c ∈ s, Inked c := by
  cases h with
  | whole hn => exact ⟨hn.1, fun c hc => Or.inl (hn.2.1 c hc)⟩
  | point hn hf =>
    refine ⟨by simp, fun c hc => ?_⟩
    rcases List.mem_append.1 hc with hc | hc
    · exact Or.inl (hn.2.1 c hc)
    · rcases List.mem_cons.1 hc with rfl | hc
      · exact Or.inr (Or.inr (Or.inr (Or.inl rfl)))
      · exact Or.inl (hf.2.1 c hc)

theorem positive_inked {s : List Char} {x : Rat} (h : Positive s x) : s ≠ [] ∧ ∀ c ∈ s, Inked c := by
  cases h with
  | plain hp => exact plain_inked hp
  | up hp hn | down hp hn =>
    refine ⟨by simp, fun c hc => ?_⟩
    rcases List.mem_append.1 hc with hc | hc
    · exact (plain_inked hp).2 c hc
    · rcases List.mem_cons.1 hc with rfl | hc
      · exact Or.inr (Or.inr (Or.inr (Or.inr rfl)))
      · rcases List.mem_cons.1 hc with rfl | hc
        · simp [Inked]
        · exact Or.inl (hn.2.1 c hc)

theorem writes_inked {s : List Char} {x : Rat} (h : Writes s x) : s ≠ [] ∧ ∀ c ∈ s, Inked c := by
  cases h with
  | pos hp => exact positive_inked hp
  | neg hp =>
    refine ⟨by simp, fun c hc => ?_⟩
    rcases List.mem_cons.1 hc with rfl | hc
    · exact Or.inr (Or.inl rfl)
    · exact (positive_inked hp).2 c hc

theorem toDigits_length {n k : Nat} (hk : 0 < k) (h : n < 10 ^ k) : (Nat.toDigits 10 n).length ≤ k :=
  (Nat.length_toDigits_le_iff (by decide) hk).2 h

theorem trimmed_length {n d k : Nat} (hk : 0 < k) (h : n < 10 ^ (d + k)) : (trimmed n d).length ≤ d + k + 1 := by
  unfold trimmed
  have h1 : (Nat.toDigits 10 (n / 10 ^ d)).length ≤ k := by
    refine toDigits_length hk ?_
    rw [Nat.div_lt_iff_lt_mul (Nat.pow_pos (by decide)), ← Nat.pow_add, Nat.add_comm]
    exact h
  by_cases hd : d = 0
  · subst hd
    simp only [if_true, List.length_append, List.length_nil]
    omega
  · simp only [if_neg hd]
    have hlt : n % 10 ^ d < 10 ^ d := Nat.mod_lt _ (Nat.pow_pos (by decide))
    have hl := print0_length d (n % 10 ^ d) (by omega) hlt
    have hn := numeral_print0 d (n % 10 ^ d) (by omega) hlt
    have ht := (trim_value _ hn.2.1).2.1
    rw [hl] at ht
    generalize ((print0 d (n % 10 ^ d : Nat)).reverse.dropWhile (· = '0')).reverse = f at *
    rw [List.length_append]
    split
    · simp only [List.length_nil]; omega
    · simp only [List.length_cons]; omega

/-- `x` is of the size of a `double`. -/
def Sized (x : Rat) : Prop := x = 0 ∨ (10 ^ (-900 : Int) ≤ x.abs ∧ x.abs < 10 ^ (900 : Int))

theorem zlt {m n : Int} (h : (10 : Rat) ^ m < 10 ^ n) : m < n :=
  Int.not_le.1 fun h' => absurd h (Rat.not_lt.2 (zmono h'))

theorem sized_magnitude {x : Rat} (hx : x ≠ 0) (h : Sized x) :
    -900 ≤ magnitude x.abs ∧ magnitude x.abs < 900 := by
  have hm := magnitude_spec (Rat.abs_pos_iff.2 hx)
  rcases h with h | h
  · exact absurd h hx
  · have h1 := zlt (Std.lt_of_le_of_lt h.1 hm.2)
    have h2 := zlt (Std.lt_of_le_of_lt hm.1 h.2)
    omega

theorem minus_length (x : Rat) : (minus x).length ≤ 1 := by
  unfold minus
  split <;> simp

theorem general_length (p : Nat) (hp : 0 < p) (x : Rat) (h : Sized x) : (general p x).length ≤ p + 7 := by
  unfold general
  by_cases hx : x = 0
  · rw [if_pos hx]; simp
  · rw [if_neg hx]
    have hm := sized_magnitude hx h
    obtain ⟨_, hlt, _⟩ := scientific_spec hp (Rat.abs_pos_iff.2 hx)
    have hk : (scientific p x.abs).2 = magnitude x.abs ∨ (scientific p x.abs).2 = magnitude x.abs + 1 := by
      unfold scientific
      simp only
      split
      · exact Or.inr rfl
      · exact Or.inl rfl
    simp only
    generalize (scientific p x.abs).1 = n at *
    generalize (scientific p x.abs).2 = k at *
    have hs := minus_length x
    rw [List.length_append]
    split
    · rename_i hr
      by_cases h0 : 0 ≤ k
      · have := trimmed_length (n := n) (d := (p - 1 - k).toNat) (k := k.toNat + 1) (by omega)
          (by rw [show (p - 1 - k).toNat + (k.toNat + 1) = p by omega]; exact hlt)
        omega
      · have := trimmed_length (n := n) (d := (p - 1 - k).toNat) (k := 1) (by omega)
          (Nat.lt_of_lt_of_le hlt (Nat.pow_le_pow_right (by decide) (by omega)))
        omega
    · have h1 := trimmed_length (n := n) (d := p - 1) (k := 1) (by omega)
          (by rw [show p - 1 + 1 = p by omega]; exact hlt)
      have h2 : (print0 2 (k.natAbs : Nat)).length ≤ 3 := by
        unfold print0
        rw [if_neg (by omega)]
        simp only [Int.toNat_natCast, List.length_append, List.length_replicate]
        have := toDigits_length (n := k.natAbs) (k := 3) (by decide) (by omega)
        omega
      simp only [List.length_append, List.length_cons]
      omega

theorem fixed_length (p k : Nat) (hp : 0 < p) (x : Rat) (hk : 0 < k) (h : x.abs ≤ ((10 ^ k - 1 : Nat) : Rat)) :
    (fixed p x).length ≤ p + k + 2 := by
  unfold fixed
  have h0 : 0 ≤ x.abs * 10 ^ p := Rat.mul_nonneg Rat.abs_nonneg (Rat.le_of_lt (npos p))
  have hn : halfEven (x.abs * 10 ^ p) ≤ (10 ^ k - 1) * 10 ^ p := by
    refine halfEven_le ?_ h0
    rw [Rat.natCast_mul, cast_pow]
    exact Rat.mul_le_mul_of_nonneg_right h (Rat.le_of_lt (npos p))
  generalize halfEven (x.abs * 10 ^ p) = n at *
  have hd : n / 10 ^ p ≤ 10 ^ k - 1 := by
    rw [← Nat.lt_succ_iff, Nat.div_lt_iff_lt_mul (Nat.pow_pos (by decide))]
    refine Nat.lt_of_le_of_lt hn ?_
    exact Nat.mul_lt_mul_of_pos_right (by omega) (Nat.pow_pos (by decide))
  have hpos : 0 < 10 ^ k := Nat.pow_pos (by decide)
  have h1 := toDigits_length (n := n / 10 ^ p) hk (by omega)
  have h2 := print0_length p (n % 10 ^ p) hp (Nat.mod_lt _ (Nat.pow_pos (by decide)))
  have h3 := minus_length x
  simp only [List.length_append, List.length_cons, h2]
  omega

end Verif.Proof.Printf
