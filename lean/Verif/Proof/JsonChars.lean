import Verif.Proof.Json
import Verif.Spec.JsonText
import Verif.Model.JsonText
/-!
# Lemmas about the strings of JSON texts
-/
namespace Verif.Proof.Json
open Verif.Spec.Json Verif.Model.Json Verif.Model.JsonText

theorem byte_eq {n : Nat} {a : UInt8} (h : n = a.toNat) : UInt8.ofNat n = a := by
  rw [h, UInt8.ofNat_toNat]

theorem byte_toNat {n : Nat} (h : n < 256) : (UInt8.ofNat n).toNat = n := by
  rw [UInt8.toNat_ofNat']
  exact Nat.mod_eq_of_lt h

theorem lead2 (a : UInt8) : a &&& 0xE0 = 0xC0 ↔ 192 ≤ a.toNat ∧ a.toNat < 224 :=
  of_decide_eq_true (every_byte (p := fun a => decide (a &&& 0xE0 = 0xC0 ↔ 192 ≤ a.toNat ∧ a.toNat < 224))
    (by decide +kernel) a)
theorem lead2' (a : UInt8) : a &&& 0x1E = 0 ↔ a.toNat % 32 < 2 :=
  of_decide_eq_true (every_byte (p := fun a => decide (a &&& 0x1E = 0 ↔ a.toNat % 32 < 2)) (by decide +kernel) a)
theorem cont (a : UInt8) : a &&& 0xC0 = 0x80 ↔ 128 ≤ a.toNat ∧ a.toNat < 192 :=
  of_decide_eq_true (every_byte (p := fun a => decide (a &&& 0xC0 = 0x80 ↔ 128 ≤ a.toNat ∧ a.toNat < 192))
    (by decide +kernel) a)
theorem lead3 (a : UInt8) : a &&& 0xF0 = 0xE0 ↔ 224 ≤ a.toNat ∧ a.toNat < 240 :=
  of_decide_eq_true (every_byte (p := fun a => decide (a &&& 0xF0 = 0xE0 ↔ 224 ≤ a.toNat ∧ a.toNat < 240))
    (by decide +kernel) a)
theorem low4 (a : UInt8) : a &&& 0x0F = 0 ↔ a.toNat % 16 = 0 :=
  of_decide_eq_true (every_byte (p := fun a => decide (a &&& 0x0F = 0 ↔ a.toNat % 16 = 0)) (by decide +kernel) a)
theorem low4d (a : UInt8) : a &&& 0x0F = 0x0D ↔ a.toNat % 16 = 13 :=
  of_decide_eq_true (every_byte (p := fun a => decide (a &&& 0x0F = 0x0D ↔ a.toNat % 16 = 13)) (by decide +kernel) a)
theorem bit5 (a : UInt8) : a &&& 0x20 = 0 ↔ a.toNat % 64 < 32 :=
  of_decide_eq_true (every_byte (p := fun a => decide (a &&& 0x20 = 0 ↔ a.toNat % 64 < 32)) (by decide +kernel) a)
theorem bit5' (a : UInt8) : a &&& 0x20 = 0x20 ↔ 32 ≤ a.toNat % 64 :=
  of_decide_eq_true (every_byte (p := fun a => decide (a &&& 0x20 = 0x20 ↔ 32 ≤ a.toNat % 64)) (by decide +kernel) a)
theorem lead4 (a : UInt8) : a &&& 0xF8 = 0xF0 ↔ 240 ≤ a.toNat ∧ a.toNat < 248 :=
  of_decide_eq_true (every_byte (p := fun a => decide (a &&& 0xF8 = 0xF0 ↔ 240 ≤ a.toNat ∧ a.toNat < 248))
    (by decide +kernel) a)
theorem low3 (a : UInt8) : a &&& 0x07 = 0 ↔ a.toNat % 8 = 0 :=
  of_decide_eq_true (every_byte (p := fun a => decide (a &&& 0x07 = 0 ↔ a.toNat % 8 = 0)) (by decide +kernel) a)
theorem bits45 (a : UInt8) : a &&& 0x30 = 0 ↔ a.toNat % 64 < 16 :=
  of_decide_eq_true (every_byte (p := fun a => decide (a &&& 0x30 = 0 ↔ a.toNat % 64 < 16)) (by decide +kernel) a)
theorem bit2 (a : UInt8) : a &&& 0x04 = 0 ↔ a.toNat % 8 < 4 :=
  of_decide_eq_true (every_byte (p := fun a => decide (a &&& 0x04 = 0 ↔ a.toNat % 8 < 4)) (by decide +kernel) a)
theorem low2 (a : UInt8) : a &&& 0x03 = 0 ↔ a.toNat % 4 = 0 :=
  of_decide_eq_true (every_byte (p := fun a => decide (a &&& 0x03 = 0 ↔ a.toNat % 4 = 0)) (by decide +kernel) a)

theorem seq2_nat (a b : UInt8) : seq2 a b = true ↔
    194 ≤ a.toNat ∧ a.toNat < 224 ∧ 128 ≤ b.toNat ∧ b.toNat < 192 := by
  unfold seq2
  rw [decide_eq_true_iff, lead2, cont, ne_eq, lead2']
  omega

theorem seq3_nat (a b c : UInt8) : seq3 a b c = true ↔
    224 ≤ a.toNat ∧ a.toNat < 240 ∧ 128 ≤ b.toNat ∧ b.toNat < 192 ∧ 128 ≤ c.toNat ∧ c.toNat < 192 ∧
    ¬ (a.toNat = 224 ∧ b.toNat < 160) ∧ ¬ (a.toNat = 237 ∧ 160 ≤ b.toNat) := by
  unfold seq3
  rw [decide_eq_true_iff, lead3, cont, cont, low4, low4d, bit5, bit5']
  omega

theorem seq4_nat (a b c d : UInt8) : seq4 a b c d = true ↔
    240 ≤ a.toNat ∧ a.toNat < 245 ∧ 128 ≤ b.toNat ∧ b.toNat < 192 ∧ 128 ≤ c.toNat ∧ c.toNat < 192 ∧
    128 ≤ d.toNat ∧ d.toNat < 192 ∧ ¬ (a.toNat = 240 ∧ b.toNat < 144) ∧ ¬ (a.toNat = 244 ∧ 144 ≤ b.toNat) := by
  unfold seq4
  rw [decide_eq_true_iff, lead4, cont, cont, cont, low3, bits45, bit2, low2]
  omega

theorem utf8_1 {n : Nat} (h : n < 0x80) : utf8 n = [UInt8.ofNat n] := by
  unfold utf8; rw [if_pos h]
theorem utf8_2 {n : Nat} (h : 0x80 ≤ n) (h' : n < 0x800) :
    utf8 n = [UInt8.ofNat (0xC0 + n / 64), UInt8.ofNat (0x80 + n % 64)] := by
  unfold utf8; rw [if_neg (by omega), if_pos h']
theorem utf8_3 {n : Nat} (h : 0x800 ≤ n) (h' : n < 0x10000) : utf8 n =
    [UInt8.ofNat (0xE0 + n / 4096), UInt8.ofNat (0x80 + n / 64 % 64), UInt8.ofNat (0x80 + n % 64)] := by
  unfold utf8; rw [if_neg (by omega), if_neg (by omega), if_pos h']
theorem utf8_4 {n : Nat} (h : 0x10000 ≤ n) : utf8 n =
    [UInt8.ofNat (0xF0 + n / 262144), UInt8.ofNat (0x80 + n / 4096 % 64), UInt8.ofNat (0x80 + n / 64 % 64),
      UInt8.ofNat (0x80 + n % 64)] := by
  unfold utf8; rw [if_neg (by omega), if_neg (by omega), if_neg (by omega)]

theorem seq2_utf8 {a b : UInt8} (h : seq2 a b = true) : ∃ n, Scalar n ∧ 0x80 ≤ n ∧ utf8 n = [a, b] := by
  rw [seq2_nat] at h
  refine ⟨(a.toNat - 192) * 64 + (b.toNat - 128), ?_, by omega, ?_⟩
  · left; omega
  · rw [utf8_2 (by omega) (by omega), byte_eq (a := a) (by omega), byte_eq (a := b) (by omega)]

theorem seq3_utf8 {a b c : UInt8} (h : seq3 a b c = true) : ∃ n, Scalar n ∧ 0x80 ≤ n ∧ utf8 n = [a, b, c] := by
  rw [seq3_nat] at h
  refine ⟨(a.toNat - 224) * 4096 + (b.toNat - 128) * 64 + (c.toNat - 128), ?_, by omega, ?_⟩
  · unfold Scalar; omega
  · rw [utf8_3 (by omega) (by omega), byte_eq (a := a) (by omega), byte_eq (a := b) (by omega),
      byte_eq (a := c) (by omega)]

theorem seq4_utf8 {a b c d : UInt8} (h : seq4 a b c d = true) :
    ∃ n, Scalar n ∧ 0x80 ≤ n ∧ utf8 n = [a, b, c, d] := by
  rw [seq4_nat] at h
  refine ⟨(a.toNat - 240) * 262144 + (b.toNat - 128) * 4096 + (c.toNat - 128) * 64 + (d.toNat - 128), ?_, by omega, ?_⟩
  · unfold Scalar; omega
  · rw [utf8_4 (by omega), byte_eq (a := a) (by omega), byte_eq (a := b) (by omega), byte_eq (a := c) (by omega),
      byte_eq (a := d) (by omega)]

/-- A sequence found is a character. -/
theorem sequence_sound {s u t : List UInt8} (h : sequence s = some (u, t)) :
    s = u ++ t ∧ ∃ n, Scalar n ∧ 0x80 ≤ n ∧ u = utf8 n := by
  match s, h with
  | [], h => cases h
  | [_], h => cases h
  | [a, b], h =>
    unfold sequence at h
    simp only at h
    by_cases h2 : seq2 a b = true
    · rw [if_pos h2] at h
      cases h
      obtain ⟨n, e1, e2, e3⟩ := seq2_utf8 h2
      exact ⟨rfl, n, e1, e2, e3.symm⟩
    · rw [if_neg h2] at h
      cases h
  | [a, b, c], h =>
    unfold sequence at h
    simp only at h
    by_cases h2 : seq2 a b = true
    · rw [if_pos h2] at h
      cases h
      obtain ⟨n, e1, e2, e3⟩ := seq2_utf8 h2
      exact ⟨rfl, n, e1, e2, e3.symm⟩
    · rw [if_neg h2] at h
      try simp only at h
      by_cases h3 : seq3 a b c = true
      · rw [if_pos h3] at h
        cases h
        obtain ⟨n, e1, e2, e3⟩ := seq3_utf8 h3
        exact ⟨rfl, n, e1, e2, e3.symm⟩
      · rw [if_neg h3] at h
        cases h
  | a :: b :: c :: d :: r, h =>
    unfold sequence at h
    simp only at h
    by_cases h2 : seq2 a b = true
    · rw [if_pos h2] at h
      cases h
      obtain ⟨n, e1, e2, e3⟩ := seq2_utf8 h2
      exact ⟨rfl, n, e1, e2, e3.symm⟩
    · rw [if_neg h2] at h
      try simp only at h
      by_cases h3 : seq3 a b c = true
      · rw [if_pos h3] at h
        cases h
        obtain ⟨n, e1, e2, e3⟩ := seq3_utf8 h3
        exact ⟨rfl, n, e1, e2, e3.symm⟩
      · rw [if_neg h3] at h
        by_cases h4 : seq4 a b c d = true
        · rw [if_pos h4] at h
          cases h
          obtain ⟨n, e1, e2, e3⟩ := seq4_utf8 h4
          exact ⟨rfl, n, e1, e2, e3.symm⟩
        · rw [if_neg h4] at h
          cases h

/-- A character of two bytes or more is found, and its first byte is not ASCII. -/
theorem sequence_complete {n : Nat} (hs : Scalar n) (hn : 0x80 ≤ n) (t : List UInt8) :
    sequence (utf8 n ++ t) = some (utf8 n, t) ∧ ∃ a u, utf8 n = a :: u ∧ 128 ≤ a.toNat := by
  unfold Scalar at hs
  by_cases h2 : n < 0x800
  · rw [utf8_2 hn h2]
    have b1 : (UInt8.ofNat (0xC0 + n / 64)).toNat = 0xC0 + n / 64 := byte_toNat (by omega)
    have b2 : (UInt8.ofNat (0x80 + n % 64)).toNat = 0x80 + n % 64 := byte_toNat (by omega)
    refine ⟨?_, _, _, rfl, by omega⟩
    simp only [List.cons_append, List.nil_append]
    unfold sequence
    simp only
    rw [if_pos ((seq2_nat _ _).2 (by omega))]
  · by_cases h3 : n < 0x10000
    · rw [utf8_3 (by omega) h3]
      have b1 : (UInt8.ofNat (0xE0 + n / 4096)).toNat = 0xE0 + n / 4096 := byte_toNat (by omega)
      have b2 : (UInt8.ofNat (0x80 + n / 64 % 64)).toNat = 0x80 + n / 64 % 64 := byte_toNat (by omega)
      have b3 : (UInt8.ofNat (0x80 + n % 64)).toNat = 0x80 + n % 64 := byte_toNat (by omega)
      refine ⟨?_, _, _, rfl, by omega⟩
      simp only [List.cons_append, List.nil_append]
      unfold sequence
      simp only
      rw [if_neg (fun h => by have := (seq2_nat _ _).1 h; omega)]
      try simp only
      rw [if_pos ((seq3_nat _ _ _).2 (by omega))]
    · rw [utf8_4 (by omega)]
      have b1 : (UInt8.ofNat (0xF0 + n / 262144)).toNat = 0xF0 + n / 262144 := byte_toNat (by omega)
      have b2 : (UInt8.ofNat (0x80 + n / 4096 % 64)).toNat = 0x80 + n / 4096 % 64 := byte_toNat (by omega)
      have b3 : (UInt8.ofNat (0x80 + n / 64 % 64)).toNat = 0x80 + n / 64 % 64 := byte_toNat (by omega)
      have b4 : (UInt8.ofNat (0x80 + n % 64)).toNat = 0x80 + n % 64 := byte_toNat (by omega)
      refine ⟨?_, _, _, rfl, by omega⟩
      simp only [List.cons_append, List.nil_append]
      unfold sequence
      simp only
      rw [if_neg (fun h => by have := (seq2_nat _ _).1 h; omega)]
      try simp only
      rw [if_neg (fun h => by have := (seq3_nat _ _ _).1 h; omega), if_pos ((seq4_nat _ _ _ _).2 (by omega))]

/-! ## Bits -/

theorem or_80 {x : Nat} (h : x < 64) : 0x80 ||| x = 0x80 + x := by
  have : ∀ x, x < 64 → 0x80 ||| x = 0x80 + x := by decide +kernel
  exact this x h
theorem or_C0 {x : Nat} (h : x < 32) : 0xC0 ||| x = 0xC0 + x := by
  have : ∀ x, x < 32 → 0xC0 ||| x = 0xC0 + x := by decide +kernel
  exact this x h
theorem or_E0 {x : Nat} (h : x < 16) : 0xE0 ||| x = 0xE0 + x := by
  have : ∀ x, x < 16 → 0xE0 ||| x = 0xE0 + x := by decide +kernel
  exact this x h
theorem or_F0 {x : Nat} (h : x < 8) : 0xF0 ||| x = 0xF0 + x := by
  have : ∀ x, x < 8 → 0xF0 ||| x = 0xF0 + x := by decide +kernel
  exact this x h
theorem and_3F (x : Nat) : x &&& 0x3F = x % 64 := Nat.and_two_pow_sub_one_eq_mod x 6

theorem encode_utf8 {u : Nat} (h : u < 0x110000) : encode u = utf8 u := by
  unfold encode
  by_cases h1 : u ≥ 0x10000
  · rw [if_pos h1, utf8_4 h1, and_3F, and_3F, and_3F, Nat.shiftRight_eq_div_pow, Nat.shiftRight_eq_div_pow,
      Nat.shiftRight_eq_div_pow, or_F0 (by omega), or_80 (Nat.mod_lt _ (by decide)), or_80 (Nat.mod_lt _ (by decide)),
      or_80 (Nat.mod_lt _ (by decide))]
  · rw [if_neg h1]
    by_cases h2 : u ≥ 0x800
    · rw [if_pos h2, utf8_3 h2 (by omega), and_3F, and_3F, Nat.shiftRight_eq_div_pow, Nat.shiftRight_eq_div_pow,
        or_E0 (by omega), or_80 (Nat.mod_lt _ (by decide)), or_80 (Nat.mod_lt _ (by decide))]
    · rw [if_neg h2]
      by_cases h3 : u ≥ 0x80
      · rw [if_pos h3, utf8_2 h3 (by omega), and_3F, Nat.shiftRight_eq_div_pow, or_C0 (by omega),
          or_80 (Nat.mod_lt _ (by decide))]
      · rw [if_neg h3, utf8_1 (by omega)]

theorem and_high (x m k j : Nat) (hm : m = (2 ^ j - 1) * 2 ^ k) : x &&& m = x / 2 ^ k % 2 ^ j * 2 ^ k := by
  have h1 : (x &&& m) >>> k = x / 2 ^ k % 2 ^ j := by
    rw [Nat.shiftRight_and_distrib, Nat.shiftRight_eq_div_pow, Nat.shiftRight_eq_div_pow, hm,
      Nat.mul_div_cancel _ (Nat.two_pow_pos k), Nat.and_two_pow_sub_one_eq_mod]
  have h2 : (x &&& m) % 2 ^ k = 0 := by
    rw [Nat.and_mod_two_pow, hm, Nat.mul_mod_left, Nat.and_zero]
  rw [Nat.shiftRight_eq_div_pow] at h1
  have := Nat.div_add_mod (x &&& m) (2 ^ k)
  rw [h1, h2, Nat.add_zero, Nat.mul_comm] at this
  exact this.symm

theorem surrogate {x : Nat} (h : x < 0x10000) : x &&& 0xF800 = 0xD800 ↔ 0xD800 ≤ x ∧ x < 0xE000 := by
  rw [and_high x 0xF800 11 5 (by decide)]
  omega
theorem surrogate_high {x : Nat} (h : x < 0x10000) : x &&& 0xFC00 = 0xD800 ↔ 0xD800 ≤ x ∧ x < 0xDC00 := by
  rw [and_high x 0xFC00 10 6 (by decide)]
  omega
theorem surrogate_low {x : Nat} (h : x < 0x10000) : x &&& 0xFC00 = 0xDC00 ↔ 0xDC00 ≤ x ∧ x < 0xE000 := by
  rw [and_high x 0xFC00 10 6 (by decide)]
  omega

theorem pair_value {hi lo : Nat} (h3 : 0xDC00 ≤ lo) (h4 : lo < 0xE000) :
    (((hi - 0xD800) <<< 10) ||| (lo - 0xDC00)) + 0x10000 = 0x10000 + (hi - 0xD800) * 1024 + (lo - 0xDC00) := by
  have := Nat.shiftLeft_add_eq_or_of_lt (b := lo - 0xDC00) (i := 10) (by omega) (hi - 0xD800)
  rw [← this, Nat.shiftLeft_eq]
  omega

/-! ## Hexadecimal digits -/

theorem hexConv_hexDigit (c : UInt8) : hexConv c = hexDigit c := by
  unfold hexConv hexDigit
  by_cases h1 : 48 ≤ c.toNat ∧ c.toNat ≤ 57
  · rw [if_pos h1, if_pos h1]
  · rw [if_neg h1, if_neg h1]
    by_cases h2 : 65 ≤ c.toNat ∧ c.toNat ≤ 70
    · rw [if_pos h2, if_pos h2]; congr 1; omega
    · rw [if_neg h2, if_neg h2]
      by_cases h3 : 97 ≤ c.toNat ∧ c.toNat ≤ 102
      · rw [if_pos h3, if_pos h3]; congr 1; omega
      · rw [if_neg h3, if_neg h3]

theorem hexDigit_lt {c : UInt8} {i : Nat} (h : hexDigit c = some i) : i < 16 := by
  unfold hexDigit at h
  split at h
  · cases h; omega
  · split at h
    · cases h; omega
    · split at h
      · cases h; omega
      · cases h

theorem hex4_lt {h : List UInt8} {n : Nat} (hx : Hex4 h n) : n < 0x10000 := by
  cases hx with
  | mk h1 h2 h3 h4 =>
    have := hexDigit_lt h1; have := hexDigit_lt h2; have := hexDigit_lt h3; have := hexDigit_lt h4
    omega

theorem readHex_complete {h : List UInt8} {n : Nat} (hx : Hex4 h n) (t : List UInt8) : readHex (h ++ t) = some (n, t) := by
  cases hx with
  | @mk a b c d i j k l h1 h2 h3 h4 =>
    simp only [List.cons_append, List.nil_append]
    unfold readHex
    simp only
    rw [hexConv_hexDigit, hexConv_hexDigit, hexConv_hexDigit, hexConv_hexDigit, h1, h2, h3, h4]
    simp only [Option.some.injEq, Prod.mk.injEq, and_true]
    omega

theorem readHex_sound {s t : List UInt8} {n : Nat} (h : readHex s = some (n, t)) : ∃ g, Hex4 g n ∧ s = g ++ t := by
  match s, h with
  | [], h => cases h
  | [_], h => cases h
  | [_, _], h => cases h
  | [_, _, _], h => cases h
  | a :: b :: c :: d :: r, h =>
    unfold readHex at h
    simp only at h
    rw [hexConv_hexDigit, hexConv_hexDigit, hexConv_hexDigit, hexConv_hexDigit] at h
    cases h1 : hexDigit a with
    | none => rw [h1] at h; cases h
    | some i =>
      cases h2 : hexDigit b with
      | none => rw [h1, h2] at h; cases h
      | some j =>
        cases h3 : hexDigit c with
        | none => rw [h1, h2, h3] at h; cases h
        | some k =>
          cases h4 : hexDigit d with
          | none => rw [h1, h2, h3, h4] at h; cases h
          | some l =>
            rw [h1, h2, h3, h4] at h
            simp only [Option.some.injEq, Prod.mk.injEq] at h
            refine ⟨[a, b, c, d], ?_, by rw [← h.2]; rfl⟩
            have := Hex4.mk h1 h2 h3 h4
            have e : n = ((i * 16 + j) * 16 + k) * 16 + l := by omega
            rw [e]
            exact this

end Verif.Proof.Json
