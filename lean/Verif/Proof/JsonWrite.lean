import Verif.Proof.JsonRead
import Verif.Props.JsonTextDefs
/-!
# Lemmas about JSON texts: writing
-/
namespace Verif.Proof.Json
open Verif.Spec.Json Verif.Model.Json Verif.Model.JsonText
open Verif.Props.JsonText (LawfulReals Finite)

/-! ## Strings -/

theorem hex_char {n : Nat} (h : n < 16) : hexDigit (hexChar n) = some n := by
  have : ∀ n, n < 16 → hexDigit (hexChar n) = some n := by decide +kernel
  exact this n h

theorem control_hex {c : UInt8} (h : c.toNat < 32) :
    Hex4 [48, 48, hexChar (c.toNat / 16), hexChar (c.toNat % 16)] c.toNat := by
  have h0 : hexDigit 48 = some 0 := by decide
  have := Hex4.mk h0 h0 (hex_char (n := c.toNat / 16) (by omega)) (hex_char (n := c.toNat % 16) (by omega))
  have e : ((0 * 16 + 0) * 16 + c.toNat / 16) * 16 + c.toNat % 16 = c.toNat := by omega
  rwa [e] at this

theorem utf8_byte {c : UInt8} (h : c.toNat < 128) : utf8 c.toNat = [c] := by
  rw [utf8_1 h, UInt8.ofNat_toNat]

theorem letter_ascii {c l : UInt8} (h : Letter c l) : c.toNat < 128 := by
  rcases h with h | h | h | h | h | h | h | h <;> obtain ⟨rfl, rfl⟩ := h <;> decide

/-- What is written for a string is a string. -/
theorem writeChars_sound : ∀ (f : Nat) (s t : List UInt8), writeChars f s = some t → Chars s t ∧ Utf8 s
  | 0, _, _, h => by cases h
  | _ + 1, [], _, h => by cases h; exact ⟨.nil, .nil⟩
  | f + 1, c :: s, t, h => by
    rw [writeChars] at h
    have letter : ∀ (l : UInt8), Letter c l → (writeChars f s).map (fun r => 92 :: l :: r) = some t →
        Chars (c :: s) t ∧ Utf8 (c :: s) := by
      intro l hl h
      obtain ⟨u, hu, rfl⟩ := map_some h
      obtain ⟨h1, h2⟩ := writeChars_sound f s u hu
      have := Utf8.char (n := c.toNat) (.inl (by have := letter_ascii hl; omega)) h2
      rw [utf8_byte (letter_ascii hl)] at this
      exact ⟨.letter hl h1, this⟩
    by_cases h1 : c = 34
    · rw [if_pos h1] at h; exact letter 34 (.inl ⟨h1, rfl⟩) h
    rw [if_neg h1] at h
    by_cases h2 : c = 92
    · rw [if_pos h2] at h; exact letter 92 (.inr (.inl ⟨h2, rfl⟩)) h
    rw [if_neg h2] at h
    by_cases h3 : c = 8
    · rw [if_pos h3] at h; exact letter 98 (.inr (.inr (.inr (.inl ⟨h3, rfl⟩)))) h
    rw [if_neg h3] at h
    by_cases h4 : c = 9
    · rw [if_pos h4] at h; exact letter 116 (.inr (.inr (.inr (.inr (.inr (.inr (.inr ⟨h4, rfl⟩))))))) h
    rw [if_neg h4] at h
    by_cases h5 : c = 10
    · rw [if_pos h5] at h; exact letter 110 (.inr (.inr (.inr (.inr (.inr (.inl ⟨h5, rfl⟩)))))) h
    rw [if_neg h5] at h
    by_cases h6 : c = 12
    · rw [if_pos h6] at h; exact letter 102 (.inr (.inr (.inr (.inr (.inl ⟨h6, rfl⟩))))) h
    rw [if_neg h6] at h
    by_cases h7 : c = 13
    · rw [if_pos h7] at h; exact letter 114 (.inr (.inr (.inr (.inr (.inr (.inr (.inl ⟨h7, rfl⟩))))))) h
    rw [if_neg h7] at h
    by_cases h8 : c.toNat < 32
    · rw [if_pos h8] at h
      obtain ⟨u, hu, rfl⟩ := map_some h
      obtain ⟨g1, g2⟩ := writeChars_sound f s u hu
      have a := Chars.unicode (control_hex h8) (.inl (by omega)) g1
      have b := Utf8.char (n := c.toNat) (.inl (by omega)) g2
      rw [utf8_byte (by omega)] at a b
      exact ⟨a, b⟩
    rw [if_neg h8] at h
    by_cases h9 : c.toNat < 128
    · rw [if_pos h9] at h
      obtain ⟨u, hu, rfl⟩ := map_some h
      obtain ⟨g1, g2⟩ := writeChars_sound f s u hu
      have a := Chars.plain (n := c.toNat) (.inl (by omega)) (by omega) (fun e => h1 (UInt8.toNat_inj.1 e))
        (fun e => h2 (UInt8.toNat_inj.1 e)) g1
      have b := Utf8.char (n := c.toNat) (.inl (by omega)) g2
      rw [utf8_byte h9] at a b
      exact ⟨a, b⟩
    rw [if_neg h9] at h
    cases he : sequence (c :: s) with
    | none => rw [he] at h; cases h
    | some p =>
      obtain ⟨u, q⟩ := p
      rw [he] at h
      simp only at h
      obtain ⟨w, hw, rfl⟩ := map_some h
      obtain ⟨g1, g2⟩ := writeChars_sound f q w hw
      obtain ⟨e1, n, hn, h80, rfl⟩ := sequence_sound he
      rw [e1]
      exact ⟨.plain hn (by omega) (by omega) (by omega) g1, .char hn g2⟩

/-- Every string of characters is written. -/
theorem writeChars_complete {s : List UInt8} (h : Utf8 s) : ∀ f, s.length < f → ∃ t, writeChars f s = some t := by
  induction h with
  | nil =>
    intro f hf
    obtain ⟨f, rfl⟩ : ∃ g, f = g + 1 := ⟨f - 1, by omega⟩
    exact ⟨[], rfl⟩
  | @char n s hn _ ih =>
    intro f hf
    obtain ⟨f, rfl⟩ : ∃ g, f = g + 1 := ⟨f - 1, by omega⟩
    rw [List.length_append] at hf
    have := utf8_pos n
    obtain ⟨t, ht⟩ := ih f (by omega)
    by_cases h80 : n < 0x80
    · rw [utf8_1 h80, List.cons_append, List.nil_append, writeChars, ht]
      have b : (UInt8.ofNat n).toNat = n := byte_toNat (by omega)
      rw [b]
      simp only [Option.map_some]
      repeat' split
      all_goals first | exact ⟨_, rfl⟩ | omega
    · obtain ⟨e1, a, u, e2, e3⟩ := sequence_complete hn (by omega) s
      rw [e2] at e1 ⊢
      rw [List.cons_append] at e1 ⊢
      have g (k : UInt8) (hk : k.toNat < 128) : ¬ a = k := fun e => by rw [e] at e3; omega
      rw [writeChars, if_neg (g 34 (by decide)), if_neg (g 92 (by decide)), if_neg (g 8 (by decide)),
        if_neg (g 9 (by decide)), if_neg (g 10 (by decide)), if_neg (g 12 (by decide)), if_neg (g 13 (by decide)),
        if_neg (by omega), if_neg (by omega), e1]
      simp only
      rw [ht]
      exact ⟨_, rfl⟩

theorem writeString_sound {s t : List UInt8} (h : writeString s = some t) :
    ∃ u, Chars s u ∧ t = 34 :: (u ++ [34]) ∧ Utf8 s := by
  obtain ⟨u, hu, rfl⟩ := map_some h
  obtain ⟨h1, h2⟩ := writeChars_sound _ _ _ hu
  exact ⟨u, h1, rfl, h2⟩

theorem writeString_complete {s : List UInt8} (h : Utf8 s) : ∃ t, writeString s = some t := by
  obtain ⟨t, ht⟩ := writeChars_complete h (s.length + 1) (by omega)
  exact ⟨_, by rw [writeString, ht]; rfl⟩

/-! ## Numbers -/

theorem writeNat_index (n : Nat) : writeNat n = index n := by
  induction n using Nat.strongRecOn with
  | ind n ih =>
    rw [writeNat]
    by_cases h : n < 10
    · rw [if_pos h, index_small h]
    · rw [if_neg h, index_large (by omega), ih (n / 10) (by omega)]

theorem writeInt_spec (i : Int) : (∀ t, writeInt i = some t → ∃ neg n, i = signed neg n ∧ Fits i ∧ t = minus neg ++ index n) ∧
    (Fits i → ∃ t, writeInt i = some t) := by
  unfold writeInt
  by_cases h0 : i < 0
  · rw [if_pos h0]
    by_cases h1 : -(2 ^ 63) ≤ i
    · rw [if_pos h1]
      refine ⟨fun t ht => ⟨true, i.natAbs, ?_, ⟨h1, by omega⟩, ?_⟩, fun _ => ⟨_, rfl⟩⟩
      · show i = -(i.natAbs : Int); omega
      · rw [← Option.some.inj ht, writeNat_index]; rfl
    · rw [if_neg h1]
      exact ⟨fun t ht => (by cases ht), fun hf => absurd hf.1 h1⟩
  · rw [if_neg h0]
    by_cases h1 : i < 2 ^ 64
    · rw [if_pos h1]
      refine ⟨fun t ht => ⟨false, i.natAbs, ?_, ⟨by omega, h1⟩, ?_⟩, fun _ => ⟨_, rfl⟩⟩
      · show i = (i.natAbs : Int); omega
      · rw [← Option.some.inj ht, writeNat_index]; rfl
    · rw [if_neg h1]
      exact ⟨fun t ht => (by cases ht), fun hf => absurd hf.2 h1⟩

theorem exponent_bits (d : UInt64) : ((d.toNat >>> 52) &&& 2047 = 2047) ↔ d.toNat / 2 ^ 52 % 2048 = 2047 := by
  have h : (d.toNat >>> 52) &&& (2 ^ 11 - 1) = d.toNat / 2 ^ 52 % 2 ^ 11 := by
    rw [Nat.and_two_pow_sub_one_eq_mod, Nat.shiftRight_eq_div_pow]
  have e : (2 : Nat) ^ 11 - 1 = 2047 := rfl
  have e' : (2 : Nat) ^ 11 = 2048 := rfl
  rw [e, e'] at h
  rw [h]

theorem writeReal_spec {reals : Reals} (hl : LawfulReals reals) (d : UInt64) :
    (∀ t, writeReal reals d = some t → Text reals.read (.value (.real d)) t ∧ d.toNat / 2 ^ 52 % 2048 ≠ 2047) ∧
    (d.toNat / 2 ^ 52 % 2048 ≠ 2047 → ∃ t, writeReal reals d = some t) := by
  unfold writeReal
  by_cases h : (d.toNat >>> 52) &&& 2047 = 2047
  · rw [if_pos h]
    exact ⟨fun t ht => (by cases ht), fun hf => absurd ((exponent_bits d).1 h) hf⟩
  · rw [if_neg h]
    have hf : d.toNat / 2 ^ 52 % 2048 ≠ 2047 := fun e => h ((exponent_bits d).2 e)
    refine ⟨fun t ht => ⟨?_, hf⟩, fun _ => ⟨_, rfl⟩⟩
    obtain ⟨neg, n, f, e, h1, h2, h3, h4, h5⟩ := hl.back d hf
    rw [← Option.some.inj ht]
    rw [h4] at h5 ⊢
    exact .real h1 h2 (by rcases h3 with h3 | h3; exact .inl h3; exact .inr (.inl h3)) h5

/-! ## Values -/

theorem writeItems_cons (reals : Reals) (v w : Json) (l : List Json) : writeItems reals (v :: w :: l) =
    match write reals v, writeItems reals (w :: l) with
    | some t, some u => some (t ++ 44 :: u)
    | _, _ => none := rfl

theorem writeMembers_cons (reals : Reals) (k : List UInt8) (v : Json) (m : List UInt8 × Json)
    (l : List (List UInt8 × Json)) : writeMembers reals ((k, v) :: m :: l) =
    match writeString k, write reals v, writeMembers reals (m :: l) with
    | some s, some t, some u => some (s ++ 58 :: (t ++ 44 :: u))
    | _, _, _ => none := rfl

mutual
/-- What is written is a text. -/
theorem write_sound {reals : Reals} (hl : LawfulReals reals) : ∀ (v : Json) (t : List UInt8), write reals v = some t →
    Text reals.read (.value v) t ∧ Proper v
  | .null, t, h => by cases h; exact ⟨.null, trivial⟩
  | .bool true, t, h => by cases h; exact ⟨.true, trivial⟩
  | .bool false, t, h => by cases h; exact ⟨.false, trivial⟩
  | .int i, t, h => by
    obtain ⟨neg, n, e1, e2, e3⟩ := (writeInt_spec i).1 t h
    rw [e3]
    refine ⟨?_, e2⟩
    rw [e1] at e2 ⊢
    exact .int e2
  | .real d, t, h => (writeReal_spec hl d).1 t h
  | .str s, t, h => by
    obtain ⟨u, h1, rfl, h2⟩ := writeString_sound h
    exact ⟨.str h1, h2⟩
  | .arr l, t, h => by
    obtain ⟨u, hu, rfl⟩ := map_some h
    rcases writeItems_sound hl l u hu with ⟨⟨rfl, rfl⟩ | h1, h2⟩
    · exact ⟨.noItems white_nil, h2⟩
    · exact ⟨.arr h1, h2⟩
  | .obj l, t, h => by
    obtain ⟨u, hu, rfl⟩ := map_some h
    rcases writeMembers_sound hl l u hu with ⟨⟨rfl, rfl⟩ | h1, h2⟩
    · exact ⟨.noMembers white_nil, h2⟩
    · exact ⟨.obj h1, h2⟩

theorem writeItems_sound {reals : Reals} (hl : LawfulReals reals) : ∀ (l : List Json) (t : List UInt8),
    writeItems reals l = some t → ((l = [] ∧ t = []) ∨ Text reals.read (.items l) t) ∧ ProperItems l
  | [], t, h => by cases h; exact ⟨.inl ⟨rfl, rfl⟩, trivial⟩
  | [v], t, h => by
    obtain ⟨h1, h2⟩ := write_sound hl v t h
    have := Text.lastItem white_nil white_nil h1
    rw [List.nil_append, List.append_nil] at this
    exact ⟨.inr this, h2, trivial⟩
  | v :: w :: l, t, h => by
    rw [writeItems_cons] at h
    cases hv : write reals v with
    | none => rw [hv] at h; cases h
    | some a =>
      cases hw : writeItems reals (w :: l) with
      | none => rw [hv, hw] at h; cases h
      | some b =>
        rw [hv, hw] at h
        cases h
        obtain ⟨h1, h2⟩ := write_sound hl v a hv
        obtain ⟨⟨e, _⟩ | h3, h4⟩ := writeItems_sound hl (w :: l) b hw
        · cases e
        · exact ⟨.inr (.item white_nil white_nil h1 h3), h2, h4⟩

theorem writeMembers_sound {reals : Reals} (hl : LawfulReals reals) : ∀ (l : List (List UInt8 × Json)) (t : List UInt8),
    writeMembers reals l = some t → ((l = [] ∧ t = []) ∨ Text reals.read (.members l) t) ∧ ProperMembers l
  | [], t, h => by cases h; exact ⟨.inl ⟨rfl, rfl⟩, trivial⟩
  | [(k, v)], t, h => by
    rw [writeMembers] at h
    cases hk : writeString k with
    | none => rw [hk] at h; cases h
    | some s =>
      cases hv : write reals v with
      | none => rw [hk, hv] at h; cases h
      | some a =>
        rw [hk, hv] at h
        cases h
        obtain ⟨h1, h2⟩ := write_sound hl v a hv
        obtain ⟨u, h3, rfl, h4⟩ := writeString_sound hk
        have := Text.lastMember white_nil white_nil white_nil white_nil h3 h1
        simp only [List.nil_append, List.append_nil] at this
        exact ⟨.inr (by simpa using this), h4, h2, trivial⟩
  | (k, v) :: m :: l, t, h => by
    rw [writeMembers_cons] at h
    cases hk : writeString k with
    | none => rw [hk] at h; cases h
    | some s =>
      cases hv : write reals v with
      | none => rw [hk, hv] at h; cases h
      | some a =>
        cases hw : writeMembers reals (m :: l) with
        | none => rw [hk, hv, hw] at h; cases h
        | some b =>
          rw [hk, hv, hw] at h
          cases h
          obtain ⟨h1, h2⟩ := write_sound hl v a hv
          obtain ⟨u, h3, rfl, h4⟩ := writeString_sound hk
          obtain ⟨⟨e, _⟩ | h5, h6⟩ := writeMembers_sound hl (m :: l) b hw
          · cases e
          · have := Text.member white_nil white_nil white_nil white_nil h3 h1 h5
            simp only [List.nil_append] at this
            exact ⟨.inr (by simpa using this), h4, h2, h6⟩
end

mutual
/-- Every value that can be written is written. -/
theorem write_complete {reals : Reals} (hl : LawfulReals reals) : ∀ (v : Json), Proper v → ∃ t, write reals v = some t
  | .null, _ => ⟨_, rfl⟩
  | .bool true, _ => ⟨_, rfl⟩
  | .bool false, _ => ⟨_, rfl⟩
  | .int i, h => (writeInt_spec i).2 h
  | .real d, h => (writeReal_spec hl d).2 h
  | .str s, h => writeString_complete h
  | .arr l, h => by
    obtain ⟨t, ht⟩ := writeItems_complete hl l h
    exact ⟨_, by rw [write, ht]; rfl⟩
  | .obj l, h => by
    obtain ⟨t, ht⟩ := writeMembers_complete hl l h
    exact ⟨_, by rw [write, ht]; rfl⟩

theorem writeItems_complete {reals : Reals} (hl : LawfulReals reals) : ∀ (l : List Json), ProperItems l →
    ∃ t, writeItems reals l = some t
  | [], _ => ⟨_, rfl⟩
  | [v], h => write_complete hl v h.1
  | v :: w :: l, h => by
    obtain ⟨a, ha⟩ := write_complete hl v h.1
    obtain ⟨b, hb⟩ := writeItems_complete hl (w :: l) h.2
    exact ⟨_, by rw [writeItems_cons, ha, hb]⟩

theorem writeMembers_complete {reals : Reals} (hl : LawfulReals reals) : ∀ (l : List (List UInt8 × Json)),
    ProperMembers l → ∃ t, writeMembers reals l = some t
  | [], _ => ⟨_, rfl⟩
  | [(k, v)], h => by
    obtain ⟨s, hs⟩ := writeString_complete h.1
    obtain ⟨a, ha⟩ := write_complete hl v h.2.1
    exact ⟨_, by rw [writeMembers, hs, ha]⟩
  | (k, v) :: m :: l, h => by
    obtain ⟨s, hs⟩ := writeString_complete h.1
    obtain ⟨a, ha⟩ := write_complete hl v h.2.1
    obtain ⟨b, hb⟩ := writeMembers_complete hl (m :: l) h.2.2
    exact ⟨_, by rw [writeMembers_cons, hs, ha, hb]⟩
end

/-- What is written is read as the same. -/
theorem read_write {reals : Reals} (hl : LawfulReals reals) {v : Json} {t : List UInt8} (h : write reals v = some t) :
    read reals t = some v := by
  rw [read_document]
  exact ⟨[], t, [], white_nil, (write_sound hl v t h).1, white_nil, by simp⟩

/-! ## What is read can be written -/

theorem utf8_concat {a b : List UInt8} (ha : Utf8 a) (hb : Utf8 b) : Utf8 (a ++ b) := by
  induction ha with
  | nil => exact hb
  | char hn _ ih => rw [List.append_assoc]; exact .char hn ih

theorem chars_utf8 {s t : List UInt8} (h : Chars s t) : Utf8 s := by
  induction h with
  | nil => exact .nil
  | plain hs _ _ _ _ ih => exact .char hs ih
  | @letter c l s t hl _ ih =>
    have := Utf8.char (n := c.toNat) (.inl (by have := letter_ascii hl; omega)) ih
    rwa [utf8_byte (letter_ascii hl)] at this
  | unicode _ hs _ ih => exact .char hs ih
  | pair _ _ h1 h2 h3 h4 _ ih => exact .char (.inr (by omega)) ih

/-- `Proper` for parts. -/
def ProperPart : Part → Prop
  | .value v => Proper v
  | .items l => ProperItems l
  | .members l => ProperMembers l

theorem text_proper {reals : List UInt8 → Option UInt64}
    (hfin : ∀ t d, reals t = some d → d.toNat / 2 ^ 52 % 2048 ≠ 2047) {p : Part} {t : List UInt8}
    (h : Text reals p t) : ProperPart p := by
  induction h with
  | null => exact trivial
  | true => exact trivial
  | false => exact trivial
  | int h => exact h
  | real _ _ _ h => exact hfin _ _ h
  | str h => exact chars_utf8 h
  | noItems _ => exact trivial
  | arr _ ih => exact ih
  | noMembers _ => exact trivial
  | obj _ ih => exact ih
  | lastItem _ _ _ ih => exact ⟨ih, trivial⟩
  | item _ _ _ _ ih1 ih2 => exact ⟨ih1, ih2⟩
  | lastMember _ _ _ _ hk _ ih => exact ⟨chars_utf8 hk, ih, trivial⟩
  | member _ _ _ _ hk _ _ ih1 ih2 => exact ⟨chars_utf8 hk, ih1, ih2⟩

end Verif.Proof.Json
