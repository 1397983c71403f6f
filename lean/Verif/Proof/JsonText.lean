import Verif.Proof.JsonChars
/-!
# Lemmas about JSON texts: reading
-/
namespace Verif.Proof.Json
open Verif.Spec.Json Verif.Model.Json Verif.Model.JsonText

/-! ## Strings -/

theorem byte_of_nat {n : Nat} {k : UInt8} (hn : n < 256) (h : UInt8.ofNat n = k) : n = k.toNat := by
  rw [← h, byte_toNat hn]

theorem readEscape_letter {c l : UInt8} (h : Letter c l) (t : List UInt8) : readEscape (l :: t) = some ([c], t) := by
  rcases h with h | h | h | h | h | h | h | h <;> obtain ⟨rfl, rfl⟩ := h <;> rfl

theorem readEscape_hex (t : List UInt8) : readEscape (117 :: t) =
    match readHex t with
      | none => none
      | some (hi, t) =>
        if hi &&& 0xF800 ≠ 0xD800 then some (encode hi, t)
        else if hi &&& 0xFC00 ≠ 0xD800 then none
        else match t with
          | 92 :: 117 :: t =>
            match readHex t with
            | none => none
            | some (lo, t) =>
              if lo &&& 0xFC00 ≠ 0xDC00 then none
              else some (encode ((((hi - 0xD800) <<< 10) ||| (lo - 0xDC00)) + 0x10000), t)
          | _ => none := rfl

theorem readEscape_unicode {h : List UInt8} {n : Nat} (hx : Hex4 h n) (hs : Scalar n) (t : List UInt8) :
    readEscape (117 :: (h ++ t)) = some (utf8 n, t) := by
  have hn := hex4_lt hx
  rw [readEscape_hex, readHex_complete hx]
  simp only
  rw [if_pos (by rw [ne_eq, surrogate hn]; unfold Scalar at hs; omega), encode_utf8 (by omega)]

theorem readEscape_pair {g h : List UInt8} {hi lo : Nat} (hg : Hex4 g hi) (hh : Hex4 h lo) (h1 : 0xD800 ≤ hi)
    (h2 : hi < 0xDC00) (h3 : 0xDC00 ≤ lo) (h4 : lo < 0xE000) (t : List UInt8) :
    readEscape (117 :: (g ++ 92 :: 117 :: (h ++ t))) =
      some (utf8 (0x10000 + (hi - 0xD800) * 1024 + (lo - 0xDC00)), t) := by
  have b1 := hex4_lt hg
  have b2 := hex4_lt hh
  rw [readEscape_hex, readHex_complete hg]
  simp only
  rw [if_neg (by rw [ne_eq, surrogate b1]; omega), if_neg (by rw [ne_eq, surrogate_high b1]; omega),
    readHex_complete hh]
  simp only
  rw [if_neg (by rw [ne_eq, surrogate_low b2]; omega), pair_value h3 h4, encode_utf8 (by omega)]

theorem readString_quote (f : Nat) (t : List UInt8) : readString (f + 1) (34 :: t) = some ([], t) := rfl

theorem readString_escape (f : Nat) (t : List UInt8) : readString (f + 1) (92 :: t) =
    match readEscape t with
      | none => none
      | some (s, t) => (readString f t).map fun r => (s ++ r.1, r.2) := rfl

theorem readString_plain {n : Nat} (hs : Scalar n) (h32 : 32 ≤ n) (h34 : n ≠ 34) (h92 : n ≠ 92) (f : Nat)
    (t : List UInt8) : readString (f + 1) (utf8 n ++ t) = (readString f t).map fun r => (utf8 n ++ r.1, r.2) := by
  by_cases hn : n < 0x80
  · have b : (UInt8.ofNat n).toNat = n := byte_toNat (by omega)
    rw [utf8_1 hn]
    simp only [List.cons_append, List.nil_append]
    rw [readString, if_neg (fun e => h34 (byte_of_nat (by omega) e)), if_neg (fun e => h92 (byte_of_nat (by omega) e)),
      b, if_neg (by omega), if_pos hn]
  · obtain ⟨e1, a, u, e2, e3⟩ := sequence_complete hs (by omega) t
    rw [e2] at e1 ⊢
    rw [List.cons_append] at e1 ⊢
    have g34 : ¬ a = 34 := fun e => by subst e; exact absurd e3 (by decide)
    have g92 : ¬ a = 92 := fun e => by subst e; exact absurd e3 (by decide)
    rw [readString, if_neg g34, if_neg g92, if_neg (by omega), if_neg (by omega), e1]

theorem utf8_pos (n : Nat) : 0 < (utf8 n).length := by
  unfold utf8
  repeat' split
  all_goals exact Nat.succ_pos _

/-- Every string between quotation marks is read. -/
theorem readString_complete {s t : List UInt8} (h : Chars s t) : ∀ (f : Nat) (rest : List UInt8),
    t.length < f → readString f (t ++ 34 :: rest) = some (s, rest) := by
  induction h with
  | nil =>
    intro f rest hf
    obtain ⟨f, rfl⟩ : ∃ g, f = g + 1 := ⟨f - 1, by omega⟩
    exact readString_quote f rest
  | @plain n s t hs h32 h34 h92 _ ih =>
    intro f rest hf
    rw [List.length_append] at hf
    have := utf8_pos n
    obtain ⟨f, rfl⟩ : ∃ g, f = g + 1 := ⟨f - 1, by omega⟩
    rw [List.append_assoc, readString_plain hs h32 h34 h92, ih f rest (by omega)]
    rfl
  | @letter c l s t hl _ ih =>
    intro f rest hf
    simp only [List.length_cons] at hf
    obtain ⟨f, rfl⟩ : ∃ g, f = g + 1 := ⟨f - 1, by omega⟩
    rw [List.cons_append, List.cons_append, readString_escape, readEscape_letter hl]
    simp only
    rw [ih f rest (by omega)]
    rfl
  | @unicode h n s t hx hs _ ih =>
    intro f rest hf
    simp only [List.length_cons, List.length_append] at hf
    obtain ⟨f, rfl⟩ : ∃ g, f = g + 1 := ⟨f - 1, by omega⟩
    rw [List.cons_append, List.cons_append, readString_escape, List.append_assoc, readEscape_unicode hx hs]
    simp only
    rw [ih f rest (by omega)]
    rfl
  | @pair g h hi lo s t hg hh h1 h2 h3 h4 _ ih =>
    intro f rest hf
    simp only [List.length_cons, List.length_append] at hf
    obtain ⟨f, rfl⟩ : ∃ g, f = g + 1 := ⟨f - 1, by omega⟩
    have e : (92 :: 117 :: (g ++ 92 :: 117 :: (h ++ t))) ++ 34 :: rest =
        92 :: 117 :: (g ++ 92 :: 117 :: (h ++ (t ++ 34 :: rest))) := by simp
    rw [e, readString_escape, readEscape_pair hg hh h1 h2 h3 h4]
    simp only
    rw [ih f rest (by omega)]
    rfl

/-- What an escape gives. -/
theorem readEscape_sound {s u t : List UInt8} (h : readEscape s = some (u, t)) :
    (∃ c l, Letter c l ∧ u = [c] ∧ s = l :: t) ∨
    (∃ g n, Hex4 g n ∧ Scalar n ∧ u = utf8 n ∧ s = 117 :: (g ++ t)) ∨
    (∃ g k hi lo, Hex4 g hi ∧ Hex4 k lo ∧ 0xD800 ≤ hi ∧ hi < 0xDC00 ∧ 0xDC00 ≤ lo ∧ lo < 0xE000 ∧
      u = utf8 (0x10000 + (hi - 0xD800) * 1024 + (lo - 0xDC00)) ∧ s = 117 :: (g ++ 92 :: 117 :: (k ++ t))) := by
  match s, h with
  | [], h => cases h
  | c :: r, h =>
    have letter : ∀ (x : UInt8), Letter x c → some ([x], r) = some (u, t) →
        ∃ d l, Letter d l ∧ u = [d] ∧ c :: r = l :: t := by
      intro x hx e
      cases e
      exact ⟨x, c, hx, rfl, rfl⟩
    by_cases hu : c = 117
    · subst hu
      rw [readEscape_hex] at h
      cases hx : readHex r with
      | none => rw [hx] at h; cases h
      | some p =>
        obtain ⟨hi, q⟩ := p
        rw [hx] at h
        simp only at h
        obtain ⟨g, hg, rfl⟩ := readHex_sound hx
        have b1 := hex4_lt hg
        by_cases h1 : hi &&& 0xF800 ≠ 0xD800
        · rw [if_pos h1] at h
          cases h
          rw [ne_eq, surrogate b1] at h1
          exact .inr (.inl ⟨g, hi, hg, by unfold Scalar; omega, encode_utf8 (by omega), rfl⟩)
        · rw [if_neg h1] at h
          by_cases h2 : hi &&& 0xFC00 ≠ 0xD800
          · rw [if_pos h2] at h; cases h
          · rw [if_neg h2] at h
            rw [ne_eq, Decidable.not_not, surrogate_high b1] at h2
            split at h
            · rename_i q
              cases hy : readHex q with
              | none => rw [hy] at h; cases h
              | some p =>
                obtain ⟨lo, q'⟩ := p
                rw [hy] at h
                simp only at h
                obtain ⟨k, hk, rfl⟩ := readHex_sound hy
                have b2 := hex4_lt hk
                by_cases h3 : lo &&& 0xFC00 ≠ 0xDC00
                · rw [if_pos h3] at h; cases h
                · rw [if_neg h3] at h
                  rw [ne_eq, Decidable.not_not, surrogate_low b2] at h3
                  rw [pair_value h3.1 h3.2, encode_utf8 (by omega)] at h
                  simp only [Option.some.injEq, Prod.mk.injEq] at h
                  obtain ⟨eu, et⟩ := h
                  exact .inr (.inr ⟨g, k, hi, lo, hg, hk, h2.1, h2.2, h3.1, h3.2, eu.symm, by rw [et]⟩)
            · cases h
    · left
      unfold readEscape at h
      simp only at h
      by_cases h1 : c = 34
      · rw [if_pos h1] at h; exact letter 34 (.inl ⟨rfl, h1⟩) h
      rw [if_neg h1] at h
      by_cases h2 : c = 92
      · rw [if_pos h2] at h; exact letter 92 (.inr (.inl ⟨rfl, h2⟩)) h
      rw [if_neg h2] at h
      by_cases h3 : c = 47
      · rw [if_pos h3] at h; exact letter 47 (.inr (.inr (.inl ⟨rfl, h3⟩))) h
      rw [if_neg h3] at h
      by_cases h4 : c = 98
      · rw [if_pos h4] at h; exact letter 8 (.inr (.inr (.inr (.inl ⟨rfl, h4⟩)))) h
      rw [if_neg h4] at h
      by_cases h5 : c = 102
      · rw [if_pos h5] at h; exact letter 12 (.inr (.inr (.inr (.inr (.inl ⟨rfl, h5⟩))))) h
      rw [if_neg h5] at h
      by_cases h6 : c = 110
      · rw [if_pos h6] at h; exact letter 10 (.inr (.inr (.inr (.inr (.inr (.inl ⟨rfl, h6⟩)))))) h
      rw [if_neg h6] at h
      by_cases h7 : c = 114
      · rw [if_pos h7] at h; exact letter 13 (.inr (.inr (.inr (.inr (.inr (.inr (.inl ⟨rfl, h7⟩))))))) h
      rw [if_neg h7] at h
      by_cases h8 : c = 116
      · rw [if_pos h8] at h; exact letter 9 (.inr (.inr (.inr (.inr (.inr (.inr (.inr ⟨rfl, h8⟩))))))) h
      rw [if_neg h8, if_neg hu] at h
      cases h

theorem map_some {α β : Type} {o : Option α} {f : α → β} {b : β} (h : o.map f = some b) : ∃ a, o = some a ∧ f a = b := by
  cases o with
  | none => cases h
  | some a => exact ⟨a, rfl, Option.some.inj h⟩

/-- What is read is a string. -/
theorem readString_sound : ∀ (f : Nat) (s c rest : List UInt8), readString f s = some (c, rest) →
    ∃ t, Chars c t ∧ s = t ++ 34 :: rest
  | 0, _, _, _, h => by cases h
  | f + 1, [], _, _, h => by cases h
  | f + 1, a :: s, c, rest, h => by
    rw [readString] at h
    by_cases h1 : a = 34
    · rw [if_pos h1] at h
      cases h
      exact ⟨[], .nil, by rw [h1]; rfl⟩
    rw [if_neg h1] at h
    by_cases h2 : a = 92
    · rw [if_pos h2] at h
      cases he : readEscape s with
      | none => rw [he] at h; cases h
      | some p =>
        obtain ⟨u, q⟩ := p
        rw [he] at h
        simp only at h
        obtain ⟨⟨d, r'⟩, hd, e⟩ := map_some h
        simp only [Prod.mk.injEq] at e
        obtain ⟨rfl, rfl⟩ := e
        obtain ⟨t, ht, rfl⟩ := readString_sound f q d r' hd
        rcases readEscape_sound he with ⟨x, l, hl, rfl, rfl⟩ | ⟨g, n, hg, hn, rfl, rfl⟩ |
          ⟨g, k, hi, lo, hg, hk, b1, b2, b3, b4, eu, es⟩
        · exact ⟨_, .letter hl ht, by rw [h2]; rfl⟩
        · exact ⟨_, .unicode hg hn ht, by rw [h2]; simp⟩
        · rw [eu, es]
          exact ⟨_, .pair hg hk b1 b2 b3 b4 ht, by rw [h2]; simp only [List.cons_append, List.append_assoc]⟩
    rw [if_neg h2] at h
    by_cases h3 : a.toNat < 32
    · rw [if_pos h3] at h; cases h
    rw [if_neg h3] at h
    by_cases h4 : a.toNat < 128
    · rw [if_pos h4] at h
      obtain ⟨⟨d, r'⟩, hd, e⟩ := map_some h
      simp only [Prod.mk.injEq] at e
      obtain ⟨rfl, rfl⟩ := e
      obtain ⟨t, ht, rfl⟩ := readString_sound f s d r' hd
      have g34 : a.toNat ≠ 34 := fun e => h1 (UInt8.toNat_inj.1 e)
      have g92 : a.toNat ≠ 92 := fun e => h2 (UInt8.toNat_inj.1 e)
      have := Chars.plain (n := a.toNat) (.inl (by omega)) (by omega) g34 g92 ht
      rw [utf8_1 h4, UInt8.ofNat_toNat] at this
      exact ⟨_, this, rfl⟩
    rw [if_neg h4] at h
    cases he : sequence (a :: s) with
    | none => rw [he] at h; cases h
    | some p =>
      obtain ⟨u, q⟩ := p
      rw [he] at h
      simp only at h
      obtain ⟨⟨d, r'⟩, hd, e⟩ := map_some h
      simp only [Prod.mk.injEq] at e
      obtain ⟨rfl, rfl⟩ := e
      obtain ⟨t, ht, rfl⟩ := readString_sound f q d r' hd
      obtain ⟨e1, n, hn, h80, rfl⟩ := sequence_sound he
      exact ⟨_, .plain hn (by omega) (by omega) (by omega) ht, by rw [e1, List.append_assoc]⟩

/-! ## Numbers -/

theorem isDigit_iff (c : UInt8) : isDigit c = true ↔ Digit c := by
  unfold isDigit Digit
  rw [decide_eq_true_iff]

theorem digit_iff (c : UInt8) : Digit c ↔ IsDigit c := by
  have := every_byte (p := fun c => decide ((48 ≤ c.toNat ∧ c.toNat ≤ 57) ↔ (c - 48).toNat ≤ 9)) (by decide +kernel) c
  unfold Digit IsDigit
  exact of_decide_eq_true this

theorem span_append {d rest : List UInt8} (hd : ∀ c ∈ d, Digit c) (hr : ∀ c, rest.head? = some c → ¬ Digit c) :
    spanDigits (d ++ rest) = (d, rest) := by
  induction d with
  | nil =>
    cases rest with
    | nil => rfl
    | cons c t =>
      rw [List.nil_append, spanDigits, if_neg (fun e => hr c rfl ((isDigit_iff c).1 e))]
  | cons c d ih =>
    have := ih fun x hx => hd x (List.mem_cons_of_mem _ hx)
    rw [List.cons_append, spanDigits, if_pos ((isDigit_iff c).2 (hd c List.mem_cons_self)), this]

theorem span_sound (s : List UInt8) : s = (spanDigits s).1 ++ (spanDigits s).2 ∧ ∀ c ∈ (spanDigits s).1, Digit c := by
  induction s with
  | nil => exact ⟨rfl, fun c h => by cases h⟩
  | cons c t ih =>
    rw [spanDigits]
    by_cases hc : isDigit c = true
    · rw [if_pos hc]
      refine ⟨?_, ?_⟩
      · show c :: t = c :: ((spanDigits t).1 ++ (spanDigits t).2)
        rw [← ih.1]
      · intro x hx
        rcases List.mem_cons.1 hx with e | hx
        · rw [e]; exact (isDigit_iff c).1 hc
        · exact ih.2 x hx
    · rw [if_neg hc]
      exact ⟨rfl, fun c h => by cases h⟩

theorem index_digit (n : Nat) : ∀ c ∈ index n, Digit c := fun c hc => (digit_iff c).2 (digits_all (digits_index n) c hc)

theorem digits_done (n : Nat) (s : List UInt8) (h : ∀ c ∈ s, IsDigit c) : (digits n s).2 = [] := by
  induction s generalizing n with
  | nil => rfl
  | cons c s ih =>
    rw [digits, if_pos (h c List.mem_cons_self)]
    exact ih _ fun x hx => h x (List.mem_cons_of_mem _ hx)

theorem index_zero : index 0 = [48] := by rw [index_small (by decide)]; rfl

theorem index_lead (n : Nat) : ¬ ((index n).head? = some 48 ∧ (index n).length > 1) := by
  intro ⟨h1, h2⟩
  rcases Nat.eq_zero_or_pos n with rfl | hn
  · rw [index_zero] at h2
    exact absurd h2 (by decide)
  · obtain ⟨c, e, hc, _⟩ := index_head n hn
    rw [e] at h1
    exact hc (Option.some.inj h1)

/-- Digits without needless zeros are an index. -/
theorem index_of_digits {s : List UInt8} (hn : s ≠ []) (hd : ∀ c ∈ s, Digit c)
    (hz : ¬ (s.head? = some 48 ∧ s.length > 1)) : s = index (digits 0 s).1 := by
  have hd' : ∀ c ∈ s, IsDigit c := fun c hc => (digit_iff c).1 (hd c hc)
  have h2 := digits_done 0 s hd'
  cases s with
  | nil => exact absurd rfl hn
  | cons c s =>
    by_cases hc : c = 48
    · subst hc
      have : s = [] := by
        cases s with
        | nil => rfl
        | cons _ _ => exact absurd ⟨rfl, by simp⟩ hz
      subst this
      have : (digits 0 [48]).1 = 0 := by decide
      rw [this, index_zero]
    · have hpos : 0 < (digits 0 (c :: s)).1 := by
        rw [digits, if_pos (hd' c List.mem_cons_self)]
        have : 0 < (c - 48).toNat := by
          have := every_byte (p := fun d => decide (d ≠ 48 → 0 < (d - 48).toNat)) (by decide +kernel) c
          exact of_decide_eq_true this hc
        exact Nat.lt_of_lt_of_le (by omega) (digits_ge _ s)
      refine (index_digits _ (c :: s) ?_ (by omega) (fun e => hc (Option.some.inj e))).symm
      exact Prod.ext rfl h2

/-- What may follow a number. -/
def Stop (rest : List UInt8) : Prop := ∀ c, rest.head? = some c → ¬ Digit c ∧ c ≠ 46 ∧ c ≠ 101 ∧ c ≠ 69

theorem frac_complete {f rest : List UInt8} (hf : Frac f) (hr : ∀ c, rest.head? = some c → ¬ Digit c ∧ c ≠ 46) :
    readFrac (f ++ rest) = some (f, rest) := by
  rcases hf with rfl | ⟨d, hd, rfl⟩
  · cases rest with
    | nil => rfl
    | cons c t =>
      have := (hr c rfl).2
      unfold readFrac
      rw [List.nil_append]
      split
      · rename_i t' e
        exact absurd (List.cons.inj e).1 this
      · rfl
  · show (let (x, r) := spanDigits (d ++ rest); if x = [] then none else some (46 :: x, r)) = _
    rw [span_append hd.2 fun c h => (hr c h).1]
    simp only
    rw [if_neg hd.1]

theorem frac_sound {s f r : List UInt8} (h : readFrac s = some (f, r)) : Frac f ∧ s = f ++ r := by
  unfold readFrac at h
  split at h
  · rename_i t
    have := span_sound t
    simp only at h
    by_cases hd : (spanDigits t).1 = []
    · rw [if_pos hd] at h; cases h
    · rw [if_neg hd] at h
      cases h
      refine ⟨.inr ⟨_, ⟨hd, this.2⟩, rfl⟩, ?_⟩
      rw [List.cons_append, ← this.1]
  · cases h
    exact ⟨.inl rfl, rfl⟩

theorem expo_eq (e : UInt8) (t : List UInt8) : readExpo (e :: t) =
    (if e = 101 ∨ e = 69 then
      let sgn := match t with
        | c :: _ => if c = 43 ∨ c = 45 then [c] else []
        | [] => []
      let (d, r) := spanDigits (t.drop sgn.length)
      if d = [] then none else some (e :: (sgn ++ d), r)
    else some ([], e :: t)) := rfl

theorem expo_complete {e rest : List UInt8} (he : Expo e) (hr : Stop rest) : readExpo (e ++ rest) = some (e, rest) := by
  rcases he with rfl | ⟨c, s, d, hc, hs, hd, rfl⟩
  · cases rest with
    | nil => rfl
    | cons c t =>
      have := hr c rfl
      rw [List.nil_append, expo_eq, if_neg (by rintro (e | e); exact this.2.2.1 e; exact this.2.2.2 e)]
  · rw [List.cons_append, expo_eq, if_pos hc]
    have hsp : spanDigits (d ++ rest) = (d, rest) := span_append hd.2 fun c h => (hr c h).1
    obtain ⟨x, d', rfl⟩ : ∃ x d', d = x :: d' := by
      cases d with
      | nil => exact absurd rfl hd.1
      | cons x d' => exact ⟨x, d', rfl⟩
    rcases hs with rfl | rfl | rfl
    · have hx : ¬ (x = 43 ∨ x = 45) := by
        have := hd.2 x List.mem_cons_self
        rintro (rfl | rfl) <;> exact absurd this (by unfold Digit; decide)
      simp only [List.nil_append, List.cons_append]
      rw [if_neg hx]
      simp only [List.length_nil, List.drop_zero, List.nil_append]
      rw [List.cons_append] at hsp
      rw [hsp]
      simp only
      rw [if_neg hd.1]
    · show (let (d, r) := spanDigits (x :: d' ++ rest)
        if d = [] then none else some (c :: ([43] ++ d), r)) = _
      rw [hsp]
      simp only
      rw [if_neg hd.1]
    · show (let (d, r) := spanDigits (x :: d' ++ rest)
        if d = [] then none else some (c :: ([45] ++ d), r)) = _
      rw [hsp]
      simp only
      rw [if_neg hd.1]

theorem expo_sound {s e r : List UInt8} (h : readExpo s = some (e, r)) : Expo e ∧ s = e ++ r := by
  cases s with
  | nil => cases h; exact ⟨.inl rfl, rfl⟩
  | cons c t =>
    rw [expo_eq] at h
    by_cases hc : c = 101 ∨ c = 69
    · rw [if_pos hc] at h
      have key : ∀ sgn u, t = sgn ++ u → (sgn = [] ∨ sgn = [43] ∨ sgn = [45]) →
          (let (d, r) := spanDigits (t.drop sgn.length)
           if d = [] then none else some (c :: (sgn ++ d), r)) = some (e, r) → Expo e ∧ c :: t = e ++ r := by
        intro sgn u et hs h
        have eu : t.drop sgn.length = u := by rw [et, List.drop_left]
        rw [eu] at h
        have := span_sound u
        simp only at h
        by_cases hd : (spanDigits u).1 = []
        · rw [if_pos hd] at h; cases h
        · rw [if_neg hd] at h
          cases h
          refine ⟨.inr ⟨c, sgn, _, hc, hs, ⟨hd, this.2⟩, rfl⟩, ?_⟩
          rw [List.cons_append, List.append_assoc, ← this.1, et]
      cases t with
      | nil => exact key [] [] rfl (.inl rfl) h
      | cons x t =>
        simp only at h
        by_cases hx : x = 43 ∨ x = 45
        · rw [if_pos hx] at h
          exact key [x] t rfl (by rcases hx with rfl | rfl <;> simp) h
        · rw [if_neg hx] at h
          exact key [] (x :: t) rfl (.inl rfl) h
    · rw [if_neg hc] at h
      cases h
      exact ⟨.inl rfl, rfl⟩

theorem frac_stop {f rest : List UInt8} (hf : Frac f) (hr : ∀ c, rest.head? = some c → ¬ Digit c) :
    ∀ c, (f ++ rest).head? = some c → ¬ Digit c := by
  rcases hf with rfl | ⟨d, hd, rfl⟩
  · exact hr
  · intro c hc
    cases hc
    unfold Digit; decide

theorem expo_stop {e rest : List UInt8} (he : Expo e) (hr : Stop rest) :
    ∀ c, (e ++ rest).head? = some c → ¬ Digit c ∧ c ≠ 46 := by
  rcases he with rfl | ⟨c, s, d, hc, hs, hd, rfl⟩
  · exact fun c h => ⟨(hr c h).1, (hr c h).2.1⟩
  · intro x hx
    cases hx
    rcases hc with rfl | rfl <;> exact ⟨by unfold Digit; decide, by decide⟩

theorem fits_iff (neg : Bool) (n : Nat) : Fits (signed neg n) ↔ (if neg then n ≤ 2 ^ 63 else n < 2 ^ 64) := by
  cases neg <;> simp [Fits, signed] <;> omega

/-- The number after its sign. -/
def readAbs (reals : Reals) (neg : Bool) (s : List UInt8) : Option (Json × List UInt8) :=
  let (ip, r) := spanDigits s
  if ip = [] then none
  else if ip.head? = some 48 ∧ ip.length > 1 then none
  else match readFrac r with
    | none => none
    | some (f, r) =>
      match readExpo r with
      | none => none
      | some (e, r) =>
        let n := (digits 0 ip).1
        if f = [] ∧ e = [] ∧ (if neg then n ≤ 2 ^ 63 else n < 2 ^ 64) then
          some (.int (if neg then -(n : Int) else n), r)
        else match reals.read ((if neg then [45] else []) ++ ip ++ f ++ e) with
          | none => none
          | some d => some (.real d, r)

theorem readNumber_eq (reals : Reals) (s : List UInt8) : readNumber reals s =
    readAbs reals (decide (s.head? = some 45)) (if decide (s.head? = some 45) then s.tail else s) := rfl

theorem readNumber_sign (reals : Reals) (neg : Bool) (s : List UInt8) (h : neg = false → s.head? ≠ some 45) :
    readNumber reals (minus neg ++ s) = readAbs reals neg s := by
  rw [readNumber_eq]
  cases neg with
  | true => rfl
  | false =>
    have e : decide ((minus false ++ s).head? = some 45) = false := decide_eq_false (h rfl)
    rw [e]
    rfl

theorem index_cons (n : Nat) : ∃ c t, index n = c :: t ∧ Digit c := by
  have h1 := index_ne_nil n
  have h2 := index_digit n
  cases hi : index n with
  | nil => exact absurd hi h1
  | cons c t => exact ⟨c, t, rfl, h2 c (by rw [hi]; exact List.mem_cons_self)⟩

theorem digit_not_minus {c : UInt8} (h : Digit c) : c ≠ 45 := by
  rintro rfl
  exact absurd h (by unfold Digit; decide)

theorem readAbs_complete (reals : Reals) {neg : Bool} {n : Nat} {f e rest : List UInt8} (hf : Frac f) (he : Expo e)
    (hr : Stop rest) : readAbs reals neg (index n ++ (f ++ (e ++ rest))) =
      if f = [] ∧ e = [] ∧ (if neg then n ≤ 2 ^ 63 else n < 2 ^ 64) then some (.int (signed neg n), rest)
      else match reals.read (minus neg ++ index n ++ f ++ e) with
          | none => none
          | some d => some (.real d, rest) := by
  unfold readAbs
  rw [span_append (index_digit n) (frac_stop hf fun c h => (expo_stop he hr c h).1)]
  simp only
  rw [if_neg (index_ne_nil n), if_neg (index_lead n), frac_complete hf (expo_stop he hr)]
  simp only
  rw [expo_complete he hr]
  simp only
  rw [digits_index]
  rfl

theorem readNumber_int (reals : Reals) {neg : Bool} {n : Nat} {rest : List UInt8} (hfit : Fits (signed neg n))
    (hr : Stop rest) : readNumber reals (minus neg ++ (index n ++ rest)) = some (.int (signed neg n), rest) := by
  rw [readNumber_sign]
  · have := readAbs_complete reals (neg := neg) (n := n) (f := []) (e := []) (.inl rfl) (.inl rfl) hr
    rw [List.nil_append, List.nil_append] at this
    rw [this, if_pos ⟨rfl, rfl, (fits_iff neg n).1 hfit⟩]
  · intro _ e
    obtain ⟨c, t, e', hc⟩ := index_cons n
    rw [e', List.cons_append] at e
    exact digit_not_minus hc (Option.some.inj e)

theorem readNumber_real (reals : Reals) {neg : Bool} {n : Nat} {f e rest : List UInt8} {d : UInt64} (hf : Frac f)
    (he : Expo e) (hw : f ≠ [] ∨ e ≠ [] ∨ ¬ Fits (signed neg n))
    (hd : reals.read (minus neg ++ index n ++ f ++ e) = some d) (hr : Stop rest) :
    readNumber reals (minus neg ++ (index n ++ (f ++ (e ++ rest)))) = some (.real d, rest) := by
  rw [readNumber_sign]
  · rw [readAbs_complete reals hf he hr, if_neg, hd]
    rintro ⟨rfl, rfl, h⟩
    rcases hw with h' | h' | h'
    · exact h' rfl
    · exact h' rfl
    · exact h' ((fits_iff neg n).2 h)
  · intro _ e
    obtain ⟨c, t, e', hc⟩ := index_cons n
    rw [e', List.cons_append] at e
    exact digit_not_minus hc (Option.some.inj e)

theorem readNumber_sound {reals : Reals} {s r : List UInt8} {v : Json} (h : readNumber reals s = some (v, r)) :
    ∃ t, Text reals.read (.value v) t ∧ s = t ++ r := by
  rw [readNumber_eq] at h
  have hs : s = minus (decide (s.head? = some 45)) ++ (if decide (s.head? = some 45) then s.tail else s) := by
    cases s with
    | nil => rfl
    | cons c t =>
      by_cases hc : c = 45
      · subst hc; rfl
      · have : decide ((c :: t).head? = some 45) = false := decide_eq_false fun e => hc (Option.some.inj e)
        rw [this]
        rfl
  rw [hs]
  clear hs
  generalize (if decide (s.head? = some 45) then s.tail else s) = u at h ⊢
  generalize decide (s.head? = some 45) = neg at h ⊢
  unfold readAbs at h
  obtain ⟨h1, h2⟩ := span_sound u
  simp only at h
  by_cases hn : (spanDigits u).1 = []
  · rw [if_pos hn] at h; cases h
  rw [if_neg hn] at h
  by_cases hz : (spanDigits u).1.head? = some 48 ∧ (spanDigits u).1.length > 1
  · rw [if_pos hz] at h; cases h
  rw [if_neg hz] at h
  have hi := index_of_digits hn h2 hz
  cases hfr : readFrac (spanDigits u).2 with
  | none => rw [hfr] at h; cases h
  | some p =>
    obtain ⟨f, r1⟩ := p
    rw [hfr] at h
    simp only at h
    obtain ⟨hf, ef⟩ := frac_sound hfr
    cases hex : readExpo r1 with
    | none => rw [hex] at h; cases h
    | some p =>
      obtain ⟨e, r2⟩ := p
      rw [hex] at h
      simp only at h
      obtain ⟨he, ee⟩ := expo_sound hex
      have hu : u = index (digits 0 (spanDigits u).1).1 ++ (f ++ (e ++ r2)) := by
        rw [← hi, ← ee, ← ef]; exact h1
      generalize hnn : (digits 0 (spanDigits u).1).1 = n at h hu hi
      rw [hi] at h
      by_cases hc : f = [] ∧ e = [] ∧ (if neg then n ≤ 2 ^ 63 else n < 2 ^ 64)
      · rw [if_pos hc] at h
        simp only [Option.some.injEq, Prod.mk.injEq] at h
        obtain ⟨rfl, rfl⟩ := h
        refine ⟨_, .int (reals := reals.read) (neg := neg) (n := n) ((fits_iff neg n).2 hc.2.2), ?_⟩
        rw [hu, hc.1, hc.2.1]
        simp
      · rw [if_neg hc] at h
        cases hd : reals.read ((if neg then [45] else []) ++ index n ++ f ++ e) with
        | none => rw [hd] at h; cases h
        | some d =>
          rw [hd] at h
          simp only [Option.some.injEq, Prod.mk.injEq] at h
          obtain ⟨rfl, rfl⟩ := h
          refine ⟨_, .real (neg := neg) (n := n) hf he ?_ hd, ?_⟩
          · by_cases hf' : f = []
            · by_cases he' : e = []
              · exact .inr (.inr fun hh => hc ⟨hf', he', (fits_iff neg n).1 hh⟩)
              · exact .inr (.inl he')
            · exact .inl hf'
          · rw [hu]; simp

end Verif.Proof.Json
