import Verif.Model.Json
/-!
# Lemmas on pointers and documents
-/
namespace Verif.Proof.Json
open Verif.Spec.Json Verif.Model.Json

/-- The number of characters that are escaped. -/
def specials (t : Token) : Nat := t.countP fun c => decide (c = 126 ∨ c = 47)

theorem escape_cons (c : UInt8) (t : Token) :
    escape (c :: t) = (if c = 126 then [126, 48] else if c = 47 then [126, 49] else [c]) ++ escape t := by
  simp [escape]

theorem specials_cons (c : UInt8) (t : Token) :
    specials (c :: t) = specials t + if c = 126 ∨ c = 47 then 1 else 0 := by
  simp only [specials, List.countP_cons, decide_eq_true_eq]

theorem escape_length (t : Token) : (escape t).length = t.length + specials t := by
  induction t with
  | nil => rfl
  | cons c t ih =>
    rw [escape_cons, specials_cons, List.length_append, ih, List.length_cons]
    by_cases h1 : c = 126
    · simp [h1]; omega
    · by_cases h2 : c = 47
      · simp [h2]; omega
      · simp [h1, h2]; omega

/-- Where a pointer goes on after a token. -/
def After (rest : List UInt8) : Prop := rest = [] ∨ rest.head? = some 47

theorem escaped_escape (t : Token) {rest : List UInt8} (h : After rest) :
    escaped (escape t ++ rest) = some (escape t, specials t, rest) := by
  induction t with
  | nil =>
    rcases h with h | h
    · subst h; rfl
    · cases rest with
      | nil => cases h
      | cons c r =>
        have : c = 47 := by simpa using h
        subst this
        show escaped (47 :: r) = _
        unfold escaped
        rw [if_pos rfl]
        rfl
  | cons c t ih =>
    rw [escape_cons, specials_cons]
    by_cases h1 : c = 126
    · rw [if_pos h1, if_pos (Or.inl h1)]
      show escaped (126 :: 48 :: (escape t ++ rest)) = _
      unfold escaped
      rw [if_neg (by decide), if_pos rfl]
      simp only [ne_eq, not_true_eq_false, false_and, if_false]
      unfold escaped
      rw [if_neg (by decide), if_neg (by decide), ih]
      rfl
    · by_cases h2 : c = 47
      · rw [if_neg h1, if_pos h2, if_pos (Or.inr h2)]
        show escaped (126 :: 49 :: (escape t ++ rest)) = _
        unfold escaped
        rw [if_neg (by decide), if_pos rfl]
        simp only [ne_eq, not_true_eq_false, and_false, if_false]
        unfold escaped
        rw [if_neg (by decide), if_neg (by decide), ih]
        rfl
      · rw [if_neg h1, if_neg h2, if_neg (by simp [h1, h2])]
        show escaped (c :: (escape t ++ rest)) = _
        unfold escaped
        rw [if_neg h2, if_neg h1, ih]
        rfl

/-- A token of the model is this token. -/
structure Spells (k : Tok) (t : Token) : Prop where
  raw : k.raw = escape t
  len : k.len = t.length
  esc : k.esc = specials t

theorem plain_escape (t : Token) {rest : List UInt8} (h : After rest) :
    (plain (escape t ++ rest) = (escape t, rest) ∧ specials t = 0) ∨
    ∃ a b, t = a ++ b ∧ specials a = 0 ∧ escape a = a ∧ (escape b).head? = some 126 ∧
      plain (escape t ++ rest) = (a, escape b ++ rest) := by
  induction t with
  | nil =>
    left
    rcases h with h | h
    · subst h; exact ⟨rfl, rfl⟩
    · cases rest with
      | nil => cases h
      | cons c r =>
        have : c = 47 := by simpa using h
        subst this
        exact ⟨rfl, rfl⟩
  | cons c t ih =>
    by_cases h1 : c = 126 ∨ c = 47
    · right
      refine ⟨[], c :: t, rfl, rfl, rfl, ?_, ?_⟩
      · rw [escape_cons]
        rcases h1 with h1 | h1
        · simp [h1]
        · simp [h1]
      · rw [escape_cons]
        rcases h1 with h1 | h1
        · rw [if_pos h1]; rfl
        · rw [if_neg (by rw [h1]; decide), if_pos h1]; rfl
    · have e : escape (c :: t) = c :: escape t := by
        rw [escape_cons, if_neg (fun hc => h1 (Or.inl hc)), if_neg (fun hc => h1 (Or.inr hc))]; rfl
      have hp : plain (escape (c :: t) ++ rest) =
          (c :: (plain (escape t ++ rest)).1, (plain (escape t ++ rest)).2) := by
        rw [e]
        show plain (c :: (escape t ++ rest)) = _
        rw [plain, if_pos ⟨fun hc => h1 (Or.inr hc), fun hc => h1 (Or.inl hc)⟩]
      rcases ih with ⟨i1, i2⟩ | ⟨a, b, i1, i2, i3, i4, i5⟩
      · left
        rw [hp, i1, specials_cons, if_neg h1, i2, e]
        exact ⟨rfl, rfl⟩
      · right
        refine ⟨c :: a, b, by rw [i1]; rfl, ?_, ?_, i4, ?_⟩
        · rw [specials_cons, if_neg h1, i2]
        · rw [escape_cons, if_neg (fun hc => h1 (Or.inl hc)), if_neg (fun hc => h1 (Or.inr hc)), i3]; rfl
        · rw [hp, i5]

theorem escape_append (a b : Token) : escape (a ++ b) = escape a ++ escape b := by simp [escape]

theorem specials_append (a b : Token) : specials (a ++ b) = specials a + specials b := by simp [specials]

theorem nextToken_pointer (t : Token) {rest : List UInt8} (h : After rest) :
    ∃ k, nextToken (47 :: (escape t ++ rest)) = some (k, rest) ∧ Spells k t := by
  have e : nextToken (47 :: (escape t ++ rest)) =
      (let (skipped, cur) := plain (escape t ++ rest)
       if cur.head? ≠ some 126 then some (⟨skipped, skipped.length, 0⟩, cur)
       else match escaped cur with
         | none => none
         | some (r, n, rest) => some (⟨skipped ++ r, (skipped ++ r).length - n, n⟩, rest)) := rfl
  rw [e]
  rcases plain_escape t h with ⟨h1, h2⟩ | ⟨a, b, h1, h2, h3, h4, h5⟩
  · rw [h1]
    simp only
    have hr : rest.head? ≠ some 126 := by
      rcases h with h | h
      · rw [h]; decide
      · rw [h]; decide
    rw [if_pos hr]
    exact ⟨_, rfl, rfl, by show (escape t).length = _; rw [escape_length, h2]; rfl, h2.symm⟩
  · rw [h5]
    simp only
    have hh : (escape b ++ rest).head? = some 126 := by
      cases hb : escape b with
      | nil => rw [hb] at h4; cases h4
      | cons c u => rw [hb] at h4; exact h4
    rw [if_neg (by rw [hh]; simp), escaped_escape b h]
    refine ⟨_, rfl, ?_, ?_, ?_⟩
    · show a ++ escape b = _
      rw [h1, escape_append, h3]
    · show (a ++ escape b).length - specials b = _
      rw [h1, List.length_append, List.length_append, escape_length]; omega
    · show specials b = _
      rw [h1, specials_append, h2]; omega

theorem escape_plain {t : Token} (h : specials t = 0) : escape t = t := by
  induction t with
  | nil => rfl
  | cons c t ih =>
    rw [specials_cons] at h
    by_cases h1 : c = 126 ∨ c = 47
    · rw [if_pos h1] at h; omega
    · rw [escape_cons, if_neg (fun hc => h1 (Or.inl hc)), if_neg (fun hc => h1 (Or.inr hc)), ih (by omega)]; rfl

theorem sameEscaped_escape : ∀ (key t : Token), key.length = t.length →
    sameEscaped key (escape t) = decide (key = t)
  | [], [], _ => rfl
  | c :: key, d :: t, h => by
    have ih := sameEscaped_escape key t (by simpa using h)
    rw [escape_cons]
    by_cases h1 : d = 126
    · rw [if_pos h1]
      show sameEscaped (c :: key) (126 :: 48 :: escape t) = _
      unfold sameEscaped
      simp only [if_true]
      by_cases hc : c = 126
      · simp [hc, h1, ih]
      · have : ¬ (c :: key = d :: t) := by simp [h1, hc]
        simp [hc, this]
    · by_cases h2 : d = 47
      · rw [if_neg h1, if_pos h2]
        show sameEscaped (c :: key) (126 :: 49 :: escape t) = _
        unfold sameEscaped
        simp only [if_true]
        have e : (if (49 : UInt8) = 48 then (126 : UInt8) else 47) = 47 := by decide
        rw [e]
        by_cases hc : c = 47
        · simp [hc, h2, ih]
        · have : ¬ (c :: key = d :: t) := by simp [h2, hc]
          simp [hc, this]
      · rw [if_neg h1, if_neg h2]
        show sameEscaped (c :: key) (d :: escape t) = _
        unfold sameEscaped
        rw [if_neg h1]
        by_cases hc : c = d
        · simp [hc, ih]
        · simp [hc]
  | [], _ :: _, h => by simp at h
  | _ :: _, [], h => by simp at h

theorem tokenEq_spells {k : Tok} {t : Token} (h : Spells k t) (key : List UInt8) :
    tokenEq key k = decide (key = t) := by
  unfold tokenEq
  rw [h.len, h.esc, h.raw]
  by_cases hl : key.length = t.length
  · rw [if_neg (by simp [hl])]
    by_cases he : specials t = 0
    · rw [if_pos he, escape_plain he, List.take_length]
    · rw [if_neg he, sameEscaped_escape _ _ hl]
  · rw [if_pos hl]
    symm
    exact decide_eq_false fun e => hl (by rw [e])

theorem unescape_escape (t : Token) : unescape (escape t) = t := by
  induction t with
  | nil => rfl
  | cons c t ih =>
    rw [escape_cons]
    by_cases h1 : c = 126
    · rw [if_pos h1]
      show unescape (126 :: 48 :: escape t) = _
      unfold unescape
      simp [ih, h1]
    · by_cases h2 : c = 47
      · rw [if_neg h1, if_pos h2]
        show unescape (126 :: 49 :: escape t) = _
        unfold unescape
        simp [ih, h2]
      · rw [if_neg h1, if_neg h2]
        show unescape (c :: escape t) = _
        unfold unescape
        simp [ih, h1]

theorem newKey_spells {k : Tok} {t : Token} (h : Spells k t) : newKey k = t := by
  unfold newKey
  rw [h.len, h.esc, h.raw]
  by_cases he : specials t = 0
  · rw [if_pos he, escape_plain he, List.take_length]
  · rw [if_neg he, ← escape_length, List.take_length, unescape_escape, List.take_length]

theorem objGet_spells {k : Tok} {t : Token} (h : Spells k t) (l : List (List UInt8 × Json)) :
    objGet k l = member t l := by
  induction l with
  | nil => rfl
  | cons y l ih =>
    obtain ⟨n, v⟩ := y
    unfold objGet
    rw [tokenEq_spells h, ih]
    unfold member
    rw [List.find?_cons]
    by_cases hn : n = t
    · simp [hn]
    · simp [hn]

/-! ## Indices -/

/-- A digit. -/
abbrev IsDigit (c : UInt8) : Prop := (c - 48).toNat ≤ 9

theorem every_byte {p : UInt8 → Bool} (h : ∀ n, n < 256 → p (UInt8.ofNat n) = true) (c : UInt8) : p c = true := by
  have := h c.toNat (UInt8.toNat_lt c)
  rwa [UInt8.ofNat_toNat] at this

theorem digits_acc (n : Nat) (s : List UInt8) (h : ∀ c ∈ s, IsDigit c) (c : UInt8) (hc : IsDigit c) :
    digits n (s ++ [c]) = ((digits n s).1 * 10 + (c - 48).toNat, []) ∧ (digits n s).2 = [] := by
  induction s generalizing n with
  | nil =>
    refine ⟨?_, rfl⟩
    show digits n [c] = _
    unfold digits
    rw [if_pos hc]
    rfl
  | cons d s ih =>
    have hd : IsDigit d := h d List.mem_cons_self
    have := ih (n * 10 + (d - 48).toNat) fun x hx => h x (List.mem_cons_of_mem _ hx)
    rw [List.cons_append, digits, if_pos hd, digits, if_pos hd]
    exact this

theorem digits_all {n : Nat} {s : List UInt8} {m : Nat} (h : digits n s = (m, [])) : ∀ c ∈ s, IsDigit c := by
  induction s generalizing n with
  | nil => simp
  | cons d s ih =>
    unfold digits at h
    by_cases hd : (d - 48).toNat ≤ 9
    · rw [if_pos hd] at h
      intro c hc
      rcases List.mem_cons.1 hc with e | hc
      · rw [e]; exact hd
      · exact ih h c hc
    · rw [if_neg hd] at h
      cases h

theorem digit_char (d : Nat) (h : d < 10) :
    UInt8.ofNat (Nat.digitChar d).toNat = UInt8.ofNat (48 + d) ∧ IsDigit (UInt8.ofNat (Nat.digitChar d).toNat) ∧
    (UInt8.ofNat (Nat.digitChar d).toNat - 48).toNat = d := by
  unfold IsDigit
  revert d
  decide

theorem index_small {n : Nat} (h : n < 10) : index n = [UInt8.ofNat (48 + n)] := by
  unfold index
  rw [Nat.toDigits_of_lt_base h, List.map_cons, List.map_nil, (digit_char n h).1]

theorem index_large {n : Nat} (h : 10 ≤ n) : index n = index (n / 10) ++ [UInt8.ofNat (48 + n % 10)] := by
  unfold index
  rw [Nat.toDigits_of_base_le (by decide) h, List.map_append, List.map_cons, List.map_nil,
    (digit_char _ (Nat.mod_lt _ (by decide))).1]

theorem ofNat_digit {d : Nat} (h : d < 10) : IsDigit (UInt8.ofNat (48 + d)) ∧ (UInt8.ofNat (48 + d) - 48).toNat = d := by
  have := digit_char d h
  rw [this.1] at this
  exact this.2

/-- An index is read as it is written. -/
theorem digits_index (n : Nat) : digits 0 (index n) = (n, []) := by
  induction n using Nat.strongRecOn with
  | ind n ih =>
    by_cases h : n < 10
    · rw [index_small h]
      unfold digits
      rw [if_pos (ofNat_digit h).1, (ofNat_digit h).2]
      simp [digits]
    · have hm := ofNat_digit (d := n % 10) (Nat.mod_lt _ (by decide))
      have := ih (n / 10) (by omega)
      rw [index_large (by omega), (digits_acc 0 _ (digits_all this) _ hm.1).1, this, hm.2]
      simp only [Prod.mk.injEq, and_true]
      omega

theorem index_ne_nil (n : Nat) : index n ≠ [] := by
  unfold index
  intro h
  exact Nat.toDigits_ne_nil (List.map_eq_nil_iff.1 h)

theorem index_head (n : Nat) (h : 0 < n) : ∃ c, (index n).head? = some c ∧ c ≠ 48 ∧ c ≠ 45 := by
  induction n using Nat.strongRecOn with
  | ind n ih =>
    by_cases hn : n < 10
    · rw [index_small hn]
      refine ⟨_, rfl, ?_⟩
      have : ∀ m, m < 10 → 0 < m → UInt8.ofNat (48 + m) ≠ 48 ∧ UInt8.ofNat (48 + m) ≠ 45 := by decide
      exact this n hn h
    · obtain ⟨c, h1, h2⟩ := ih (n / 10) (by omega) (by omega)
      refine ⟨c, ?_, h2⟩
      rw [index_large (by omega), List.head?_append, h1]
      rfl

theorem digits_ge (n : Nat) (s : List UInt8) : n ≤ (digits n s).1 := by
  induction s generalizing n with
  | nil => exact Nat.le_refl _
  | cons c s ih =>
    unfold digits
    split
    · exact Nat.le_trans (by omega) (ih _)
    · exact Nat.le_refl _

/-- What is read as a number without a leading zero is its index. -/
theorem index_digits (n : Nat) : ∀ s, digits 0 s = (n, []) → n ≠ 0 → s.head? ≠ some 48 → index n = s := by
  induction n using Nat.strongRecOn with
  | ind n ih =>
    intro s h hn hh
    rcases List.eq_nil_or_concat s with hs | ⟨s', c, hs⟩
    · rw [hs] at h
      simp only [digits, Prod.mk.injEq, and_true] at h
      omega
    · rw [List.concat_eq_append] at hs
      subst hs
      have hall := digits_all h
      have hc : IsDigit c := hall c (by simp)
      obtain ⟨h1, h2⟩ := digits_acc 0 s' (fun x hx => hall x (by simp [hx])) c hc
      rw [h1, Prod.mk.injEq] at h
      have hn' := h.1
      have hb : c = UInt8.ofNat (48 + (c - 48).toNat) := by
        have := every_byte (p := fun c => decide ((c - 48).toNat ≤ 9 → c = UInt8.ofNat (48 + (c - 48).toNat)))
          (by decide +kernel) c
        exact of_decide_eq_true this hc
      unfold IsDigit at hc
      cases s' with
      | nil =>
        simp only [digits] at hn'
        rw [index_small (by omega), hb]
        have : n = (c - 48).toNat := by omega
        rw [this]
        rw [← hb]
        rfl
      | cons d s' =>
        have hd : IsDigit d := hall d (by simp)
        have hd0 : d ≠ 48 := fun e => hh (by simp [e])
        have hpos : 0 < (digits 0 (d :: s')).1 := by
          unfold digits
          rw [if_pos hd]
          have : 0 < (d - 48).toNat := by
            have := every_byte (p := fun d => decide (d ≠ 48 → 0 < (d - 48).toNat)) (by decide +kernel) d
            exact of_decide_eq_true this hd0
          exact Nat.lt_of_lt_of_le (by omega) (digits_ge _ _)
        have := ih (digits 0 (d :: s')).1 (by omega) (d :: s') (Prod.ext rfl h2) (by omega) (fun e => hh (by simpa using e))
        rw [index_large (by omega)]
        have e1 : n / 10 = (digits 0 (d :: s')).1 := by omega
        have e2 : n % 10 = (c - 48).toNat := by omega
        rw [e1, e2, this, ← hb]

theorem take_escape_plain : ∀ (t : Token), (∀ c ∈ (escape t).take t.length, c ≠ 126) → specials t = 0
  | [], _ => rfl
  | c :: t, h => by
    rw [escape_cons] at h
    rw [specials_cons]
    by_cases h1 : c = 126
    · exfalso
      rw [if_pos h1] at h
      exact h 126 (by simp) rfl
    · by_cases h2 : c = 47
      · exfalso
        rw [if_neg h1, if_pos h2] at h
        exact h 126 (by simp) rfl
      · rw [if_neg h1, if_neg h2] at h
        rw [if_neg (by simp [h1, h2]), take_escape_plain t fun d hd => h d (by simp [hd])]

theorem toIdx_spells {k : Tok} {t : Token} (h : Spells k t) (i : Nat) :
    toIdx k = some (some i) ↔ index i = t ∧ t.length ≤ 19 := by
  unfold toIdx
  rw [h.len, h.raw]
  simp only
  have hlen : ((escape t).take t.length).length = t.length := by
    rw [List.length_take, escape_length]; omega
  rw [hlen]
  constructor
  · intro hi
    by_cases h0 : t.length = 0 ∨ t.length > 19
    · rw [if_pos h0] at hi; cases hi
    rw [if_neg h0] at hi
    refine ⟨?_, by omega⟩
    by_cases h1 : ((escape t).take t.length).head? = some 48
    · rw [if_pos h1] at hi
      by_cases h2 : t.length > 1
      · rw [if_pos h2] at hi; cases hi
      rw [if_neg h2] at hi
      cases t with
      | nil => simp at h0
      | cons c t =>
        cases t with
        | cons _ _ => simp at h2
        | nil =>
          have hs : specials [c] = 0 := by
            apply take_escape_plain
            intro d hd e
            rw [escape_cons] at h1 hd
            subst e
            revert h1 hd
            by_cases c1 : c = 126
            · simp [c1]
            · by_cases c2 : c = 47
              · simp [c2]
              · simp [c1, c2, escape]
                intro a b; rw [a] at b; exact absurd b (by decide)
          rw [escape_plain hs] at h1
          simp only [List.length_cons, List.length_nil, List.take_succ_cons, List.head?_cons, Option.some.injEq] at h1
          cases hi
          rw [h1]
          rfl
    · rw [if_neg h1] at hi
      by_cases h2 : ((escape t).take t.length).head? = some 45
      · rw [if_pos h2] at hi
        by_cases h3 : t.length > 1
        · rw [if_pos h3] at hi; cases hi
        · rw [if_neg h3] at hi; cases hi
      · rw [if_neg h2] at hi
        by_cases h3 : (digits 0 ((escape t).take t.length)).1 = 0 ∨ (digits 0 ((escape t).take t.length)).2 ≠ []
        · rw [if_pos h3] at hi; cases hi
        rw [if_neg h3] at hi
        simp only [Option.some.injEq] at hi
        have h4 : (digits 0 ((escape t).take t.length)).1 ≠ 0 := fun e => h3 (Or.inl e)
        have h5 : (digits 0 ((escape t).take t.length)).2 = [] := by
          by_cases e : (digits 0 ((escape t).take t.length)).2 = []
          · exact e
          · exact absurd (Or.inr e) h3
        have hd : digits 0 ((escape t).take t.length) = (i, []) := Prod.ext hi h5
        have hs : specials t = 0 := by
          apply take_escape_plain
          intro c hc e
          have := digits_all hd c hc
          rw [e] at this
          exact absurd this (by unfold IsDigit; decide)
        rw [escape_plain hs, List.take_length] at hd h1
        exact index_digits i t hd (by omega) h1
  · intro ⟨h1, h2⟩
    have hall := digits_all (digits_index i)
    have hne := index_ne_nil i
    rw [h1] at hall hne
    have hpos : 0 < t.length := List.length_pos_iff.2 hne
    have hs : specials t = 0 := by
      unfold specials
      rw [List.countP_eq_zero]
      intro c hc e
      rcases of_decide_eq_true e with e | e
      · have := hall c hc; rw [e] at this; exact absurd this (by unfold IsDigit; decide)
      · have := hall c hc; rw [e] at this; exact absurd this (by unfold IsDigit; decide)
    rw [escape_plain hs, List.take_length, if_neg (by omega)]
    by_cases hi : i = 0
    · subst hi
      have : t = [48] := by rw [← h1]; rfl
      rw [this]
      rfl
    · obtain ⟨c, c1, c2, c3⟩ := index_head i (by omega)
      rw [h1] at c1
      rw [c1, if_neg (by simpa using c2), if_neg (by simpa using c3)]
      have := digits_index i
      rw [h1] at this
      rw [this]
      simp [hi]

theorem index_inj {i j : Nat} (h : index i = index j) : i = j := by
  have h1 := digits_index i
  rw [h, digits_index j] at h1
  simpa using h1.symm

theorem arrGet_spells {k : Tok} {t : Token} (h : Spells k t) (l : List Json) (i : Nat) :
    arrGet l k = some i ↔ i < l.length ∧ index i = t ∧ t.length ≤ 19 := by
  unfold arrGet
  by_cases h0 : l.length = 0
  · rw [if_pos h0]
    constructor
    · intro h; cases h
    · intro h; omega
  · rw [if_neg h0]
    have hi := toIdx_spells h
    cases hx : toIdx k with
    | none =>
      simp only
      constructor
      · intro h; cases h
      · intro ⟨_, h2⟩
        have := (hi i).2 h2
        rw [hx] at this; cases this
    | some o =>
      cases o with
      | none =>
        simp only
        constructor
        · intro h; cases h
        · intro ⟨_, h2⟩
          have := (hi i).2 h2
          rw [hx] at this; cases this
      | some j =>
        simp only
        have hj := (hi j).1 hx
        by_cases hlt : j ≥ l.length
        · rw [if_pos hlt]
          constructor
          · intro h; cases h
          · intro ⟨h1, h2, _⟩
            have := index_inj (h2.trans hj.1.symm)
            omega
        · rw [if_neg hlt]
          constructor
          · intro e
            cases e
            exact ⟨by omega, hj⟩
          · intro ⟨_, h2, _⟩
            rw [index_inj (h2.trans hj.1.symm)]

theorem element_some {t : Token} {l : List Json} {v : Json} :
    element t l = some v ↔ ∃ i, l[i]? = some v ∧ index i = t ∧ t.length ≤ 19 := by
  unfold element
  by_cases hl : t.length ≤ 19
  · rw [if_pos hl]
    constructor
    · intro h
      obtain ⟨i, h1, h2⟩ := Option.bind_eq_some_iff.1 h
      exact ⟨i, h2, of_decide_eq_true (List.find?_some (p := fun i => decide (index i = t)) h1), hl⟩
    · intro ⟨i, h1, h2, _⟩
      have hi : i < l.length := (List.getElem?_eq_some_iff.1 h1).1
      cases hf : (List.range l.length).find? fun i => decide (index i = t) with
      | none =>
        have := List.find?_eq_none.1 hf i (List.mem_range.2 hi)
        simp [h2] at this
      | some j =>
        have := of_decide_eq_true (List.find?_some (p := fun i => decide (index i = t)) hf)
        rw [Option.bind_some, index_inj (this.trans h2.symm), h1]
  · rw [if_neg hl]
    constructor
    · intro h; cases h
    · intro ⟨_, _, _, h⟩; exact absurd h hl

theorem arrGet_element {k : Tok} {t : Token} (h : Spells k t) (l : List Json) :
    ((arrGet l k).bind fun i => l[i]?) = element t l := by
  apply Option.ext
  intro v
  rw [element_some]
  constructor
  · intro hv
    obtain ⟨i, h1, h2⟩ := Option.bind_eq_some_iff.1 hv
    have := (arrGet_spells h l i).1 h1
    exact ⟨i, h2, this.2.1, this.2.2⟩
  · intro ⟨i, h1, h2, h3⟩
    have hi : i < l.length := (List.getElem?_eq_some_iff.1 h1).1
    rw [(arrGet_spells h l i).2 ⟨hi, h2, h3⟩, Option.bind_some, h1]

/-! ## Reading -/

theorem pointer_cons (t : Token) (ts : List Token) : pointer (t :: ts) = 47 :: (escape t ++ pointer ts) := by
  simp [pointer]

theorem pointer_after (ts : List Token) : After (pointer ts) := by
  cases ts with
  | nil => exact Or.inl rfl
  | cons t ts => rw [pointer_cons]; exact Or.inr rfl

theorem pointer_nil_iff (ts : List Token) : pointer ts = [] ↔ ts = [] := by
  cases ts with
  | nil => simp [pointer]
  | cons t ts => rw [pointer_cons]; simp

theorem pointer_length (ts : List Token) : ts.length ≤ (pointer ts).length := by
  induction ts with
  | nil => exact Nat.le_refl _
  | cons t ts ih => rw [pointer_cons]; simp only [List.length_cons, List.length_append]; omega

theorem getx_pointer (ts : List Token) : ∀ (fuel : Nat) (v : Json) (t : Token), ts.length < fuel →
    getx fuel v (pointer (t :: ts)) = resolve (t :: ts) v := by
  induction ts with
  | nil =>
    intro fuel v t hf
    obtain ⟨f, rfl⟩ : ∃ f, fuel = f + 1 := ⟨fuel - 1, by omega⟩
    obtain ⟨k, h1, h2⟩ := nextToken_pointer t (pointer_after [])
    unfold getx
    rw [pointer_cons, h1]
    simp only [resolve]
    cases v with
    | obj l => simp only [objGet_spells h2, child]; cases member t l <;> simp [pointer]
    | arr l => simp only [arrGet_element h2, child]; cases element t l <;> simp [pointer]
    | _ => rfl
  | cons u ts ih =>
    intro fuel v t hf
    obtain ⟨f, rfl⟩ : ∃ f, fuel = f + 1 := ⟨fuel - 1, by omega⟩
    obtain ⟨k, h1, h2⟩ := nextToken_pointer t (pointer_after (u :: ts))
    unfold getx
    rw [pointer_cons, h1]
    have hn : pointer (u :: ts) ≠ [] := by rw [pointer_cons]; simp
    have hi := fun w => ih f w u (by simp only [List.length_cons] at hf; omega)
    rw [resolve]
    cases v with
    | obj l =>
      simp only [objGet_spells h2, child]
      cases member t l with
      | none => rfl
      | some w => simp only [if_neg hn, hi, Option.bind_some]
    | arr l =>
      simp only [arrGet_element h2, child]
      cases element t l with
      | none => rfl
      | some w => simp only [if_neg hn, hi, Option.bind_some]
    | _ => rfl

/-- Reading by a pointer gives the value at the place. -/
theorem docGet_pointer (root : Option Json) (ts : List Token) :
    docGet root (pointer ts) = root.bind (resolve ts) := by
  unfold docGet
  cases root with
  | none => rfl
  | some v =>
    cases ts with
    | nil => rfl
    | cons t ts =>
      have hn : pointer (t :: ts) ≠ [] := by rw [pointer_cons]; simp
      simp only [if_neg hn]
      have hl := pointer_length ts
      rw [if_neg (by rw [pointer_cons]; simp), getx_pointer ts _ v t (by
        rw [pointer_cons]; simp only [List.length_cons, List.length_append]; omega)]
      rfl

/-! ## Placing values -/

theorem member_nil (k : Token) : member k [] = none := rfl

theorem member_cons (k n : Token) (v : Json) (l) :
    member k ((n, v) :: l) = if n = k then some v else member k l := by
  unfold member
  rw [List.find?_cons]
  by_cases h : n = k
  · simp [h]
  · simp [h]

theorem member_append (k : Token) (l m) :
    member k (l ++ m) = (member k l).or (member k m) := by
  unfold member
  rw [List.find?_append]
  cases List.find? (fun y => decide (y.1 = k)) l <;> rfl

theorem member_filter {k t : Token} (h : k ≠ t) (l) :
    member k (l.filter fun y => decide (y.1 ≠ t)) = member k l := by
  induction l with
  | nil => rfl
  | cons y l ih =>
    obtain ⟨n, v⟩ := y
    rw [List.filter_cons, member_cons]
    by_cases hn : n = t
    · have hk : n ≠ k := fun e => h (e.symm.trans hn)
      simp only [hn, ne_eq, not_true_eq_false, decide_false, Bool.false_eq_true, if_false]
      rw [if_neg (hn ▸ hk)]
      exact ih
    · simp only [ne_eq, hn, not_false_eq_true, decide_true, if_true]
      rw [member_cons, ih]

theorem foundKey_spells {k : Tok} {t : Token} (h : Spells k t) {l : List (List UInt8 × Json)} {w}
    (hm : member t l = some w) : foundKey k l = t := by
  induction l with
  | nil => cases hm
  | cons y l ih =>
    obtain ⟨n, v⟩ := y
    unfold foundKey
    rw [tokenEq_spells h]
    rw [member_cons] at hm
    by_cases hn : n = t
    · simp [hn]
    · rw [if_neg hn] at hm
      simp [hn, ih hm]

theorem member_objPut (t : Token) (new : Json) {l} {w} (hm : member t l = some w) (k : Token) :
    member k (objPut t new l) = if k = t then some new else member k l := by
  induction l with
  | nil => cases hm
  | cons y l ih =>
    obtain ⟨n, v⟩ := y
    rw [member_cons] at hm
    unfold objPut
    by_cases hn : n = t
    · rw [if_pos hn, member_cons]
      by_cases hk : k = t
      · rw [if_pos (hn.trans hk.symm), if_pos hk]
      · rw [if_neg (fun e => hk (e.symm.trans hn)), if_neg hk, member_filter hk, member_cons,
          if_neg (fun e => hk (e.symm.trans hn))]
    · rw [if_neg hn] at hm ⊢
      rw [member_cons, member_cons, ih hm]
      by_cases hk : k = t
      · rw [if_neg (fun e => hn (e.trans hk)), if_pos hk, if_pos hk]
      · rw [if_neg hk, if_neg hk]

theorem member_inMember {k' : Tok} {t : Token} (h : Spells k' t) (new : Json) {l} {w} (hm : member t l = some w)
    (k : Token) : member k (inMember k' new l) = if k = t then some new else member k l := by
  induction l with
  | nil => cases hm
  | cons y l ih =>
    obtain ⟨n, v⟩ := y
    rw [member_cons] at hm
    unfold inMember
    rw [tokenEq_spells h]
    by_cases hn : n = t
    · simp only [hn, decide_true, if_true]
      rw [member_cons, member_cons]
      by_cases hk : k = t
      · rw [if_pos hk.symm, if_pos hk]
      · rw [if_neg (fun e => hk e.symm), if_neg hk, if_neg (fun e => hk e.symm)]
    · rw [if_neg hn] at hm
      simp only [hn, decide_false, Bool.false_eq_true, if_false]
      rw [member_cons, member_cons, ih hm]
      by_cases hk : k = t
      · rw [if_neg (fun e => hn (e.trans hk)), if_pos hk, if_pos hk]
      · rw [if_neg hk, if_neg hk]

theorem element_set (t : Token) (new : Json) {l : List Json} {i : Nat} (hi : i < l.length) (h : index i = t)
    (hl : t.length ≤ 19) (k : Token) : element k (l.set i new) = if k = t then some new else element k l := by
  by_cases hk : k = t
  · rw [if_pos hk, element_some]
    exact ⟨i, by rw [List.getElem?_set_self hi], h.trans hk.symm, hk ▸ hl⟩
  · rw [if_neg hk]
    apply Option.ext
    intro v
    rw [element_some, element_some]
    constructor
    · intro ⟨j, h1, h2, h3⟩
      have : i ≠ j := fun e => hk (by rw [← h2, ← e, h])
      rw [List.getElem?_set_ne this] at h1
      exact ⟨j, h1, h2, h3⟩
    · intro ⟨j, h1, h2, h3⟩
      have : i ≠ j := fun e => hk (by rw [← h2, ← e, h])
      exact ⟨j, by rw [List.getElem?_set_ne this]; exact h1, h2, h3⟩

theorem apart_nil_left (q : List Token) : ¬ Apart [] q := fun h => h.1 List.nil_prefix

theorem apart_nil_right (p : List Token) : ¬ Apart p [] := fun h => h.2 List.nil_prefix

theorem apart_cons {t k : Token} {p q : List Token} (h : Apart (t :: p) (k :: q)) : k = t → Apart p q := by
  intro e
  subst e
  constructor
  · intro h1; exact h.1 (List.cons_prefix_cons.2 ⟨rfl, h1⟩)
  · intro h1; exact h.2 (List.cons_prefix_cons.2 ⟨rfl, h1⟩)

theorem create_pointer (new : Json) (ts : List Token) : ∀ (fuel : Nat) (t : Token), ts.length < fuel →
    ∃ w, create fuel (pointer (t :: ts)) new = some w ∧ resolve (t :: ts) w = some new ∧
      ∀ q, Apart (t :: ts) q → resolve q w = none := by
  induction ts with
  | nil =>
    intro fuel t hf
    obtain ⟨f, rfl⟩ : ∃ f, fuel = f + 1 := ⟨fuel - 1, by omega⟩
    obtain ⟨k, h1, h2⟩ := nextToken_pointer t (pointer_after [])
    unfold create
    rw [pointer_cons, h1]
    refine ⟨_, rfl, ?_, ?_⟩
    · rw [newKey_spells h2]
      simp [resolve, child, member_cons]
    · intro q hq
      cases q with
      | nil => exact absurd hq (apart_nil_right _)
      | cons u q =>
        rw [newKey_spells h2]
        by_cases hu : u = t
        · exact absurd (apart_cons hq hu) (apart_nil_left _)
        · have : t ≠ u := fun e => hu e.symm
          simp [resolve, child, member_cons, this, member_nil]
  | cons u ts ih =>
    intro fuel t hf
    obtain ⟨f, rfl⟩ : ∃ f, fuel = f + 1 := ⟨fuel - 1, by omega⟩
    obtain ⟨k, h1, h2⟩ := nextToken_pointer t (pointer_after (u :: ts))
    obtain ⟨w, i1, i2, i3⟩ := ih f u (by simp only [List.length_cons] at hf; omega)
    have hn : pointer (u :: ts) ≠ [] := by rw [pointer_cons]; simp
    unfold create
    rw [pointer_cons, h1]
    simp only [if_neg hn, i1, Option.map_some, newKey_spells h2]
    refine ⟨_, rfl, ?_, ?_⟩
    · rw [resolve]
      simp only [child, member_cons, if_true, Option.bind_some]
      exact i2
    · intro q hq
      cases q with
      | nil => exact absurd hq (apart_nil_right _)
      | cons x q =>
        rw [resolve]
        simp only [child, member_cons, member_nil]
        by_cases hx : x = t
        · rw [if_pos hx.symm, Option.bind_some]
          exact i3 q (apart_cons hq hx)
        · rw [if_neg (fun e => hx e.symm)]
          rfl

theorem resolve_obj (k : Token) (ks : List Token) (l) : resolve (k :: ks) (.obj l) = (member k l).bind (resolve ks) := rfl
theorem resolve_arr (k : Token) (ks : List Token) (l) : resolve (k :: ks) (.arr l) = (element k l).bind (resolve ks) := rfl

/-- A value placed within a member. -/
theorem placed_member {t : Token} {ts : List Token} {new : Json} {l l' : List (List UInt8 × Json)} {w w' : Json}
    (hm : member t l = some w) (hl : ∀ k, member k l' = if k = t then some w' else member k l)
    (hp : Placed ts new w w') : Placed (t :: ts) new (.obj l) (.obj l') := by
  constructor
  · rw [resolve_obj, hl, if_pos rfl, Option.bind_some, hp.there]
  · intro q hq
    cases q with
    | nil => exact absurd hq (apart_nil_right _)
    | cons k q =>
      rw [resolve_obj, resolve_obj, hl]
      by_cases hk : k = t
      · rw [if_pos hk, hk, hm, Option.bind_some, Option.bind_some]
        exact hp.apart q (apart_cons hq hk)
      · rw [if_neg hk]
  · intro q hq hne u hu
    cases q with
    | nil =>
      cases hu
      exact ⟨_, rfl, trivial⟩
    | cons k q =>
      obtain ⟨hk, hq⟩ := List.cons_prefix_cons.1 hq
      rw [resolve_obj, hk, hm, Option.bind_some] at hu
      obtain ⟨u', h1, h2⟩ := hp.above q hq (fun e => hne (by rw [e, hk])) u hu
      exact ⟨u', by rw [resolve_obj, hl, if_pos hk, Option.bind_some, h1], h2⟩

/-- A value placed within an element. -/
theorem placed_element {t : Token} {ts : List Token} {new : Json} {l : List Json} {i : Nat} {w w' : Json}
    (hi : l[i]? = some w) (ht : index i = t) (hl : t.length ≤ 19) (hp : Placed ts new w w') :
    Placed (t :: ts) new (.arr l) (.arr (l.set i w')) := by
  have hlt : i < l.length := (List.getElem?_eq_some_iff.1 hi).1
  have he : element t l = some w := element_some.2 ⟨i, hi, ht, hl⟩
  have hs := element_set t w' hlt ht hl
  constructor
  · rw [resolve_arr, hs, if_pos rfl, Option.bind_some, hp.there]
  · intro q hq
    cases q with
    | nil => exact absurd hq (apart_nil_right _)
    | cons k q =>
      rw [resolve_arr, resolve_arr, hs]
      by_cases hk : k = t
      · rw [if_pos hk, hk, he, Option.bind_some, Option.bind_some]
        exact hp.apart q (apart_cons hq hk)
      · rw [if_neg hk]
  · intro q hq hne u hu
    cases q with
    | nil =>
      cases hu
      exact ⟨_, rfl, by simp [SameKind]⟩
    | cons k q =>
      obtain ⟨hk, hq⟩ := List.cons_prefix_cons.1 hq
      rw [resolve_arr, hk, he, Option.bind_some] at hu
      obtain ⟨u', h1, h2⟩ := hp.above q hq (fun e => hne (by rw [e, hk])) u hu
      exact ⟨u', by rw [resolve_arr, hs, if_pos hk, Option.bind_some, h1], h2⟩

/-- A new member. -/
theorem placed_new {t : Token} {ts : List Token} {new : Json} {l : List (List UInt8 × Json)} {w' : Json}
    (hm : member t l = none) (h1 : resolve ts w' = some new) (h2 : ∀ q, Apart ts q → resolve q w' = none) :
    Placed (t :: ts) new (.obj l) (.obj (l ++ [(t, w')])) := by
  have hl : ∀ k, member k (l ++ [(t, w')]) = if k = t then some w' else member k l := by
    intro k
    rw [member_append, member_cons, member_nil]
    by_cases hk : k = t
    · rw [if_pos hk, if_pos hk.symm, hk, hm]
      rfl
    · rw [if_neg hk, if_neg (fun e => hk e.symm)]
      cases member k l <;> rfl
  constructor
  · rw [resolve_obj, hl, if_pos rfl, Option.bind_some, h1]
  · intro q hq
    cases q with
    | nil => exact absurd hq (apart_nil_right _)
    | cons k q =>
      rw [resolve_obj, resolve_obj, hl]
      by_cases hk : k = t
      · rw [if_pos hk, hk, hm, Option.bind_some, h2 q (apart_cons hq hk)]
        rfl
      · rw [if_neg hk]
  · intro q hq hne u hu
    cases q with
    | nil =>
      cases hu
      exact ⟨_, rfl, trivial⟩
    | cons k q =>
      obtain ⟨hk, hq⟩ := List.cons_prefix_cons.1 hq
      rw [resolve_obj, hk, hm] at hu
      cases hu

theorem placed_self (new w : Json) : Placed [] new w new := by
  refine ⟨rfl, fun q hq => absurd hq (apart_nil_left q), fun q hq hne => ?_⟩
  exact absurd (List.prefix_nil.1 hq) hne

/-- Placing a value succeeds where it can be. -/
theorem putx_pointer (new : Json) (ts : List Token) : ∀ (fuel : Nat) (v : Json) (t : Token), ts.length < fuel →
    Settable (t :: ts) v → ∃ v', putx fuel v (pointer (t :: ts)) new = some v' ∧ Placed (t :: ts) new v v' := by
  induction ts with
  | nil =>
    intro fuel v t hf hs
    obtain ⟨f, rfl⟩ : ∃ f, fuel = f + 1 := ⟨fuel - 1, by omega⟩
    obtain ⟨k, h1, h2⟩ := nextToken_pointer t (pointer_after [])
    unfold putx
    rw [pointer_cons, h1]
    have hn : pointer ([] : List Token) = [] := rfl
    cases v with
    | obj l =>
      simp only [objGet_spells h2]
      cases hm : member t l with
      | none =>
        simp only [hn, if_true, newKey_spells h2]
        exact ⟨_, rfl, placed_new hm rfl fun q hq => absurd hq (apart_nil_left q)⟩
      | some w =>
        simp only [hn, if_true, foundKey_spells h2 hm]
        exact ⟨_, rfl, placed_member hm (member_objPut t new hm) (placed_self new w)⟩
    | arr l =>
      simp only
      obtain ⟨w, hw, _⟩ := hs
      obtain ⟨i, e1, e2, e3⟩ := element_some.1 hw
      have hlt : i < l.length := (List.getElem?_eq_some_iff.1 e1).1
      rw [(arrGet_spells h2 l i).2 ⟨hlt, e2, e3⟩]
      simp only [hn, if_true]
      exact ⟨_, rfl, placed_element e1 e2 e3 (placed_self new w)⟩
    | _ => exact absurd hs (by simp [Settable])
  | cons u ts ih =>
    intro fuel v t hf hs
    obtain ⟨f, rfl⟩ : ∃ f, fuel = f + 1 := ⟨fuel - 1, by omega⟩
    obtain ⟨k, h1, h2⟩ := nextToken_pointer t (pointer_after (u :: ts))
    have hf' : ts.length < f := by simp only [List.length_cons] at hf; omega
    have hn : pointer (u :: ts) ≠ [] := by rw [pointer_cons]; simp
    unfold putx
    rw [pointer_cons, h1]
    cases v with
    | obj l =>
      simp only [objGet_spells h2]
      cases hm : member t l with
      | none =>
        obtain ⟨w, c1, c2, c3⟩ := create_pointer new ts f u hf'
        simp only [if_neg hn, c1, Option.map_some, newKey_spells h2]
        exact ⟨_, rfl, placed_new hm c2 c3⟩
      | some w =>
        obtain ⟨w', c1, c2⟩ := ih f w u hf' (hs w hm)
        simp only [if_neg hn, c1, Option.map_some]
        exact ⟨_, rfl, placed_member hm (member_inMember h2 w' hm) c2⟩
    | arr l =>
      simp only
      obtain ⟨w, hw, hs⟩ := hs
      obtain ⟨i, e1, e2, e3⟩ := element_some.1 hw
      have hlt : i < l.length := (List.getElem?_eq_some_iff.1 e1).1
      obtain ⟨w', c1, c2⟩ := ih f w u hf' hs
      rw [(arrGet_spells h2 l i).2 ⟨hlt, e2, e3⟩]
      simp only [if_neg hn, e1, Option.bind_some, c1, Option.map_some]
      exact ⟨_, rfl, placed_element e1 e2 e3 c2⟩
    | _ => exact absurd hs (by simp [Settable])

/-- Placing a value fails where it cannot be. -/
theorem putx_refused (new : Json) (ts : List Token) : ∀ (fuel : Nat) (v : Json) (t : Token),
    ¬ Settable (t :: ts) v → putx fuel v (pointer (t :: ts)) new = none := by
  induction ts with
  | nil =>
    intro fuel v t hs
    cases fuel with
    | zero => rfl
    | succ f =>
      obtain ⟨k, h1, h2⟩ := nextToken_pointer t (pointer_after [])
      unfold putx
      rw [pointer_cons, h1]
      cases v with
      | obj l => exact absurd (fun _ _ => trivial) hs
      | arr l =>
        simp only
        cases ha : arrGet l k with
        | none => rfl
        | some i =>
          exfalso
          obtain ⟨a1, a2, a3⟩ := (arrGet_spells h2 l i).1 ha
          exact hs ⟨l[i], element_some.2 ⟨i, List.getElem?_eq_getElem a1, a2, a3⟩, trivial⟩
      | _ => rfl
  | cons u ts ih =>
    intro fuel v t hs
    cases fuel with
    | zero => rfl
    | succ f =>
      obtain ⟨k, h1, h2⟩ := nextToken_pointer t (pointer_after (u :: ts))
      have hn : pointer (u :: ts) ≠ [] := by rw [pointer_cons]; simp
      unfold putx
      rw [pointer_cons, h1]
      cases v with
      | obj l =>
        simp only [objGet_spells h2]
        cases hm : member t l with
        | none =>
          exfalso
          exact hs fun w hw => by rw [hm] at hw; cases hw
        | some w =>
          have : ¬ Settable (u :: ts) w := fun h => hs fun w' hw => by rw [hm] at hw; cases hw; exact h
          simp only [if_neg hn, ih f w u this, Option.map_none]
      | arr l =>
        simp only
        cases ha : arrGet l k with
        | none => rfl
        | some i =>
          obtain ⟨a1, a2, a3⟩ := (arrGet_spells h2 l i).1 ha
          have : ¬ Settable (u :: ts) l[i] := fun h =>
            hs ⟨l[i], element_some.2 ⟨i, List.getElem?_eq_getElem a1, a2, a3⟩, h⟩
          simp only [if_neg hn, List.getElem?_eq_getElem a1, Option.bind_some, ih f _ u this, Option.map_none]
      | _ => rfl

theorem docSet_pointer (root : Option Json) (t : Token) (ts : List Token) (new : Json) :
    (Settable (t :: ts) (root.getD (.obj [])) →
      ∃ v', docSet root (pointer (t :: ts)) new = some v' ∧ Placed (t :: ts) new (root.getD (.obj [])) v') ∧
    (¬ Settable (t :: ts) (root.getD (.obj [])) → docSet root (pointer (t :: ts)) new = none) := by
  have hn : pointer (t :: ts) ≠ [] := by rw [pointer_cons]; simp
  have hh : ¬ (pointer (t :: ts)).head? ≠ some 47 := by rw [pointer_cons]; simp
  have hl := pointer_length ts
  unfold docSet
  rw [if_neg hn, if_neg hh]
  constructor
  · intro hs
    exact putx_pointer new ts _ _ t (by rw [pointer_cons]; simp only [List.length_cons, List.length_append]; omega) hs
  · intro hs
    exact putx_refused new ts _ _ t hs

/-! ## Appending and replacing -/

/-- An array found by a pointer gets one more element. -/
theorem appendx_pointer (new : Json) (a : List Json) (ts : List Token) : ∀ (fuel : Nat) (v : Json) (t : Token),
    ts.length < fuel → resolve (t :: ts) v = some (.arr a) →
    ∃ v', appendx fuel v (pointer (t :: ts)) new = some v' ∧ Placed (t :: ts) (.arr (a ++ [new])) v v' := by
  induction ts with
  | nil =>
    intro fuel v t hf hs
    obtain ⟨f, rfl⟩ : ∃ f, fuel = f + 1 := ⟨fuel - 1, by omega⟩
    obtain ⟨k, h1, h2⟩ := nextToken_pointer t (pointer_after [])
    have hn : pointer ([] : List Token) = [] := rfl
    unfold appendx
    rw [pointer_cons, h1]
    cases v with
    | obj l =>
      rw [resolve_obj] at hs
      obtain ⟨w, hm, hw⟩ := Option.bind_eq_some_iff.1 hs
      cases hw
      simp only [objGet_spells h2, hm, hn, if_true]
      exact ⟨_, rfl, placed_member hm (member_inMember h2 _ hm) (placed_self _ _)⟩
    | arr l =>
      rw [resolve_arr] at hs
      obtain ⟨w, hm, hw⟩ := Option.bind_eq_some_iff.1 hs
      cases hw
      obtain ⟨i, e1, e2, e3⟩ := element_some.1 hm
      have hlt : i < l.length := (List.getElem?_eq_some_iff.1 e1).1
      simp only
      rw [(arrGet_spells h2 l i).2 ⟨hlt, e2, e3⟩]
      simp only [hn, if_true, e1]
      exact ⟨_, rfl, placed_element e1 e2 e3 (placed_self _ _)⟩
    | _ => cases hs
  | cons u ts ih =>
    intro fuel v t hf hs
    obtain ⟨f, rfl⟩ : ∃ f, fuel = f + 1 := ⟨fuel - 1, by omega⟩
    obtain ⟨k, h1, h2⟩ := nextToken_pointer t (pointer_after (u :: ts))
    have hf' : ts.length < f := by simp only [List.length_cons] at hf; omega
    have hn : pointer (u :: ts) ≠ [] := by rw [pointer_cons]; simp
    unfold appendx
    rw [pointer_cons, h1]
    cases v with
    | obj l =>
      rw [resolve_obj] at hs
      obtain ⟨w, hm, hw⟩ := Option.bind_eq_some_iff.1 hs
      obtain ⟨w', c1, c2⟩ := ih f w u hf' hw
      simp only [objGet_spells h2, hm, if_neg hn, c1, Option.map_some]
      exact ⟨_, rfl, placed_member hm (member_inMember h2 w' hm) c2⟩
    | arr l =>
      rw [resolve_arr] at hs
      obtain ⟨w, hm, hw⟩ := Option.bind_eq_some_iff.1 hs
      obtain ⟨i, e1, e2, e3⟩ := element_some.1 hm
      have hlt : i < l.length := (List.getElem?_eq_some_iff.1 e1).1
      obtain ⟨w', c1, c2⟩ := ih f w u hf' hw
      simp only
      rw [(arrGet_spells h2 l i).2 ⟨hlt, e2, e3⟩]
      simp only [if_neg hn, e1, Option.bind_some, c1, Option.map_some]
      exact ⟨_, rfl, placed_element e1 e2 e3 c2⟩
    | _ => cases hs

/-- Nothing is appended where there is no array. -/
theorem appendx_refused (new : Json) (ts : List Token) : ∀ (fuel : Nat) (v : Json) (t : Token),
    (∀ a, resolve (t :: ts) v ≠ some (.arr a)) → appendx fuel v (pointer (t :: ts)) new = none := by
  induction ts with
  | nil =>
    intro fuel v t hs
    cases fuel with
    | zero => rfl
    | succ f =>
      obtain ⟨k, h1, h2⟩ := nextToken_pointer t (pointer_after [])
      have hn : pointer ([] : List Token) = [] := rfl
      unfold appendx
      rw [pointer_cons, h1]
      cases v with
      | obj l =>
        simp only [objGet_spells h2]
        cases hm : member t l with
        | none => rfl
        | some w =>
          simp only [hn, if_true]
          cases w with
          | arr a => exact absurd (by rw [resolve_obj, hm]; rfl) (hs a)
          | _ => rfl
      | arr l =>
        simp only
        cases ha : arrGet l k with
        | none => rfl
        | some i =>
          obtain ⟨a1, a2, a3⟩ := (arrGet_spells h2 l i).1 ha
          simp only [hn, if_true]
          rw [List.getElem?_eq_getElem a1]
          have he : element t l = some l[i] := element_some.2 ⟨i, List.getElem?_eq_getElem a1, a2, a3⟩
          cases hw : l[i] with
          | arr a => exact absurd (by rw [resolve_arr, he, hw]; rfl) (hs a)
          | _ => rfl
      | _ => rfl
  | cons u ts ih =>
    intro fuel v t hs
    cases fuel with
    | zero => rfl
    | succ f =>
      obtain ⟨k, h1, h2⟩ := nextToken_pointer t (pointer_after (u :: ts))
      have hn : pointer (u :: ts) ≠ [] := by rw [pointer_cons]; simp
      unfold appendx
      rw [pointer_cons, h1]
      cases v with
      | obj l =>
        simp only [objGet_spells h2]
        cases hm : member t l with
        | none => rfl
        | some w =>
          have := ih f w u fun a ha => hs a (by rw [resolve_obj, hm]; exact ha)
          simp only [if_neg hn, this, Option.map_none]
      | arr l =>
        simp only
        cases ha : arrGet l k with
        | none => rfl
        | some i =>
          obtain ⟨a1, a2, a3⟩ := (arrGet_spells h2 l i).1 ha
          have he : element t l = some l[i] := element_some.2 ⟨i, List.getElem?_eq_getElem a1, a2, a3⟩
          have := ih f l[i] u fun a ha => hs a (by rw [resolve_arr, he]; exact ha)
          simp only [if_neg hn, List.getElem?_eq_getElem a1, Option.bind_some, this, Option.map_none]
      | _ => rfl

/-- A value that is there is replaced. -/
theorem replacex_pointer (new : Json) (ts : List Token) : ∀ (fuel : Nat) (v old : Json) (t : Token),
    ts.length < fuel → resolve (t :: ts) v = some old →
    ∃ v', replacex fuel v (pointer (t :: ts)) new = some v' ∧ Placed (t :: ts) new v v' := by
  induction ts with
  | nil =>
    intro fuel v old t hf hs
    obtain ⟨f, rfl⟩ : ∃ f, fuel = f + 1 := ⟨fuel - 1, by omega⟩
    obtain ⟨k, h1, h2⟩ := nextToken_pointer t (pointer_after [])
    have hn : pointer ([] : List Token) = [] := rfl
    unfold replacex
    rw [pointer_cons, h1]
    cases v with
    | obj l =>
      rw [resolve_obj] at hs
      obtain ⟨w, hm, hw⟩ := Option.bind_eq_some_iff.1 hs
      simp only [objGet_spells h2, hm, hn, if_true, foundKey_spells h2 hm]
      exact ⟨_, rfl, placed_member hm (member_objPut t new hm) (placed_self new w)⟩
    | arr l =>
      rw [resolve_arr] at hs
      obtain ⟨w, hm, hw⟩ := Option.bind_eq_some_iff.1 hs
      obtain ⟨i, e1, e2, e3⟩ := element_some.1 hm
      have hlt : i < l.length := (List.getElem?_eq_some_iff.1 e1).1
      simp only
      rw [(arrGet_spells h2 l i).2 ⟨hlt, e2, e3⟩]
      simp only [hn, if_true]
      exact ⟨_, rfl, placed_element e1 e2 e3 (placed_self _ _)⟩
    | _ => cases hs
  | cons u ts ih =>
    intro fuel v old t hf hs
    obtain ⟨f, rfl⟩ : ∃ f, fuel = f + 1 := ⟨fuel - 1, by omega⟩
    obtain ⟨k, h1, h2⟩ := nextToken_pointer t (pointer_after (u :: ts))
    have hf' : ts.length < f := by simp only [List.length_cons] at hf; omega
    have hn : pointer (u :: ts) ≠ [] := by rw [pointer_cons]; simp
    unfold replacex
    rw [pointer_cons, h1]
    cases v with
    | obj l =>
      rw [resolve_obj] at hs
      obtain ⟨w, hm, hw⟩ := Option.bind_eq_some_iff.1 hs
      obtain ⟨w', c1, c2⟩ := ih f w old u hf' hw
      simp only [objGet_spells h2, hm, if_neg hn, c1, Option.map_some]
      exact ⟨_, rfl, placed_member hm (member_inMember h2 w' hm) c2⟩
    | arr l =>
      rw [resolve_arr] at hs
      obtain ⟨w, hm, hw⟩ := Option.bind_eq_some_iff.1 hs
      obtain ⟨i, e1, e2, e3⟩ := element_some.1 hm
      have hlt : i < l.length := (List.getElem?_eq_some_iff.1 e1).1
      obtain ⟨w', c1, c2⟩ := ih f w old u hf' hw
      simp only
      rw [(arrGet_spells h2 l i).2 ⟨hlt, e2, e3⟩]
      simp only [if_neg hn, e1, Option.bind_some, c1, Option.map_some]
      exact ⟨_, rfl, placed_element e1 e2 e3 c2⟩
    | _ => cases hs

theorem docReplace_pointer {v old : Json} {ts : List Token} (new : Json) (h : resolve ts v = some old) :
    ∃ v', docReplace (some v) (pointer ts) new = some v' ∧ Placed ts new v v' := by
  unfold docReplace
  simp only
  cases ts with
  | nil => exact ⟨_, rfl, placed_self _ _⟩
  | cons t ts =>
    have hn : pointer (t :: ts) ≠ [] := by rw [pointer_cons]; simp
    have hh : ¬ (pointer (t :: ts)).head? ≠ some 47 := by rw [pointer_cons]; simp
    have hl := pointer_length ts
    rw [if_neg hn, if_neg hh]
    exact replacex_pointer new ts _ v old t (by rw [pointer_cons]; simp only [List.length_cons, List.length_append]; omega) h

/-! ## Merging -/

theorem getn_member (k : Token) (l) : getn k l = member k l := by
  induction l with
  | nil => rfl
  | cons y l ih => obtain ⟨n, v⟩ := y; rw [getn, member_cons, ih]

theorem member_kept (k : Token) (pl ol : List (List UInt8 × Json)) :
    member k (ol.filter fun y => (getn y.1 pl).isNone) = if member k pl = none then member k ol else none := by
  induction ol with
  | nil => simp [member_nil]
  | cons y ol ih =>
    obtain ⟨n, v⟩ := y
    rw [List.filter_cons, getn_member]
    cases hn : member n pl with
    | none =>
      simp only [Option.isNone_none, if_true]
      rw [member_cons, member_cons, ih]
      by_cases hk : n = k
      · rw [if_pos hk, if_pos hk, ← hk, if_pos hn]
      · rw [if_neg hk, if_neg hk]
    | some w =>
      simp only [Option.isNone_some, Bool.false_eq_true, if_false]
      rw [ih, member_cons]
      by_cases hk : n = k
      · rw [← hk, hn]; simp
      · rw [if_neg hk]

theorem mergeMembers_null (ol) (k : Token) (pl) : mergeMembers ol ((k, .null) :: pl) = mergeMembers ol pl := by
  rw [mergeMembers]

theorem mergeMembers_cons (ol) (k : Token) (p : Json) (pl) (h : p ≠ .null) :
    mergeMembers ol ((k, p) :: pl) = (k, mergePatch (getn k ol) p) :: mergeMembers ol pl := by
  cases p with
  | null => exact absurd rfl h
  | _ => rw [mergeMembers]; exact h

theorem member_none_of_not_mem (k : Token) (l : List (List UInt8 × Json)) (h : k ∉ l.map Prod.fst) : member k l = none := by
  induction l with
  | nil => rfl
  | cons y l ih =>
    obtain ⟨n, v⟩ := y
    simp only [List.map_cons, List.mem_cons, not_or] at h
    rw [member_cons, if_neg (fun e => h.1 e.symm), ih h.2]

theorem member_merged (ol) (k : Token) : ∀ (pl : List (List UInt8 × Json)), (pl.map Prod.fst).Nodup →
    member k (mergeMembers ol pl) = match member k pl with
      | none => none
      | some .null => none
      | some p => some (mergePatch (member k ol) p)
  | [], _ => by rw [mergeMembers]; rfl
  | (n, p) :: pl, hd => by
    rw [List.map_cons, List.nodup_cons] at hd
    have ih := member_merged ol k pl hd.2
    rw [member_cons]
    by_cases hp : p = .null
    · subst hp
      rw [mergeMembers_null, ih]
      by_cases hk : n = k
      · rw [if_pos hk, member_none_of_not_mem k pl (hk ▸ hd.1)]
      · rw [if_neg hk]
    · rw [mergeMembers_cons _ _ _ _ hp, member_cons, ih]
      by_cases hk : n = k
      · rw [if_pos hk, if_pos hk, getn_member, hk]
        cases p with
        | null => exact absurd rfl hp
        | _ => rfl
      · rw [if_neg hk, if_neg hk]

theorem distinct_member {k : Token} {p : Json} : ∀ (l : List (List UInt8 × Json)), DistinctMembers l →
    member k l = some p → Distinct p ∧ sizeOf p < sizeOf l
  | [], _, h => by cases h
  | (n, v) :: l, hd, h => by
    rw [DistinctMembers] at hd
    rw [member_cons] at h
    by_cases hn : n = k
    · rw [if_pos hn] at h
      cases h
      refine ⟨hd.1, ?_⟩
      simp only [List.cons.sizeOf_spec, Prod.mk.sizeOf_spec]
      omega
    · rw [if_neg hn] at h
      obtain ⟨h1, h2⟩ := distinct_member l hd.2 h
      refine ⟨h1, ?_⟩
      simp only [List.cons.sizeOf_spec]
      omega

theorem under_members (o : Option Json) (k : Token) : member k (membersOf o) = o.bind (under k) := by
  cases o with
  | none => rfl
  | some v => cases v <;> rfl

/-- Merging does what RFC 7386 says. -/
theorem mergePatch_merged (o : Option Json) (p : Json) (h : Distinct p) : Merged o p (mergePatch o p) := by
  match p, h with
  | .obj pl, h =>
    rw [Distinct] at h
    rw [mergePatch]
    have hm : ∀ k, member k ((membersOf o).filter (fun y => (getn y.1 pl).isNone) ++ mergeMembers (membersOf o) pl) =
        match member k pl with
        | none => o.bind (under k)
        | some .null => none
        | some p => some (mergePatch (o.bind (under k)) p) := by
      intro k
      rw [member_append, member_kept, member_merged _ k pl h.1, under_members]
      cases hk : member k pl with
      | none => simp only [if_true]; cases o.bind (under k) <;> rfl
      | some p => rw [if_neg (by simp)]; cases p <;> rfl
    refine Merged.members o pl _ (fun k => match member k pl with
      | some p => mergePatch (o.bind (under k)) p
      | none => .null) ?_ ?_ ?_ ?_
    · intro k hk
      rw [hm, hk]
    · intro k hk
      rw [hm, hk]
    · intro k p hk hp
      rw [hm, hk]
      cases p with
      | null => exact absurd rfl hp
      | _ => rfl
    · intro k p hk _
      rw [hk]
      have := distinct_member pl h.2 hk
      exact mergePatch_merged _ p this.1
  | .null, _ => exact Merged.replaced o _ (by simp)
  | .bool b, _ => exact Merged.replaced o _ (by simp)
  | .int i, _ => exact Merged.replaced o _ (by simp)
  | .real d, _ => exact Merged.replaced o _ (by simp)
  | .str s, _ => exact Merged.replaced o _ (by simp)
  | .arr l, _ => exact Merged.replaced o _ (by simp)
termination_by sizeOf p
decreasing_by
  have := (distinct_member pl h.2 hk).2
  have e : sizeOf (Json.obj pl) = 1 + sizeOf pl := Json.obj.sizeOf_spec pl
  omega

end Verif.Proof.Json
