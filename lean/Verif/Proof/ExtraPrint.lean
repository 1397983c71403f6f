import Verif.Proof.ExtraHeaders
/-!
# Lemmas about printed extra headers
-/
namespace Verif.Proof.ExtraHeaders
open Verif.Spec.Json Verif.Model.ExtraHeaders Verif.Proof.Json Verif.Props.ExtraHeaders

theorem printChars_append (s t : List UInt8) : ∀ (b : Bool) (i : Int), printChars b i (s ++ t) =
    ((printChars b i s).1 ++ (printChars (printChars b i s).2.1 (printChars b i s).2.2 t).1,
      (printChars (printChars b i s).2.1 (printChars b i s).2.2 t).2) := by
  induction s with
  | nil => intro b i; rfl
  | cons c s ih =>
    intro b i
    show (let (s', b', i') := printChar b i c
      let (u, b'', i'') := printChars b' i' (s ++ t)
      (s' ++ u, b'', i'')) = _
    simp only
    rw [ih]
    simp only [printChars, List.append_assoc]

/-- Printed with the same state after it. -/
def Prints (b : Bool) (i : Int) (t t' : List UInt8) : Prop := printChars b i t = (t', b, i)

theorem prints_append {b : Bool} {i : Int} {s s' t t' : List UInt8} (h : Prints b i s s') (h' : Prints b i t t') :
    Prints b i (s ++ t) (s' ++ t') := by
  unfold Prints at *
  rw [printChars_append, h, h']

theorem logged_one {c : UInt8} (h : c ≠ 0) : logged [c] = [c] := by
  unfold logged
  rw [List.takeWhile_cons, if_pos (by simpa using h)]
  rfl

theorem logged_all {s : List UInt8} (h : ∀ c ∈ s, c ≠ 0) (hl : s.length ≤ 199) : logged s = s := by
  unfold logged
  rw [takeWhile_all s (fun c hc => by simpa using h c hc), List.take_of_length_le hl]

theorem spaces_ne {i : Int} : ∀ c ∈ spaces i, c ≠ 0 := by
  intro c hc
  rw [List.eq_of_mem_replicate hc]
  decide

theorem spaces_white {i : Int} : White (spaces i) := by
  intro c hc
  exact .inl (List.eq_of_mem_replicate hc)

/-- Characters printed as they are outside of strings. -/
def Plain (c : UInt8) : Prop := c ≠ 0 ∧ c ≠ 34 ∧ c ≠ 58 ∧ c ≠ 44 ∧ c ≠ 123 ∧ c ≠ 91 ∧ c ≠ 125 ∧ c ≠ 93

theorem prints_plain {i : Int} : ∀ {t : List UInt8}, (∀ c ∈ t, Plain c) → Prints false i t t
  | [], _ => rfl
  | c :: t, h => by
    obtain ⟨h0, h1, h2, h3, h4, h5, h6, h7⟩ := h c (List.mem_cons_self ..)
    refine prints_append (s := [c]) (s' := [c]) ?_ (prints_plain fun d hd => h d (List.mem_cons_of_mem _ hd))
    unfold Prints printChars printChars printChar
    simp only [if_neg h1, Bool.not_false, if_true, if_neg h2, if_neg h3, if_neg h4, if_neg h5, if_neg h6, if_neg h7,
      logged_one h0, List.append_nil]

theorem prints_string {i : Int} : ∀ {t : List UInt8}, (∀ c ∈ t, c ≠ 0 ∧ c ≠ 34) → Prints true i t t
  | [], _ => rfl
  | c :: t, h => by
    obtain ⟨h0, h1⟩ := h c (List.mem_cons_self ..)
    refine prints_append (s := [c]) (s' := [c]) ?_ (prints_string fun d hd => h d (List.mem_cons_of_mem _ hd))
    unfold Prints printChars printChars printChar
    simp only [if_neg h1, Bool.not_true, logged_one h0, List.append_nil]
    rfl

/-- A string with its quotation marks. -/
theorem prints_quoted {i : Int} {t : List UInt8} (h : ∀ c ∈ t, c ≠ 0 ∧ c ≠ 34) :
    Prints false i (34 :: (t ++ [34])) (34 :: (t ++ [34])) := by
  have e1 : printChars false i [34] = ([34], true, i) := by
    unfold printChars printChars printChar
    simp only [if_true, Bool.not_false, Bool.not_true, List.append_nil]
    rfl
  have e2 : printChars true i [34] = ([34], false, i) := by
    unfold printChars printChars printChar
    simp only [if_true, Bool.not_false, Bool.not_true, List.append_nil]
    rfl
  have e3 : printChars true i t = (t, true, i) := prints_string h
  unfold Prints
  rw [show (34 :: (t ++ [34]) : List UInt8) = [34] ++ (t ++ [34]) from rfl, printChars_append, e1]
  simp only
  rw [printChars_append, e3]
  simp only
  rw [e2]

theorem prints_colon {i : Int} : Prints false i [58] [58, 32] := by
  unfold Prints printChars printChars printChar
  rfl

theorem prints_comma {i : Int} (h : 0 ≤ i) (h' : i ≤ 197) : Prints false i [44] (44 :: 10 :: spaces i) := by
  unfold Prints printChars printChars printChar
  simp only [List.append_nil]
  have : logged (44 :: 10 :: spaces i) = 44 :: 10 :: spaces i := logged_all (by
      intro c hc
      rcases List.mem_cons.1 hc with rfl | hc
      · decide
      · rcases List.mem_cons.1 hc with rfl | hc
        · decide
        · exact spaces_ne c hc) (by
      unfold spaces; simp only [List.length_cons, List.length_replicate]; omega)
  rw [this]
  rfl

/-- An opening bracket or brace. -/
theorem prints_open {i : Int} (h : 0 ≤ i) (h' : i ≤ 195) {c : UInt8} (hc : c = 91 ∨ c = 123) :
    printChars false i [c] = (c :: 10 :: spaces (i + 2), false, i + 2) := by
  have : logged (c :: 10 :: spaces (i + 2)) = c :: 10 :: spaces (i + 2) := logged_all (by
      intro d hd
      rcases List.mem_cons.1 hd with rfl | hd
      · rcases hc with rfl | rfl <;> decide
      · rcases List.mem_cons.1 hd with rfl | hd
        · decide
        · exact spaces_ne d hd) (by
      unfold spaces; simp only [List.length_cons, List.length_replicate]; omega)
  unfold printChars printChars printChar
  rcases hc with rfl | rfl
  · simp only [List.append_nil]
    rw [this]; rfl
  · simp only [List.append_nil]
    rw [this]; rfl

/-- A closing bracket or brace. -/
theorem prints_close {i : Int} (h : 0 ≤ i) (h' : i ≤ 195) {c : UInt8} (hc : c = 93 ∨ c = 125) :
    printChars false (i + 2) [c] = (10 :: (spaces i ++ [c]), false, i) := by
  have : logged (10 :: (spaces i ++ [c])) = 10 :: (spaces i ++ [c]) := logged_all (by
      intro d hd
      rcases List.mem_cons.1 hd with rfl | hd
      · decide
      · rcases List.mem_append.1 hd with hd | hd
        · exact spaces_ne d hd
        · rw [List.mem_singleton.1 hd]; rcases hc with rfl | rfl <;> decide) (by
      unfold spaces; simp only [List.length_cons, List.length_append, List.length_replicate, List.length_nil]; omega)
  have e : i + 2 - 2 = i := by omega
  unfold printChars printChars printChar
  rcases hc with rfl | rfl
  · simp only [List.append_nil, e]
    rw [this]; rfl
  · simp only [List.append_nil, e]
    rw [this]; rfl

/-! ## What texts are made of -/

theorem white_plain {w : List UInt8} (h : White w) : ∀ c ∈ w, Plain c := by
  intro c hc
  rcases h c hc with rfl | rfl | rfl | rfl <;> (unfold Plain; decide)

theorem digit_plain {c : UInt8} (h : Digit c) : Plain c := by
  obtain ⟨h1, h2⟩ := h
  have key : ∀ n : Nat, c.toNat ≠ n → n < 256 → c ≠ UInt8.ofNat n := by
    intro n hn hl e
    rw [e, UInt8.toNat_ofNat', Nat.mod_eq_of_lt hl] at hn
    exact hn rfl
  exact ⟨key 0 (by omega) (by decide), key 34 (by omega) (by decide), key 58 (by omega) (by decide),
    key 44 (by omega) (by decide), key 123 (by omega) (by decide), key 91 (by omega) (by decide),
    key 125 (by omega) (by decide), key 93 (by omega) (by decide)⟩

theorem index_plain (n : Nat) : ∀ c ∈ index n, Plain c := fun c hc => digit_plain (index_digit n c hc)

theorem minus_plain (neg : Bool) : ∀ c ∈ minus neg, Plain c := by
  intro c hc
  cases neg with
  | false => cases hc
  | true => rw [List.mem_singleton.1 hc]; unfold Plain; decide

theorem frac_plain {f : List UInt8} (h : Frac f) : ∀ c ∈ f, Plain c := by
  intro c hc
  rcases h with rfl | ⟨d, hd, rfl⟩
  · cases hc
  · rcases List.mem_cons.1 hc with rfl | hc
    · unfold Plain; decide
    · exact digit_plain (hd.2 c hc)

theorem expo_plain {f : List UInt8} (h : Expo f) : ∀ c ∈ f, Plain c := by
  intro c hc
  rcases h with rfl | ⟨e, s, d, he, hs, hd, rfl⟩
  · cases hc
  · rcases List.mem_cons.1 hc with rfl | hc
    · rcases he with rfl | rfl <;> (unfold Plain; decide)
    · rcases List.mem_append.1 hc with hc | hc
      · rcases hs with rfl | rfl | rfl
        · cases hc
        · rw [List.mem_singleton.1 hc]; unfold Plain; decide
        · rw [List.mem_singleton.1 hc]; unfold Plain; decide
      · exact digit_plain (hd.2 c hc)

theorem mem_append_all {P : UInt8 → Prop} {a b : List UInt8} (ha : ∀ c ∈ a, P c) (hb : ∀ c ∈ b, P c) : ∀ c ∈ a ++ b, P c := by
  intro c hc
  rcases List.mem_append.1 hc with h | h
  · exact ha c h
  · exact hb c h

/-- The bytes of a character other than NUL and a quotation mark. -/
theorem utf8_string {n : Nat} (h : 32 ≤ n) (hn : n ≠ 34) (hs : Scalar n) : ∀ c ∈ utf8 n, c ≠ 0 ∧ c ≠ 34 := by
  have hlt : n < 0x110000 := by unfold Scalar at hs; omega
  have key : ∀ m : Nat, m < 256 → m ≠ 0 → m ≠ 34 → UInt8.ofNat m ≠ 0 ∧ UInt8.ofNat m ≠ 34 := by
    intro m hm h0 h34
    constructor
    · intro e
      have := congrArg UInt8.toNat e
      rw [UInt8.toNat_ofNat', Nat.mod_eq_of_lt hm] at this
      exact h0 this
    · intro e
      have := congrArg UInt8.toNat e
      rw [UInt8.toNat_ofNat', Nat.mod_eq_of_lt hm] at this
      exact h34 this
  intro c hc
  unfold utf8 at hc
  by_cases h1 : n < 0x80
  · rw [if_pos h1] at hc
    rw [List.mem_singleton.1 hc]
    exact key n (by omega) (by omega) hn
  rw [if_neg h1] at hc
  by_cases h2 : n < 0x800
  · rw [if_pos h2] at hc
    simp only [List.mem_cons, List.not_mem_nil, or_false] at hc
    rcases hc with rfl | rfl <;> apply key <;> omega
  rw [if_neg h2] at hc
  by_cases h3 : n < 0x10000
  · rw [if_pos h3] at hc
    simp only [List.mem_cons, List.not_mem_nil, or_false] at hc
    rcases hc with rfl | rfl | rfl <;> apply key <;> omega
  rw [if_neg h3] at hc
  simp only [List.mem_cons, List.not_mem_nil, or_false] at hc
  rcases hc with rfl | rfl | rfl | rfl <;> apply key <;> omega

theorem hex_string {h : List UInt8} {n : Nat} (hh : Hex4 h n) : ∀ c ∈ h, c ≠ 0 ∧ c ≠ 34 := by
  have key : ∀ {a : UInt8} {i : Nat}, hexDigit a = some i → a ≠ 0 ∧ a ≠ 34 := by
    intro a i ha
    constructor
    · rintro rfl; cases ha
    · rintro rfl; cases ha
  cases hh with
  | mk ha hb hc hd =>
    intro c hm
    simp only [List.mem_cons, List.not_mem_nil, or_false] at hm
    rcases hm with rfl | rfl | rfl | rfl
    · exact key ha
    · exact key hb
    · exact key hc
    · exact key hd

/-- A string without quotation marks is written without any. -/
theorem chars_string {s t : List UInt8} (h : Chars s t) : 34 ∉ s → ∀ c ∈ t, c ≠ 0 ∧ c ≠ 34 := by
  have two : (92 : UInt8) ≠ 0 ∧ (92 : UInt8) ≠ 34 := by decide
  have u : (117 : UInt8) ≠ 0 ∧ (117 : UInt8) ≠ 34 := by decide
  induction h with
  | nil => intro _ c hc; cases hc
  | plain hs h32 h34 h92 _ ih =>
    intro hq
    exact mem_append_all (utf8_string h32 h34 hs) (ih fun hm => hq (List.mem_append_right _ hm))
  | @letter c l s t hl _ ih =>
    intro hq d hd
    rcases List.mem_cons.1 hd with rfl | hd
    · exact two
    rcases List.mem_cons.1 hd with rfl | hd
    · have hc : c ≠ 34 := fun e => hq (e ▸ List.mem_cons_self ..)
      rcases hl with ⟨e, _⟩ | ⟨_, rfl⟩ | ⟨_, rfl⟩ | ⟨_, rfl⟩ | ⟨_, rfl⟩ | ⟨_, rfl⟩ | ⟨_, rfl⟩ | ⟨_, rfl⟩
      · exact absurd e hc
      all_goals decide
    · exact ih (fun hm => hq (List.mem_cons_of_mem _ hm)) d hd
  | unicode hh _ _ ih =>
    intro hq d hd
    rcases List.mem_cons.1 hd with rfl | hd
    · exact two
    rcases List.mem_cons.1 hd with rfl | hd
    · exact u
    · exact mem_append_all (hex_string hh) (ih fun hm => hq (List.mem_append_right _ hm)) d hd
  | pair hg hh _ _ _ _ _ ih =>
    intro hq d hd
    rcases List.mem_cons.1 hd with rfl | hd
    · exact two
    rcases List.mem_cons.1 hd with rfl | hd
    · exact u
    rcases List.mem_append.1 hd with hd | hd
    · exact hex_string hg d hd
    rcases List.mem_cons.1 hd with rfl | hd
    · exact two
    rcases List.mem_cons.1 hd with rfl | hd
    · exact u
    · exact mem_append_all (hex_string hh) (ih fun hm => hq (List.mem_append_right _ hm)) d hd

theorem white_concat {a b : List UInt8} (ha : White a) (hb : White b) : White (a ++ b) := mem_append_all ha hb

theorem white_newline (i : Int) : White (10 :: spaces i) := by
  intro c hc
  rcases List.mem_cons.1 hc with rfl | hc
  · exact .inr (.inr (.inl rfl))
  · exact spaces_white c hc

/-- How deep a part is. -/
def partDepth : Verif.Spec.Json.Part → Nat
  | .value v => depth v
  | .items l => depthItems l
  | .members l => depthMembers l

/-- No string of a part has a quotation mark. -/
def partQuoteless : Verif.Spec.Json.Part → Prop
  | .value v => Quoteless v
  | .items l => QuotelessItems l
  | .members l => QuotelessMembers l

/-- White space before items and members can be more. -/
theorem items_white {reals : List UInt8 → Option UInt64} {l : List Json} {t w : List UInt8} (h : Text reals (.items l) t)
    (hw : White w) : Text reals (.items l) (w ++ t) := by
  cases h with
  | lastItem h1 h2 h3 =>
    have := Text.lastItem (white_concat hw h1) h2 h3
    rw [List.append_assoc] at this
    exact this
  | item h1 h2 h3 h4 =>
    have := Text.item (white_concat hw h1) h2 h3 h4
    rw [List.append_assoc] at this
    exact this

theorem members_white {reals : List UInt8 → Option UInt64} {l : List (List UInt8 × Json)} {t w : List UInt8}
    (h : Text reals (.members l) t) (hw : White w) : Text reals (.members l) (w ++ t) := by
  cases h with
  | lastMember h1 h2 h3 h4 h5 h6 =>
    have := Text.lastMember (white_concat hw h1) h2 h3 h4 h5 h6
    rw [List.append_assoc] at this
    exact this
  | member h1 h2 h3 h4 h5 h6 h7 =>
    have := Text.member (white_concat hw h1) h2 h3 h4 h5 h6 h7
    rw [List.append_assoc] at this
    exact this

/-- White space after items and members can be more. -/
theorem after_white {reals : List UInt8 → Option UInt64} {p : Verif.Spec.Json.Part} {t : List UInt8} (h : Text reals p t) :
    (match p with | .value _ => False | _ => True) → ∀ {w : List UInt8}, White w → Text reals p (t ++ w) := by
  induction h with
  | lastItem h1 h2 h3 _ =>
    intro _ w hw
    have := Text.lastItem h1 (white_concat h2 hw) h3
    simpa only [List.append_assoc] using this
  | item h1 h2 h3 h4 _ ih =>
    intro _ w hw
    have := Text.item h1 h2 h3 (ih trivial hw)
    simpa only [List.append_assoc, List.cons_append] using this
  | lastMember h1 h2 h3 h4 h5 h6 _ =>
    intro _ w hw
    have := Text.lastMember h1 h2 h3 (white_concat h4 hw) h5 h6
    simpa only [List.append_assoc, List.cons_append] using this
  | member h1 h2 h3 h4 h5 h6 h7 _ ih =>
    intro _ w hw
    have := Text.member h1 h2 h3 h4 h5 h6 (ih trivial hw)
    simpa only [List.append_assoc, List.cons_append] using this
  | _ => intro hf; exact hf.elim

/-- What is between brackets or braces, printed with them. -/
theorem prints_around {i : Int} (h : 0 ≤ i) (h' : i ≤ 195) {o c : UInt8} (hoc : (o = 91 ∧ c = 93) ∨ (o = 123 ∧ c = 125))
    {t t' : List UInt8} (ht : Prints false (i + 2) t t') :
    Prints false i (o :: (t ++ [c])) (o :: ((10 :: spaces (i + 2)) ++ t' ++ (10 :: spaces i) ++ [c])) := by
  have ho : o = 91 ∨ o = 123 := by rcases hoc with h | h <;> simp [h.1]
  have hc : c = 93 ∨ c = 125 := by rcases hoc with h | h <;> simp [h.2]
  unfold Prints at *
  rw [show (o :: (t ++ [c]) : List UInt8) = [o] ++ (t ++ [c]) from rfl, printChars_append, prints_open h h' ho]
  simp only
  rw [printChars_append, ht]
  simp only
  rw [prints_close h h' hc]
  simp

/-- Printed texts are texts of the same values. -/
theorem text_prints {reals : List UInt8 → Option UInt64} {p : Verif.Spec.Json.Part} {t : List UInt8} (h : Text reals p t) :
    partQuoteless p → ∀ i : Int, 0 ≤ i → i + 2 * partDepth p ≤ 197 → ∃ t', Prints false i t t' ∧ Text reals p t' := by
  induction h with
  | null => exact fun _ i _ _ => ⟨_, prints_plain (by intro c hc; revert c; unfold Plain; decide), .null⟩
  | true => exact fun _ i _ _ => ⟨_, prints_plain (by intro c hc; revert c; unfold Plain; decide), .true⟩
  | false => exact fun _ i _ _ => ⟨_, prints_plain (by intro c hc; revert c; unfold Plain; decide), .false⟩
  | int hf => exact fun _ i _ _ => ⟨_, prints_plain (mem_append_all (minus_plain _) (index_plain _)), .int hf⟩
  | real h1 h2 h3 h4 =>
    exact fun _ i _ _ => ⟨_, prints_plain (mem_append_all (mem_append_all (mem_append_all (minus_plain _) (index_plain _))
      (frac_plain h1)) (expo_plain h2)), .real h1 h2 h3 h4⟩
  | str hc => exact fun hq i _ _ => ⟨_, prints_quoted (chars_string hc hq), .str hc⟩
  | noItems hw =>
    intro _ i h0 h1
    simp only [partDepth, depth, depthItems] at h1
    refine ⟨_, prints_around h0 (by omega) (.inl ⟨rfl, rfl⟩) (prints_plain (white_plain hw)), ?_⟩
    exact .noItems (white_concat (white_concat (white_newline _) hw) (white_newline _))
  | noMembers hw =>
    intro _ i h0 h1
    simp only [partDepth, depth, depthMembers] at h1
    refine ⟨_, prints_around h0 (by omega) (.inr ⟨rfl, rfl⟩) (prints_plain (white_plain hw)), ?_⟩
    exact .noMembers (white_concat (white_concat (white_newline _) hw) (white_newline _))
  | @arr l t ht ih =>
    intro hq i h0 h1
    simp only [partDepth, depth] at h1
    obtain ⟨t', hp, ht'⟩ := ih hq (i + 2) (by omega) (by simp only [partDepth]; omega)
    refine ⟨_, prints_around h0 (by omega) (.inl ⟨rfl, rfl⟩) hp, .arr ?_⟩
    exact after_white (items_white ht' (white_newline _)) trivial (white_newline _)
  | @obj l t ht ih =>
    intro hq i h0 h1
    simp only [partDepth, depth] at h1
    obtain ⟨t', hp, ht'⟩ := ih hq (i + 2) (by omega) (by simp only [partDepth]; omega)
    refine ⟨_, prints_around h0 (by omega) (.inr ⟨rfl, rfl⟩) hp, .obj ?_⟩
    exact after_white (members_white ht' (white_newline _)) trivial (white_newline _)
  | @lastItem v t w x hw hx ht ih =>
    intro hq i h0 h1
    simp only [partDepth, depthItems] at h1
    obtain ⟨t', hp, ht'⟩ := ih hq.1 i h0 (by simp only [partDepth]; omega)
    exact ⟨_, prints_append (prints_plain (white_plain hw)) (prints_append hp (prints_plain (white_plain hx))),
      .lastItem hw hx ht'⟩
  | @item v l t u w x hw hx ht hu ih ih' =>
    intro hq i h0 h1
    simp only [partDepth, depthItems] at h1
    obtain ⟨t', hp, ht'⟩ := ih hq.1 i h0 (by simp only [partDepth]; omega)
    obtain ⟨u', hp', hu'⟩ := ih' hq.2 i h0 (by simp only [partDepth]; omega)
    exact ⟨_, prints_append (prints_plain (white_plain hw)) (prints_append hp (prints_append (prints_plain (white_plain hx))
      (prints_append (s := [44]) (prints_comma h0 (by omega)) hp'))),
      .item hw hx ht' (items_white hu' (white_newline i))⟩
  | @lastMember k kt v t w x y z hw hx hy hz hk ht ih =>
    intro hq i h0 h1
    simp only [partDepth, depthMembers] at h1
    obtain ⟨t', hp, ht'⟩ := ih hq.2.1 i h0 (by simp only [partDepth]; omega)
    have := prints_append (prints_plain (white_plain hw)) (prints_append (prints_quoted (i := i) (chars_string hk hq.1))
      (prints_append (prints_plain (white_plain hx)) (prints_append (s := [58]) prints_colon
      (prints_append (prints_plain (white_plain hy)) (prints_append hp (prints_plain (white_plain hz)))))))
    refine ⟨w ++ (34 :: (kt ++ 34 :: (x ++ 58 :: ((32 :: y) ++ (t' ++ z))))), by
      simpa only [List.append_assoc, List.cons_append, List.nil_append] using this,
      .lastMember hw hx (white_concat (a := [32]) (by intro c hc; exact .inl (List.mem_singleton.1 hc)) hy) hz hk ht'⟩
  | @member k kt v l t u w x y z hw hx hy hz hk ht hu ih ih' =>
    intro hq i h0 h1
    simp only [partDepth, depthMembers] at h1
    obtain ⟨t', hp, ht'⟩ := ih hq.2.1 i h0 (by simp only [partDepth]; omega)
    obtain ⟨u', hp', hu'⟩ := ih' hq.2.2 i h0 (by simp only [partDepth]; omega)
    have := prints_append (prints_plain (white_plain hw)) (prints_append (prints_quoted (i := i) (chars_string hk hq.1))
      (prints_append (prints_plain (white_plain hx)) (prints_append (s := [58]) prints_colon
      (prints_append (prints_plain (white_plain hy)) (prints_append hp (prints_append (prints_plain (white_plain hz))
      (prints_append (s := [44]) (prints_comma h0 (by omega)) hp')))))))
    refine ⟨w ++ (34 :: (kt ++ 34 :: (x ++ 58 :: ((32 :: y) ++ (t' ++ (z ++ 44 :: ((10 :: spaces i) ++ u'))))))), by
      simpa only [List.append_assoc, List.cons_append, List.nil_append] using this,
      .member hw hx (white_concat (a := [32]) (by intro c hc; exact .inl (List.mem_singleton.1 hc)) hy) hz hk ht'
        (members_white hu' (white_newline i))⟩

/-- The text of an object without white space around it, printed. -/
theorem print_object {reals : List UInt8 → Option UInt64} {l : List (List UInt8 × Json)} {extra : List UInt8}
    (h : Text reals (.value (.obj l)) extra) (hq : Quoteless (.obj l)) {i : Int} (h0 : 0 ≤ i)
    (h1 : i + 2 * depthMembers l ≤ 197) : Text reals (.value (.obj l)) (123 :: (print extra i ++ [125])) := by
  have hs : logged (spaces i) = spaces i := logged_all spaces_ne (by
    unfold spaces; rw [List.length_replicate]; omega)
  have h10 : logged [10] = [10] := rfl
  have w10 : White [10] := by intro c hc; rw [List.mem_singleton.1 hc]; exact .inr (.inr (.inl rfl))
  have hpr : ∀ t, print (123 :: (t ++ [125])) i = spaces i ++ ((printChars false i t).1 ++ [10]) := by
    intro t
    unfold print
    rw [if_neg (by simp), hs, h10, List.tail_cons, List.dropLast_concat]
  cases h with
  | noMembers hw =>
    rw [hpr, (prints_plain (white_plain hw) : Prints false i _ _)]
    exact .noMembers (white_concat spaces_white (white_concat hw w10))
  | obj ht =>
    obtain ⟨t', hp, ht'⟩ := text_prints ht hq i h0 h1
    rw [hpr, hp]
    exact .obj (members_white (after_white ht' trivial w10) spaces_white)

end Verif.Proof.ExtraHeaders
