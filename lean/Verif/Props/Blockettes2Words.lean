import Verif.Model.Blockettes2
/-!
# The words of extra headers that choose blockettes and flags (C116)

For entries of any kind, not only those a blockette describes.
-/
namespace Verif.Props.Blockettes2
open Verif.Spec.Json
open Verif.Model Verif.Model.Steim Verif.Model.Pack2 Verif.Model.Blockettes2

/-- The same letter, if only in another case, or the same byte. -/
def Alike (a b : UInt8) : Prop :=
  a = b ∨ (65 ≤ a.toNat ∧ a.toNat ≤ 90 ∧ b.toNat = a.toNat + 32) ∨ (65 ≤ b.toNat ∧ b.toNat ≤ 90 ∧ a.toNat = b.toNat + 32)

/-- The text begins with the word, in upper or lower case. -/
inductive Begins : List UInt8 → List UInt8 → Prop where
  | nil (s : List UInt8) : Begins s []
  | cons (a b : UInt8) (s t : List UInt8) : Alike a b → Begins s t → Begins (a :: s) (b :: t)

/-- The entry has a text that begins with the word. -/
def Says (e : Json) (path word : String) : Prop :=
  ∃ s, look (some e) path = some (.str s) ∧ Begins (s.takeWhile (· != 0)) (word.toList.map fun c => UInt8.ofNat c.toNat)

theorem lower_alike (a b : UInt8) : lower a = lower b ↔ Alike a b := by
  have h1 := a.toNat_lt
  have h2 := b.toNat_lt
  have e : ∀ x y : UInt8, x = y ↔ x.toNat = y.toNat := fun x y => UInt8.toNat_inj.symm
  have hu : ∀ x : UInt8, 65 ≤ x.toNat ∧ x.toNat ≤ 90 → (x + 32).toNat = x.toNat + 32 := by
    intro x hx
    rw [UInt8.toNat_add]
    have : (32 : UInt8).toNat = 32 := rfl
    omega
  unfold lower Alike
  rw [e a b]
  by_cases ha : 65 ≤ a.toNat ∧ a.toNat ≤ 90 <;> by_cases hb : 65 ≤ b.toNat ∧ b.toNat ≤ 90
  · rw [if_pos ha, if_pos hb, e, hu a ha, hu b hb]; omega
  · rw [if_pos ha, if_neg hb, e, hu a ha]; omega
  · rw [if_neg ha, if_pos hb, e, hu b hb]; omega
  · rw [if_neg ha, if_neg hb, e]; omega

theorem begins_iff : ∀ t s : List UInt8, ((s.take t.length).map lower == t.map lower) = true ↔ Begins s t := by
  intro t
  induction t with
  | nil => intro s; exact ⟨fun _ => .nil s, fun _ => by simp⟩
  | cons b t ih =>
    intro s
    cases s with
    | nil => exact ⟨fun h => by simp at h, fun h => nomatch h⟩
    | cons a s =>
      have h1 := ih s
      rw [beq_iff_eq] at h1 ⊢
      simp only [List.length_cons, List.take_succ_cons, List.map_cons, List.cons.injEq, lower_alike, h1]
      exact ⟨fun h => .cons _ _ _ _ h.1 h.2, fun h => by cases h; exact ⟨‹_›, ‹_›⟩⟩

theorem like_iff (s : List UInt8) (t : String) : like s t = true ↔ Begins s (t.toList.map fun c => UInt8.ofNat c.toNat) := by
  unfold like ExtraHeaders.lit
  exact begins_iff _ _

theorem isLike_iff (e : Json) (path t : String) : isLike e path t = true ↔ Says e path t := by
  unfold isLike getStr Says
  cases h : look (some e) path with
  | none => simp
  | some v => cases v <;> simp [like_iff]

theorem isTrue_iff (e : Json) (path : String) : Blockettes2.isTrue e path = true ↔ look (some e) path = some (.bool true) := by
  unfold Blockettes2.isTrue getBool
  cases h : look (some e) path with
  | none => simp
  | some v => cases v <;> simp

/-- The flags: bit `i` is set exactly if the `i`-th of the conditions holds. -/
def Flags (f : UInt8) (l : List Prop) : Prop := ∀ i, f.toNat.testBit i = true ↔ ∃ p, l[i]? = some p ∧ p

/-- The step writes one byte at an offset, the flags. -/
def Flagged (s : Step) (type size off : Nat) (l : List Prop) : Prop :=
  ∃ w f w', s = .add type size (w ++ (off, .ok [f]) :: w') ∧ Flags f l

theorem flags_of {f : UInt8} {bs : List Bool} {l : List Prop} (hb : ∀ i, i < 8 → f.toNat.testBit i = bs.getD i false)
    (h8 : bs.length ≤ 8) (hl : bs.length = l.length) (hp : ∀ x ∈ bs.zip l, (x.1 = true ↔ x.2)) : Flags f l := by
  intro i
  by_cases hi : i < 8
  · rw [hb i hi]
    by_cases hil : i < bs.length
    · have h1 := hp (bs[i], l[i]) (by
        rw [List.mem_iff_getElem]
        exact ⟨i, by rw [List.length_zip]; omega, by rw [List.getElem_zip]⟩)
      rw [List.getD_eq_getElem?_getD, List.getElem?_eq_getElem hil, List.getElem?_eq_getElem (by omega)]
      exact h1.trans ⟨fun h => ⟨_, rfl, h⟩, fun ⟨p, e, h⟩ => by injection e with e; rw [e]; exact h⟩
    · rw [List.getD_eq_getElem?_getD, List.getElem?_eq_none (by omega), List.getElem?_eq_none (by omega)]
      simp
  · have h1 := f.toNat_lt
    rw [Nat.testBit_lt_two_pow (Nat.lt_of_lt_of_le h1 (Nat.pow_le_pow_right (by omega) (show 8 ≤ i by omega))), List.getElem?_eq_none (by omega)]
    simp

theorem like_clash {s : List UInt8} {a b : String} (n : Nat) (ha : like s a = true) (hb : like s b = true)
    (hn : n ≤ (ExtraHeaders.lit a).length ∧ n ≤ (ExtraHeaders.lit b).length) :
    ((ExtraHeaders.lit a).take n).map lower = ((ExtraHeaders.lit b).take n).map lower := by
  unfold like at ha hb
  rw [beq_iff_eq] at ha hb
  have h1 := congrArg (List.take n) ha
  have h2 := congrArg (List.take n) hb
  rw [← List.map_take, ← List.map_take, List.take_take, Nat.min_eq_left (by omega)] at h1 h2
  exact h1.symm.trans h2

/-- **C116** (the words of calibrations).  Whatever else an entry for a calibration has: the word of its type, in upper or lower
case, chooses the blockette, and each flag is set exactly if the entry says so: truth values that are true, and words in upper or
lower case.  Another type makes the packing fail. -/
theorem C116_calibration_words (h : Bool) (k : Numbers) (e : Json) :
    let trigger := Says e "/Trigger" "AUTOMATIC"
    let continued := look (some e) "/Continued" = some (.bool true)
    let range := Says e "/AmplitudeRange"
    (Says e "/Type" "STEP" → Flagged (calibrationStep h k e) 300 60 15
      [look (some e) "/StepFirstPulsePositive" = some (.bool true), look (some e) "/StepAlternateSign" = some (.bool true),
        trigger, continued]) ∧
    (Says e "/Type" "SINE" → Flagged (calibrationStep h k e) 310 60 15
      [False, False, trigger, continued, range "PEAKTOPEAK", range "ZEROTOPEAK", range "RMS"]) ∧
    (Says e "/Type" "PSEUDORANDOM" → Flagged (calibrationStep h k e) 320 64 15 [False, False, trigger, continued, range "RANDOM"]) ∧
    (Says e "/Type" "GENERIC" → Flagged (calibrationStep h k e) 390 28 15 [False, False, trigger, continued]) ∧
    (∀ s, look (some e) "/Type" = some (.str s) → ¬ Says e "/Type" "STEP" → ¬ Says e "/Type" "SINE" →
      ¬ Says e "/Type" "PSEUDORANDOM" → ¬ Says e "/Type" "GENERIC" → calibrationStep h k e = .refuse) := by
  intro trigger continued range
  have htr : (isLike e "/Trigger" "AUTOMATIC" = true ↔ trigger) := isLike_iff ..
  have hco : (Blockettes2.isTrue e "/Continued" = true ↔ continued) := isTrue_iff ..
  have hra : ∀ w, (isLike e "/AmplitudeRange" w = true ↔ range w) := fun w => isLike_iff ..
  have hty : ∀ w, Says e "/Type" w → ∃ s, getStr (some e) "/Type" = some s ∧ like s w = true := by
    rintro w ⟨s, h1, h2⟩
    refine ⟨s.takeWhile (· != 0), ?_, (like_iff _ _).2 h2⟩
    unfold getStr
    rw [h1]
  have hno : ∀ (s : List UInt8) (a b : String) (n : Nat), like s b = true → (n ≤ (ExtraHeaders.lit a).length ∧ n ≤ (ExtraHeaders.lit b).length) →
      ((ExtraHeaders.lit a).take n).map lower ≠ ((ExtraHeaders.lit b).take n).map lower → like s a = false := by
    intro s a b n hb hn hne
    cases ha : like s a with
    | false => rfl
    | true => exact absurd (like_clash n ha hb hn) hne
  refine ⟨?_, ?_, ?_, ?_, ?_⟩
  · intro hs
    obtain ⟨s, h1, h2⟩ := hty _ hs
    unfold calibrationStep
    rw [h1]
    simp only [h2, if_true]
    unfold stepStep
    simp only [List.append_assoc, List.singleton_append]
    rw [← List.append_assoc (opt 4 _)]
    refine ⟨_, _, _, rfl, flags_of (bs := [Blockettes2.isTrue e "/StepFirstPulsePositive", Blockettes2.isTrue e "/StepAlternateSign",
      isLike e "/Trigger" "AUTOMATIC", Blockettes2.isTrue e "/Continued"]) ?_ (by simp) (by simp) ?_⟩
    · unfold triggerFlags
      generalize Blockettes2.isTrue e "/StepFirstPulsePositive" = a
      generalize Blockettes2.isTrue e "/StepAlternateSign" = b
      generalize isLike e "/Trigger" "AUTOMATIC" = c
      generalize Blockettes2.isTrue e "/Continued" = d
      revert a b c d
      decide +kernel
    · simp only [List.zip_cons_cons, List.zip_nil_right, List.mem_cons, List.not_mem_nil, or_false]
      rintro x (rfl | rfl | rfl | rfl)
      · exact isTrue_iff ..
      · exact isTrue_iff ..
      · exact htr
      · exact hco
  · intro hs
    obtain ⟨s, h1, h2⟩ := hty _ hs
    unfold calibrationStep
    rw [h1]
    simp only [h2, hno s "STEP" "SINE" 2 h2 (by decide) (by decide), if_true, Bool.false_eq_true, if_false]
    unfold sineStep
    simp only [List.append_assoc, List.singleton_append]
    refine ⟨_, _, _, rfl, flags_of (bs := [false, false, isLike e "/Trigger" "AUTOMATIC", Blockettes2.isTrue e "/Continued",
      isLike e "/AmplitudeRange" "PEAKTOPEAK", isLike e "/AmplitudeRange" "ZEROTOPEAK", isLike e "/AmplitudeRange" "RMS"]) ?_ (by simp) (by simp) ?_⟩
    · unfold triggerFlags
      generalize isLike e "/Trigger" "AUTOMATIC" = a
      generalize Blockettes2.isTrue e "/Continued" = b
      generalize isLike e "/AmplitudeRange" "PEAKTOPEAK" = c
      generalize isLike e "/AmplitudeRange" "ZEROTOPEAK" = d
      generalize isLike e "/AmplitudeRange" "RMS" = f
      revert a b c d f
      decide +kernel
    · simp only [List.zip_cons_cons, List.zip_nil_right, List.mem_cons, List.not_mem_nil, or_false]
      rintro x (rfl | rfl | rfl | rfl | rfl | rfl | rfl)
      · simp
      · simp
      · exact htr
      · exact hco
      · exact hra _
      · exact hra _
      · exact hra _
  · intro hs
    obtain ⟨s, h1, h2⟩ := hty _ hs
    unfold calibrationStep
    rw [h1]
    simp only [h2, hno s "STEP" "PSEUDORANDOM" 2 h2 (by decide) (by decide), hno s "SINE" "PSEUDORANDOM" 2 h2 (by decide) (by decide),
      if_true, Bool.false_eq_true, if_false]
    unfold randomStep
    simp only [List.append_assoc, List.singleton_append]
    refine ⟨_, _, _, rfl, flags_of (bs := [false, false, isLike e "/Trigger" "AUTOMATIC", Blockettes2.isTrue e "/Continued",
      isLike e "/AmplitudeRange" "RANDOM"]) ?_ (by simp) (by simp) ?_⟩
    · unfold triggerFlags
      generalize isLike e "/Trigger" "AUTOMATIC" = a
      generalize Blockettes2.isTrue e "/Continued" = b
      generalize isLike e "/AmplitudeRange" "RANDOM" = c
      revert a b c
      decide +kernel
    · simp only [List.zip_cons_cons, List.zip_nil_right, List.mem_cons, List.not_mem_nil, or_false]
      rintro x (rfl | rfl | rfl | rfl | rfl)
      · simp
      · simp
      · exact htr
      · exact hco
      · exact hra _
  · intro hs
    obtain ⟨s, h1, h2⟩ := hty _ hs
    unfold calibrationStep
    rw [h1]
    simp only [h2, hno s "STEP" "GENERIC" 2 h2 (by decide) (by decide), hno s "SINE" "GENERIC" 2 h2 (by decide) (by decide),
      hno s "PSEUDORANDOM" "GENERIC" 2 h2 (by decide) (by decide), if_true, Bool.false_eq_true, if_false]
    unfold genericStep
    simp only [List.append_assoc, List.singleton_append]
    refine ⟨_, _, _, rfl, flags_of (bs := [false, false, isLike e "/Trigger" "AUTOMATIC", Blockettes2.isTrue e "/Continued"])
      ?_ (by simp) (by simp) ?_⟩
    · unfold triggerFlags
      generalize isLike e "/Trigger" "AUTOMATIC" = a
      generalize Blockettes2.isTrue e "/Continued" = b
      revert a b
      decide +kernel
    · simp only [List.zip_cons_cons, List.zip_nil_right, List.mem_cons, List.not_mem_nil, or_false]
      rintro x (rfl | rfl | rfl | rfl)
      · simp
      · simp
      · exact htr
      · exact hco
  · intro s hs n1 n2 n3 n4
    have hg : getStr (some e) "/Type" = some (s.takeWhile (· != 0)) := by unfold getStr; rw [hs]
    have key : ∀ w, ¬ Says e "/Type" w → like (s.takeWhile (· != 0)) w = false := by
      intro w hw
      rw [← Bool.not_eq_true]
      exact fun h => hw ⟨s, hs, (like_iff _ _).1 h⟩
    unfold calibrationStep
    rw [hg]
    simp only [key _ n1, key _ n2, key _ n3, key _ n4, Bool.false_eq_true, if_false]

/-- **C116** (the words of event detections).  The type of Murdock and Hutt chooses blockette 201, others blockette 200; the flags
say the wave and the units. -/
theorem C116_event_words (h : Bool) (k : Numbers) (e : Json) :
    (Says e "/Type" "MURDOCK" → Flagged (detectionStep h k e) 201 60 16 [Says e "/Wave" "DILATATION"]) ∧
    (¬ Says e "/Type" "MURDOCK" → Flagged (detectionStep h k e) 200 52 16
      [Says e "/Wave" "DILATATION", ∃ s, look (some e) "/Units" = some (.str s) ∧ ¬ Says e "/Units" "COUNT",
        ¬ ∃ s, look (some e) "/Wave" = some (.str s)]) := by
  have hw : ∀ b : Bool, eventFlags b e = bit 1 (isLike e "/Wave" "DILATATION") + bit 4 (!b && (getStr (some e) "/Wave").isNone) +
      bit 2 (!b && ((getStr (some e) "/Units").isSome && !isLike e "/Units" "COUNT")) := by
    intro b
    unfold eventFlags isLike
    cases b <;> cases getStr (some e) "/Wave" <;> cases getStr (some e) "/Units" <;> simp [bit]
  have hnone : ∀ p, ((getStr (some e) p).isNone = true ↔ ¬ ∃ s, look (some e) p = some (.str s)) := by
    intro p
    unfold getStr
    cases h : look (some e) p with
    | none => simp
    | some v => cases v <;> simp
  constructor
  · intro hs
    have hm := (isLike_iff _ _ _).2 hs
    unfold detectionStep
    simp only [hm, if_true, List.append_assoc, List.singleton_append]
    rw [← List.append_assoc (opt 8 _), ← List.append_assoc (opt 4 _)]
    refine ⟨_, _, _, rfl, flags_of (bs := [isLike e "/Wave" "DILATATION"]) ?_ (by simp) (by simp) ?_⟩
    · rw [hw]
      generalize isLike e "/Wave" "DILATATION" = a
      simp only [Bool.not_true, Bool.false_and]
      revert a
      decide +kernel
    · simp only [List.zip_cons_cons, List.zip_nil_right, List.mem_cons, List.not_mem_nil, or_false]
      rintro x rfl
      exact isLike_iff ..
  · intro hs
    have hm : isLike e "/Type" "MURDOCK" = false := by
      rw [← Bool.not_eq_true]
      exact fun h => hs ((isLike_iff _ _ _).1 h)
    unfold detectionStep
    simp only [hm, Bool.false_eq_true, if_false, List.append_assoc, List.singleton_append]
    rw [← List.append_assoc (opt 8 _), ← List.append_assoc (opt 4 _)]
    refine ⟨_, _, _, rfl, flags_of (bs := [isLike e "/Wave" "DILATATION",
      (getStr (some e) "/Units").isSome && !isLike e "/Units" "COUNT", (getStr (some e) "/Wave").isNone]) ?_ (by simp) (by simp) ?_⟩
    · rw [hw]
      simp only [Bool.not_false, Bool.true_and]
      generalize ((getStr (some e) "/Units").isSome && !isLike e "/Units" "COUNT") = b
      generalize isLike e "/Wave" "DILATATION" = a
      generalize (getStr (some e) "/Wave").isNone = c
      revert a b c
      decide +kernel
    · simp only [List.zip_cons_cons, List.zip_nil_right, List.mem_cons, List.not_mem_nil, or_false]
      rintro x (rfl | rfl | rfl)
      · exact isLike_iff ..
      · simp only [Bool.and_eq_true, Bool.not_eq_true']
        have h1 := hnone "/Units"
        constructor
        · rintro ⟨h2, h3⟩
          have : ∃ s, look (some e) "/Units" = some (.str s) := by
            apply Classical.byContradiction
            intro hc
            have := h1.2 hc
            rw [Option.isNone_iff_eq_none] at this
            rw [this] at h2
            cases h2
          obtain ⟨s, hs'⟩ := this
          exact ⟨s, hs', fun hc => by rw [(isLike_iff _ _ _).2 hc] at h3; cases h3⟩
        · rintro ⟨s, h2, h3⟩
          refine ⟨?_, ?_⟩
          · unfold getStr
            rw [h2]
            rfl
          · rw [← Bool.not_eq_true]
            exact fun h => h3 ((isLike_iff _ _ _).1 h)
      · exact hnone _


/-- An entry in lower case, with a truth value that is false. -/
def lowly : Json :=
  .obj [(ExtraHeaders.lit "Type", .str (ExtraHeaders.lit "step one")), (ExtraHeaders.lit "Trigger", .str (ExtraHeaders.lit "Automatic")),
    (ExtraHeaders.lit "Continued", .bool false), (ExtraHeaders.lit "Wave", .str (ExtraHeaders.lit "COMPRESSION"))]

theorem lowly_says : isLike lowly "/Type" "STEP" = true ∧ isLike lowly "/Type" "MURDOCK" = false ∧
    isLike lowly "/Trigger" "AUTOMATIC" = true ∧ Blockettes2.isTrue lowly "/Continued" = false := by decide +kernel

example : Says lowly "/Type" "STEP" ∧ Says lowly "/Trigger" "AUTOMATIC" ∧ look (some lowly) "/Continued" ≠ some (.bool true) ∧
    ¬ Says lowly "/Type" "MURDOCK" :=
  ⟨(isLike_iff ..).1 lowly_says.1, (isLike_iff ..).1 lowly_says.2.2.1,
    fun h => absurd ((isTrue_iff ..).2 h) (by rw [lowly_says.2.2.2]; simp),
    fun h => absurd ((isLike_iff ..).2 h) (by rw [lowly_says.2.1]; simp)⟩

end Verif.Props.Blockettes2
