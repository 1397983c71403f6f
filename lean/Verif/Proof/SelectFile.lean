import Verif.Model.SelectFile
import Verif.Props.SelectFileDefs
import Verif.Props.TimeStr
/-!
# Lemmas about reading selection files
-/
namespace Verif.Proof.SelectFile
open Verif.Model.Glob hiding Res
open Verif.Model.Select Verif.Model.SelectFile
open Verif.Model.Steim (Res)
open Verif.Spec Verif.Spec.Glob Verif.Spec.Select Verif.Spec.TimeStr Verif.Spec.SelectFile
open Verif.Props.Select Verif.Props.SelectFile
open Verif.Proof.Mem (bind_ok)

def Ascii (s : List UInt8) : Prop := ∀ b ∈ s, b.toNat ≤ 127

/-- White space, as a test. -/
def sp (b : UInt8) : Bool := decide (Space b)

theorem isSpace_ok (signed : Bool) {b : UInt8} (h : b.toNat ≤ 127) : isSpace signed b = .ok (sp b) := by
  unfold isSpace sp Space
  rw [if_neg (by omega)]

theorem isDigit_ok (signed : Bool) {b : UInt8} (h : b.toNat ≤ 127) :
    isDigit signed b = .ok (decide (DigitByte b)) := by
  unfold isDigit DigitByte
  rw [if_neg (by omega)]

theorem skipSpaces_ok (signed : Bool) : ∀ s, Ascii s → skipSpaces signed s = .ok (s.dropWhile sp) := by
  intro s
  induction s with
  | nil => intro _; rfl
  | cons c s ih =>
    intro h
    rw [skipSpaces, isSpace_ok signed (h c (by simp)), bind_ok, List.dropWhile_cons]
    split
    · exact ih fun b hb => h b (by simp [hb])
    · rfl

theorem dropWhile_nil (p : UInt8 → Bool) : ∀ s : List UInt8, s.dropWhile p = [] ↔ ∀ b ∈ s, p b = true := by
  intro s
  induction s with
  | nil => simp
  | cons c s ih =>
    rw [List.dropWhile_cons]
    split
    · next h => rw [ih]; simp [h]
    · next h => simp [h]

def trimEnd (s : List UInt8) : List UInt8 := (s.reverse.dropWhile sp).reverse

theorem trim_ok (signed : Bool) {s : List UInt8} (h : Ascii s) :
    trim signed s = .ok ((trimEnd s).dropWhile sp) := by
  unfold trim trimEnd
  rw [skipSpaces_ok signed _ (fun b hb => h b (by simpa using hb)), bind_ok, skipSpaces_ok]
  intro b hb
  have := (List.dropWhile_sublist sp).mem (List.mem_reverse.1 hb)
  exact h b (by simpa using this)

theorem trimEnd_append (a b : List UInt8) :
    trimEnd (a ++ b) = if trimEnd b = [] then trimEnd a else a ++ trimEnd b := by
  unfold trimEnd
  rw [List.reverse_append, List.dropWhile_append]
  by_cases h : (List.dropWhile sp b.reverse) = []
  · simp [h]
  · simp [h]

theorem trimEnd_blank {s : List UInt8} (h : Blank s) : trimEnd s = [] := by
  unfold trimEnd
  have : s.reverse.dropWhile sp = [] := by
    rw [dropWhile_nil]
    intro b hb
    exact decide_eq_true (h b (by simpa using hb))
  rw [this]
  rfl

theorem trimEnd_field {f : List UInt8} (h : Field f) : trimEnd f = f := by
  unfold trimEnd
  cases hr : f.reverse with
  | nil => exact absurd (List.reverse_eq_nil_iff.1 hr) h.1
  | cons c s =>
    have hc : ¬ Space c := h.2 c (by
      have : c ∈ f.reverse := by rw [hr]; simp
      simpa using this)
    rw [List.dropWhile_cons_of_neg (by simpa [sp] using hc), ← hr, List.reverse_reverse]

theorem parts_blank {fs : List (List UInt8)} {s : List UInt8} (h : Parts fs s) (hb : Blank s) : fs = [] := by
  cases h with
  | nil _ => rfl
  | cons h1 h2 h3 h4 =>
    obtain ⟨c, u, e⟩ := List.exists_cons_of_ne_nil h2.1
    exact absurd (hb c (by simp [e])) (h2.2 c (by simp [e]))

theorem blank_of_trimEnd {s : List UInt8} (h : trimEnd s = []) : Blank s := by
  unfold trimEnd at h
  rw [List.reverse_eq_nil_iff, dropWhile_nil] at h
  intro b hb
  exact of_decide_eq_true (h b (by simpa using hb))

theorem trimEnd_prefix (s : List UInt8) : ∃ t, s = trimEnd s ++ t := by
  refine ⟨(s.reverse.takeWhile sp).reverse, ?_⟩
  unfold trimEnd
  rw [← List.reverse_append, List.takeWhile_append_dropWhile, List.reverse_reverse]

theorem parts_trimEnd {fs : List (List UInt8)} {s : List UInt8} (h : Parts fs s) : Parts fs (trimEnd s) := by
  induction h with
  | nil hb => rw [trimEnd_blank hb]; exact .nil (by intro b hb; cases hb)
  | @cons ws f rest fs h1 h2 h3 h4 ih =>
    rw [trimEnd_append, trimEnd_append f, trimEnd_field h2]
    by_cases he : trimEnd rest = []
    · have := parts_blank h4 (blank_of_trimEnd he)
      subst this
      rw [if_pos he, if_neg h2.1]
      have := Parts.cons (rest := []) (fs := []) h1 h2 (by simp) (.nil (by intro b hb; cases hb))
      simpa using this
    · rw [if_neg he, if_neg (by simp [h2.1])]
      refine .cons h1 h2 ?_ ih
      intro b u hbu
      obtain ⟨t, ht⟩ := trimEnd_prefix rest
      exact h3 b (u ++ t) (by rw [ht, hbu]; rfl)

theorem parts_dropWhile {fs : List (List UInt8)} {s : List UInt8} (h : Parts fs s) :
    Parts fs (s.dropWhile sp) := by
  cases h with
  | nil hb =>
    refine .nil ?_
    intro b h
    exact hb b ((List.dropWhile_sublist sp).mem h)
  | @cons ws f rest fs h1 h2 h3 h4 =>
    rw [List.dropWhile_append_of_pos (p := sp) (fun b hb => decide_eq_true (h1 b hb))]
    obtain ⟨c, u, e⟩ := List.exists_cons_of_ne_nil h2.1
    have : (f ++ rest).dropWhile sp = [] ++ (f ++ rest) := by
      rw [e, List.cons_append, List.dropWhile_cons_of_neg]
      · rfl
      · simpa [sp] using h2.2 c (by simp [e])
    rw [this]
    exact .cons (by intro b hb; cases hb) h2 h3 h4

/-! ## Fields -/

theorem split_true_space (signed : Bool) (n : Nat) {s : List UInt8} {fs : List (List UInt8)}
    (h : ∀ b u, s = b :: u → Space b ∧ b.toNat ≤ 127) (hn : n < 8)
    (hs : split signed n false s = .ok ([], fs)) : split signed n true s = .ok ([], fs) := by
  cases s with
  | nil => exact hs
  | cons b u =>
    obtain ⟨h1, h2⟩ := h b u rfl
    unfold split at hs ⊢
    rw [if_neg (by omega), isSpace_ok signed h2, bind_ok] at hs ⊢
    have : sp b = true := decide_eq_true h1
    rw [this] at hs ⊢
    exact hs

theorem split_field (signed : Bool) (n : Nat) (hn : n < 8) {rest : List UInt8} {fs : List (List UInt8)}
    (hr : ∀ b u, rest = b :: u → Space b ∧ b.toNat ≤ 127) (hs : split signed n false rest = .ok ([], fs)) :
    ∀ f, (∀ b ∈ f, ¬ Space b) → Ascii f → split signed n true (f ++ rest) = .ok (f, fs) := by
  intro f
  induction f with
  | nil => intro _ _; exact split_true_space signed n hr hn hs
  | cons c f ih =>
    intro h1 h2
    rw [List.cons_append, split, if_neg (by omega), isSpace_ok signed (h2 c (by simp)), bind_ok]
    have : sp c = false := decide_eq_false (h1 c (by simp))
    rw [this]
    simp only [Bool.false_eq_true, if_false, if_true]
    rw [ih (fun b hb => h1 b (by simp [hb])) (fun b hb => h2 b (by simp [hb])), bind_ok]

theorem split_blank (signed : Bool) (n : Nat) (hn : n < 8) {rest : List UInt8} {fs : List (List UInt8)}
    (hs : split signed n false rest = .ok ([], fs)) :
    ∀ ws, Blank ws → split signed n false (ws ++ rest) = .ok ([], fs) := by
  intro ws
  induction ws with
  | nil => intro _; exact hs
  | cons c ws ih =>
    intro h
    have hc := h c (by simp)
    have ha : c.toNat ≤ 127 := by unfold Space at hc; omega
    rw [List.cons_append, split, if_neg (by omega), isSpace_ok signed ha, bind_ok]
    have : sp c = true := decide_eq_true hc
    rw [this, if_pos rfl, ih (fun b hb => h b (by simp [hb])), bind_ok]

theorem split_ok (signed : Bool) {fs : List (List UInt8)} {s : List UInt8} (h : Parts fs s) :
    ∀ n, n + fs.length < 8 → Ascii s → split signed n false s = .ok ([], fs) := by
  induction h with
  | @nil ws hb =>
    intro n hn _
    simp at hn
    have := split_blank signed n hn (rest := []) (fs := []) rfl ws hb
    simpa using this
  | @cons ws f rest fs h1 h2 h3 h4 ih =>
    intro n hn ha
    simp only [List.length_cons] at hn
    refine split_blank signed n (by omega) ?_ ws h1
    have har : Ascii rest := fun b hb => ha b (by simp [hb])
    have hr := ih (n + 1) (by omega) har
    obtain ⟨c, u, e⟩ := List.exists_cons_of_ne_nil h2.1
    subst e
    rw [List.cons_append, split, if_neg (by omega), isSpace_ok signed (ha c (by simp)), bind_ok]
    have : sp c = false := decide_eq_false (h2.2 c (by simp))
    rw [this]
    simp only [Bool.false_eq_true, if_false]
    rw [split_field signed (n + 1) (by omega) (fun b u e => ⟨h3 b u e, har b (by simp [e])⟩) hr u
      (fun b hb => h2.2 b (by simp [hb])) (fun b hb => ha b (by simp [hb])), bind_ok]

/-! ## Dates -/

def digitSet : Tok := .set false [.range 48 57]
def sepSet : Tok := .set false [.one 45, .one 47, .one 44]

/-- The tokens of the pattern for dates. -/
def dateToks : List Tok := [digitSet, digitSet, digitSet, digitSet, sepSet, digitSet, .star]

theorem dateGlob_eq : dateGlob = render dateToks := by decide +kernel

theorem charVal_ascii (signed : Bool) {y : UInt8} (hy : y.toNat < 128) : charVal signed y = y.toNat := by
  unfold charVal
  rw [if_neg]
  simp
  omega

theorem digitSet_iff (signed : Bool) {x : UInt8} (hx : x.toNat ≤ 127) :
    digitSet.Accepts (charVal signed) x ↔ DigitByte x := by
  unfold digitSet DigitByte
  simp only [Tok.Accepts, SetItem.Mem, List.mem_singleton, exists_eq_left, true_and, Bool.false_eq_true,
    false_and, or_false]
  rw [charVal_ascii signed (y := 48) (by decide), charVal_ascii signed (y := 57) (by decide),
    charVal_ascii signed (y := x) (by omega)]
  have e1 : x = 48 ↔ x.toNat = 48 := ⟨fun h => by rw [h]; rfl, fun h => UInt8.toNat_inj.1 h⟩
  have e2 : x = 57 ↔ x.toNat = 57 := ⟨fun h => by rw [h]; rfl, fun h => UInt8.toNat_inj.1 h⟩
  rw [e1, e2]
  have : (48 : UInt8).toNat = 48 := rfl
  have : (57 : UInt8).toNat = 57 := rfl
  omega

theorem sepSet_iff (signed : Bool) {x : UInt8} :
    sepSet.Accepts (charVal signed) x ↔ x = 45 ∨ x = 47 ∨ x = 44 := by
  simp [sepSet, Tok.Accepts, SetItem.Mem]

theorem star_all (code : UInt8 → Int) (s : List UInt8) : Matches code [.star] s := by
  induction s with
  | nil => exact .starEmpty .nil
  | cons c s ih => exact .starMore ih

theorem set_cons {code : UInt8 → Int} {neg : Bool} {items : List SetItem} {ts : List Tok} {s : List UInt8} :
    Matches code (.set neg items :: ts) s ↔
      ∃ c u, s = c :: u ∧ (Tok.set neg items).Accepts code c ∧ Matches code ts u := by
  constructor
  · intro h
    cases h with
    | char a b => exact ⟨_, _, rfl, a, b⟩
  · rintro ⟨c, u, rfl, a, b⟩
    exact .char a b

theorem dateToks_iff (signed : Bool) {f : List UInt8} (hf : Ascii f) :
    Matches (charVal signed) dateToks f ↔ DateLike f := by
  unfold dateToks DateLike
  constructor
  · intro h
    obtain ⟨a, s1, rfl, ha, h⟩ := set_cons.1 h
    obtain ⟨b, s2, rfl, hb, h⟩ := set_cons.1 h
    obtain ⟨c, s3, rfl, hc, h⟩ := set_cons.1 h
    obtain ⟨d, s4, rfl, hd, h⟩ := set_cons.1 h
    obtain ⟨s, s5, rfl, hs, h⟩ := set_cons.1 h
    obtain ⟨e, s6, rfl, he, h⟩ := set_cons.1 h
    exact ⟨a, b, c, d, s, e, s6, rfl, (digitSet_iff signed (hf a (by simp))).1 ha,
      (digitSet_iff signed (hf b (by simp))).1 hb, (digitSet_iff signed (hf c (by simp))).1 hc,
      (digitSet_iff signed (hf d (by simp))).1 hd, (sepSet_iff signed).1 hs,
      (digitSet_iff signed (hf e (by simp))).1 he⟩
  · rintro ⟨a, b, c, d, s, e, u, rfl, ha, hb, hc, hd, hs, he⟩
    exact .char ((digitSet_iff signed (hf a (by simp))).2 ha)
      (.char ((digitSet_iff signed (hf b (by simp))).2 hb)
      (.char ((digitSet_iff signed (hf c (by simp))).2 hc)
      (.char ((digitSet_iff signed (hf d (by simp))).2 hd) (.char ((sepSet_iff signed).2 hs)
      (.char ((digitSet_iff signed (hf e (by simp))).2 he) (star_all _ _))))))

theorem isDate_spec (signed : Bool) {f : List UInt8} (hf : Ascii f) :
    ∃ b, isDate signed (some f) = .ok b ∧ (b = true ↔ DateLike f) := by
  obtain ⟨b, hb, hiff⟩ := Verif.Props.Glob.C15_ms_globmatch_is_glob_partial signed dateToks
    (by simp [dateToks, digitSet, sepSet, Tok.WF, SetItem.WFFirst, SetItem.WF])
    (by simp [dateToks, digitSet, sepSet]) f
  refine ⟨b, ?_, hiff.trans (dateToks_iff signed hf)⟩
  unfold isDate
  simp only [dateGlob_eq, hb]

theorem isDate_true (signed : Bool) {f : List UInt8} (hf : Ascii f) (h : DateLike f) :
    isDate signed (some f) = .ok true := by
  obtain ⟨b, hb, hi⟩ := isDate_spec signed hf
  rw [hb, hi.2 h]

theorem isDate_false (signed : Bool) {f : List UInt8} (hf : Ascii f) (h : ¬ DateLike f) :
    isDate signed (some f) = .ok false := by
  obtain ⟨b, hb, hi⟩ := isDate_spec signed hf
  rw [hb]
  cases b
  · rfl
  · exact absurd (hi.1 rfl) h

/-! ## Times -/

theorem text_byte (b : UInt8) : (Char.ofNat b.toNat).toNat = b.toNat := by
  have h : ∀ n : Fin 256, (Char.ofNat n.val).toNat = n.val := by decide +kernel
  exact h ⟨b.toNat, b.toNat_lt⟩

theorem clock_mono {s1 s2 d1 d2 : List Char} (hs : ∀ c ∈ s1, c ∈ s2) (hd : ∀ c ∈ d1, c ∈ d2)
    {clk : List Char} {h m s n : Nat} (hc : Clock s1 d1 clk h m s n) : Clock s2 d2 clk h m s n := by
  cases hc with
  | none => exact .none
  | hour h1 h2 => exact .hour (hs _ h1) h2
  | minute h1 h2 h3 h4 => exact .minute (hs _ h1) h2 (hd _ h3) h4
  | second h1 h2 h3 h4 h5 h6 => exact .second (hs _ h1) h2 (hd _ h3) h4 (hd _ h5) h6
  | fraction h1 h2 h3 h4 h5 h6 h7 h8 => exact .fraction (hs _ h1) h2 (hd _ h3) h4 (hd _ h5) h6 h7 h8

theorem fieldTime_ok (rnd : Rat → Rat) (hr : Rounding rnd) {f : List UInt8} {t : Int}
    (h : TimeText (text f) t) : fieldTime rnd f = .ok t := by
  unfold fieldTime
  have e : (f.map fun b => Char.ofNat b.toNat) = text f := rfl
  rw [e]
  generalize text f = x at h
  cases h with
  | monthDay h4 hy hm hd ha hb hc hz hl vy vmo vd vh vm vs hi =>
    rw [Verif.Props.TimeStr.C79_month_day rnd hr hy hm hd ha hb (clock_mono (by simp) (by simp) hc) hz hl
      vy vmo vd vh vm vs hi]
  | ordinal h4 hy hd hc hz hl vy vd vh vm vs hi =>
    rw [Verif.Props.TimeStr.C79_iso_ordinal rnd hr hy hd (clock_mono (by simp) (by simp) hc) hz hl vy vd
      vh vm vs hi]
  | seed h4 hy hd hc hz hl vy vd vh vm vs hi =>
    rw [Verif.Props.TimeStr.C79_seed_ordinal rnd hr hy hd (clock_mono (by simp) (by simp) hc) hz hl vy
      vd vh vm vs hi]

theorem byte_of_char {f : List UInt8} {c : Char} {u : List Char} (h : text f = c :: u) :
    ∃ b v, f = b :: v ∧ b.toNat = c.toNat ∧ text v = u := by
  cases f with
  | nil => cases h
  | cons b v =>
    simp only [text, List.map_cons, List.cons.injEq] at h
    exact ⟨b, v, rfl, by rw [← h.1, text_byte], h.2⟩

theorem dateLike_of_chars {f : List UInt8} {ys : List Char} {a : Char} {ds r : List Char} {y d : Nat}
    (h4 : ys.length = 4) (hy : Numeral ys y) (ha : a = '-' ∨ a = '/' ∨ a = ',') (hd : Numeral ds d)
    (h : text f = ys ++ a :: (ds ++ r)) : DateLike f := by
  match ys, h4 with
  | [c1, c2, c3, c4], _ =>
    obtain ⟨e, u, rfl⟩ := List.exists_cons_of_ne_nil hd.1
    simp only [List.cons_append, List.nil_append] at h
    obtain ⟨b1, v, rfl, e1, h⟩ := byte_of_char h
    obtain ⟨b2, v, rfl, e2, h⟩ := byte_of_char h
    obtain ⟨b3, v, rfl, e3, h⟩ := byte_of_char h
    obtain ⟨b4, v, rfl, e4, h⟩ := byte_of_char h
    obtain ⟨b5, v, rfl, e5, h⟩ := byte_of_char h
    obtain ⟨b6, v, rfl, e6, h⟩ := byte_of_char h
    have g1 := hy.2.1 c1 (by simp)
    have g2 := hy.2.1 c2 (by simp)
    have g3 := hy.2.1 c3 (by simp)
    have g4 := hy.2.1 c4 (by simp)
    have g6 := hd.2.1 e (by simp)
    unfold Digit at g1 g2 g3 g4 g6
    refine ⟨b1, b2, b3, b4, b5, b6, v, rfl, ?_, ?_, ?_, ?_, ?_, ?_⟩
    any_goals unfold DigitByte; omega
    rcases ha with rfl | rfl | rfl
    · exact Or.inl (UInt8.toNat_inj.1 e5)
    · exact Or.inr (Or.inl (UInt8.toNat_inj.1 e5))
    · exact Or.inr (Or.inr (UInt8.toNat_inj.1 e5))

theorem dateLike {f : List UInt8} {t : Int} (h : TimeText (text f) t) : DateLike f := by
  generalize hx : text f = x at h
  cases h with
  | monthDay h4 hy hm hd ha hb hc hz hl vy vmo vd vh vm vs hi =>
    exact dateLike_of_chars h4 hy (by grind) hm hx
  | ordinal h4 hy hd hc hz hl vy vd vh vm vs hi => exact dateLike_of_chars h4 hy (by simp) hd hx
  | seed h4 hy hd hc hz hl vy vd vh vm vs hi => exact dateLike_of_chars h4 hy (by simp) hd hx

/-! ## Versions -/

theorem isInteger_ok (signed : Bool) : ∀ f, Ascii f →
    isInteger signed f = .ok (f.all fun b => decide (DigitByte b)) := by
  intro f
  induction f with
  | nil => intro _; rfl
  | cons c f ih =>
    intro h
    rw [isInteger, isDigit_ok signed (h c (by simp)), bind_ok, List.all_cons]
    cases hb : decide (DigitByte c)
    · rfl
    · rw [if_pos rfl, ih fun b hb => h b (by simp [hb])]
      rfl

theorem numeral_digits {f : List UInt8} {n : Nat} (h : Numeral (text f) n) : ∀ b ∈ f, DigitByte b := by
  intro b hb
  have := h.2.1 (Char.ofNat b.toNat) (List.mem_map.2 ⟨b, hb, rfl⟩)
  unfold Digit at this
  rw [text_byte] at this
  exact this

theorem version_ok {f : List UInt8} {n : Nat} (h : Numeral (text f) n) :
    version f = if n > 255 then none else some n := by
  have : f.foldl (fun v c => v * 10 + (c.toNat - 48)) 0 = n := by
    rw [← h.2.2]
    unfold value text
    rw [List.foldl_map]
    congr 1
    funext v c
    rw [text_byte]
  unfold version
  simp only
  rw [this]

theorem quality_ok (signed : Bool) {f : List UInt8} {n : Nat} (ha : Ascii f) (h : Version f n) :
    quality signed (some f) = .ok (some n) := by
  unfold quality
  simp only
  rw [isInteger_ok signed f ha, bind_ok]
  rcases h with ⟨h, hn⟩ | ⟨⟨b, hb, hd⟩, rfl⟩
  · have : (f.all fun b => decide (DigitByte b)) = true := by
      rw [List.all_eq_true]
      exact fun b hb => decide_eq_true (numeral_digits h b hb)
    rw [this, if_pos rfl, version_ok h, if_neg (by omega)]
  · have : (f.all fun b => decide (DigitByte b)) = false := by
      rw [List.all_eq_false]
      exact ⟨b, hb, by simpa using hd⟩
    rw [this]
    rfl

/-! ## Codes -/

theorem place_render {b c p : Tok} : render [b, .lit 95, c, .lit 95, p]
    = render ([b] ++ .lit 95 :: ([c] ++ .lit 95 :: [p])) := rfl

/-- A channel of five characters is taken as it is. -/
theorem chanComponent_extended (signed : Bool) {b c p : Tok} (hb : Place b) (hc : Place c) (hp : Place p) :
    chanComponent signed (some (render [b, .lit 95, c, .lit 95, p])) =
      chanComponent signed (some (render [b, c, p])) := by
  rw [(chanComponent_eq signed hb hc hp).1, place_render]
  have hl := (chanComponent_eq signed hb hc hp).2
  generalize render ([b] ++ .lit 95 :: ([c] ++ .lit 95 :: [p])) = x at hl
  have hg : seedGlob = render [seedSet, seedSet, seedSet] := by decide +kernel
  obtain ⟨r, hr, hiff⟩ := Verif.Props.Glob.C15_ms_globmatch_is_glob_partial signed
    [seedSet, seedSet, seedSet]
    (by simp [seedSet, Tok.WF, SetItem.WFFirst, SetItem.WF]) (by simp [seedSet]) x
  have : r = false := by
    cases r with
    | false => rfl
    | true =>
      obtain ⟨_, s1, rfl, _, h⟩ := set_cons.1 (hiff.1 rfl)
      obtain ⟨_, s2, rfl, _, h⟩ := set_cons.1 h
      obtain ⟨_, s3, rfl, _, h⟩ := set_cons.1 h
      cases h
      simp at hl
  subst this
  unfold chanComponent
  simp only [hg, hr]
  rw [List.take_of_length_le (by omega)]

theorem codes4_ok (signed : Bool) (sels : List Entry) {net sta loc chan : List UInt8} {p : List Tok}
    (h : Codes4 net sta loc chan p) (start stop : Int) (v : Nat) :
    addSelectComp signed sels (some net) (some sta) (some loc) (some chan) start stop v
      = .ok (some (addSelect sels (render p) start stop v)) := by
  cases h with
  | seed hn hs hl hb hc hp => exact (addSelectComp_eq signed sels hn hs hl hb hc hp start stop v).1
  | extended hn hs hl hb hc hp =>
    have := (addSelectComp_eq signed sels hn hs hl hb hc hp start stop v).1
    unfold addSelectComp at this ⊢
    rw [chanComponent_extended signed hb hc hp]
    exact this

/-! ## Lines -/

theorem fieldsStep_ok (signed : Bool) (rnd : Rat → Rat) (hr : Rounding rnd) (sels : List Entry)
    {fs : List (List UInt8)} {q : Request} (h : Asks fs q) (ha : ∀ f ∈ fs, Ascii f)
    (h1 : ∀ f ∈ q.first, f ≠ nstUnset) (h2 : ∀ f ∈ q.last, f ≠ nstUnset) :
    fieldsStep signed rnd sels fs = .ok (.count (add sels q)) := by
  have none_date : isDate signed none = .ok false := rfl
  cases h with
  | @sid p =>
    simp [fieldsStep, none_date, lineTime, firstFormat, addLine, fieldVersion, bind_ok, add]
  | @sidFrom p a t ht =>
    have e := isDate_true signed (ha a (by simp)) (dateLike ht)
    have n1 := h1 t rfl
    simp [fieldsStep, none_date, e, lineTime, firstFormat, addLine, fieldVersion, bind_ok, add,
      fieldTime_ok rnd hr ht, n1]
  | @sidSpan p a b t u ht hu =>
    have e := isDate_true signed (ha a (by simp)) (dateLike ht)
    have e' := isDate_true signed (ha b (by simp)) (dateLike hu)
    have n1 := h1 t rfl
    have n2 := h2 u rfl
    simp [fieldsStep, none_date, e, e', lineTime, firstFormat, addLine, fieldVersion, bind_ok, add,
      fieldTime_ok rnd hr ht, fieldTime_ok rnd hr hu, n1, n2]
  | @sidVersion p a b v t u n ht hu hv hn =>
    have e := isDate_true signed (ha a (by simp)) (dateLike ht)
    have e' := isDate_true signed (ha b (by simp)) (dateLike hu)
    have n1 := h1 t rfl
    have n2 := h2 u rfl
    have ei : isInteger signed v = .ok true := by
      rw [isInteger_ok signed v (ha v (by simp))]
      congr 1
      rw [List.all_eq_true]
      exact fun b hb => decide_eq_true (numeral_digits hv b hb)
    have ev : version v = some n := by rw [version_ok hv, if_neg (by omega)]
    simp [fieldsStep, none_date, e, e', lineTime, firstFormat, addLine, fieldVersion, bind_ok, add,
      fieldTime_ok rnd hr ht, fieldTime_ok rnd hr hu, n1, n2, ei, ev]
  | @codes net sta loc chan p hc d1 d2 =>
    have e := isDate_false signed (ha sta (by simp)) d1
    have e' := isDate_false signed (ha loc (by simp)) d2
    simp [fieldsStep, none_date, e, e', lineTime, firstFormat, secondFormat, addCompLine, quality, bind_ok,
      add, codes4_ok signed sels hc]
  | @codesVersion net sta loc chan v p n hc d1 d2 hv =>
    have e := isDate_false signed (ha sta (by simp)) d1
    have e' := isDate_false signed (ha loc (by simp)) d2
    have ev := quality_ok signed (ha v (by simp)) hv
    simp [fieldsStep, none_date, e, e', lineTime, firstFormat, secondFormat, addCompLine, ev, bind_ok,
      add, codes4_ok signed sels hc]
  | @codesFrom net sta loc chan v a p n t hc d1 d2 hv ht =>
    have e := isDate_false signed (ha sta (by simp)) d1
    have e' := isDate_false signed (ha loc (by simp)) d2
    have ev := quality_ok signed (ha v (by simp)) hv
    have e6 := isDate_true signed (ha a (by simp)) (dateLike ht)
    have n1 := h1 t rfl
    simp [fieldsStep, none_date, e, e', e6, lineTime, firstFormat, secondFormat, addCompLine, ev, bind_ok,
      add, codes4_ok signed sels hc, fieldTime_ok rnd hr ht, n1]
  | @codesSpan net sta loc chan v a b p n t u hc d1 d2 hv ht hu =>
    have e := isDate_false signed (ha sta (by simp)) d1
    have e' := isDate_false signed (ha loc (by simp)) d2
    have ev := quality_ok signed (ha v (by simp)) hv
    have e6 := isDate_true signed (ha a (by simp)) (dateLike ht)
    have e7 := isDate_true signed (ha b (by simp)) (dateLike hu)
    have n1 := h1 t rfl
    have n2 := h2 u rfl
    simp [fieldsStep, e, e', e6, e7, lineTime, firstFormat, secondFormat, addCompLine, ev,
      bind_ok, add, codes4_ok signed sels hc, fieldTime_ok rnd hr ht, fieldTime_ok rnd hr hu, n1, n2]

theorem asks_length {fs : List (List UInt8)} {q : Request} (h : Asks fs q) :
    fs ≠ [] ∧ fs.length < 8 := by
  cases h <;> simp

theorem parts_ascii {fs : List (List UInt8)} {s : List UInt8} (h : Parts fs s) (ha : Ascii s) :
    ∀ f ∈ fs, Ascii f := by
  induction h with
  | nil _ => intro f hf; cases hf
  | @cons ws f rest fs h1 h2 h3 h4 ih =>
    intro g hg
    rcases List.mem_cons.1 hg with rfl | hg
    · exact fun b hb => ha b (by simp [hb])
    · exact ih (fun b hb => ha b (by simp [hb])) g hg

/-- What a line does that asks for something or nothing. -/
def stepOf (sels : List Entry) : Option Request → Step
  | none => .skip
  | some q => .count (add sels q)

theorem trimEnd_sub {s : List UInt8} {b : UInt8} (h : b ∈ trimEnd s) : b ∈ s := by
  obtain ⟨t, ht⟩ := trimEnd_prefix s
  rw [ht]
  exact List.mem_append_left _ h

/-- A line with white space at its end does what the line does. -/
theorem lineStep_ok (signed : Bool) (rnd : Rat → Rat) (hr : Rounding rnd) (sels : List Entry)
    {s e : List UInt8} {w : Option Request} (h : Line s w) (ht : LineText s) (he : e = [] ∨ e = [10])
    (h1 : ∀ q ∈ w, ∀ f ∈ q.first, f ≠ nstUnset) (h2 : ∀ q ∈ w, ∀ f ∈ q.last, f ≠ nstUnset) :
    lineStep signed rnd sels (s ++ e) = .ok (stepOf sels w) := by
  have hae : ∀ b ∈ e, b.toNat ≤ 127 ∧ b ≠ 0 := by
    intro b hb
    rcases he with rfl | rfl
    · cases hb
    · rw [List.mem_singleton.1 hb]; decide
  have ha : Ascii (s ++ e) := by
    intro b hb
    rcases List.mem_append.1 hb with hb | hb
    · exact (ht.bytes b hb).2.1
    · exact (hae b hb).1
  have htw : (s ++ e).takeWhile (· != 0) = s ++ e := by
    have := List.takeWhile_append_of_pos (p := (· != 0)) (l₁ := s ++ e) (l₂ := []) (by
      intro b hb
      rcases List.mem_append.1 hb with hb | hb
      · have := (ht.bytes b hb).1
        have : b ≠ 0 := by rintro rfl; exact absurd this (by decide)
        simpa using this
      · simpa using (hae b hb).2)
    simpa using this
  have hbe : Blank e := by
    intro b hb
    rcases he with rfl | rfl
    · cases hb
    · rw [List.mem_singleton.1 hb]; decide
  have hte : trimEnd (s ++ e) = trimEnd s := by
    rw [trimEnd_append, if_pos (trimEnd_blank hbe)]
  unfold lineStep
  rw [htw, trim_ok signed ha, bind_ok, hte]
  cases h with
  | blank hb => rw [trimEnd_blank hb]; simp [stepOf]
  | @comment ws t hb =>
    have h35 : trimEnd (35 :: t) = 35 :: trimEnd t := by
      have := trimEnd_append [35] t
      rw [List.singleton_append] at this
      rw [this]
      split
      · next h => rw [h]; decide +kernel
      · rfl
    have : (trimEnd (ws ++ 35 :: t)).dropWhile sp = 35 :: trimEnd t := by
      rw [trimEnd_append, h35, if_neg (by simp),
        List.dropWhile_append_of_pos (p := sp) (fun b h => decide_eq_true (hb b h)),
        List.dropWhile_cons_of_neg (by decide)]
    rw [this]
    simp [stepOf]
  | @request fs s q hp h35 hq =>
    obtain ⟨hn, hl⟩ := asks_length hq
    have hp' := parts_dropWhile (parts_trimEnd hp)
    have hd : ∀ b u, (trimEnd s).dropWhile sp = b :: u → ¬ Space b := by
      intro b u e hs
      have := List.head?_dropWhile_not sp (trimEnd s)
      rw [e] at this
      simp [sp] at this
      exact this hs
    have has : Ascii ((trimEnd s).dropWhile sp) := by
      intro b hb
      exact (ht.bytes b (trimEnd_sub ((List.dropWhile_sublist sp).mem hb))).2.1
    generalize (trimEnd s).dropWhile sp = x at hp' hd has
    have hx : ¬ (x = [] ∨ x.head? = some 35) := by
      cases hp' with
      | nil _ => exact absurd rfl hn
      | @cons ws f rest fs' g1 g2 g3 g4 =>
        obtain ⟨c, u, e⟩ := List.exists_cons_of_ne_nil g2.1
        have hws : ws = [] := by
          cases ws with
          | nil => rfl
          | cons b v => exact absurd (g1 b (by simp)) (hd b _ rfl)
        have := h35 f fs' rfl
        rw [e] at this
        rw [hws, e]
        simpa using this
    rw [if_neg hx, split_ok signed hp' 0 (by omega) has, bind_ok]
    exact fieldsStep_ok signed rnd hr sels hq (parts_ascii hp' has) (h1 q rfl) (h2 q rfl)

/-! ## Files -/

theorem fgets_line (s rest : List UInt8) (hs : ∀ c ∈ s, c ≠ 10) :
    ∀ n, s.length < n → fgets n (s ++ 10 :: rest) = (s ++ [10], rest) := by
  induction s with
  | nil =>
    intro n hn
    obtain ⟨m, rfl⟩ : ∃ m, n = m + 1 := ⟨n - 1, by simp at hn; omega⟩
    rfl
  | cons c s ih =>
    intro n hn
    simp only [List.length_cons] at hn
    obtain ⟨m, rfl⟩ : ∃ m, n = m + 1 := ⟨n - 1, by omega⟩
    have := ih (fun d hd => hs d (by simp [hd])) m (by omega)
    simp only [List.cons_append, fgets, if_neg (hs c (by simp)), this]

theorem fgets_last (s : List UInt8) (hs : ∀ c ∈ s, c ≠ 10) :
    ∀ n, s.length ≤ n → fgets n s = (s, []) := by
  induction s with
  | nil => intro n _; cases n <;> rfl
  | cons c s ih =>
    intro n hn
    simp only [List.length_cons] at hn
    obtain ⟨m, rfl⟩ : ∃ m, n = m + 1 := ⟨n - 1, by omega⟩
    have := ih (fun d hd => hs d (by simp [hd])) m (by omega)
    simp only [fgets, if_neg (hs c (by simp)), this]

/-- The list of selections after the lines. -/
def after (sels : List Entry) : List (Option Request) → List Entry
  | [] => sels
  | none :: l => after sels l
  | some q :: l => after (add sels q) l

/-- The lines of a file, with what they ask for. -/
structure Lines (l : List (List UInt8 × Option Request)) : Prop where
  line : ∀ p ∈ l, Line p.1 p.2
  text : ∀ p ∈ l, LineText p.1
  first : ∀ p ∈ l, ∀ q ∈ p.2, ∀ f ∈ q.first, f ≠ nstUnset
  last : ∀ p ∈ l, ∀ q ∈ p.2, ∀ f ∈ q.last, f ≠ nstUnset

theorem Lines.tail {p : List UInt8 × Option Request} {l : List (List UInt8 × Option Request)}
    (h : Lines (p :: l)) : Lines l :=
  ⟨fun q hq => h.line q (List.mem_cons_of_mem _ hq), fun q hq => h.text q (List.mem_cons_of_mem _ hq),
    fun q hq => h.first q (List.mem_cons_of_mem _ hq), fun q hq => h.last q (List.mem_cons_of_mem _ hq)⟩

theorem nil_line {w : Option Request} (h : Line [] w) : w = none := by
  generalize hs : ([] : List UInt8) = s at h
  cases h with
  | blank _ => rfl
  | comment _ => simp at hs
  | request hp _ hq =>
    have := parts_blank hp (by rw [← hs]; intro b hb; cases hb)
    exact absurd this (asks_length hq).1

theorem readLines_file (signed : Bool) (rnd : Rat → Rat) (hr : Rounding rnd) (last : Bool) :
    ∀ (l : List (List UInt8 × Option Request)) (sels : List Entry) (n fuel : Nat), Lines l →
    (fileText (l.map (·.1)) last).length < fuel →
    readLines signed rnd fuel (fileText (l.map (·.1)) last) sels n =
      .ok { sels := after sels (l.map (·.2)), ret := n + (l.filterMap (·.2)).length } := by
  intro l
  induction l with
  | nil =>
    intro sels n fuel _ hf
    obtain ⟨m, rfl⟩ : ∃ m, fuel = m + 1 := ⟨fuel - 1, by omega⟩
    simp [fileText, readLines, fgets, after]
  | cons p l ih =>
    intro sels n fuel hl hf
    obtain ⟨m, rfl⟩ : ∃ m, fuel = m + 1 := ⟨fuel - 1, by omega⟩
    have hline := hl.line p (by simp)
    have htext := hl.text p (by simp)
    have hnl : ∀ c ∈ p.1, c ≠ 10 := fun c hc => (htext.bytes c hc).2.2
    have hlen := htext.short
    have step : ∀ e, e = [] ∨ e = [10] → lineStep signed rnd sels (p.1 ++ e) = .ok (stepOf sels p.2) :=
      fun e he => lineStep_ok signed rnd hr sels hline htext he (hl.first p (by simp)) (hl.last p (by simp))
    have newline : ∀ rest, (∀ sels n, readLines signed rnd m rest sels n =
          .ok { sels := after sels (l.map (·.2)), ret := n + (l.filterMap (·.2)).length }) →
        readLines signed rnd (m + 1) (p.1 ++ 10 :: rest) sels n =
          .ok { sels := after sels ((p :: l).map (·.2)), ret := n + ((p :: l).filterMap (·.2)).length } := by
      intro rest hrest
      rw [readLines, fgets_line p.1 rest hnl 198 (by omega)]
      simp only [List.append_eq_nil_iff, List.cons_ne_self, and_false, if_false]
      rw [step [10] (Or.inr rfl), bind_ok]
      obtain ⟨s, w⟩ := p
      cases w with
      | none =>
        simp only [stepOf]
        rw [hrest]
        simp [after]
      | some q =>
        simp only [stepOf]
        rw [hrest]
        simp [after]
        omega
    cases l with
    | nil =>
      simp only [List.map_cons, List.map_nil, fileText] at hf ⊢
      have zero : ∀ m sels n, readLines signed rnd (m + 1) [] sels n = .ok { sels, ret := n } := by
        intro m sels n
        simp [readLines, fgets]
      cases last with
      | true =>
        simp only [if_true] at hf ⊢
        apply newline []
        intro sels n
        obtain ⟨m', rfl⟩ : ∃ m', m = m' + 1 := ⟨m - 1, by simp at hf; omega⟩
        rw [zero]
        simp [after]
      | false =>
        simp only [Bool.false_eq_true, if_false] at hf ⊢
        rw [readLines, fgets_last p.1 hnl 198 (by omega)]
        simp only
        by_cases he : p.1 = []
        · rw [if_pos he]
          rw [he] at hline
          obtain ⟨s, w⟩ := p
          have : w = none := nil_line hline
          subst this
          simp [after]
        · rw [if_neg he]
          have hs := step [] (Or.inl rfl)
          rw [List.append_nil] at hs
          rw [hs, bind_ok]
          obtain ⟨m', rfl⟩ : ∃ m', m = m' + 1 := by
            refine ⟨m - 1, ?_⟩
            have := List.length_pos_iff.2 he
            omega
          obtain ⟨s, w⟩ := p
          cases w with
          | none => simp only [stepOf]; rw [zero]; simp [after]
          | some q => simp only [stepOf]; rw [zero]; simp [after]
    | cons q l =>
      have e : fileText ((p :: q :: l).map (·.1)) last =
          p.1 ++ 10 :: fileText ((q :: l).map (·.1)) last := rfl
      rw [e] at hf ⊢
      refine newline _ fun sels n => ih sels n m hl.tail ?_
      simp only [List.length_append, List.length_cons] at hf
      omega

theorem after_build : ∀ (l : List (Option Request)) (qs : List Request),
    after (build qs) l = build ((l.filterMap id).reverse ++ qs) := by
  intro l
  induction l with
  | nil => intro qs; rfl
  | cons w l ih =>
    intro qs
    cases w with
    | none => simpa [after] using ih qs
    | some q =>
      have := ih (q :: qs)
      simp only [build] at this
      simp [after, this]

end Verif.Proof.SelectFile
