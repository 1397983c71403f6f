import Verif.Props.TimeStr
/-!
# Properties C79 and C80: texts that are no times

Texts that are refused because of their length or their characters, whatever else they hold.
-/
namespace Verif.Props.TimeStr
open Verif.Spec Verif.Spec.TimeStr Verif.Model Verif.Model.TimeStr Verif.Proof Verif.Proof.TimeStr

/-- The characters of a number: digits, the point and the signs. -/
def OfNumber (c : Char) : Prop := Digit c ∨ c = '.' ∨ c = '-' ∨ c = '+'

/-- The characters of a time: those of a number, delimiters, separators and the designator of UTC. -/
def OfTime (c : Char) : Prop :=
  OfNumber c ∨ c = '/' ∨ c = ',' ∨ c = ':' ∨ c = 'T' ∨ c = ' ' ∨ c = 'Z' ∨ c = 'z'

theorem isDigit_digit {c : Char} (h : isDigit c = true) : Digit c := by
  simp only [isDigit, Bool.and_eq_true, decide_eq_true_eq] at h
  exact h

/-- What the walk over the characters counts. -/
theorem walk_counts : ∀ (s : List Char) (w : Walk), w.error = false →
    (walk s w).error = true ∨
    ((walk s w).length = w.length + s.length ∧ (walk s w).numberlike ≤ w.numberlike + s.length ∧
      ((∃ c ∈ s, ¬ OfNumber c) → (walk s w).numberlike < w.numberlike + s.length) ∧
      ∀ c ∈ s, OfTime c)
  | [], w, _ => by
    right
    simp [walk]
  | c :: t, w, he => by
    unfold walk
    simp only [List.length_cons, List.mem_cons, or_and_right, exists_or, exists_eq_left, or_imp,
      forall_and, forall_eq]
    split
    · rename_i h
      have ht : OfTime c := by unfold OfTime OfNumber; grind
      have hn : ¬ OfNumber c → ¬ ((c = '-' ∧ w.length = 0) ∨ c = '.') := by
        unfold OfNumber; grind
      have k1 : (if (c = '-' ∧ w.length = 0) ∨ c = '.' then w.numberlike + 1 else w.numberlike) ≤
          w.numberlike + 1 := by split <;> omega
      have k2 : ¬ OfNumber c → (if (c = '-' ∧ w.length = 0) ∨ c = '.' then w.numberlike + 1
          else w.numberlike) = w.numberlike := fun hc => if_neg (hn hc)
      generalize (if (c = '-' ∧ w.length = 0) ∨ c = '.' then w.numberlike + 1
        else w.numberlike) = k at k1 k2 ⊢
      rcases walk_counts t { w with
        firstdelimiter := if w.firstdelimiter = none then some c else w.firstdelimiter
        delimiters := if w.separator then w.delimiters else w.delimiters + 1
        numberlike := k
        length := w.length + 1 } he with h1 | ⟨h1, h2, h3, h4⟩
      · exact Or.inl h1
      · right
        simp only at h1 h2 h3
        refine ⟨by omega, by omega, ?_, ht, h4⟩
        refine ⟨fun hc => ?_, fun hc => ?_⟩
        · have := k2 hc; omega
        · have := h3 hc; omega
    · split
      · rename_i h
        have ht : OfNumber c := by unfold OfNumber; grind
        rcases walk_counts t { w with numberlike := w.numberlike + 1, length := w.length + 1 } he
          with h1 | ⟨h1, h2, h3, h4⟩
        · exact Or.inl h1
        · right
          simp only at h1 h2 h3
          refine ⟨by omega, by omega, ?_, Or.inl ht, h4⟩
          refine ⟨fun hc => ?_, fun hc => ?_⟩
          · exact absurd ht hc
          · have := h3 hc; omega
      · split
        · rename_i h
          have ht : OfTime c := by unfold OfTime; grind
          rcases walk_counts t { w with separator := true, length := w.length + 1 } he
            with h1 | ⟨h1, h2, h3, h4⟩
          · exact Or.inl h1
          · right
            simp only at h1 h2 h3
            exact ⟨by omega, by omega, ⟨fun _ => by omega, fun _ => by omega⟩, ht, h4⟩
        · split
          · rename_i h
            have ht : OfNumber c := Or.inl (isDigit_digit h)
            rcases walk_counts t { w with numberlike := w.numberlike + 1, length := w.length + 1 } he
              with h1 | ⟨h1, h2, h3, h4⟩
            · exact Or.inl h1
            · right
              simp only at h1 h2 h3
              refine ⟨by omega, by omega, ?_, Or.inl ht, h4⟩
              refine ⟨fun hc => ?_, fun hc => ?_⟩
              · exact absurd ht hc
              · have := h3 hc; omega
          · split
            · rename_i h
              right
              have ht : OfTime c := by unfold OfTime; grind
              have e : t = [] := by grind
              subst e
              exact ⟨by simp, by simp, ⟨fun _ => by simp, fun _ => by simp⟩, ht, by simp⟩
            · exact Or.inl rfl

/-- **C79 (other characters).** A text with any character that is not a digit, a sign, a delimiter, a
separator or the designator of UTC is refused. -/
theorem C79_refuses_character (rnd : Rat → Rat) (s : List Char) (h : ∃ c ∈ s, ¬ OfTime c) :
    timestr2nstime rnd s = .ok NSTERROR := by
  rcases walk_counts s {} rfl with h1 | ⟨_, _, _, h4⟩
  · unfold timestr2nstime
    simp only [h1]
    simp
  · obtain ⟨c, hc, hn⟩ := h
    exact absurd (h4 c hc) hn

example : timestr2nstime id "2024-01-01+x".toList = .ok NSTERROR :=
  C79_refuses_character id _ ⟨'x', by decide, by unfold OfTime OfNumber Digit; decide⟩

/-- **C79 (length).** A text of less than 4 or more than 32 characters is refused, unless it may be a
number. -/
theorem C79_refuses_length (rnd : Rat → Rat) (s : List Char) (h : ∃ c ∈ s, ¬ OfNumber c)
    (hl : s.length < 4 ∨ 32 < s.length) :
    timestr2nstime rnd s = .ok NSTERROR := by
  rcases walk_counts s {} rfl with h1 | ⟨h1, _, h3, _⟩
  · unfold timestr2nstime
    simp only [h1]
    simp
  · have h3 := h3 h
    have e : ({} : Walk).length = 0 := rfl
    have e' : ({} : Walk).numberlike = 0 := rfl
    rw [e] at h1
    rw [e'] at h3
    unfold timestr2nstime
    simp only
    rw [if_neg (by omega), if_neg (by omega)]

example : timestr2nstime id "2024-01-01T00:00:00.0000000000000".toList = .ok NSTERROR :=
  C79_refuses_length id _ ⟨'T', by decide, by unfold OfNumber Digit; decide⟩ (by decide)

/-- **C79 (length, the bound is exact).** A text of 32 characters is read. -/
theorem C79_longest (rnd : Rat → Rat) (hr : Rounding rnd) :
    "2024-02-29T012:030:015.500000000".toList.length = 32 ∧
    timestr2nstime rnd "2024-02-29T012:030:015.500000000".toList =
      .ok (Fields.instant ⟨2024, 60, 12, 30, 15, 500000000⟩) := by
  refine ⟨rfl, ?_⟩
  exact C79_month_day rnd hr (ys := "2024".toList) (ms := "02".toList) (ds := "29".toList) (z := [])
    (a := '-') (b := '-') (clk := "T012:030:015.500000000".toList) (y := 2024) (mo := 2) (d := 29)
    (h := 12) (m := 30) (s := 15) (n := 500000000)
    ⟨by decide, by decide, by decide⟩ ⟨by decide, by decide, by decide⟩
    ⟨by decide, by decide, by decide⟩ (Or.inl rfl) (Or.inl rfl)
    (@Clock.fraction _ _ 'T' ['0', '1', '2'] 12 ':' ['0', '3', '0'] 30 ':' ['0', '1', '5'] 15
      "500000000".toList 500000000 (by decide)
      ⟨by decide, by decide, by decide⟩ (by decide) ⟨by decide, by decide, by decide⟩ (by decide)
      ⟨by decide, by decide, by decide⟩ ⟨by decide, by decide, by decide⟩ (by decide))
    (Or.inl rfl) (by decide) (by decide) (by decide) (by decide) (by decide) (by decide) (by decide)
    (by decide)

end Verif.Props.TimeStr
