import Verif.Props.SelectFile
/-!
# Lines of a selection file in neither format: C90
-/
namespace Verif.Props.SelectLines
open Verif.Model.Glob hiding Res
open Verif.Model.Select Verif.Model.SelectFile
open Verif.Model.Steim (Res)
open Verif.Spec Verif.Spec.Glob Verif.Spec.Select Verif.Spec.TimeStr Verif.Spec.SelectFile
open Verif.Props.Select Verif.Props.SelectFile Verif.Proof.SelectFile
open Verif.Proof.Mem (bind_ok)

/-- A line of up to seven fields, maybe with a newline, does what the fields do. -/
theorem lineStep_fields (signed : Bool) (rnd : Rat → Rat) (sels : List Entry) {s e : List UInt8} {fs : List (List UInt8)}
    (hp : Parts fs s) (h35 : ∀ f t, fs = f :: t → f.head? ≠ some 35) (hn : fs ≠ []) (hl : fs.length < 8) (ht : LineText s)
    (he : e = [] ∨ e = [10]) : lineStep signed rnd sels (s ++ e) = fieldsStep signed rnd sels fs := by
  have hae : ∀ b ∈ e, b.toNat ≤ 127 ∧ b ≠ 0 := by
    intro b hb
    rcases he with rfl | rfl
    · cases hb
    · rw [List.mem_singleton.1 hb]; decide
  have ha : Ascii (s ++ e) := by
    intro b hb
    rcases List.mem_append.1 hb with hb | hb
    · exact (ht.bytes b hb).2.1
    · exact (hae b hb).1
  have htw : (s ++ e).takeWhile (· != 0) = s ++ e := by
    have := List.takeWhile_append_of_pos (p := (· != 0)) (l₁ := s ++ e) (l₂ := []) (by
      intro b hb
      rcases List.mem_append.1 hb with hb | hb
      · have := (ht.bytes b hb).1
        have : b ≠ 0 := by rintro rfl; exact absurd this (by decide)
        simpa using this
      · simpa using (hae b hb).2)
    simpa using this
  have hbe : Blank e := by
    intro b hb
    rcases he with rfl | rfl
    · cases hb
    · rw [List.mem_singleton.1 hb]; decide
  have hte : trimEnd (s ++ e) = trimEnd s := by
    rw [trimEnd_append, if_pos (trimEnd_blank hbe)]
  unfold lineStep
  rw [htw, trim_ok signed ha, bind_ok, hte]
  have hp' := parts_dropWhile (parts_trimEnd hp)
  have hd : ∀ b u, (trimEnd s).dropWhile sp = b :: u → ¬ Space b := by
    intro b u e hs
    have := List.head?_dropWhile_not sp (trimEnd s)
    rw [e] at this
    simp [sp] at this
    exact this hs
  have has : Ascii ((trimEnd s).dropWhile sp) := by
    intro b hb
    exact (ht.bytes b (trimEnd_sub ((List.dropWhile_sublist sp).mem hb))).2.1
  generalize (trimEnd s).dropWhile sp = x at hp' hd has
  have hx : ¬ (x = [] ∨ x.head? = some 35) := by
    cases hp' with
    | nil _ => exact absurd rfl hn
    | @cons ws f rest fs' g1 g2 g3 g4 =>
      obtain ⟨c, u, e⟩ := List.exists_cons_of_ne_nil g2.1
      have hws : ws = [] := by
        cases ws with
        | nil => rfl
        | cons b v => exact absurd (g1 b (by simp)) (hd b _ rfl)
      have := h35 f fs' rfl
      rw [e] at this
      rw [hws, e]
      simpa using this
  rw [if_neg hx, split_ok signed hp' 0 (by omega) has, bind_ok]

/-- The fields of the line are in neither format: their number does not fit one, and none that could be a time begins like a date. -/
structure Neither (fs : List (List UInt8)) : Prop where
  number : fs.length = 2 ∨ fs.length = 3 ∨ fs.length = 6 ∨ fs.length = 7
  undated : ∀ i ∈ [1, 2, 5, 6], ∀ f, fs[i]? = some f → ¬ DateLike f

theorem fieldsStep_neither (signed : Bool) (rnd : Rat → Rat) (sels : List Entry) {fs : List (List UInt8)} (h : Neither fs)
    (ha : ∀ f ∈ fs, Ascii f) : fieldsStep signed rnd sels fs = .ok (.count sels) := by
  have hd : ∀ i ∈ [1, 2, 5, 6], isDate signed fs[i]? = .ok false := by
    intro i hi
    cases hf : fs[i]? with
    | none => rfl
    | some f => exact isDate_false signed (ha f (List.mem_of_getElem? hf)) (h.undated i hi f hf)
  have hfirst : firstFormat signed fs false false = .ok false := by
    unfold firstFormat
    have := h.number
    split <;> simp at this ⊢
  have hsecond : secondFormat fs false false = false := by
    unfold secondFormat
    rcases h.number with h | h | h | h <;> simp [h]
  unfold fieldsStep
  simp only [hd 1 (by simp), hd 2 (by simp), hd 5 (by simp), hd 6 (by simp), bind_ok, lineTime, hfirst, hsecond]
  rfl

/-- **C90 (lines in neither format, partial).** A line of 2, 3, 6 or 7 fields of which none in the place of a time begins like a date
asks for nothing: whatever was selected before stays as it is.  It is counted all the same (`C90_unrecognized_line_violated`).
Missing: lines of 8 fields and more, and lines with one date where two are needed. -/
theorem C90_neither_partial (signed : Bool) (rnd : Rat → Rat) (sels : List Entry) {s : List UInt8} {fs : List (List UInt8)}
    (hp : Parts fs s) (h35 : ∀ f t, fs = f :: t → f.head? ≠ some 35) (h : Neither fs) (ht : LineText s) :
    readselectionsfile signed rnd sels (some (s ++ [10])) = .ok { sels, ret := 1 } := by
  have hn : fs ≠ [] := by
    rintro rfl
    have := h.number
    simp at this
  have hl : fs.length < 8 := by
    have := h.number
    omega
  have hs : ∀ c ∈ s, c ≠ 10 := by
    intro c hc
    exact (ht.bytes c hc).2.2
  refine one_line signed rnd s sels sels (fgets_line s [] hs 198 ?_) ?_
  · have := ht.short
    omega
  · rw [lineStep_fields signed rnd sels hp h35 hn hl ht (Or.inr rfl)]
    exact fieldsStep_neither signed rnd sels h (parts_ascii hp fun b hb => (ht.bytes b hb).2.1)

/-- The line `IU ANMO -- BHZ M now`, six fields without a time. -/
example : ∃ fs, Parts fs (bytes "IU ANMO -- BHZ M now") ∧ (∀ f t, fs = f :: t → f.head? ≠ some 35) ∧ Neither fs ∧
    LineText (bytes "IU ANMO -- BHZ M now") := by
  have short : ∀ f : List UInt8, f.length < 6 → ¬ DateLike f := by
    rintro f hf ⟨a, b, c, d, s, e, u, rfl, -⟩
    simp at hf
    omega
  refine ⟨[bytes "IU", bytes "ANMO", bytes "--", bytes "BHZ", bytes "M", bytes "now"], ?_, ?_, ⟨by simp, ?_⟩, ⟨by decide, by decide⟩⟩
  · exact .cons (ws := []) (rest := bytes " ANMO -- BHZ M now") (blank_of _ (by decide)) (field_of _ (by decide)) (space_of _ (by decide))
      (.cons (ws := bytes " ") (rest := bytes " -- BHZ M now") (blank_of _ (by decide)) (field_of _ (by decide)) (space_of _ (by decide))
      (.cons (ws := bytes " ") (rest := bytes " BHZ M now") (blank_of _ (by decide)) (field_of _ (by decide)) (space_of _ (by decide))
      (.cons (ws := bytes " ") (rest := bytes " M now") (blank_of _ (by decide)) (field_of _ (by decide)) (space_of _ (by decide))
      (.cons (ws := bytes " ") (rest := bytes " now") (blank_of _ (by decide)) (field_of _ (by decide)) (space_of _ (by decide))
      (.cons (ws := bytes " ") (rest := []) (blank_of _ (by decide)) (field_of _ (by decide)) (space_of _ (by decide))
      (.nil (blank_of _ (by decide))))))))
  · rintro f t h
    cases h
    decide
  · intro i hi f hf
    apply short
    have : f ∈ [bytes "IU", bytes "ANMO", bytes "--", bytes "BHZ", bytes "M", bytes "now"] := List.mem_of_getElem? hf
    simp only [List.mem_cons, List.not_mem_nil, or_false] at this
    rcases this with rfl | rfl | rfl | rfl | rfl | rfl <;> decide

end Verif.Props.SelectLines
