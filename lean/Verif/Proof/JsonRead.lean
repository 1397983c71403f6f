import Verif.Proof.JsonText
/-!
# Lemmas about JSON texts: values
-/
namespace Verif.Proof.Json
open Verif.Spec.Json Verif.Model.Json Verif.Model.JsonText

theorem isSpace_iff (c : UInt8) : isSpace c = true ↔ c = 32 ∨ c = 9 ∨ c = 10 ∨ c = 13 := by
  unfold isSpace
  rw [decide_eq_true_iff]

theorem white_nil : White [] := fun c h => by cases h

theorem skip_sound (s : List UInt8) : ∃ w, White w ∧ s = w ++ skip s := by
  induction s with
  | nil => exact ⟨[], white_nil, rfl⟩
  | cons c t ih =>
    rw [skip]
    by_cases hc : isSpace c = true
    · rw [if_pos hc]
      obtain ⟨w, hw, e⟩ := ih
      refine ⟨c :: w, ?_, by rw [List.cons_append, ← e]⟩
      intro x hx
      rcases List.mem_cons.1 hx with rfl | hx
      · exact (isSpace_iff _).1 hc
      · exact hw x hx
    · rw [if_neg hc]
      exact ⟨[], white_nil, rfl⟩

theorem skip_white {w : List UInt8} (hw : White w) (s : List UInt8) : skip (w ++ s) = skip s := by
  induction w with
  | nil => rfl
  | cons c w ih =>
    rw [List.cons_append, skip, if_pos ((isSpace_iff c).2 (hw c List.mem_cons_self)),
      ih fun x hx => hw x (List.mem_cons_of_mem _ hx)]

theorem skip_stop {c : UInt8} (h : ¬ (c = 32 ∨ c = 9 ∨ c = 10 ∨ c = 13)) (t : List UInt8) : skip (c :: t) = c :: t := by
  rw [skip, if_neg (fun e => h ((isSpace_iff c).1 e))]

theorem skip_all {w : List UInt8} (hw : White w) : skip w = [] := by
  have := skip_white hw []
  rwa [List.append_nil] at this

theorem skip_nil {s : List UInt8} (h : skip s = []) : White s := by
  obtain ⟨w, hw, e⟩ := skip_sound s
  rw [h, List.append_nil] at e
  rw [e]
  exact hw

theorem stop_nil : Stop [] := fun c h => by cases h

theorem stop_white {w rest : List UInt8} (hw : White w) (hr : Stop rest) : Stop (w ++ rest) := by
  cases w with
  | nil => exact hr
  | cons c w =>
    intro x hx
    cases hx
    have := hw c List.mem_cons_self
    rcases this with rfl | rfl | rfl | rfl <;>
      exact ⟨by unfold Digit; decide, by decide, by decide, by decide⟩

theorem stop_byte {c : UInt8} (h : c = 44 ∨ c = 93 ∨ c = 125) (t : List UInt8) : Stop (c :: t) := by
  intro x hx
  cases hx
  rcases h with rfl | rfl | rfl <;> exact ⟨by unfold Digit; decide, by decide, by decide, by decide⟩

/-- How the text of a number begins. -/
theorem number_head (neg : Bool) (n : Nat) : ∃ c t, minus neg ++ index n = c :: t ∧ (Digit c ∨ c = 45) := by
  cases neg with
  | true => exact ⟨45, index n, rfl, .inr rfl⟩
  | false =>
    obtain ⟨c, t, e, hc⟩ := index_cons n
    exact ⟨c, t, e, .inl hc⟩

theorem digit_white {c : UInt8} (h : Digit c ∨ c = 45) :
    ¬ (c = 32 ∨ c = 9 ∨ c = 10 ∨ c = 13) ∧ c ≠ 93 ∧ c ≠ 123 ∧ c ≠ 91 := by
  have := every_byte (p := fun c => decide (((48 ≤ c.toNat ∧ c.toNat ≤ 57) ∨ c = 45) →
    ¬ (c = 32 ∨ c = 9 ∨ c = 10 ∨ c = 13) ∧ c ≠ 93 ∧ c ≠ 123 ∧ c ≠ 91)) (by decide +kernel) c
  exact of_decide_eq_true this h

/-- A value begins with neither white space nor a closing bracket. -/
theorem text_head {reals : List UInt8 → Option UInt64} {v : Json} {t : List UInt8} (h : Text reals (.value v) t) :
    ∃ c u, t = c :: u ∧ ¬ (c = 32 ∨ c = 9 ∨ c = 10 ∨ c = 13) ∧ c ≠ 93 := by
  cases h with
  | null => exact ⟨_, _, rfl, by decide, by decide⟩
  | true => exact ⟨_, _, rfl, by decide, by decide⟩
  | false => exact ⟨_, _, rfl, by decide, by decide⟩
  | @int neg n _ =>
    obtain ⟨c, u, e, hc⟩ := number_head neg n
    exact ⟨c, u, e, (digit_white hc).1, (digit_white hc).2.1⟩
  | @real neg n f e' d _ _ _ _ =>
    obtain ⟨c, u, e, hc⟩ := number_head neg n
    exact ⟨c, u ++ f ++ e', by rw [e]; rfl, (digit_white hc).1, (digit_white hc).2.1⟩
  | str _ => exact ⟨_, _, rfl, by decide, by decide⟩
  | noItems _ => exact ⟨_, _, rfl, by decide, by decide⟩
  | arr _ => exact ⟨_, _, rfl, by decide, by decide⟩
  | noMembers _ => exact ⟨_, _, rfl, by decide, by decide⟩
  | obj _ => exact ⟨_, _, rfl, by decide, by decide⟩

theorem readValue_number (reals : Reals) (f : Nat) {c : UInt8} (t : List UInt8) (h : Digit c ∨ c = 45) :
    readValue reals (f + 1) (c :: t) = readNumber reals (c :: t) := by
  have hw := digit_white h
  rw [readValue, if_neg hw.2.2.1, if_neg hw.2.2.2, if_pos (by rw [isDigit_iff]; exact h)]

/-- What the functions give for each part of a text. -/
def Reads (reals : Reals) : Part → List UInt8 → Prop
  | .value v, t => ∀ f rest, t.length < f → Stop rest → readValue reals f (t ++ rest) = some (v, rest)
  | .items l, t => ∀ f b rest, t.length + 1 < f → readItems reals f b (t ++ 93 :: rest) = some (l, rest)
  | .members l, t => ∀ f b rest, t.length + 1 < f → readMembers reals f b (t ++ 125 :: rest) = some (l, rest)

theorem skip_text {reals : List UInt8 → Option UInt64} {v : Json} {t : List UInt8} (h : Text reals (.value v) t)
    (rest : List UInt8) : skip (t ++ rest) = t ++ rest := by
  obtain ⟨c, u, e, hc, _⟩ := text_head h
  rw [e]
  exact skip_stop hc _

theorem readItems_start (reals : Reals) {v : Json} {t : List UInt8} (h : Text reals.read (.value v) t) {w : List UInt8}
    (hw : White w) (f : Nat) (b : Bool) (rest : List UInt8) : readItems reals (f + 1) b (w ++ (t ++ rest)) =
      match readValue reals f (t ++ rest) with
        | none => none
        | some (v, t) =>
          match skip t with
          | [] => none
          | d :: t =>
            if d = 44 then (readItems reals f false t).map fun r => (v :: r.1, r.2)
            else if d = 93 then some ([v], t)
            else none := by
  obtain ⟨c, u, e, hc, h93⟩ := text_head h
  rw [readItems, skip_white hw, skip_text h, e, List.cons_append]
  simp only
  rw [if_neg h93]
  rfl

theorem readMembers_start (reals : Reals) {k kt : List UInt8} (hk : Chars k kt) {w x y : List UInt8}
    (hw : White w) (hx : White x) (hy : White y) {v : Json} {t : List UInt8} (h : Text reals.read (.value v) t)
    (f : Nat) (b : Bool) (rest : List UInt8) :
    readMembers reals (f + 1) b (w ++ (34 :: (kt ++ 34 :: (x ++ 58 :: (y ++ (t ++ rest)))))) =
      match readValue reals f (t ++ rest) with
              | none => none
              | some (v, t) =>
                match skip t with
                | [] => none
                | d :: t =>
                  if d = 44 then (readMembers reals f false t).map fun r => ((k, v) :: r.1, r.2)
                  else if d = 125 then some ([(k, v)], t)
                  else none := by
  rw [readMembers, skip_white hw, skip_stop (by decide)]
  simp only
  rw [if_pos trivial, readString_complete hk _ _ (by
    rw [List.length_append]; omega)]
  simp only
  rw [skip_white hx, skip_stop (by decide)]
  simp only
  rw [if_pos trivial, skip_white hy, skip_text h]
  rfl

theorem after_value {reals : Reals} {v : Json} {t : List UInt8} (ih : Reads reals (.value v) t) {f : Nat}
    (hf : t.length < f) {x : List UInt8} (hx : White x) {c : UInt8} (hc : c = 44 ∨ c = 93 ∨ c = 125) (rest : List UInt8) :
    readValue reals f (t ++ (x ++ c :: rest)) = some (v, x ++ c :: rest) ∧ skip (x ++ c :: rest) = c :: rest := by
  refine ⟨ih f _ hf (stop_white hx (stop_byte hc rest)), ?_⟩
  rw [skip_white hx, skip_stop]
  rcases hc with rfl | rfl | rfl <;> decide

/-- Every part of a text is read. -/
theorem reads_complete (reals : Reals) {p : Part} {t : List UInt8} (h : Text reals.read p t) : Reads reals p t := by
  induction h with
  | null =>
    intro f rest hf _
    obtain ⟨f, rfl⟩ : ∃ g, f = g + 1 := ⟨f - 1, by omega⟩
    rfl
  | true =>
    intro f rest hf _
    obtain ⟨f, rfl⟩ : ∃ g, f = g + 1 := ⟨f - 1, by omega⟩
    rfl
  | false =>
    intro f rest hf _
    obtain ⟨f, rfl⟩ : ∃ g, f = g + 1 := ⟨f - 1, by omega⟩
    rfl
  | @int neg n hfit =>
    intro f rest hf hr
    obtain ⟨f, rfl⟩ : ∃ g, f = g + 1 := ⟨f - 1, by omega⟩
    have := readNumber_int reals hfit hr
    obtain ⟨c, u, e, hc⟩ := number_head neg n
    rw [← List.append_assoc] at this
    rw [e, List.cons_append] at this ⊢
    rw [readValue_number reals f _ hc, this]
  | @real neg n f' e' d hf' he' hw hd =>
    intro f rest hf hr
    obtain ⟨f, rfl⟩ : ∃ g, f = g + 1 := ⟨f - 1, by omega⟩
    have := readNumber_real reals hf' he' hw hd hr
    obtain ⟨c, u, e, hc⟩ := number_head neg n
    have e2 : minus neg ++ (index n ++ (f' ++ (e' ++ rest))) = c :: (u ++ (f' ++ (e' ++ rest))) := by
      rw [← List.append_assoc, e]; rfl
    have e3 : minus neg ++ index n ++ f' ++ e' ++ rest = c :: (u ++ (f' ++ (e' ++ rest))) := by
      rw [e]; simp
    rw [e2] at this
    rw [e3, readValue_number reals f _ hc, this]
  | @str s t hs =>
    intro f rest hf _
    obtain ⟨f, rfl⟩ : ∃ g, f = g + 1 := ⟨f - 1, by omega⟩
    have e : 34 :: (t ++ [34]) ++ rest = 34 :: (t ++ 34 :: rest) := by simp
    rw [e]
    show (readString ((t ++ 34 :: rest).length + 1) (t ++ 34 :: rest)).map (fun r => (Json.str r.1, r.2)) = _
    rw [readString_complete hs _ _ (by rw [List.length_append]; omega)]
    rfl
  | @noItems w hw =>
    intro f rest hf _
    simp only [List.length_cons, List.length_append] at hf
    obtain ⟨f, rfl⟩ : ∃ g, f = g + 2 := ⟨f - 2, by omega⟩
    have e : 91 :: (w ++ [93]) ++ rest = 91 :: (w ++ 93 :: rest) := by simp
    rw [e]
    show (readItems reals (f + 1) true (w ++ 93 :: rest)).map (fun r => (Json.arr r.1, r.2)) = _
    rw [readItems, skip_white hw, skip_stop (by decide)]
    rfl
  | @arr l t _ ih =>
    intro f rest hf _
    simp only [List.length_cons, List.length_append, List.length_nil] at hf
    obtain ⟨f, rfl⟩ : ∃ g, f = g + 1 := ⟨f - 1, by omega⟩
    have e : 91 :: (t ++ [93]) ++ rest = 91 :: (t ++ 93 :: rest) := by simp
    rw [e]
    show (readItems reals f true (t ++ 93 :: rest)).map (fun r => (Json.arr r.1, r.2)) = _
    rw [ih f true rest (by omega)]
    rfl
  | @noMembers w hw =>
    intro f rest hf _
    simp only [List.length_cons, List.length_append] at hf
    obtain ⟨f, rfl⟩ : ∃ g, f = g + 2 := ⟨f - 2, by omega⟩
    have e : 123 :: (w ++ [125]) ++ rest = 123 :: (w ++ 125 :: rest) := by simp
    rw [e]
    show (readMembers reals (f + 1) true (w ++ 125 :: rest)).map (fun r => (Json.obj r.1, r.2)) = _
    rw [readMembers, skip_white hw, skip_stop (by decide)]
    rfl
  | @obj l t _ ih =>
    intro f rest hf _
    simp only [List.length_cons, List.length_append, List.length_nil] at hf
    obtain ⟨f, rfl⟩ : ∃ g, f = g + 1 := ⟨f - 1, by omega⟩
    have e : 123 :: (t ++ [125]) ++ rest = 123 :: (t ++ 125 :: rest) := by simp
    rw [e]
    show (readMembers reals f true (t ++ 125 :: rest)).map (fun r => (Json.obj r.1, r.2)) = _
    rw [ih f true rest (by omega)]
    rfl
  | @lastItem v t w x hw hx ht ih =>
    intro f b rest hf
    simp only [List.length_append] at hf
    obtain ⟨f, rfl⟩ : ∃ g, f = g + 1 := ⟨f - 1, by omega⟩
    have e : w ++ (t ++ x) ++ 93 :: rest = w ++ (t ++ (x ++ 93 :: rest)) := by simp
    obtain ⟨h1, h2⟩ := after_value ih (f := f) (by omega) hx (c := 93) (by simp) rest
    rw [e, readItems_start reals ht hw, h1]
    simp only
    rw [h2]
    rfl
  | @item v l t u w x hw hx ht _ ih ih2 =>
    intro f b rest hf
    simp only [List.length_append, List.length_cons] at hf
    obtain ⟨f, rfl⟩ : ∃ g, f = g + 1 := ⟨f - 1, by omega⟩
    have e : w ++ (t ++ (x ++ 44 :: u)) ++ 93 :: rest = w ++ (t ++ (x ++ 44 :: (u ++ 93 :: rest))) := by simp
    obtain ⟨h1, h2⟩ := after_value ih (f := f) (by omega) hx (c := 44) (by simp) (u ++ 93 :: rest)
    rw [e, readItems_start reals ht hw, h1]
    simp only
    rw [h2]
    simp only
    rw [if_pos trivial, ih2 f false rest (by omega)]
    rfl
  | @lastMember k kt v t w x y z hw hx hy hz hk ht ih =>
    intro f b rest hf
    simp only [List.length_append, List.length_cons] at hf
    obtain ⟨f, rfl⟩ : ∃ g, f = g + 1 := ⟨f - 1, by omega⟩
    have e : w ++ (34 :: (kt ++ 34 :: (x ++ 58 :: (y ++ (t ++ z))))) ++ 125 :: rest =
        w ++ (34 :: (kt ++ 34 :: (x ++ 58 :: (y ++ (t ++ (z ++ 125 :: rest)))))) := by simp
    obtain ⟨h1, h2⟩ := after_value ih (f := f) (by omega) hz (c := 125) (by simp) rest
    rw [e, readMembers_start reals hk hw hx hy ht, h1]
    simp only
    rw [h2]
    rfl
  | @member k kt v l t u w x y z hw hx hy hz hk ht _ ih ih2 =>
    intro f b rest hf
    simp only [List.length_append, List.length_cons] at hf
    obtain ⟨f, rfl⟩ : ∃ g, f = g + 1 := ⟨f - 1, by omega⟩
    have e : w ++ (34 :: (kt ++ 34 :: (x ++ 58 :: (y ++ (t ++ (z ++ 44 :: u)))))) ++ 125 :: rest =
        w ++ (34 :: (kt ++ 34 :: (x ++ 58 :: (y ++ (t ++ (z ++ 44 :: (u ++ 125 :: rest))))))) := by simp
    obtain ⟨h1, h2⟩ := after_value ih (f := f) (by omega) hz (c := 44) (by simp) (u ++ 125 :: rest)
    rw [e, readMembers_start reals hk hw hx hy ht, h1]
    simp only
    rw [h2]
    simp only
    rw [if_pos trivial, ih2 f false rest (by omega)]
    rfl

/-- What is read is a text. -/
theorem reads_sound (reals : Reals) (f : Nat) :
    (∀ s v r, readValue reals f s = some (v, r) → ∃ t, Text reals.read (.value v) t ∧ s = t ++ r) ∧
    (∀ b s l r, readItems reals f b s = some (l, r) →
      (l = [] ∧ b = true ∧ ∃ w, White w ∧ s = w ++ 93 :: r) ∨ (∃ t, Text reals.read (.items l) t ∧ s = t ++ 93 :: r)) ∧
    (∀ b s l r, readMembers reals f b s = some (l, r) →
      (l = [] ∧ b = true ∧ ∃ w, White w ∧ s = w ++ 125 :: r) ∨
      (∃ t, Text reals.read (.members l) t ∧ s = t ++ 125 :: r)) := by
  induction f with
  | zero => exact ⟨fun _ _ _ h => (by cases h), fun _ _ _ _ h => (by cases h), fun _ _ _ _ h => (by cases h)⟩
  | succ f ih =>
    obtain ⟨ihv, ihi, ihm⟩ := ih
    refine ⟨?_, ?_, ?_⟩
    · intro s v r h
      cases s with
      | nil => cases h
      | cons c t =>
        rw [readValue] at h
        by_cases h1 : c = 123
        · rw [if_pos h1] at h
          obtain ⟨⟨l, r'⟩, hl, e⟩ := map_some h
          simp only [Prod.mk.injEq] at e
          obtain ⟨rfl, rfl⟩ := e
          rcases ihm _ _ _ _ hl with ⟨rfl, _, w, hw, e⟩ | ⟨u, hu, e⟩
          · exact ⟨_, .noMembers hw, by rw [h1, e]; simp⟩
          · exact ⟨_, .obj hu, by rw [h1, e]; simp⟩
        rw [if_neg h1] at h
        by_cases h2 : c = 91
        · rw [if_pos h2] at h
          obtain ⟨⟨l, r'⟩, hl, e⟩ := map_some h
          simp only [Prod.mk.injEq] at e
          obtain ⟨rfl, rfl⟩ := e
          rcases ihi _ _ _ _ hl with ⟨rfl, _, w, hw, e⟩ | ⟨u, hu, e⟩
          · exact ⟨_, .noItems hw, by rw [h2, e]; simp⟩
          · exact ⟨_, .arr hu, by rw [h2, e]; simp⟩
        rw [if_neg h2] at h
        by_cases h3 : isDigit c = true ∨ c = 45
        · rw [if_pos h3] at h
          exact readNumber_sound h
        rw [if_neg h3] at h
        by_cases h4 : c = 34
        · rw [if_pos h4] at h
          obtain ⟨⟨l, r'⟩, hl, e⟩ := map_some h
          simp only [Prod.mk.injEq] at e
          obtain ⟨rfl, rfl⟩ := e
          obtain ⟨u, hu, e⟩ := readString_sound _ _ _ _ hl
          exact ⟨_, .str hu, by rw [h4, e]; simp⟩
        rw [if_neg h4] at h
        have lit : ∀ (p : List UInt8) (w : Json), (if p.isPrefixOf t then some (w, t.drop p.length) else none) = some (v, r) →
            Text reals.read (.value w) (c :: p) → ∃ u, Text reals.read (.value v) u ∧ c :: t = u ++ r := by
          intro p w hp hw
          by_cases hpre : p.isPrefixOf t = true
          · rw [if_pos hpre] at hp
            simp only [Option.some.injEq, Prod.mk.injEq] at hp
            obtain ⟨rfl, rfl⟩ := hp
            refine ⟨_, hw, ?_⟩
            obtain ⟨q, rfl⟩ := List.isPrefixOf_iff_prefix.1 hpre
            rw [List.drop_left]
            rfl
          · rw [if_neg hpre] at hp
            cases hp
        by_cases h5 : c = 116
        · rw [if_pos h5] at h
          exact lit _ _ h (by rw [h5]; exact .true)
        rw [if_neg h5] at h
        by_cases h6 : c = 102
        · rw [if_pos h6] at h
          exact lit _ _ h (by rw [h6]; exact .false)
        rw [if_neg h6] at h
        by_cases h7 : c = 110
        · rw [if_pos h7] at h
          exact lit _ _ h (by rw [h7]; exact .null)
        rw [if_neg h7] at h
        cases h
    · intro b s l r h
      rw [readItems] at h
      obtain ⟨w, hw, es⟩ := skip_sound s
      cases hsk : skip s with
      | nil => rw [hsk] at h; cases h
      | cons c t =>
        rw [hsk] at h es
        simp only at h
        by_cases h1 : c = 93
        · rw [if_pos h1] at h
          cases b with
          | false => cases h
          | true =>
            cases h
            exact .inl ⟨rfl, rfl, w, hw, by rw [es, h1]⟩
        rw [if_neg h1] at h
        right
        cases hv : readValue reals f (c :: t) with
        | none => rw [hv] at h; cases h
        | some p =>
          obtain ⟨v, t'⟩ := p
          rw [hv] at h
          simp only at h
          obtain ⟨u, hu, eu⟩ := ihv _ _ _ hv
          obtain ⟨x, hx, ex⟩ := skip_sound t'
          cases hsk' : skip t' with
          | nil => rw [hsk'] at h; cases h
          | cons d t'' =>
            rw [hsk'] at h ex
            simp only at h
            by_cases h2 : d = 44
            · rw [if_pos h2] at h
              obtain ⟨⟨l', r'⟩, hl, e⟩ := map_some h
              simp only [Prod.mk.injEq] at e
              obtain ⟨rfl, rfl⟩ := e
              rcases ihi _ _ _ _ hl with ⟨_, hb, _⟩ | ⟨q, hq, eq⟩
              · cases hb
              · exact ⟨_, .item hw hx hu hq, by rw [es, eu, ex, eq, h2]; simp⟩
            rw [if_neg h2] at h
            by_cases h3 : d = 93
            · rw [if_pos h3] at h
              cases h
              exact ⟨_, .lastItem hw hx hu, by rw [es, eu, ex, h3]; simp⟩
            rw [if_neg h3] at h
            cases h
    · intro b s l r h
      rw [readMembers] at h
      obtain ⟨w, hw, es⟩ := skip_sound s
      cases hsk : skip s with
      | nil => rw [hsk] at h; cases h
      | cons c t =>
        rw [hsk] at h es
        simp only at h
        by_cases h1 : c = 34
        · rw [if_pos h1] at h
          right
          cases hk : readString (t.length + 1) t with
          | none => rw [hk] at h; cases h
          | some p =>
            obtain ⟨k, t1⟩ := p
            rw [hk] at h
            simp only at h
            obtain ⟨kt, hkt, ekt⟩ := readString_sound _ _ _ _ hk
            obtain ⟨x, hx, ex⟩ := skip_sound t1
            cases hsk1 : skip t1 with
            | nil => rw [hsk1] at h; cases h
            | cons d t2 =>
              rw [hsk1] at h ex
              simp only at h
              by_cases h2 : d = 58
              · rw [if_pos h2] at h
                obtain ⟨y, hy, ey⟩ := skip_sound t2
                cases hv : readValue reals f (skip t2) with
                | none => rw [hv] at h; cases h
                | some p =>
                  obtain ⟨v, t3⟩ := p
                  rw [hv] at h
                  simp only at h
                  obtain ⟨u, hu, eu⟩ := ihv _ _ _ hv
                  obtain ⟨z, hz, ez⟩ := skip_sound t3
                  cases hsk3 : skip t3 with
                  | nil => rw [hsk3] at h; cases h
                  | cons d' t4 =>
                    rw [hsk3] at h ez
                    simp only at h
                    by_cases h3 : d' = 44
                    · rw [if_pos h3] at h
                      obtain ⟨⟨l', r'⟩, hl, e⟩ := map_some h
                      simp only [Prod.mk.injEq] at e
                      obtain ⟨rfl, rfl⟩ := e
                      rcases ihm _ _ _ _ hl with ⟨_, hb, _⟩ | ⟨q, hq, eq⟩
                      · cases hb
                      · exact ⟨_, .member hw hx hy hz hkt hu hq, by
                          rw [es, h1, ekt, ex, h2, ey, eu, ez, h3, eq]; simp⟩
                    rw [if_neg h3] at h
                    by_cases h4 : d' = 125
                    · rw [if_pos h4] at h
                      cases h
                      exact ⟨_, .lastMember hw hx hy hz hkt hu, by
                          rw [es, h1, ekt, ex, h2, ey, eu, ez, h4]; simp⟩
                    rw [if_neg h4] at h
                    cases h
              · rw [if_neg h2] at h
                cases h
        rw [if_neg h1] at h
        by_cases h2 : c = 125
        · rw [if_pos h2] at h
          cases b with
          | false => cases h
          | true =>
            cases h
            exact .inl ⟨rfl, rfl, w, hw, by rw [es, h2]⟩
        rw [if_neg h2] at h
        cases h

/-- The texts that are read, and as what. -/
theorem read_document (reals : Reals) (v : Json) (t : List UInt8) :
    read reals t = some v ↔ Document reals.read v t := by
  constructor
  · intro h
    unfold Verif.Model.JsonText.read at h
    obtain ⟨w, hw, es⟩ := skip_sound t
    cases hv : readValue reals (t.length + 1) (skip t) with
    | none => rw [hv] at h; cases h
    | some p =>
      obtain ⟨v', r⟩ := p
      rw [hv] at h
      simp only at h
      by_cases hr : skip r = []
      · rw [if_pos hr] at h
        cases h
        obtain ⟨u, hu, eu⟩ := (reads_sound reals _).1 _ _ _ hv
        exact ⟨w, u, r, hw, hu, skip_nil hr, by rw [← eu]; exact es⟩
      · rw [if_neg hr] at h
        cases h
  · rintro ⟨w, u, x, hw, hu, hx, rfl⟩
    unfold Verif.Model.JsonText.read
    rw [skip_white hw, skip_text hu]
    have h1 : readValue reals ((w ++ (u ++ x)).length + 1) (u ++ x) = some (v, x) := by
      refine reads_complete reals hu _ x (by simp only [List.length_append]; omega) ?_
      have := stop_white hx stop_nil
      rwa [List.append_nil] at this
    rw [h1]
    simp only
    rw [if_pos (skip_all hx)]

end Verif.Proof.Json
