import Verif.Model.Select
import Verif.Proof.TraceList
import Verif.Spec.Select
import Verif.Props.Glob
/-!
# Lemmas about selections
-/
namespace Verif.Proof.Select
open Verif.Model.Glob hiding Res
open Verif.Model.Select Verif.Spec.Glob Verif.Spec.Select

/-- An entry lets a record pass, in terms of the matcher. -/
def Passes (signed : Bool) (sid : List UInt8) (start stop : Int) (pub : Nat) (e : Entry) : Prop :=
  msGlobmatch signed sid e.sidpattern = .ret true ∧ (e.pubversion = 0 ∨ e.pubversion = pub) ∧
  (e.timewindows = [] ∨ ∃ w ∈ e.timewindows, skipped start stop w = false)

theorem matchFrom_spec (signed : Bool) (sid : List UInt8) (start stop : Int) (pub : Nat) :
    ∀ (l : List Entry) (i : Nat),
    (∀ e ∈ l, ∃ b, msGlobmatch signed sid e.sidpattern = .ret b) →
    ∃ r, matchFrom signed sid start stop pub i l = .ok r ∧
      (r = none → ∀ e ∈ l, ¬ Passes signed sid start stop pub e) ∧
      (∀ j w, r = some (j, w) → ∃ e, i ≤ j ∧ l[j - i]? = some e ∧
        Passes signed sid start stop pub e ∧
        (w = none ↔ e.timewindows = []) ∧
        ∀ x, w = some x → x ∈ e.timewindows ∧ skipped start stop x = false) := by
  intro l
  induction l with
  | nil =>
    intro i _
    exact ⟨none, rfl, by simp, by simp⟩
  | cons e t ih =>
    intro i h
    obtain ⟨b, hb⟩ := h e (by simp)
    obtain ⟨r, hr, h1, h2⟩ := ih (i + 1) (fun x hx => h x (List.mem_cons_of_mem _ hx))
    have next : ¬ Passes signed sid start stop pub e →
        matchFrom signed sid start stop pub i (e :: t)
          = matchFrom signed sid start stop pub (i + 1) t →
        ∃ r, matchFrom signed sid start stop pub i (e :: t) = .ok r ∧
          (r = none → ∀ e' ∈ e :: t, ¬ Passes signed sid start stop pub e') ∧
          (∀ j w, r = some (j, w) → ∃ e', i ≤ j ∧ (e :: t)[j - i]? = some e' ∧
            Passes signed sid start stop pub e' ∧ (w = none ↔ e'.timewindows = []) ∧
            ∀ x, w = some x → x ∈ e'.timewindows ∧ skipped start stop x = false) := by
      intro hn heq
      refine ⟨r, by rw [heq, hr], ?_, ?_⟩
      · intro h0 e' he'
        rcases List.mem_cons.1 he' with rfl | he'
        · exact hn
        · exact h1 h0 e' he'
      · intro j w hj
        obtain ⟨e', hij, hl, hp⟩ := h2 j w hj
        refine ⟨e', by omega, ?_, hp⟩
        have : j - i = (j - (i + 1)) + 1 := by omega
        rw [this, List.getElem?_cons_succ]
        exact hl
    cases b with
    | false =>
      refine next ?_ ?_
      · intro hp
        rw [hp.1] at hb
        cases hb
      · rw [matchFrom, hb]
    | true =>
      by_cases hv : e.pubversion > 0 ∧ e.pubversion ≠ pub
      · refine next ?_ ?_
        · intro hp
          rcases hp.2.1 with h | h
          · omega
          · exact hv.2 h
        · rw [matchFrom, hb]
          simp only
          rw [if_pos hv]
      · have hv' : e.pubversion = 0 ∨ e.pubversion = pub := by omega
        by_cases hw : e.timewindows = []
        · refine ⟨some (i, none), ?_, by simp, ?_⟩
          · rw [matchFrom, hb]
            simp only
            rw [if_neg hv, if_pos hw]
          · intro j w hj
            cases hj
            exact ⟨e, Nat.le_refl _, by simp, ⟨hb, hv', Or.inl hw⟩, by simp [hw], by simp⟩
        · cases hf : e.timewindows.find? (fun w => !skipped start stop w) with
          | none =>
            refine next ?_ ?_
            · rintro ⟨_, _, h | ⟨w, hm, hs⟩⟩
              · exact hw h
              · have := List.find?_eq_none.1 hf w hm
                simp [hs] at this
            · rw [matchFrom, hb]
              simp only
              rw [if_neg hv, if_neg hw, hf]
          | some w =>
            have hm := List.mem_of_find?_eq_some hf
            have hs : skipped start stop w = false := by
              have := List.find?_some hf
              simpa using this
            refine ⟨some (i, some w), ?_, by simp, ?_⟩
            · rw [matchFrom, hb]
              simp only
              rw [if_neg hv, if_neg hw, hf]
            · intro j w' hj
              cases hj
              refine ⟨e, Nat.le_refl _, by simp, ⟨hb, hv', Or.inr ⟨w, hm, hs⟩⟩, by simp [hw], ?_⟩
              intro x hx
              cases hx
              exact ⟨hm, hs⟩

/-- The entries of a list after adding: a window to the first of the entries of the same pattern and
version, or a new entry. -/
theorem addSelect_cases (sels : List Entry) (p : List UInt8) (a b : Int) (v : Nat) :
    (∃ l e r, sels = l ++ e :: r ∧ e.sidpattern = p ∧ e.pubversion = v ∧
      addSelect sels p a b v
        = l ++ { e with timewindows := ⟨a, b⟩ :: e.timewindows } :: r) ∨
    addSelect sels p a b v = ⟨copied p, [⟨a, b⟩], v⟩ :: sels := by
  have key : ∀ sels : List Entry,
      (∃ l e r, sels = l ++ e :: r ∧ e.sidpattern = p ∧ e.pubversion = v ∧
        addWindow p v ⟨a, b⟩ sels
          = some (l ++ { e with timewindows := ⟨a, b⟩ :: e.timewindows } :: r)) ∨
      addWindow p v ⟨a, b⟩ sels = none := by
    intro sels
    induction sels with
    | nil => exact Or.inr rfl
    | cons e t ih =>
      by_cases hc : Verif.Model.TraceList.strcmp e.sidpattern p = 0 ∧ e.pubversion = v
      · refine Or.inl ⟨[], e, t, rfl, (Verif.Proof.TraceList.strcmp_eq _ _).1 hc.1, hc.2, ?_⟩
        rw [addWindow, if_pos hc]
        rfl
      · rcases ih with ⟨l, e', r, h1, h2, h3, h4⟩ | h
        · refine Or.inl ⟨e :: l, e', r, by rw [h1]; rfl, h2, h3, ?_⟩
          rw [addWindow, if_neg hc, h4]
          rfl
        · refine Or.inr ?_
          rw [addWindow, if_neg hc, h]
          rfl
  unfold addSelect
  rcases key sels with ⟨l, e, r, h1, h2, h3, h4⟩ | h
  · refine Or.inl ⟨l, e, r, h1, h2, h3, ?_⟩
    rw [h4]
  · refine Or.inr ?_
    rw [h]

/-- What a list offers: pattern, version and window together. -/
def Offers (sels : List Entry) (p : List UInt8) (v : Nat) (w : Window) : Prop :=
  ∃ e ∈ sels, e.sidpattern = p ∧ e.pubversion = v ∧ w ∈ e.timewindows

theorem offers_add (sels : List Entry) (p : List UInt8) (a b : Int) (v : Nat)
    (p' : List UInt8) (v' : Nat) (w : Window) (hp : p.length < 100) :
    Offers (addSelect sels p a b v) p' v' w ↔
      Offers sels p' v' w ∨ (p' = p ∧ v' = v ∧ w = ⟨a, b⟩) := by
  have hc : copied p = p := by
    unfold copied
    rw [List.take_of_length_le (by omega)]
  rcases addSelect_cases sels p a b v with ⟨l, e, r, h1, h2, h3, h4⟩ | h
  · rw [h4, h1]
    unfold Offers
    simp only [List.mem_append, List.mem_cons]
    constructor
    · rintro ⟨x, hx | rfl | hx, hxp, hxv, hw⟩
      · exact Or.inl ⟨x, Or.inl hx, hxp, hxv, hw⟩
      · simp only at hxp hxv hw
        rcases List.mem_cons.1 hw with hw | hw
        · exact Or.inr ⟨hxp.symm.trans h2, hxv.symm.trans h3, hw⟩
        · exact Or.inl ⟨e, Or.inr (Or.inl rfl), hxp, hxv, hw⟩
      · exact Or.inl ⟨x, Or.inr (Or.inr hx), hxp, hxv, hw⟩
    · rintro (⟨x, hx | rfl | hx, hxp, hxv, hw⟩ | ⟨rfl, rfl, rfl⟩)
      · exact ⟨x, Or.inl hx, hxp, hxv, hw⟩
      · exact ⟨_, Or.inr (Or.inl rfl), hxp, hxv, List.mem_cons_of_mem _ hw⟩
      · exact ⟨x, Or.inr (Or.inr hx), hxp, hxv, hw⟩
      · exact ⟨_, Or.inr (Or.inl rfl), h2, h3, by simp⟩
  · rw [h, hc]
    unfold Offers
    simp only [List.mem_cons]
    constructor
    · rintro ⟨x, rfl | hx, hxp, hxv, hw⟩
      · simp only [List.mem_singleton] at hw hxp hxv
        exact Or.inr ⟨hxp.symm, hxv.symm, hw⟩
      · exact Or.inl ⟨x, hx, hxp, hxv, hw⟩
    · rintro (⟨x, hx, hxp, hxv, hw⟩ | ⟨rfl, rfl, rfl⟩)
      · exact ⟨x, Or.inr hx, hxp, hxv, hw⟩
      · exact ⟨_, Or.inl rfl, rfl, rfl, by simp⟩

theorem windows_add (sels : List Entry) (p : List UInt8) (a b : Int) (v : Nat)
    (h : ∀ e ∈ sels, e.timewindows ≠ []) : ∀ e ∈ addSelect sels p a b v, e.timewindows ≠ [] := by
  rcases addSelect_cases sels p a b v with ⟨l, e, r, h1, h2, h3, h4⟩ | h'
  · rw [h4]
    rw [h1] at h
    intro x hx
    rcases List.mem_append.1 hx with hx | hx
    · exact h x (List.mem_append_left _ hx)
    · rcases List.mem_cons.1 hx with rfl | hx
      · simp
      · exact h x (List.mem_append_right _ (List.mem_cons_of_mem _ hx))
  · rw [h']
    intro x hx
    rcases List.mem_cons.1 hx with rfl | hx
    · simp
    · exact h x hx

theorem skipped_iff {start stop : Int} (h : start ≤ stop)
    (hs : start ≠ nstError ∧ start ≠ nstUnset) (he : stop ≠ nstError ∧ stop ≠ nstUnset)
    {first last : Option Int} (h1 : ∀ f ∈ first, f ≠ nstError ∧ f ≠ nstUnset)
    (h2 : ∀ f ∈ last, f ≠ nstError ∧ f ≠ nstUnset)
    (h3 : ∀ f ∈ first, ∀ l ∈ last, f ≤ l) (sid : List UInt8) (v : Nat) :
    skipped start stop ⟨first.getD nstUnset, last.getD nstUnset⟩ = false ↔
      Overlaps first last ⟨sid, start, stop, v⟩ := by
  have e : skipped start stop ⟨first.getD nstUnset, last.getD nstUnset⟩ = false ↔
      (∀ f ∈ first, f ≤ stop) ∧ (∀ l ∈ last, start ≤ l) := by
    unfold skipped given
    cases first with
    | none =>
      cases last with
      | none => simp
      | some l =>
        have := h2 l rfl
        simp [this, he]
        omega
    | some f =>
      have hf := h1 f rfl
      cases last with
      | none =>
        simp [hf, hs]
        omega
      | some l =>
        have hl := h2 l rfl
        have := h3 f rfl l rfl
        simp [hf, hs, hl, he]
        omega
  rw [e]
  unfold Overlaps
  constructor
  · rintro ⟨ha, hb⟩
    cases first with
    | none =>
      cases last with
      | none => exact ⟨start, by simp; exact h⟩
      | some l =>
        have := hb l rfl
        exact ⟨start, by simp; omega⟩
    | some f =>
      have := ha f rfl
      cases last with
      | none => exact ⟨stop, by simp; omega⟩
      | some l =>
        have := hb l rfl
        have := h3 f rfl l rfl
        refine ⟨max start f, ?_, ?_, ?_, ?_⟩
        · simp only; omega
        · simp only; omega
        · intro x hx; cases hx; omega
        · intro x hx; cases hx; omega
  · rintro ⟨t, ht1, ht2, ht3, ht4⟩
    simp only at ht1 ht2
    exact ⟨fun f hf => Int.le_trans (ht3 f hf) ht2, fun l hl => Int.le_trans ht1 (ht4 l hl)⟩

/-! ## Underscores -/

theorem append_iff (code : UInt8 → Int) : ∀ (t1 t2 : List Tok) (s : List UInt8),
    Matches code (t1 ++ t2) s ↔ ∃ a b, s = a ++ b ∧ Matches code t1 a ∧ Matches code t2 b := by
  intro t1 t2 s
  constructor
  · intro h
    generalize hg : t1 ++ t2 = q at h
    induction h generalizing t1 with
    | nil =>
      obtain ⟨rfl, rfl⟩ := List.append_eq_nil_iff.1 hg
      exact ⟨[], [], rfl, .nil, .nil⟩
    | @char t ts ch s ha hm ih =>
      cases t1 with
      | nil =>
        rw [List.nil_append] at hg
        subst hg
        exact ⟨[], _, rfl, .nil, .char ha hm⟩
      | cons x t1 =>
        rw [List.cons_append] at hg
        cases hg
        obtain ⟨a, b, rfl, h1, h2⟩ := ih t1 rfl
        exact ⟨ch :: a, b, rfl, .char ha h1, h2⟩
    | @starEmpty ts s hm ih =>
      cases t1 with
      | nil =>
        rw [List.nil_append] at hg
        subst hg
        exact ⟨[], _, rfl, .nil, .starEmpty hm⟩
      | cons x t1 =>
        rw [List.cons_append] at hg
        cases hg
        obtain ⟨a, b, rfl, h1, h2⟩ := ih t1 rfl
        exact ⟨a, b, rfl, .starEmpty h1, h2⟩
    | @starMore ts ch s hm ih =>
      cases t1 with
      | nil =>
        rw [List.nil_append] at hg
        subst hg
        exact ⟨[], _, rfl, .nil, .starMore hm⟩
      | cons x t1 =>
        rw [List.cons_append] at hg
        cases hg
        obtain ⟨a, b, rfl, h1, h2⟩ := ih (.star :: t1) rfl
        exact ⟨ch :: a, b, rfl, .starMore h1, h2⟩
  · rintro ⟨a, b, rfl, h1, h2⟩
    induction h1 with
    | nil => exact h2
    | char ha _ ih => exact .char ha ih
    | starEmpty _ ih => exact .starEmpty ih
    | starMore _ ih => exact .starMore ih

/-- Number of underscores standing for themselves in a pattern. -/
def bars (ts : List Tok) : Nat := ts.countP (· = .lit 95)

theorem bars_le {code : UInt8 → Int} {ts : List Tok} {s : List UInt8} (h : Matches code ts s) :
    bars ts ≤ s.count 95 := by
  induction h with
  | nil => simp [bars]
  | @char t ts ch s ha _ ih =>
    unfold bars at *
    rw [List.countP_cons, List.count_cons]
    by_cases ht : t = .lit 95
    · subst ht
      have : ch = 95 := ha
      subst this
      simp
      exact ih
    · simp [ht]
      omega
  | @starEmpty ts s _ ih =>
    unfold bars at *
    rw [List.countP_cons]
    simpa using ih
  | @starMore ts ch s _ ih =>
    rw [List.count_cons]
    exact Nat.le_trans ih (Nat.le_add_right _ _)

theorem first_bar {a b c d : List UInt8} (ha : 95 ∉ a) (hc : 95 ∉ c)
    (h : a ++ 95 :: b = c ++ 95 :: d) : a = c ∧ b = d := by
  induction a generalizing c with
  | nil =>
    cases c with
    | nil => simpa using h
    | cons x c =>
      simp only [List.nil_append, List.cons_append, List.cons.injEq] at h
      exact absurd (by rw [h.1]; simp) hc
  | cons y a ih =>
    cases c with
    | nil =>
      simp only [List.nil_append, List.cons_append, List.cons.injEq] at h
      exact absurd (by rw [← h.1]; simp) ha
    | cons x c =>
      simp only [List.cons_append, List.cons.injEq] at h
      obtain ⟨h1, h2⟩ := ih (fun hm => ha (List.mem_cons_of_mem _ hm))
        (fun hm => hc (List.mem_cons_of_mem _ hm)) h.2
      exact ⟨by rw [h.1, h1], h2⟩

/-- If a text has no more underscores than the pattern has, the parts before and after the first one
match on their own. -/
theorem split_bar {code : UInt8 → Int} {t1 t2 : List Tok} {c d : List UInt8}
    (hc : 95 ∉ c) (hd : d.count 95 ≤ bars t2) :
    Matches code (t1 ++ .lit 95 :: t2) (c ++ 95 :: d) ↔
      Matches code t1 c ∧ Matches code t2 d := by
  constructor
  · intro h
    obtain ⟨a, b, e, h1, h2⟩ := (append_iff code _ _ _).1 h
    cases h2 with
    | @char _ _ ch s ha hm =>
      have : ch = 95 := ha
      subst this
      have hb := bars_le hm
      have hcount := congrArg (List.count 95) e
      have hc0 := List.count_eq_zero.2 hc
      simp only [List.count_append, List.count_cons_self] at hcount
      have ha0 : 95 ∉ a := List.count_eq_zero.1 (by omega)
      obtain ⟨rfl, rfl⟩ := first_bar hc ha0 e
      exact ⟨h1, hm⟩
  · rintro ⟨h1, h2⟩
    exact (append_iff code _ _ _).2 ⟨c, 95 :: d, rfl, h1, .char rfl h2⟩

theorem lit_cons {code : UInt8 → Int} {ts : List Tok} {x y : UInt8} {s : List UInt8} :
    Matches code (.lit x :: ts) (y :: s) ↔ y = x ∧ Matches code ts s := by
  constructor
  · intro h
    cases h with
    | char ha hm => exact ⟨ha, hm⟩
  · rintro ⟨rfl, h⟩
    exact .char rfl h

end Verif.Proof.Select
