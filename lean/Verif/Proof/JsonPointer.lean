import Verif.Proof.Json
/-!
# Lemmas about JSON pointers: what is accepted is a pointer
-/
namespace Verif.Proof.Json
open Verif.Spec.Json Verif.Model.Json

theorem plain_sound (s : List UInt8) : s = (plain s).1 ++ (plain s).2 ∧ escape (plain s).1 = (plain s).1 ∧
    (∀ c, (plain s).2.head? = some c → c = 47 ∨ c = 126) := by
  induction s with
  | nil => exact ⟨rfl, rfl, fun c h => by cases h⟩
  | cons c t ih =>
    unfold plain
    by_cases hc : c ≠ 47 ∧ c ≠ 126
    · rw [if_pos hc]
      refine ⟨by show c :: t = c :: ((plain t).1 ++ (plain t).2); rw [← ih.1], ?_, ih.2.2⟩
      show escape (c :: (plain t).1) = c :: (plain t).1
      rw [escape_cons, if_neg hc.2, if_neg hc.1, ih.2.1]
      rfl
    · rw [if_neg hc]
      refine ⟨rfl, rfl, ?_⟩
      intro d hd
      cases hd
      by_cases h : c = 47
      · exact .inl h
      · exact .inr (Decidable.not_not.1 fun h' => hc ⟨h, h'⟩)

theorem escaped_sound : ∀ (n : Nat) (s r : List UInt8) (k : Nat) (rest : List UInt8), s.length ≤ n →
    escaped s = some (r, k, rest) → (∃ t, r = escape t) ∧ s = r ++ rest ∧ After rest
  | n, [], r, k, rest, _, h => by cases h; exact ⟨⟨[], rfl⟩, rfl, .inl rfl⟩
  | n + 1, c :: t, r, k, rest, hn, h => by
    unfold escaped at h
    by_cases h1 : c = 47
    · rw [if_pos h1] at h
      cases h
      exact ⟨⟨[], rfl⟩, rfl, .inr (by rw [h1]; rfl)⟩
    rw [if_neg h1] at h
    by_cases h2 : c = 126
    · rw [if_pos h2] at h
      cases t with
      | nil => cases h
      | cons d u =>
        simp only at h
        by_cases hd : d ≠ 48 ∧ d ≠ 49
        · rw [if_pos hd] at h; cases h
        rw [if_neg hd] at h
        have hd' : d = 48 ∨ d = 49 := by
          by_cases e : d = 48
          · exact .inl e
          · exact .inr (Decidable.not_not.1 fun e' => hd ⟨e, e'⟩)
        have hu : escaped (d :: u) = match escaped u with
            | none => none
            | some (r, n, rest) => some (d :: r, n, rest) := by
          rw [escaped.eq_def]
          simp only
          rw [if_neg (by rcases hd' with rfl | rfl <;> decide), if_neg (by rcases hd' with rfl | rfl <;> decide)]
          rfl
        rw [hu] at h
        cases he : escaped u with
        | none => rw [he] at h; cases h
        | some p =>
          obtain ⟨r', k', rest'⟩ := p
          rw [he] at h
          simp only [Option.some.injEq, Prod.mk.injEq] at h
          obtain ⟨rfl, _, rfl⟩ := h
          simp only [List.length_cons] at hn
          obtain ⟨⟨t', ht'⟩, e2, e3⟩ := escaped_sound n u r' k' rest' (by omega) he
          refine ⟨?_, by rw [e2]; rfl, e3⟩
          rcases hd' with rfl | rfl
          · exact ⟨126 :: t', by rw [escape_cons, if_pos rfl, h2, ht']; rfl⟩
          · exact ⟨47 :: t', by rw [escape_cons, if_neg (by decide), if_pos rfl, h2, ht']; rfl⟩
    rw [if_neg h2] at h
    cases he : escaped t with
    | none => rw [he] at h; cases h
    | some p =>
      obtain ⟨r', k', rest'⟩ := p
      rw [he] at h
      simp only [Option.some.injEq, Prod.mk.injEq] at h
      obtain ⟨rfl, _, rfl⟩ := h
      simp only [List.length_cons] at hn
      obtain ⟨⟨t', ht'⟩, e2, e3⟩ := escaped_sound n t r' k' rest' (by omega) he
      exact ⟨⟨c :: t', by rw [escape_cons, if_neg h2, if_neg h1, ht']; rfl⟩, by rw [e2]; rfl, e3⟩

theorem nextToken_sound {p : List UInt8} {k : Tok} {rest : List UInt8} (h : nextToken (47 :: p) = some (k, rest)) :
    ∃ t, p = escape t ++ rest ∧ After rest := by
  have e : nextToken (47 :: p) = if (plain p).2.head? ≠ some 126 then
        some (⟨(plain p).1, (plain p).1.length, 0⟩, (plain p).2)
      else match escaped (plain p).2 with
        | none => none
        | some (r, n, rest) => some (⟨(plain p).1 ++ r, ((plain p).1 ++ r).length - n, n⟩, rest) := rfl
  rw [e] at h
  obtain ⟨h1, h2, h3⟩ := plain_sound p
  by_cases hc : (plain p).2.head? ≠ some 126
  · rw [if_pos hc] at h
    cases h
    refine ⟨(plain p).1, by rw [h2]; exact h1, ?_⟩
    cases hp : (plain p).2 with
    | nil => exact .inl rfl
    | cons c t =>
      rw [hp] at h3 hc
      rcases h3 c rfl with rfl | rfl
      · exact .inr rfl
      · exact absurd rfl hc
  · rw [if_neg hc] at h
    cases he : escaped (plain p).2 with
    | none => rw [he] at h; cases h
    | some q =>
      obtain ⟨r, n, rest'⟩ := q
      rw [he] at h
      simp only [Option.some.injEq, Prod.mk.injEq] at h
      obtain ⟨_, rfl⟩ := h
      obtain ⟨⟨t, rfl⟩, e2, e3⟩ := escaped_sound _ _ _ _ _ (Nat.le_refl _) he
      refine ⟨(plain p).1 ++ t, ?_, e3⟩
      rw [escape_append, h2, List.append_assoc, ← e2]
      exact h1

/-- A pointer with a token. -/
def Spelled (ptr : List UInt8) : Prop := ∃ t ts, ptr = pointer (t :: ts)

theorem spelled_last {p : List UInt8} {k : Tok} (h : nextToken (47 :: p) = some (k, [])) : Spelled (47 :: p) := by
  obtain ⟨t, e, _⟩ := nextToken_sound h
  exact ⟨t, [], by rw [pointer_cons, e]; rfl⟩

theorem spelled_next {p : List UInt8} {k : Tok} {rest : List UInt8} (h : nextToken (47 :: p) = some (k, rest))
    (hr : Spelled rest) : Spelled (47 :: p) := by
  obtain ⟨t, e, _⟩ := nextToken_sound h
  obtain ⟨t', ts, e'⟩ := hr
  exact ⟨t, t' :: ts, by rw [pointer_cons, e, e']⟩

theorem rest_slash {p : List UInt8} {k : Tok} {rest : List UInt8} (h : nextToken (47 :: p) = some (k, rest))
    (hr : rest ≠ []) : ∃ q, rest = 47 :: q := by
  obtain ⟨_, _, ha⟩ := nextToken_sound h
  rcases ha with e | e
  · exact absurd e hr
  · cases rest with
    | nil => cases e
    | cons c q => exact ⟨q, by rw [Option.some.inj (show some c = some 47 from e)]⟩

theorem getx_spelled : ∀ (f : Nat) (v w : Json) (p : List UInt8), getx f v (47 :: p) = some w → Spelled (47 :: p)
  | 0, _, _, _, h => by cases h
  | f + 1, v, w, p, h => by
    unfold getx at h
    cases hn : nextToken (47 :: p) with
    | none => rw [hn] at h; cases h
    | some q =>
      obtain ⟨k, rest⟩ := q
      rw [hn] at h
      simp only at h
      split at h
      · cases h
      · rename_i u _
        by_cases hr : rest = []
        · rw [hr] at hn
          exact spelled_last hn
        · rw [if_neg hr] at h
          obtain ⟨q, rfl⟩ := rest_slash hn hr
          exact spelled_next hn (getx_spelled f u w q h)

theorem create_spelled : ∀ (f : Nat) (v w : Json) (p : List UInt8), create f (47 :: p) v = some w → Spelled (47 :: p)
  | 0, _, _, _, h => by cases h
  | f + 1, v, w, p, h => by
    unfold create at h
    cases hn : nextToken (47 :: p) with
    | none => rw [hn] at h; cases h
    | some q =>
      obtain ⟨k, rest⟩ := q
      rw [hn] at h
      simp only at h
      by_cases hr : rest = []
      · rw [hr] at hn
        exact spelled_last hn
      · rw [if_neg hr] at h
        obtain ⟨q, rfl⟩ := rest_slash hn hr
        obtain ⟨u, hu, _⟩ := Option.map_eq_some_iff.1 h
        exact spelled_next hn (create_spelled f v u q hu)

theorem putx_spelled : ∀ (f : Nat) (v new w : Json) (p : List UInt8), putx f v (47 :: p) new = some w → Spelled (47 :: p)
  | 0, _, _, _, _, h => by cases h
  | f + 1, v, new, w, p, h => by
    unfold putx at h
    cases hn : nextToken (47 :: p) with
    | none => rw [hn] at h; cases h
    | some q =>
      obtain ⟨k, rest⟩ := q
      rw [hn] at h
      simp only at h
      by_cases hr : rest = []
      · rw [hr] at hn
        exact spelled_last hn
      · obtain ⟨q, rfl⟩ := rest_slash hn hr
        refine spelled_next hn ?_
        split at h
        · split at h
          · rw [if_neg hr] at h
            obtain ⟨u, hu, _⟩ := Option.map_eq_some_iff.1 h
            exact create_spelled f new u q hu
          · rename_i x _
            rw [if_neg hr] at h
            obtain ⟨u, hu, _⟩ := Option.map_eq_some_iff.1 h
            exact putx_spelled f x new u q hu
        · split at h
          · cases h
          · rw [if_neg hr] at h
            obtain ⟨u, hu, _⟩ := Option.map_eq_some_iff.1 h
            obtain ⟨x, _, hx⟩ := Option.bind_eq_some_iff.1 hu
            exact putx_spelled f x new u q hx
        · cases h

/-- What is found is found by a pointer. -/
theorem docGet_spelled {root : Option Json} {ptr : List UInt8} {v : Json} (h : docGet root ptr = some v) :
    ptr = [] ∨ Spelled ptr := by
  unfold docGet at h
  cases root with
  | none => cases h
  | some r =>
    simp only at h
    by_cases h1 : ptr = []
    · exact .inl h1
    rw [if_neg h1] at h
    by_cases h2 : ptr.head? ≠ some 47
    · rw [if_pos h2] at h; cases h
    rw [if_neg h2] at h
    cases ptr with
    | nil => exact absurd rfl h1
    | cons c p =>
      have e : c = 47 := Option.some.inj (Decidable.not_not.1 h2)
      subst e
      exact .inr (getx_spelled _ _ _ _ h)

/-- What is set is set by a pointer. -/
theorem docSet_spelled {root : Option Json} {ptr : List UInt8} {new v : Json} (h : docSet root ptr new = some v) :
    ptr = [] ∨ Spelled ptr := by
  unfold docSet at h
  by_cases h1 : ptr = []
  · exact .inl h1
  rw [if_neg h1] at h
  by_cases h2 : ptr.head? ≠ some 47
  · rw [if_pos h2] at h; cases h
  rw [if_neg h2] at h
  cases ptr with
  | nil => exact absurd rfl h1
  | cons c p =>
    have e : c = 47 := Option.some.inj (Decidable.not_not.1 h2)
    subst e
    exact .inr (putx_spelled _ _ _ _ _ h)

theorem escape_inj {a b : Token} (h : escape a = escape b) : a = b := by
  have := congrArg unescape h
  rw [unescape_escape, unescape_escape] at this
  exact this

/-- Tokens are known by the text of a pointer. -/
theorem pointer_inj : ∀ {a b : List Token}, pointer a = pointer b → a = b
  | [], [], _ => rfl
  | [], t :: ts, h => by rw [pointer_cons] at h; cases h
  | t :: ts, [], h => by rw [pointer_cons] at h; cases h
  | t :: ts, u :: us, h => by
    rw [pointer_cons, pointer_cons] at h
    obtain ⟨k1, h1, _⟩ := nextToken_pointer t (pointer_after ts)
    obtain ⟨k2, h2, _⟩ := nextToken_pointer u (pointer_after us)
    rw [h, h2] at h1
    simp only [Option.some.injEq, Prod.mk.injEq] at h1
    have hr : pointer ts = pointer us := h1.2.symm
    have e := List.tail_eq_of_cons_eq h
    rw [hr] at e
    rw [escape_inj (List.append_cancel_right e), pointer_inj hr]

end Verif.Proof.Json
