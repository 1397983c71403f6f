import Verif.Model.PathRange
import Verif.Spec.PathRange
import Verif.Proof.ReaderTop
/-! Lemmas on byte ranges in path names. -/
namespace Verif.Proof.PathRange
open Verif.Model.Steim Verif.Model.PathRange Verif.Spec.PathRange Verif.Proof.Mem

theorem isDigit_digit {c : UInt8} (h : Digit c) : isDigit c = .ok true := by
  unfold isDigit
  unfold Digit at h
  rw [if_pos (by omega), decide_eq_true h]

theorem isDigit_other {c : UInt8} (ha : c.toNat < 128) (h : ¬ Digit c) : isDigit c = .ok false := by
  unfold isDigit
  rw [if_pos ha]
  unfold Digit at h
  rw [decide_eq_false h]

theorem walk_end (b : List UInt8) (s : State) (hd : s.dash = true) (hb : ∀ c ∈ b, Digit c)
    (hl : s.endstr.length + b.length ≤ 20) (hs : s.startstr.length ≤ 20) :
    walk b s = .ok (some { s with endstr := s.endstr ++ b }) := by
  induction b generalizing s with
  | nil => simp [walk]
  | cons c b ih =>
    simp only [List.length_cons] at hl
    unfold walk char
    rw [isDigit_digit (hb c (by simp)), bind_ok, if_neg (by simp [hd]), if_pos ⟨rfl, hd⟩,
      if_pos (by omega), bind_ok]
    simp only
    rw [if_neg (by simp only [List.length_append, List.length_cons, List.length_nil]; omega)]
    rw [ih { s with endstr := s.endstr ++ [c] } hd (fun x hx => hb x (by simp [hx]))
      (by simp only [List.length_append, List.length_cons, List.length_nil]; omega) hs]
    simp only [List.append_assoc, List.cons_append, List.nil_append]

theorem walk_dash (t : List UInt8) (s : State) (hd : s.dash = false) (hs : s.startstr.length ≤ 20)
    (he : s.endstr.length ≤ 20) : walk (45 :: t) s = walk t { s with dash := true } := by
  rw [walk]
  unfold char
  rw [isDigit_other (by decide) (by unfold Digit; decide), bind_ok, if_neg (by simp), if_neg (by simp),
    if_neg (by simp [hd]), if_pos ⟨rfl, hd⟩, bind_ok]
  simp only
  rw [if_neg (by omega)]

theorem walk_start (a t : List UInt8) (s : State) (hd : s.dash = false) (ha : ∀ c ∈ a, Digit c)
    (hl : s.startstr.length + a.length ≤ 20) (he : s.endstr.length ≤ 20) :
    walk (a ++ t) s = walk t { s with startstr := s.startstr ++ a } := by
  induction a generalizing s with
  | nil => simp
  | cons c a ih =>
    simp only [List.length_cons] at hl
    rw [List.cons_append, walk]
    unfold char
    rw [isDigit_digit (ha c (by simp)), bind_ok, if_pos ⟨rfl, hd⟩, if_pos (by omega), bind_ok]
    simp only
    rw [if_neg (by simp only [List.length_append, List.length_cons, List.length_nil]; omega)]
    rw [ih { s with startstr := s.startstr ++ [c] } hd (fun x hx => ha x (by simp [hx]))
      (by simp only [List.length_append, List.length_cons, List.length_nil]; omega) he]
    simp only [List.append_assoc, List.cons_append, List.nil_append]

/-- What the walk accepts. -/
theorem walk_some (t : List UInt8) (s s' : State) (hs : s.startstr.length ≤ 20)
    (he : s.endstr.length ≤ 20) (h : walk t s = .ok (some s')) :
    (s.dash = true → ∃ b, t = b ∧ (∀ c ∈ b, Digit c) ∧ s.endstr.length + b.length ≤ 20) ∧
    (s.dash = false → ∃ a b, (t = a ∨ t = a ++ 45 :: b) ∧ (∀ c ∈ a, Digit c) ∧ (∀ c ∈ b, Digit c) ∧
      s.startstr.length + a.length ≤ 20 ∧ s.endstr.length + b.length ≤ 20) := by
  induction t generalizing s with
  | nil =>
    exact ⟨fun _ => ⟨[], rfl, by simp, by simpa⟩,
      fun _ => ⟨[], [], Or.inl rfl, by simp, by simp, by simpa, by simpa⟩⟩
  | cons c t ih =>
    rw [walk, bind_eq_ok] at h
    obtain ⟨r, hc, h⟩ := h
    cases r with
    | none => cases h
    | some s1 =>
      simp only at h
      split at h
      · cases h
      rename_i hlen
      unfold char at hc
      rw [bind_eq_ok] at hc
      obtain ⟨d, hdg, hc⟩ := hc
      have hdig : d = true → Digit c := by
        intro hd
        unfold isDigit at hdg
        split at hdg
        · injection hdg with hdg; rw [hd] at hdg; unfold Digit; exact of_decide_eq_true hdg
        · cases hdg
      split at hc
      · rename_i h1
        split at hc
        · injection hc with hc; injection hc with hc
          subst hc
          have := ih _ (by omega) (by omega) h
          refine ⟨fun hd => (by rw [h1.2] at hd; cases hd), fun _ => ?_⟩
          obtain ⟨a, b, hab, ha, hb, hla, hlb⟩ := this.2 h1.2
          refine ⟨c :: a, b, ?_, ?_, hb, ?_, hlb⟩
          · rcases hab with rfl | rfl
            · exact Or.inl rfl
            · exact Or.inr rfl
          · intro x hx
            rcases List.mem_cons.1 hx with rfl | hx
            · exact hdig h1.1
            · exact ha x hx
          · simp only [List.length_append, List.length_cons, List.length_nil] at hla ⊢; omega
        · cases hc
      split at hc
      · rename_i h1
        split at hc
        · injection hc with hc; injection hc with hc
          subst hc
          have := ih _ (by omega) (by omega) h
          refine ⟨fun _ => ?_, fun hd => (by rw [h1.2] at hd; cases hd)⟩
          obtain ⟨b, rfl, hb, hlb⟩ := this.1 h1.2
          refine ⟨c :: t, rfl, ?_, ?_⟩
          · intro x hx
            rcases List.mem_cons.1 hx with rfl | hx
            · exact hdig h1.1
            · exact hb x hx
          · simp only [List.length_append, List.length_cons, List.length_nil] at hlb ⊢; omega
        · cases hc
      split at hc
      · cases hc
      split at hc
      · rename_i h1
        injection hc with hc; injection hc with hc
        subst hc
        have := ih { s with dash := true } hs he h
        refine ⟨fun hd => (by rw [h1.2] at hd; cases hd), fun _ => ?_⟩
        obtain ⟨b, rfl, hb, hlb⟩ := this.1 rfl
        exact ⟨[], t, Or.inr (by rw [h1.1]; rfl), by simp, hb, by simpa, hlb⟩
      · cases hc

/-- The walk has an outcome for ASCII characters. -/
theorem walk_ok (t : List UInt8) (s : State) (ha : ∀ c ∈ t, c.toNat < 128)
    (hs : s.startstr.length ≤ 20) (he : s.endstr.length ≤ 20) : ∃ r, walk t s = .ok r := by
  induction t generalizing s with
  | nil => exact ⟨_, rfl⟩
  | cons c t ih =>
    have hc : ∃ r, char c s = .ok r := by
      unfold char
      obtain ⟨d, hd⟩ : ∃ d, isDigit c = .ok d := by
        unfold isDigit
        rw [if_pos (ha c (by simp))]
        exact ⟨_, rfl⟩
      rw [hd, bind_ok]
      repeat' split
      all_goals first
        | exact ⟨_, rfl⟩
        | omega
    obtain ⟨r, hr⟩ := hc
    rw [walk, hr, bind_ok]
    cases r with
    | none => exact ⟨_, rfl⟩
    | some s1 =>
      simp only
      split
      · exact ⟨_, rfl⟩
      · exact ih s1 (fun x hx => ha x (by simp [hx])) (by omega) (by omega)

theorem value_lt (s : List UInt8) (h : ∀ c ∈ s, Digit c) : value s < 10 ^ s.length := by
  induction s with
  | nil => simp [value]
  | cons c s ih =>
    have hc := h c (by simp)
    have := ih fun x hx => h x (by simp [hx])
    unfold Digit at hc
    rw [value, List.length_cons, Nat.pow_succ]
    have : (c.toNat - 48) * 10 ^ s.length ≤ 9 * 10 ^ s.length := Nat.mul_le_mul_right _ (by omega)
    omega

theorem strtoull_step (s : List UInt8) (v : Nat) (h : v * 10 ^ s.length + value s < 2 ^ 64) :
    s.foldl (fun v c => if v * 10 + (c.toNat - 48) < 2 ^ 64 then v * 10 + (c.toNat - 48)
      else 2 ^ 64 - 1) v = v * 10 ^ s.length + value s := by
  induction s generalizing v with
  | nil => simp [value]
  | cons c s ih =>
    rw [List.foldl_cons]
    simp only [value, List.length_cons] at h ⊢
    have e : v * 10 ^ (s.length + 1) + ((c.toNat - 48) * 10 ^ s.length + value s) =
        (v * 10 + (c.toNat - 48)) * 10 ^ s.length + value s := by
      rw [Nat.pow_succ, Nat.add_mul, Nat.mul_assoc, Nat.mul_comm 10 (10 ^ s.length)]
      omega
    rw [e] at h ⊢
    have hp : 1 ≤ 10 ^ s.length := Nat.one_le_pow _ _ (by omega)
    have : (v * 10 + (c.toNat - 48)) * 1 ≤ (v * 10 + (c.toNat - 48)) * 10 ^ s.length :=
      Nat.mul_le_mul_left _ hp
    rw [if_pos (by omega)]
    exact ih _ h

theorem strtoull_value (s : List UInt8) (h : value s < 2 ^ 64) : strtoull s = value s := by
  unfold strtoull
  have := strtoull_step s 0 (by omega)
  rw [this]
  omega

theorem lastIndex_at (p s : List UInt8) (h : (64 : UInt8) ∉ s) :
    lastIndex 64 (p ++ 64 :: s) = some p.length := by
  have hn : ∀ s, (64 : UInt8) ∉ s → lastIndex 64 s = none := by
    intro s hs
    induction s with
    | nil => rfl
    | cons x s ih =>
      rw [lastIndex, ih fun hx => hs (by simp [hx])]
      simp only
      rw [if_neg (fun hx => hs (by simp [hx]))]
  induction p with
  | nil =>
    rw [List.nil_append, lastIndex, hn s h]
    rfl
  | cons x p ih =>
    rw [List.cons_append, lastIndex, ih]
    rfl

theorem lastIndex_none (s : List UInt8) (h : (64 : UInt8) ∉ s) : lastIndex 64 s = none := by
  induction s with
  | nil => rfl
  | cons x s ih =>
    rw [lastIndex, ih fun hx => h (by simp [hx])]
    simp only
    rw [if_neg (fun hx => h (by simp [hx]))]

/-- The range in any accepted form. -/
theorem parseRange_form (p a b : List UInt8) (dash : Bool) (ha : Number a) (hb : Number b)
    (hd : dash = false → b = []) (x y : Int) :
    parseRange (p ++ 64 :: (a ++ if dash then 45 :: b else [])) x y =
      .ok ⟨some p.length, if a.length ≠ 0 then toInt64 (strtoull a) else x,
        if b.length ≠ 0 then toInt64 (strtoull b) else y⟩ := by
  have hno : ∀ s : List UInt8, (∀ c ∈ s, Digit c) → (64 : UInt8) ∉ s := by
    intro s hs hx
    have := hs _ hx
    unfold Digit at this
    revert this
    decide
  have h64 : (64 : UInt8) ∉ (a ++ if dash then 45 :: b else []) := by
    intro hx
    rcases List.mem_append.1 hx with hx | hx
    · exact hno a ha.1 hx
    · cases dash with
      | false => simp at hx
      | true =>
        simp only [if_true, List.mem_cons] at hx
        rcases hx with hx | hx
        · revert hx; decide
        · exact hno b hb.1 hx
  unfold parseRange
  rw [lastIndex_at p _ h64]
  simp only
  have : (p ++ 64 :: (a ++ if dash then 45 :: b else [])).drop (p.length + 1) =
      (a ++ if dash then 45 :: b else []) := by
    rw [show p ++ 64 :: (a ++ if dash then 45 :: b else []) =
      (p ++ [64]) ++ (a ++ if dash then 45 :: b else []) by simp]
    exact List.drop_left' (by simp)
  rw [this, walk_start a _ {} rfl ha.1 (by simpa using ha.2) (by simp)]
  cases dash with
  | false =>
    rw [hd rfl]
    simp [walk, bind_ok]
  | true =>
    simp only [if_true, List.nil_append]
    rw [walk_dash b _ rfl ha.2 (by simp), walk_end b _ rfl hb.1 (by simpa using hb.2) ha.2]
    simp [bind_ok]

/-- Everything else is no range. -/
theorem parseRange_none (string : List UInt8) (x y : Int)
    (hascii : ∀ p s, string = p ++ 64 :: s → (64 : UInt8) ∉ s → ∀ c ∈ s, c.toNat < 128)
    (hno : ∀ p a b, Number a → Number b → string ≠ p ++ 64 :: a ∧ string ≠ p ++ 64 :: (a ++ 45 :: b)) :
    parseRange string x y = .ok ⟨none, x, y⟩ := by
  by_cases hat : (64 : UInt8) ∈ string
  · obtain ⟨p, s, hs, h64⟩ : ∃ p s, string = p ++ 64 :: s ∧ (64 : UInt8) ∉ s := by
      clear hascii hno
      induction string with
      | nil => simp at hat
      | cons c t ih =>
        by_cases ht : (64 : UInt8) ∈ t
        · obtain ⟨p, s, h1, h2⟩ := ih ht
          exact ⟨c :: p, s, by rw [h1]; rfl, h2⟩
        · refine ⟨[], t, ?_, ht⟩
          rcases List.mem_cons.1 hat with h | h
          · rw [← h]; rfl
          · exact absurd h ht
    unfold parseRange
    rw [hs, lastIndex_at p s h64]
    simp only
    have : (p ++ 64 :: s).drop (p.length + 1) = s := by
      rw [show p ++ 64 :: s = (p ++ [64]) ++ s by simp]
      exact List.drop_left' (by simp)
    rw [this]
    obtain ⟨r, hr⟩ := walk_ok s {} (hascii p s hs h64) (by simp) (by simp)
    rw [hr, bind_ok]
    cases r with
    | none => rfl
    | some s' =>
      obtain ⟨a, b, hab, ha, hb, hla, hlb⟩ := (walk_some s {} s' (by simp) (by simp) hr).2 rfl
      simp only [List.length_nil, Nat.zero_add] at hla hlb
      have hn := hno p a b ⟨ha, hla⟩ ⟨hb, hlb⟩
      rcases hab with rfl | rfl
      · exact absurd hs hn.1
      · exact absurd hs hn.2
  · unfold parseRange
    rw [lastIndex_none string hat]

/-- The walk never writes outside its arrays. -/
theorem walk_ne_oob (t : List UInt8) (s : State) (hs : s.startstr.length ≤ 20)
    (he : s.endstr.length ≤ 20) : walk t s ≠ .oob := by
  induction t generalizing s with
  | nil => simp [walk]
  | cons c t ih =>
    rw [walk]
    refine bind_ne_oob ?_ fun r hr => ?_
    · unfold char
      refine bind_ne_oob (by unfold isDigit; split <;> simp) fun d _ => ?_
      repeat' split
      all_goals first
        | omega
        | simp
    · cases r with
      | none => simp
      | some s1 =>
        simp only
        split
        · simp
        · exact ih s1 (by omega) (by omega)

end Verif.Proof.PathRange
