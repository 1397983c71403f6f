import Verif.Spec.Utf8
import Verif.Model.Str
/-! Helper lemmas for the string helpers. -/
namespace Verif.Proof.Str
open Verif.Spec.Utf8 Verif.Model.Str

/-- What must follow in each automaton state, as byte ranges (`none`: rejected). -/
def comp : Nat → Option (List (Nat × Nat))
  | 0 => some []
  | 2 => some [(128, 191)]
  | 3 => some [(128, 191), (128, 191)]
  | 4 => some [(160, 191), (128, 191)]
  | 5 => some [(128, 159), (128, 191)]
  | 6 => some [(144, 191), (128, 191), (128, 191)]
  | 7 => some [(128, 191), (128, 191), (128, 191)]
  | 8 => some [(128, 143), (128, 191), (128, 191)]
  | _ => none

def fits : List (Nat × Nat) → List UInt8 → Prop
  | [], l => l = []
  | _ :: _, [] => False
  | (lo, hi) :: t, b :: l => (lo ≤ b.toNat ∧ b.toNat ≤ hi) ∧ fits t l

def firstComp (b : Nat) : Option (List (Nat × Nat)) :=
  if b ≤ 0x7F then some []
  else if 0xC2 ≤ b ∧ b ≤ 0xDF then some [(128, 191)]
  else if b = 0xE0 then some [(160, 191), (128, 191)]
  else if 0xE1 ≤ b ∧ b ≤ 0xEC then some [(128, 191), (128, 191)]
  else if b = 0xED then some [(128, 159), (128, 191)]
  else if 0xEE ≤ b ∧ b ≤ 0xEF then some [(128, 191), (128, 191)]
  else if b = 0xF0 then some [(144, 191), (128, 191), (128, 191)]
  else if 0xF1 ≤ b ∧ b ≤ 0xF3 then some [(128, 191), (128, 191), (128, 191)]
  else if b = 0xF4 then some [(128, 143), (128, 191), (128, 191)]
  else none

def stepOk (s : Nat) (b : Fin 256) : Bool :=
  let s' := utf8Step s (UInt8.ofNat b.val)
  decide (s' < 9) &&
  (if s = 0 then comp s' == firstComp b.val
   else match comp s with
     | none => comp s' == none
     | some [] => false
     | some ((lo, hi) :: t) => comp s' == (if lo ≤ b.val ∧ b.val ≤ hi then some t else none))

theorem stepOk_all : ∀ s : Fin 9, ∀ b : Fin 256, stepOk s.val b = true := by decide +kernel

theorem stepOk_byte (s : Nat) (hs : s < 9) (b : UInt8) :
    utf8Step s b < 9 ∧
    (s = 0 → comp (utf8Step s b) = firstComp b.toNat) ∧
    (s ≠ 0 → comp (utf8Step s b) = match comp s with
      | none => none
      | some [] => none
      | some ((lo, hi) :: t) => if lo ≤ b.toNat ∧ b.toNat ≤ hi then some t else none) := by
  have h := stepOk_all ⟨s, hs⟩ ⟨b.toNat, b.toNat_lt⟩
  unfold stepOk at h
  simp only [UInt8.ofNat_toNat, Bool.and_eq_true, decide_eq_true_eq] at h
  obtain ⟨h1, h2⟩ := h
  refine ⟨h1, ?_, ?_⟩
  · intro h0; rw [if_pos h0] at h2; simpa using h2
  · intro h0
    rw [if_neg h0] at h2
    split at h2
    · rename_i hc; simpa [hc] using h2
    · cases h2
    · rename_i lo hi t hc; simpa [hc] using h2

theorem le_iff (a b : UInt8) : a ≤ b ↔ a.toNat ≤ b.toNat := UInt8.le_iff_toNat_le

theorem eq_iff (a b : UInt8) : a = b ↔ a.toNat = b.toNat :=
  ⟨fun h => by rw [h], fun h => UInt8.toNat_inj.1 h⟩

theorem fits_one (lo hi : Nat) (r : List UInt8) : fits [(lo, hi)] r ↔
    ∃ b, r = [b] ∧ (lo ≤ b.toNat ∧ b.toNat ≤ hi) := by
  cases r with
  | nil => simp [fits]
  | cons b r => simp only [fits]; constructor
                · rintro ⟨h, rfl⟩; exact ⟨b, rfl, h⟩
                · rintro ⟨b', h, h'⟩; injection h with h1 h2; subst h1; exact ⟨h', h2⟩

theorem fits_cons (x : Nat × Nat) (t : List (Nat × Nat)) (r : List UInt8) : fits (x :: t) r ↔
    ∃ b r', r = b :: r' ∧ (x.1 ≤ b.toNat ∧ b.toNat ≤ x.2) ∧ fits t r' := by
  cases r with
  | nil => simp [fits]
  | cons b r =>
    simp only [fits]
    constructor
    · rintro ⟨h, h'⟩; exact ⟨b, r, rfl, h, h'⟩
    · rintro ⟨b', r', h, h1, h2⟩; injection h with e1 e2; subst e1; subst e2; exact ⟨h1, h2⟩

theorem isChar_cons (b : UInt8) (r : List UInt8) :
    IsChar (b :: r) ↔ ∃ c, firstComp b.toNat = some c ∧ fits c r := by
  constructor
  · intro h
    generalize hl : b :: r = l at h
    cases h with
    | ascii h =>
      injection hl with e1 e2; subst e1; subst e2
      simp only [Tail, le_iff, UInt8.reduceToNat] at *
      exact ⟨[], by unfold firstComp; rw [if_pos h], rfl⟩
    | two h1 h2 =>
      injection hl with e1 e2; subst e1; subst e2
      simp only [Tail, le_iff, UInt8.reduceToNat] at *
      exact ⟨[(128, 191)], by unfold firstComp; rw [if_neg (by omega), if_pos h1], h2, rfl⟩
    | threeE0 h1 h2 =>
      injection hl with e1 e2; subst e1; subst e2
      simp only [Tail, le_iff, UInt8.reduceToNat] at *
      exact ⟨[(160, 191), (128, 191)], by decide, h1, h2, rfl⟩
    | threeE1 h1 h2 h3 =>
      injection hl with e1 e2; subst e1; subst e2
      simp only [Tail, le_iff, UInt8.reduceToNat] at *
      exact ⟨[(128, 191), (128, 191)], by
        unfold firstComp
        rw [if_neg (by omega), if_neg (by omega), if_neg (by omega), if_pos h1], h2, h3, rfl⟩
    | threeED h1 h2 =>
      injection hl with e1 e2; subst e1; subst e2
      simp only [Tail, le_iff, UInt8.reduceToNat] at *
      exact ⟨[(128, 159), (128, 191)], by decide, h1, h2, rfl⟩
    | threeEE h1 h2 h3 =>
      injection hl with e1 e2; subst e1; subst e2
      simp only [Tail, le_iff, UInt8.reduceToNat] at *
      exact ⟨[(128, 191), (128, 191)], by
        unfold firstComp
        rw [if_neg (by omega), if_neg (by omega), if_neg (by omega), if_neg (by omega),
          if_neg (by omega), if_pos h1], h2, h3, rfl⟩
    | fourF0 h1 h2 h3 =>
      injection hl with e1 e2; subst e1; subst e2
      simp only [Tail, le_iff, UInt8.reduceToNat] at *
      exact ⟨[(144, 191), (128, 191), (128, 191)], by decide, h1, h2, h3, rfl⟩
    | fourF1 h1 h2 h3 h4 =>
      injection hl with e1 e2; subst e1; subst e2
      simp only [Tail, le_iff, UInt8.reduceToNat] at *
      exact ⟨[(128, 191), (128, 191), (128, 191)], by
        unfold firstComp
        rw [if_neg (by omega), if_neg (by omega), if_neg (by omega), if_neg (by omega),
          if_neg (by omega), if_neg (by omega), if_neg (by omega), if_pos h1], h2, h3, h4, rfl⟩
    | fourF4 h1 h2 h3 =>
      injection hl with e1 e2; subst e1; subst e2
      simp only [Tail, le_iff, UInt8.reduceToNat] at *
      exact ⟨[(128, 143), (128, 191), (128, 191)], by decide, h1, h2, h3, rfl⟩
  · rintro ⟨c, hc, hf⟩
    unfold firstComp at hc
    repeat' split at hc
    all_goals first
      | (cases hc; done)
      | skip
    all_goals
      injection hc with hc
      subst hc
      try simp only [fits_cons] at hf
      simp only [fits] at hf
    · subst hf; exact .ascii (by rw [le_iff]; simpa using ‹b.toNat ≤ 127›)
    · obtain ⟨b1, r1, rfl, h1, rfl⟩ := hf
      refine .two ?_ ?_ <;> simp only [Tail, le_iff] <;> simpa using ‹_›
    · obtain ⟨b1, r1, rfl, h1, b2, r2, rfl, h2, rfl⟩ := hf
      have : b = 0xE0 := by rw [eq_iff]; simpa using ‹b.toNat = 0xE0›
      subst this
      refine .threeE0 ?_ ?_ <;> simp only [Tail, le_iff] <;> simpa
    · obtain ⟨b1, r1, rfl, h1, b2, r2, rfl, h2, rfl⟩ := hf
      refine .threeE1 ?_ ?_ ?_ <;> simp only [Tail, le_iff] <;> simpa using ‹_›
    · obtain ⟨b1, r1, rfl, h1, b2, r2, rfl, h2, rfl⟩ := hf
      have : b = 0xED := by rw [eq_iff]; simpa using ‹b.toNat = 0xED›
      subst this
      refine .threeED ?_ ?_ <;> simp only [Tail, le_iff] <;> simpa
    · obtain ⟨b1, r1, rfl, h1, b2, r2, rfl, h2, rfl⟩ := hf
      refine .threeEE ?_ ?_ ?_ <;> simp only [Tail, le_iff] <;> simpa using ‹_›
    · obtain ⟨b1, r1, rfl, h1, b2, r2, rfl, h2, b3, r3, rfl, h3, rfl⟩ := hf
      have : b = 0xF0 := by rw [eq_iff]; simpa using ‹b.toNat = 0xF0›
      subst this
      refine .fourF0 ?_ ?_ ?_ <;> simp only [Tail, le_iff] <;> simpa
    · obtain ⟨b1, r1, rfl, h1, b2, r2, rfl, h2, b3, r3, rfl, h3, rfl⟩ := hf
      refine .fourF1 ?_ ?_ ?_ ?_ <;> simp only [Tail, le_iff] <;> simpa using ‹_›
    · obtain ⟨b1, r1, rfl, h1, b2, r2, rfl, h2, b3, r3, rfl, h3, rfl⟩ := hf
      have : b = 0xF4 := by rw [eq_iff]; simpa using ‹b.toNat = 0xF4›
      subst this
      refine .fourF4 ?_ ?_ ?_ <;> simp only [Tail, le_iff] <;> simpa

theorem wf_cons (b : UInt8) (l : List UInt8) :
    WellFormed (b :: l) ↔ ∃ r l', l = r ++ l' ∧ IsChar (b :: r) ∧ WellFormed l' := by
  constructor
  · intro h
    generalize hl : b :: l = q at h
    cases h with
    | nil => cases hl
    | char hc hw =>
      rename_i c l'
      cases c with
      | nil => cases hc
      | cons x c =>
        injection hl with e1 e2
        subst e1
        exact ⟨c, l', e2, hc, hw⟩
  · rintro ⟨r, l', rfl, hc, hw⟩
    exact .char hc hw

def run (s : Nat) (l : List UInt8) : Nat := l.foldl utf8Step s

theorem run_spec : ∀ (l : List UInt8) (s : Nat), s < 9 →
    (run s l = 0 ↔ ∃ r l', l = r ++ l' ∧ (∃ c, comp s = some c ∧ fits c r) ∧ WellFormed l') := by
  intro l
  induction l with
  | nil =>
    intro s hs
    have : ∀ s : Fin 9, comp s.val = some [] ↔ s.val = 0 := by decide
    have hc := this ⟨s, hs⟩
    simp only at hc
    constructor
    · intro h
      have h0 : s = 0 := h
      exact ⟨[], [], rfl, ⟨[], hc.2 h0, rfl⟩, .nil⟩
    · rintro ⟨r, l', h, ⟨c, h1, h2⟩, _⟩
      have : r = [] := by cases r <;> simp_all
      subst this
      cases c with
      | nil => exact hc.1 h1
      | cons => simp [fits] at h2
  | cons b l ih =>
    intro s hs
    obtain ⟨h1, h2, h3⟩ := stepOk_byte s hs b
    have : run s (b :: l) = run (utf8Step s b) l := rfl
    rw [this, ih _ h1]
    by_cases h0 : s = 0
    · subst h0
      rw [h2 rfl]
      constructor
      · rintro ⟨r, l', rfl, hc, hw⟩
        exact ⟨[], b :: (r ++ l'), rfl, ⟨[], rfl, rfl⟩,
          (wf_cons _ _).2 ⟨r, l', rfl, (isChar_cons _ _).2 hc, hw⟩⟩
      · rintro ⟨r, l', h, ⟨c, e, hf⟩, hw⟩
        injection e with e; subst e
        simp only [fits] at hf
        subst hf
        simp only [List.nil_append] at h
        subst h
        obtain ⟨r, l', rfl, hc, hw⟩ := (wf_cons _ _).1 hw
        exact ⟨r, l', rfl, (isChar_cons _ _).1 hc, hw⟩
    · rw [h3 h0]
      have : ∀ s : Fin 9, comp s.val = some [] ↔ s.val = 0 := by decide
      have hc0 := this ⟨s, hs⟩
      simp only at hc0
      cases hcs : comp s with
      | none => simp
      | some c =>
        cases c with
        | nil => exact absurd (hc0.1 hcs) h0
        | cons x t =>
          obtain ⟨lo, hi⟩ := x
          simp only
          constructor
          · rintro ⟨r, l', rfl, ⟨c, e, hf⟩, hw⟩
            split at e
            · rename_i hb
              injection e with e; subst e
              exact ⟨b :: r, l', rfl, ⟨_, rfl, hb, hf⟩, hw⟩
            · cases e
          · rintro ⟨r, l', h, ⟨c, e, hf⟩, hw⟩
            injection e with e; subst e
            obtain ⟨b', r', rfl, hb, hf'⟩ := (fits_cons _ _ _).1 hf
            injection h with e1 e2
            subst e1
            exact ⟨r', l', e2, ⟨t, by simp only [if_pos hb], hf'⟩, hw⟩

theorem run_zero_iff (l : List UInt8) : run 0 l = 0 ↔ WellFormed l := by
  rw [run_spec l 0 (by omega)]
  constructor
  · rintro ⟨r, l', rfl, ⟨c, e, hf⟩, hw⟩
    injection e with e; subst e
    simp only [fits] at hf
    subst hf
    exact hw
  · intro h
    exact ⟨[], l, rfl, ⟨[], rfl, rfl⟩, h⟩

/-- The loop, relative to the text already read. -/
theorem utf8Loop_spec (rest : List UInt8) :
    ∀ (s : List UInt8) (pre : List UInt8) (room len : Nat), (∀ b ∈ s, b ≠ 0) →
    (∀ b ∈ pre, b ≠ 0) →
    (room < s.length ∨ (∃ t, rest = 0 :: t) ∨ (room = s.length ∧ rest ≠ [])) →
    (len ≤ pre.length ∧ WellFormed (pre.take len) ∧
      ∀ j, j ≤ pre.length → WellFormed (pre.take j) → j ≤ len) →
    ∃ k, utf8Loop (s ++ rest) room (run 0 pre) pre.length len = some k ∧
      LongestPrefix (pre ++ s) (pre.length + room) k := by
  intro s
  induction s with
  | nil =>
    intro pre room len _ _ hend ⟨h1, h2, h3⟩
    have key : LongestPrefix (pre ++ []) (pre.length + room) len := by
      simp only [List.append_nil]
      exact ⟨by omega, h1, h2, fun j _ hj hw => h3 j hj hw⟩
    refine ⟨len, ?_, key⟩
    simp only [List.nil_append]
    rcases hend with h | ⟨t, rfl⟩ | ⟨h, hne⟩
    · simp at h
    · simp [utf8Loop]
    · cases rest with
      | nil => exact absurd rfl hne
      | cons b t =>
        simp at h
        subst h
        unfold utf8Loop
        split <;> rfl
  | cons b s ih =>
    intro pre room len hs hpre hend ⟨h1, h2, h3⟩
    have hb : b ≠ 0 := hs b (by simp)
    rw [List.cons_append]
    unfold utf8Loop
    simp only [hb, if_false]
    cases room with
    | zero =>
      refine ⟨len, rfl, ?_⟩
      refine ⟨by omega, by simp; omega, ?_, ?_⟩
      · rw [List.take_append_of_le_length h1]; exact h2
      · intro j hj _ hw
        have hj : j ≤ pre.length := by omega
        rw [List.take_append_of_le_length hj] at hw
        exact h3 j hj hw
    | succ room =>
      simp only
      have hrun : utf8Step (run 0 pre) b = run 0 (pre ++ [b]) := by simp [run]
      rw [hrun]
      have hl : pre.length + 1 = (pre ++ [b]).length := by simp
      have hw := run_zero_iff (pre ++ [b])
      have inv : (let len' := (if run 0 (pre ++ [b]) = 0 then pre.length + 1 else len)
          len' ≤ (pre ++ [b]).length ∧ WellFormed ((pre ++ [b]).take len') ∧
          ∀ j, j ≤ (pre ++ [b]).length → WellFormed ((pre ++ [b]).take j) → j ≤ len') := by
        simp only
        by_cases hz : run 0 (pre ++ [b]) = 0
        · rw [if_pos hz]
          refine ⟨by omega, ?_, fun j hj _ => by omega⟩
          rw [hl, List.take_length]
          exact hw.1 hz
        · rw [if_neg hz]
          refine ⟨by omega, ?_, ?_⟩
          · rw [List.take_append_of_le_length h1]; exact h2
          · intro j hj hwj
            by_cases hjl : j ≤ pre.length
            · rw [List.take_append_of_le_length hjl] at hwj
              exact h3 j hjl hwj
            · have : j = (pre ++ [b]).length := by omega
              rw [this, List.take_length] at hwj
              exact absurd (hw.2 hwj) hz
      obtain ⟨k, hk, hlp⟩ := ih (pre ++ [b]) room
        (if run 0 (pre ++ [b]) = 0 then pre.length + 1 else len)
        (fun x hx => hs x (by simp [hx]))
        (by intro x hx; simp only [List.mem_append, List.mem_singleton] at hx
            rcases hx with hx | rfl
            · exact hpre x hx
            · exact hb)
        (by rcases hend with h | h | ⟨h, h'⟩
            · left; simp at h; exact h
            · right; left; exact h
            · right; right; simp at h; exact ⟨h, h'⟩) inv
      refine ⟨k, ?_, ?_⟩
      · rw [← hl] at hk; exact hk
      · have e1 : pre ++ b :: s = pre ++ [b] ++ s := by simp
        have e2 : pre.length + (room + 1) = (pre ++ [b]).length + room := by simp; omega
        rw [e1, e2]; exact hlp

/-- `utf8length_int` on readable memory `s ++ rest` with `s` NUL-free. -/
theorem utf8Length_spec (s rest : List UInt8) (length : Int) (hs : ∀ b ∈ s, b ≠ 0)
    (hend : length.toNat < s.length ∨ (∃ t, rest = 0 :: t) ∨ (length.toNat = s.length ∧ rest ≠ [])) :
    ∃ k, utf8Length (s ++ rest) length = some k ∧ LongestPrefix s length.toNat k := by
  obtain ⟨k, h1, h2⟩ := utf8Loop_spec rest s [] length.toNat 0 hs (by simp) hend
    ⟨by simp, by simpa using WellFormed.nil, by simp⟩
  exact ⟨k, h1, by simpa using h2⟩

theorem utf8Loop_overread : ∀ (s : List UInt8) (st off len : Nat), (∀ b ∈ s, b ≠ 0) →
    utf8Loop s s.length st off len = none := by
  intro s
  induction s with
  | nil => intros; rfl
  | cons b s ih =>
    intro st off len hs
    unfold utf8Loop
    simp only [hs b (by simp), if_false, List.length_cons]
    exact ih _ _ _ (fun x hx => hs x (by simp [hx]))

theorem cleanLoop_spec : ∀ (k : Nat) (s rest dest : List UInt8), (∀ b ∈ s, b ≠ 0) → k ≤ s.length →
    cleanLoop k (s ++ rest) dest = some (dest ++ (s.take k).filter (· ≠ 32)) := by
  intro k
  induction k with
  | zero => intro s rest dest _ _; cases s <;> simp [cleanLoop]
  | succ k ih =>
    intro s rest dest hs hk
    cases s with
    | nil => simp at hk
    | cons b s =>
      simp only [List.cons_append, cleanLoop, hs b (by simp), if_false]
      rw [ih s rest _ (fun x hx => hs x (by simp [hx])) (by simpa using hk)]
      by_cases hb : b = 32 <;> simp [hb]

theorem tailLoop_pos : ∀ (l : List UInt8) (n : Nat) (dest : List UInt8),
    tailLoop l (n + 1) dest = (l.reverse ++ dest, n + 1 + l.length) := by
  intro l
  induction l with
  | nil => intro n dest; simp [tailLoop]
  | cons b l ih =>
    intro n dest
    unfold tailLoop
    rw [if_neg (by omega), ih]
    simp; omega

theorem tailLoop_spec : ∀ (l : List UInt8) (dest : List UInt8),
    ∃ kept j, l = List.replicate j 32 ++ kept ∧ kept.head? ≠ some 32 ∧
      tailLoop l 0 dest = (kept.reverse ++ (List.replicate j 0 ++ dest), kept.length) := by
  intro l
  induction l with
  | nil => intro dest; exact ⟨[], 0, rfl, by simp, rfl⟩
  | cons b l ih =>
    intro dest
    by_cases hb : b = 32
    · subst hb
      obtain ⟨kept, j, h1, h2, h3⟩ := ih (0 :: dest)
      refine ⟨kept, j + 1, ?_, h2, ?_⟩
      · rw [h1]; simp [List.replicate_succ]
      · unfold tailLoop
        simp only [and_self, if_true]
        rw [h3]
        simp only [Prod.mk.injEq, and_true]
        rw [List.replicate_succ']
        simp
    · refine ⟨b :: l, 0, rfl, by simpa using hb, ?_⟩
      unfold tailLoop
      rw [if_neg (by simp [hb]), tailLoop_pos]
      simp; omega

theorem openLoop_spec : ∀ (n k : Nat) (s rest : List UInt8), k ≤ s.length → k ≤ n →
    openLoop n k (s ++ rest) = (s.take k ++ List.replicate (n - k) 32, k) := by
  intro n
  induction n with
  | zero => intro k s rest _ hk; have : k = 0 := by omega
            subst this; simp [openLoop]
  | succ n ih =>
    intro k s rest hks hkn
    cases k with
    | zero =>
      have h0 := ih 0 s rest (by omega) (by omega)
      have : openLoop (n + 1) 0 (s ++ rest)
          = (32 :: (openLoop n 0 (s ++ rest)).1, (openLoop n 0 (s ++ rest)).2) := by
        simp [openLoop]
      rw [this, h0]
      simp [List.replicate_succ]
    | succ k =>
      cases s with
      | nil => simp at hks
      | cons b s =>
        have h0 := ih k s rest (by simpa using hks) (by omega)
        simp only [List.cons_append, openLoop, h0, List.take_succ_cons]
        simp

theorem seedchan_spec (s : List UInt8) (hs : ∀ b ∈ s, b ≠ 0) (tail : List UInt8) :
    (∀ a b c, s = [a, b, c] → seedchan2xchan (s ++ 0 :: tail) = some (some [a, 95, b, 95, c, 0])) ∧
    (s.length ≠ 3 → seedchan2xchan (s ++ 0 :: tail) = some none) := by
  match s, hs with
  | [], _ => simp [seedchan2xchan]
  | [a], hs => simp at hs; simp [seedchan2xchan, hs]
  | [a, b], hs => simp at hs; simp [seedchan2xchan, hs]
  | [a, b, c], hs => simp at hs; simp [seedchan2xchan, hs]
  | a :: b :: c :: d :: s, hs => simp at hs; simp [seedchan2xchan, hs]

theorem xchan_spec (s : List UInt8) (hs : ∀ b ∈ s, b ≠ 0) (tail : List UInt8) :
    (∀ a b c, s = [a, 95, b, 95, c] → xchan2seedchan (s ++ 0 :: tail) = some (some [a, b, c, 0])) ∧
    ((∀ a b c, s ≠ [a, 95, b, 95, c]) → xchan2seedchan (s ++ 0 :: tail) = some none) := by
  match s, hs with
  | [], _ => simp [xchan2seedchan]
  | [a], hs => simp at hs; simp [xchan2seedchan, hs]
  | [a, b], hs => simp at hs; simp [xchan2seedchan, hs]
  | [a, b, c], hs => simp at hs; simp [xchan2seedchan, hs]
  | [a, b, c, d], hs => simp at hs; simp [xchan2seedchan, hs]
  | [a, b, c, d, e], hs =>
    simp at hs; simp [xchan2seedchan, hs]
    constructor
    · rintro a1 b1 c1 rfl rfl rfl rfl rfl; simp
    · intro h
      by_cases h1 : b = 95
      · subst h1
        by_cases h2 : d = 95
        · subst h2; exact absurd rfl (h a c e rfl rfl rfl rfl)
        · simp [h2]
      · simp [h1]
  | a :: b :: c :: d :: e :: f :: s, hs => simp at hs; simp [xchan2seedchan, hs]

theorem sidPutAll_spec (sidlen : Nat) : ∀ (code buf : List UInt8),
    buf.length + code.length ≤ sidlen → sidPutAll sidlen buf code = buf ++ code := by
  intro code
  induction code with
  | nil => intro buf _; simp [sidPutAll]
  | cons c code ih =>
    intro buf h
    simp only [List.length_cons] at h
    have : sidPutAll sidlen buf (c :: code) = sidPutAll sidlen (sidPut sidlen buf c) code := rfl
    rw [this]
    unfold sidPut
    rw [if_pos (by omega), ih _ (by simp; omega)]
    simp

theorem splitUnderscore_append : ∀ (a b : List UInt8), 95 ∉ a →
    splitUnderscore (a ++ 95 :: b) = some (a, b) := by
  intro a
  induction a with
  | nil => intro b _; simp [splitUnderscore]
  | cons c a ih =>
    intro b h
    simp only [List.mem_cons, not_or] at h
    simp only [List.cons_append, splitUnderscore]
    rw [if_neg (fun e => h.1 e.symm), ih b h.2]
    rfl

theorem takeWhile_append_stop (l r : List UInt8) (h : ∀ x ∈ l, x ≠ 58) :
    (l ++ 58 :: r).takeWhile (· ≠ 58) = l := by
  induction l with
  | nil => simp
  | cons a l ih =>
    have := h a (by simp)
    simp only [List.cons_append, List.takeWhile_cons]
    simp only [ne_eq, decide_not] at ih
    simp [this, ih (fun x hx => h x (by simp [hx]))]

theorem afterLastColon_spec (s : List UInt8) (h : 58 ∉ s) :
    afterLastColon ([70, 68, 83, 78, 58] ++ s) = s := by
  unfold afterLastColon
  have : ([70, 68, 83, 78, 58] ++ s).reverse = s.reverse ++ 58 :: [78, 83, 68, 70] := by simp
  rw [this, takeWhile_append_stop _ _ (by
    intro x hx e
    subst e
    exact h (by simpa using hx))]
  simp

/-- What `ms_nslc2sid` stores when everything fits. -/
theorem nslc2sid_eq (sidlen : Nat) (net sta : List UInt8) (loc : Option (List UInt8))
    (chan xchan : List UInt8) (h16 : 16 ≤ sidlen)
    (hx : toXchan chan = xchan)
    (hfit : 5 + net.length + 1 + sta.length + 1 + (loc.getD []).length + 1 + xchan.length < sidlen) :
    nslc2sid sidlen net sta loc chan =
      some ([70, 68, 83, 78, 58] ++ (net ++ 95 :: (sta ++ 95 :: (loc.getD [] ++ 95 :: xchan))),
        5 + net.length + 1 + sta.length + 1 + (loc.getD []).length + 1 + xchan.length) := by
  have h1 := sidPutAll_spec sidlen net [70, 68, 83, 78, 58] (by simp; omega)
  have put : ∀ buf : List UInt8, buf.length < sidlen → ∀ c, sidPut sidlen buf c = buf ++ [c] := by
    intro buf hb c; unfold sidPut; rw [if_pos hb]
  have h2 := put _ (show ([70, 68, 83, 78, 58] ++ net).length < sidlen by simp; omega) 95
  have h3 := sidPutAll_spec sidlen sta ([70, 68, 83, 78, 58] ++ net ++ [95]) (by simp; omega)
  have h4 := put _ (show ([70, 68, 83, 78, 58] ++ net ++ [95] ++ sta).length < sidlen by
    simp; omega) 95
  have h5 := sidPutAll_spec sidlen (loc.getD [])
    ([70, 68, 83, 78, 58] ++ net ++ [95] ++ sta ++ [95]) (by simp; omega)
  have h6 := put _ (show ([70, 68, 83, 78, 58] ++ net ++ [95] ++ sta ++ [95] ++ loc.getD []).length
    < sidlen by simp; omega) 95
  have h7 := sidPutAll_spec sidlen xchan
    ([70, 68, 83, 78, 58] ++ net ++ [95] ++ sta ++ [95] ++ loc.getD [] ++ [95]) (by simp; omega)
  unfold nslc2sid nslcStored
  rw [if_neg (by omega)]
  simp only [hx]
  rw [h1, h2, h3, h4, h5, h6, h7]
  rw [if_neg (by omega), if_pos (by simp; omega)]
  simp
  omega

theorem sidPut_take (n : Nat) (x : List UInt8) (c : UInt8) :
    sidPut n (x.take n) c = (x ++ [c]).take n := by
  unfold sidPut
  by_cases h : x.length < n
  · rw [if_pos (by simp; omega), List.take_of_length_le (by omega),
      List.take_of_length_le (by simp; omega)]
  · rw [if_neg (by simp; omega), List.take_append_of_le_length (by omega)]

theorem sidPutAll_take (n : Nat) : ∀ (code x : List UInt8),
    sidPutAll n (x.take n) code = (x ++ code).take n := by
  intro code
  induction code with
  | nil => intro x; simp [sidPutAll]
  | cons c code ih =>
    intro x
    have : sidPutAll n (x.take n) (c :: code) = sidPutAll n (sidPut n (x.take n) c) code := rfl
    rw [this, sidPut_take, ih]
    simp

/-- The text left in the buffer is the beginning of the identifier, never more than the buffer
holds with a terminator. -/
theorem nslcStored_eq (sidlen : Nat) (net sta loc chan : List UInt8) (h : 5 ≤ sidlen) :
    nslcStored sidlen net sta loc chan =
      ([70, 68, 83, 78, 58] ++ (net ++ 95 :: (sta ++ 95 :: (loc ++ 95 :: chan)))).take (sidlen - 1) := by
  have h0 : ([70, 68, 83, 78, 58] : List UInt8) = ([70, 68, 83, 78, 58] : List UInt8).take sidlen := by
    rw [List.take_of_length_le (by simpa using h)]
  unfold nslcStored
  rw [h0]
  simp only [sidPutAll_take, sidPut_take]
  rw [← h0]
  have e : [70, 68, 83, 78, 58] ++ net ++ [95] ++ sta ++ [95] ++ loc ++ [95] ++ chan =
    [70, 68, 83, 78, 58] ++ (net ++ 95 :: (sta ++ 95 :: (loc ++ 95 :: chan))) := by simp
  rw [e]
  generalize [70, 68, 83, 78, 58] ++ (net ++ 95 :: (sta ++ 95 :: (loc ++ 95 :: chan))) = t
  by_cases hl : t.length < sidlen
  · rw [if_pos (by simp; omega), List.take_of_length_le (by omega),
      List.take_of_length_le (by omega)]
  · rw [if_neg (by simp; omega), List.dropLast_eq_take, List.take_take, List.length_take]
    congr 1; omega

end Verif.Proof.Str
