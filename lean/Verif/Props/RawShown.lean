import Verif.Model.RawParse
import Verif.Spec.RawParse
/-!
# Theorems on the bytes of blockettes shown by `msi -z`

C146: every byte of a blockette is shown once.
-/
namespace Verif.Props.RawShown
open Verif.Model.RawParse Verif.Spec.RawParse

/-- Whether byte `p` of the blockette belongs to a field that is printed at this level of details. -/
def shows (details : Int) (p : Nat) : Item → Bool
  | .num o n => decide (o ≤ p ∧ p < o + n)
  | .text o n => decide (o ≤ p ∧ p < o + n)
  | .all o n => decide (details > 1) && decide (o ≤ p ∧ p < o + n)

/-- How often byte `p` of a blockette is shown. -/
def times (details : Int) (type p : Nat) : Nat := ((items type).filter (shows details p)).length

/-- The bytes that are shown with all details only (SEED manual, chapter 8): the reserved ones, the flags of type 100, which have
no meaning, and those of type 200. -/
def hidden : List (Nat × Nat) :=
  [(100, 8), (100, 9), (100, 10), (100, 11), (200, 16), (200, 17), (201, 17), (300, 31), (310, 14), (310, 31), (320, 14),
   (320, 27), (390, 14), (390, 27), (395, 14), (395, 15), (400, 14), (400, 15), (1000, 7), (1001, 6)]

theorem times_all (details : Int) (h : details > 1) (type p : Nat) : times details type p = times 2 type p := by
  unfold times
  have e : shows details p = shows 2 p := by
    funext i
    cases i <;> simp [shows, h]
  rw [e]

theorem times_some (details : Int) (h : ¬ details > 1) (type p : Nat) : times details type p = times 1 type p := by
  unfold times
  have e : shows details p = shows 1 p := by
    funext i
    cases i <;> simp [shows, h]
  rw [e]

/-- All bytes of all types, with all details. -/
theorem table_all : ∀ e ∈ sizes, ∀ p < e.2, times 2 e.1 p = if p < 4 then 0 else 1 := by decide +kernel

/-- All bytes of all types, with some details. -/
theorem table_some : ∀ e ∈ sizes, ∀ p < e.2, times 1 e.1 p = if p < 4 ∨ (e.1, p) ∈ hidden then 0 else 1 := by decide +kernel

/-- **C146 (bytes of blockettes, partial).** Of a blockette of fixed size every byte after the type and the link is shown exactly
once with all details; with fewer details exactly those that are reserved and the flags of types 100 and 200 are left out.  Of
opaque data (type 2000) this holds for the 11 bytes before its headers.  Missing: the text that is printed for a field. -/
theorem C146_shown_partial (details : Int) (type size p : Nat) (hs : (type, size) ∈ (2000, 15) :: sizes) (h4 : 4 ≤ p) (hp : p < size) :
    times details type p = if details > 1 ∨ (type, p) ∉ hidden then 1 else 0 := by
  have two : ∀ q < 15, 4 ≤ q → times 2 2000 q = 1 ∧ times 1 2000 q = 1 ∧ (2000, q) ∉ hidden := by decide +kernel
  rcases List.mem_cons.1 hs with e | hs
  · obtain ⟨rfl, rfl⟩ := Prod.mk.inj e
    obtain ⟨h1, h2, h3⟩ := two p hp h4
    rw [if_pos (Or.inr h3)]
    by_cases hd : details > 1
    · rw [times_all details hd, h1]
    · rw [times_some details hd, h2]
  by_cases hd : details > 1
  · rw [times_all details hd, table_all _ hs p hp, if_neg (by omega), if_pos (Or.inl hd)]
  · rw [times_some details hd, table_some _ hs p hp]
    by_cases hh : (type, p) ∈ hidden
    · rw [if_pos (Or.inr hh), if_neg (fun h => h.elim hd (fun h => h hh))]
    · rw [if_neg (fun h => h.elim (by omega) hh), if_pos (Or.inr hh)]

/-- Byte 100 of a timing blockette, within its clock status, and the reserved byte of a blockette 1000. -/
example : (500, 200) ∈ (2000, 15) :: sizes ∧ times 1 500 100 = 1 ∧ times 1 1000 7 = 0 ∧ times 2 1000 7 = 1 := by decide +kernel

/-- **C146 (other bytes).** Nothing behind a blockette of fixed size is shown, whatever the details. -/
theorem C146_nothing_else (details : Int) (type size p : Nat) (hs : (type, size) ∈ sizes) (hp : size ≤ p) : times details type p = 0 := by
  have within : ∀ e ∈ sizes, ∀ i ∈ items e.1, (match i with | .num o n => o + n | .text o n => o + n | .all o n => o + n) ≤ e.2 := by
    decide +kernel
  unfold times
  rw [List.length_eq_zero_iff, List.filter_eq_nil_iff]
  intro i hi
  have := within _ hs i hi
  cases i <;> simp [shows] at this ⊢ <;> omega

/-- The first byte after a blockette 1000. -/
example : (1000, 8) ∈ sizes ∧ times 2 1000 8 = 0 := by decide +kernel

end Verif.Props.RawShown
