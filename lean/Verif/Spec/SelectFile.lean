import Verif.Spec.Select
import Verif.Spec.TimeStr
/-!
# Independent specification: the text of selection files

Lines of fields separated by space, times as text, files of lines.  Nothing here refers to the C code or to
the model.
-/
namespace Verif.Spec.SelectFile
open Verif.Spec Verif.Spec.TimeStr

/-- White space: blank, tab, newline, vertical tab, form feed, carriage return. -/
def Space (b : UInt8) : Prop := b.toNat = 32 ∨ (9 ≤ b.toNat ∧ b.toNat ≤ 13)

instance (b : UInt8) : Decidable (Space b) := by unfold Space; infer_instance

/-- Nothing but white space. -/
def Blank (s : List UInt8) : Prop := ∀ b ∈ s, Space b

/-- Something without white space. -/
def Field (f : List UInt8) : Prop := f ≠ [] ∧ ∀ b ∈ f, ¬ Space b

/-- The text consists of the fields, separated by white space. -/
inductive Parts : List (List UInt8) → List UInt8 → Prop
  | nil {ws : List UInt8} : Blank ws → Parts [] ws
  | cons {ws f rest : List UInt8} {fs : List (List UInt8)} : Blank ws → Field f →
      (∀ b u, rest = b :: u → Space b) → Parts fs rest → Parts (f :: fs) (ws ++ (f ++ rest))

/-- The characters of bytes. -/
def text (f : List UInt8) : List Char := f.map fun b => Char.ofNat b.toNat

/-- A byte that is a decimal digit. -/
def DigitByte (b : UInt8) : Prop := 48 ≤ b.toNat ∧ b.toNat ≤ 57

instance (b : UInt8) : Decidable (DigitByte b) := by unfold DigitByte; infer_instance

/-- The field begins like a date: four digits, one of `-`, `/` and `,` and a digit. -/
def DateLike (f : List UInt8) : Prop :=
  ∃ a b c d s e u, f = a :: b :: c :: d :: s :: e :: u ∧ DigitByte a ∧ DigitByte b ∧ DigitByte c ∧
    DigitByte d ∧ (s = 45 ∨ s = 47 ∨ s = 44) ∧ DigitByte e

/-- A date with a year of four digits, maybe with a time of day, and the instant it names. -/
inductive TimeText : List Char → Int → Prop
  | monthDay {ys ms ds clk z : List Char} {a b : Char} {y mo d h m s n : Nat} : ys.length = 4 →
      Numeral ys y → Numeral ms mo → Numeral ds d → (a = '-' ∨ a = '/') → (b = '-' ∨ b = '/') →
      Clock ['T'] [':'] clk h m s n → Suffix z →
      (ys ++ a :: (ms ++ b :: (ds ++ (clk ++ z)))).length ≤ 32 →
      (1678 ≤ y ∧ y ≤ 2262) → (1 ≤ mo ∧ mo ≤ 12) → (1 ≤ d ∧ (d : Int) ≤ monthLen y mo) →
      h ≤ 23 → m ≤ 59 → s ≤ 60 → InInt64 (Fields.instant ⟨y, daysBeforeMonth y mo + d, h, m, s, n⟩) →
      TimeText (ys ++ a :: (ms ++ b :: (ds ++ (clk ++ z))))
        (Fields.instant ⟨y, daysBeforeMonth y mo + d, h, m, s, n⟩)
  | ordinal {ys ds clk z : List Char} {y d h m s n : Nat} : ys.length = 4 →
      Numeral ys y → Numeral ds d → Clock ['T'] [':'] clk h m s n → Suffix z →
      (ys ++ '-' :: (ds ++ (clk ++ z))).length ≤ 32 →
      (1678 ≤ y ∧ y ≤ 2262) → (1 ≤ d ∧ (d : Int) ≤ yearLen y) →
      h ≤ 23 → m ≤ 59 → s ≤ 60 → InInt64 (Fields.instant ⟨y, d, h, m, s, n⟩) →
      TimeText (ys ++ '-' :: (ds ++ (clk ++ z))) (Fields.instant ⟨y, d, h, m, s, n⟩)
  | seed {ys ds clk z : List Char} {y d h m s n : Nat} : ys.length = 4 →
      Numeral ys y → Numeral ds d → Clock ['T', ',', ':'] [',', ':'] clk h m s n → Suffix z →
      (ys ++ ',' :: (ds ++ (clk ++ z))).length ≤ 32 →
      (1678 ≤ y ∧ y ≤ 2262) → (1 ≤ d ∧ (d : Int) ≤ yearLen y) →
      h ≤ 23 → m ≤ 59 → s ≤ 60 → InInt64 (Fields.instant ⟨y, d, h, m, s, n⟩) →
      TimeText (ys ++ ',' :: (ds ++ (clk ++ z))) (Fields.instant ⟨y, d, h, m, s, n⟩)

/-- The text of a file of lines, each ended by a newline but maybe the last. -/
def fileText (lines : List (List UInt8)) (last : Bool) : List UInt8 :=
  match lines with
  | [] => []
  | [s] => if last then s ++ [10] else s
  | s :: l => s ++ 10 :: fileText l last

/-- A line of the kind expected in a file: ASCII without NUL and newline, at most 197 bytes. -/
structure LineText (s : List UInt8) : Prop where
  bytes : ∀ b ∈ s, 1 ≤ b.toNat ∧ b.toNat ≤ 127 ∧ b ≠ 10
  short : s.length ≤ 197

end Verif.Spec.SelectFile
