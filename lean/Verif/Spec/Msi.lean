import Verif.Spec.Glob
/-!
# Specification of the program msi: which records are processed

Records are of any type; a file is a list of records with whether it was read completely.
-/
namespace Verif.Spec.Msi
open Verif.Spec.Glob

/-- At most `n` records, all if `n` is negative. -/
def limit {α : Type} (n : Int) (l : List α) : List α := if n < 0 then l else l.take n.toNat

/-- The records of the files up to the first that is not read completely, including that one. -/
def upto {α : Type} : List (List α × Bool) → List α
  | [] => []
  | (l, complete) :: t => if complete then l ++ upto t else l

/-- Some file is not read completely and the limit of `n` records is not reached before that is
noticed. -/
def Fails {α : Type} (n : Int) (files : List (List α × Bool)) : Prop :=
  (∃ f ∈ files, f.2 = false) ∧ (n < 0 ∨ ((upto files).length : Int) < n)

/-- A closed time span has an instant in common with a closed window. -/
def Meets (first last : Option Int) (start stop : Int) : Prop :=
  ∃ x, start ≤ x ∧ x ≤ stop ∧ (∀ t, first = some t → t ≤ x) ∧ ∀ t, last = some t → x ≤ t

/-- Some part of the identifier matches the pattern. -/
def Contains (val : UInt8 → Int) (pattern : List Tok) (sid : List UInt8) : Prop :=
  ∃ a m c, sid = a ++ m ++ c ∧ Matches val pattern m

end Verif.Spec.Msi
