import Verif.Spec.PathRange
/-!
# Specification of byte ranges over HTTP

After RFC 9110, section 14: a request for `bytes=a-b` or `bytes=a-`, and the answer with
`Content-Range: bytes a-b/n`.
-/
namespace Verif.Spec.Url
open Verif.Spec.PathRange

/-- A non-empty number of at most 20 digits. -/
def Numeral (s : List UInt8) (n : Nat) : Prop := Number s ∧ s ≠ [] ∧ value s = n

/-- The value of a range header asks for the bytes from `a`, up to `b` if there is one. -/
def Asks (text : List UInt8) (a : Nat) (b : Option Nat) : Prop :=
  ∃ x y, text = x ++ 45 :: y ∧ Numeral x a ∧
    match b with
    | none => y = []
    | some n => Numeral y n

/-- A letter without its case. -/
def lower (c : UInt8) : UInt8 := if 65 ≤ c.toNat ∧ c.toNat ≤ 90 then c + 32 else c

/-- `content-range: bytes` -/
def rangeName : List UInt8 :=
  [99, 111, 110, 116, 101, 110, 116, 45, 114, 97, 110, 103, 101, 58, 32, 98, 121, 116, 101, 115]

/-- The line of a header with this name, in upper or lower case. -/
def Named (line : List UInt8) : Prop := (line.take 20).map lower = rangeName

/-- The line `Content-Range: bytes a-b/…`. -/
def ContentRange (line : List UInt8) (a b : Nat) : Prop :=
  ∃ name spaces x y rest, line = name ++ spaces ++ x ++ 45 :: y ++ 47 :: rest ∧ name.map lower = rangeName ∧
    (∀ c ∈ spaces, c = 32) ∧ Numeral x a ∧ Numeral y b

/-- The bytes from `a` to `b`. -/
def slice (content : List UInt8) (a b : Nat) : List UInt8 := (content.take (b + 1)).drop a

/-- The last byte of an answer. -/
def lastByte (n : Nat) (b : Option Nat) : Nat :=
  match b with
  | none => n - 1
  | some m => min m (n - 1)

end Verif.Spec.Url
