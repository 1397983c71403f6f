import Verif.Spec.Detect
/-!
# Specification of sound record headers

What the miniSEED manuals ask of the header of a record, for any bytes.
-/
namespace Verif.Spec.RawParse
open Verif.Spec.Detect

/-- A byte as a number. -/
def u8 (buf : List UInt8) (off : Nat) : Nat := (buf.getD off 0).toNat

/-- A little-endian number of 4 bytes. -/
def u32le (buf : List UInt8) (off : Nat) : Nat :=
  u8 buf off + 256 * u8 buf (off + 1) + 65536 * u8 buf (off + 2) + 16777216 * u8 buf (off + 3)

/-- A digit. -/
def Digit (c : Nat) : Prop := 48 ≤ c ∧ c ≤ 57

/-- A letter, a digit or a space. -/
def CodeChar (c : Nat) : Prop := Digit c ∨ (65 ≤ c ∧ c ≤ 90) ∨ (97 ≤ c ∧ c ≤ 122) ∨ c = 32

instance (c : Nat) : Decidable (Digit c) := by unfold Digit; infer_instance
instance (c : Nat) : Decidable (CodeChar c) := by unfold CodeChar; infer_instance

/-- The blockettes of fixed size: type and size (SEED manual, chapter 8). -/
def sizes : List (Nat × Nat) :=
  [(100, 12), (200, 52), (201, 60), (300, 60), (310, 60), (320, 64), (390, 28), (395, 16), (400, 16), (500, 200),
   (1000, 8), (1001, 8)]

/-- The blockette at `off` has `size` bytes.  Blockette 2000 begins with its size. -/
def Sized (be : Bool) (buf : List UInt8) (off size : Nat) : Prop :=
  (u16 be buf off, size) ∈ sizes ∨ (u16 be buf off = 2000 ∧ size = u16 be buf (off + 4))

/-- A blockette of `size` bytes at `off` that ends in the first `n` bytes.  The headers of an opaque data blockette lie in it,
the length in a blockette 1000 is less than 2^31. -/
structure Blockette (be : Bool) (buf : List UInt8) (n off size : Nat) : Prop where
  start : 48 ≤ off
  sized : Sized be buf off size
  fits : off + size ≤ n
  exponent : u16 be buf off = 1000 → u8 buf (off + 6) < 31
  headers : u16 be buf off = 2000 → 15 ≤ u16 be buf (off + 6) ∧ u16 be buf (off + 6) ≤ size

/-- A chain of blockettes beginning at an offset, with the offsets of all of them: every link leads behind the end of the
blockette, the last one is 0. -/
inductive Chain (be : Bool) (buf : List UInt8) (n : Nat) : Nat → List Nat → Prop where
  | last (off size : Nat) : Blockette be buf n off size → u16 be buf (off + 2) = 0 → Chain be buf n off [off]
  | link (off size : Nat) (offs : List Nat) : Blockette be buf n off size → off + size ≤ u16 be buf (off + 2) →
      Chain be buf n (u16 be buf (off + 2)) offs → Chain be buf n off (off :: offs)

/-- A blockette that links to itself and has no length: of a type without fixed size, or opaque data of size 0. -/
def Stuck (be : Bool) (buf : List UInt8) (off : Nat) : Prop :=
  u16 be buf (off + 2) = off ∧ u16 be buf off ∉ sizes.map (·.1) ∧ (u16 be buf off = 2000 → u16 be buf (off + 4) = 0)

/-- The record length of the last blockette 1000. -/
def recordLength (be : Bool) (buf : List UInt8) (offs : List Nat) : Option Nat :=
  ((offs.filter fun o => u16 be buf o = 1000).getLast?).map fun o => 2 ^ u8 buf (o + 6)

end Verif.Spec.RawParse
