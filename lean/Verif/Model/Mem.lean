import Verif.Model.Steim
/-!
# Checked access to a byte buffer

A buffer is the list of its bytes; access outside it is the outcome `oob`.
-/
namespace Verif.Model.Mem
open Verif.Model.Bytes Verif.Model.Steim

/-- `n` bytes at offset `off`. -/
def peek (mem : List UInt8) (off n : Nat) : Res (List UInt8) :=
  if off + n ≤ mem.length then .ok ((mem.drop off).take n) else .oob

/-- The integer of `n` bytes at offset `off`: `HOn (*(type *)(record + off), swap)`
(mseedformat.h:599-640). -/
def load (hostBE swap : Bool) (mem : List UInt8) (off n : Nat) : Res Nat :=
  (peek mem off n).bind fun b => .ok (hostNat hostBE (swapIf swap b))

/-- Overwrite the bytes at offset `off`. -/
def poke (mem : List UInt8) (off : Nat) (b : List UInt8) : Res (List UInt8) :=
  if off + b.length ≤ mem.length then .ok (mem.take off ++ b ++ mem.drop (off + b.length)) else .oob

/-- `*(type *)(record + off) = HOn (v, swap)` for an integer type of `n` bytes. -/
def store (hostBE swap : Bool) (n v : Nat) : List UInt8 := swapIf swap (hostBytes hostBE n v)

/-- A sequence of writes. -/
def pokes : List UInt8 → List (Nat × List UInt8) → Res (List UInt8)
  | mem, [] => .ok mem
  | mem, (off, b) :: ws => (poke mem off b).bind fun mem => pokes mem ws

end Verif.Model.Mem
