/-!
# Host memory representation of integers

`hostBE` says whether the host is big-endian.  A stored integer is the list of its bytes in memory
order.
-/
namespace Verif.Model.Bytes

/-- Big-endian number. -/
def beNat (b : List UInt8) : Nat := b.foldl (fun a x => 256 * a + x.toNat) 0

/-- Value loaded by the host from `b`. -/
def hostNat (hostBE : Bool) (b : List UInt8) : Nat := if hostBE then beNat b else beNat b.reverse

/-- The `n` low-order bytes of `v`, high-order first. -/
def beBytes : Nat → Nat → List UInt8
  | 0, _ => []
  | n + 1, v => beBytes n (v / 256) ++ [UInt8.ofNat (v % 256)]

/-- Bytes stored by the host for the `n`-byte integer `v`. -/
def hostBytes (hostBE : Bool) (n v : Nat) : List UInt8 :=
  if hostBE then beBytes n v else (beBytes n v).reverse

/-- `if (swapflag) ms_gswapN (ptr)`: byte reversal in place (libmseed.h `ms_gswap2/4/8`). -/
def swapIf (swap : Bool) (b : List UInt8) : List UInt8 := if swap then b.reverse else b

/-- The `n`-bit pattern of a signed value (conversion to an unsigned type). -/
def bits (n : Nat) (v : Int) : Nat := (v % 2 ^ n).toNat

/-- The signed value of an `n`-bit pattern (conversion to a signed type, sign extension of a
bit-field). -/
def sext (n v : Nat) : Int :=
  let r := v % 2 ^ n
  if r < 2 ^ (n - 1) then r else (r : Int) - 2 ^ n

end Verif.Model.Bytes
