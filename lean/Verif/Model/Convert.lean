import Verif.Model.Steim
import Verif.Spec.Binary
/-!
# Model of the conversion of samples

`mstl3_convertsamples` (tracelist.c:1372-1508).  The sample buffer is a list of 32-bit words on a
little-endian host; `float` and `double` are IEEE 754 with rounding to nearest, ties to even
(`Spec.Binary.halfEven`), NaN is one value per sign.  Conversion to `int32_t` out of range, also of
infinities and NaN, is the outcome `ub`; access beyond the buffer is `oob`.  Memory is always available,
also for sizes of zero.
-/
namespace Verif.Model.Convert
open Verif.Model.Steim
open Verif.Spec.Binary (exponent halfEven)

/-- A floating point format: bits of precision, exponent of the smallest number, bits of the exponent. -/
structure Format where
  p : Nat
  q0 : Int
  ew : Nat

/-- `float` -/
def single : Format := ⟨24, -149, 8⟩

/-- `double` -/
def double : Format := ⟨53, -1074, 11⟩

/-- The bits of infinity, without sign. -/
def Format.infBits (f : Format) : Nat := (2 ^ f.ew - 1) * 2 ^ (f.p - 1)

/-- A floating point number. -/
inductive Fl where
  | fin (neg : Bool) (mag : Rat)
  | inf (neg : Bool)
  | nan (neg : Bool)

/-- The size of a finite number from its bits without the sign. -/
def decodeMag (f : Format) (b : Nat) : Rat :=
  if b < 2 ^ (f.p - 1) then (b : Rat) * (2 : Rat) ^ f.q0
  else ((2 ^ (f.p - 1) + b % 2 ^ (f.p - 1) : Nat) : Rat) * (2 : Rat) ^ (((b / 2 ^ (f.p - 1) : Nat) : Int) - 1 + f.q0)

/-- The number with the given bits. -/
def decode (f : Format) (bits : Nat) : Fl :=
  let top := 2 ^ (f.p - 1 + f.ew)
  let neg := decide (bits / top % 2 = 1)
  let b := bits % top
  if b < f.infBits then .fin neg (decodeMag f b) else if b = f.infBits then .inf neg else .nan neg

/-- The exponent of the unit of the last place of `x`. -/
def unitExp (f : Format) (x : Rat) : Int := max (exponent x - ((f.p : Int) - 1)) f.q0

/-- The bits, without sign, of the number nearest to a size; infinity if that is too large. -/
def encodeMag (f : Format) (x : Rat) : Nat :=
  if x = 0 then 0
  else
    let q := unitExp f x
    min ((q - f.q0).toNat * 2 ^ (f.p - 1) + (halfEven (x / (2 : Rat) ^ q)).toNat) f.infBits

/-- The bits of the number nearest to a number. -/
def encode (f : Format) : Fl → Nat
  | .fin neg x => (if neg then 2 ^ (f.p - 1 + f.ew) else 0) + encodeMag f x
  | .inf neg => (if neg then 2 ^ (f.p - 1 + f.ew) else 0) + f.infBits
  | .nan neg => (if neg then 2 ^ (f.p - 1 + f.ew) else 0) + (f.infBits + 2 ^ (f.p - 2))

/-- The value of a number that is finite. -/
def Fl.value : Fl → Option Rat
  | .fin neg x => some (if neg then -x else x)
  | _ => none

/-- The result of an operation, rounded. -/
def rounded (f : Format) (x : Rat) : Rat :=
  if x < 0 then -(decodeMag f (encodeMag f (-x))) else decodeMag f (encodeMag f x)

/-- An integer as a floating point number before rounding. -/
def ofInt (n : Int) : Fl := .fin (decide (n < 0)) (n.natAbs : Nat)

/-- `(int32_t)x` -/
def toInt32 (x : Rat) : Res Int :=
  let n := if x < 0 then -((-x).floor) else x.floor
  if -2147483648 ≤ n ∧ n ≤ 2147483647 then .ok n else .ub

/-- `(int32_t)x` of any number. -/
def flToInt32 (x : Fl) : Res Int :=
  match x.value with
  | some v => toInt32 v
  | none => .ub

/-- The word of an integer. -/
def intWord (n : Int) : UInt32 := UInt32.ofNat (n % 2 ^ 32).toNat

/-- The integer of a word. -/
def wordInt (w : UInt32) : Int := if w.toNat < 2 ^ 31 then w.toNat else (w.toNat : Int) - 2 ^ 32

/-- A word of the buffer. -/
def word (d : List UInt32) (i : Nat) : Res UInt32 :=
  match d[i]? with
  | some w => .ok w
  | none => .oob

/-- `fdata[idx]` -/
def getFloat (d : List UInt32) (i : Nat) : Res Fl :=
  (word d i).bind fun w => .ok (decode single w.toNat)

/-- `ddata[idx]` -/
def getDouble (d : List UInt32) (i : Nat) : Res Fl :=
  (word d (2 * i)).bind fun lo => (word d (2 * i + 1)).bind fun hi =>
  .ok (decode double (hi.toNat * 2 ^ 32 + lo.toNat))

/-- tracelist.c:1407, 1422 `(x - (int32_t)x) > 0.000001`; not evaluated if `truncate` is set. -/
def lossy (f : Format) (truncate : Bool) (x : Fl) : Res Bool :=
  if truncate then .ok false
  else (flToInt32 x).bind fun n =>
    match x.value with
    | some v => .ok (decide (rounded f (v - n) > rounded double (1 / 1000000)))
    | none => .ub

/-- tracelist.c:1414, 1429 `(int32_t)(x + 0.5)`; the sum is a `double` in both cases. -/
def half (x : Fl) : Res Int :=
  match x.value with
  | some v => toInt32 (rounded double (v + 1 / 2))
  | none => .ub

/-- The word that replaces a sample by an integer; `none` if precision would be lost. -/
def intOf (f : Format) (truncate : Bool) (x : Fl) : Res (Option UInt32) :=
  (lossy f truncate x).bind fun b =>
  if b then .ok none else (half x).bind fun n => .ok (some (intWord n))

/-- The word of the `float` nearest to a number. -/
def floatOf (x : Fl) : UInt32 := UInt32.ofNat (encode single x)

/-- The words of the `double` nearest to a number, low half first. -/
def doubleOf (x : Fl) : List UInt32 :=
  let b := encode double x
  [UInt32.ofNat (b % 2 ^ 32), UInt32.ofNat (b / 2 ^ 32)]

/-- The loops of tracelist.c:1404-1415, 1419-1430, 1454-1455 and 1459-1460: word `idx` of the buffer is
replaced for `idx` from `idx` to `idx + n - 1`, `false` if one of them is refused. -/
def loop (get : List UInt32 → Nat → Res (Option UInt32)) : Nat → Nat → List UInt32 → Res (Bool × List UInt32)
  | 0, _, d => .ok (true, d)
  | n + 1, idx, d =>
    (get d idx).bind fun o =>
    match o with
    | none => .ok (false, d)
    | some w => loop get n (idx + 1) (d.set idx w)

/-- The loops of tracelist.c:1486-1487 and 1493-1494 into a buffer of their own. -/
def widen (get : List UInt32 → Nat → Res Fl) (d : List UInt32) : Nat → Nat → Res (List UInt32)
  | 0, _ => .ok []
  | n + 1, idx =>
    (get d idx).bind fun x => (widen get d n (idx + 1)).bind fun rest => .ok (doubleOf x ++ rest)

/-- `idata[idx]` -/
def getInt (d : List UInt32) (i : Nat) : Res Fl :=
  (word d i).bind fun w => .ok (ofInt (wordInt w))

/-- The parts of `MS3TraceSeg` that are used. -/
structure Seg where
  sampletype : Char
  numsamples : Nat
  datasamples : List UInt32
  datasize : Nat
deriving DecidableEq

/-- tracelist.c:1432-1442, 1462-1472: the buffer made smaller, unless buffers are allocated in blocks. -/
def shrink (prealloc : Nat) (s : Seg) : Seg :=
  if prealloc = 0 then
    { s with datasamples := s.datasamples.take s.numsamples, datasize := s.numsamples * 4 }
  else s

/-- The end of the conversion in place: on failure the type stays. -/
def finish (s : Seg) (type : Char) (prealloc : Option Nat) (r : Bool × List UInt32) : Int × Seg :=
  if r.1 then
    match prealloc with
    | some b => (0, { shrink b { s with datasamples := r.2 } with sampletype := type })
    | none => (0, { s with datasamples := r.2, sampletype := type })
  else (-1, { s with datasamples := r.2 })

/-- tracelist.c:1372-1508 `mstl3_convertsamples`: the return value and the segment.  `fresh` is the
content of a new buffer. -/
def convertsamples (prealloc : Nat) (fresh : List UInt32) (s : Seg) (type : Char) (truncate : Bool) :
    Res (Int × Seg) :=
  if s.sampletype = type then .ok (0, s)
  else if s.sampletype = 't' ∨ type = 't' ∨ s.sampletype = 'a' ∨ type = 'a' then .ok (-1, s)
  else if type = 'i' then
    if s.sampletype = 'f' then
      (loop (fun d i => (getFloat d i).bind (intOf single truncate)) s.numsamples 0 s.datasamples).bind
        fun r => .ok (finish s 'i' none r)
    else if s.sampletype = 'd' then
      (loop (fun d i => (getDouble d i).bind (intOf double truncate)) s.numsamples 0 s.datasamples).bind
        fun r => .ok (finish s 'i' (some prealloc) r)
    else .ok (0, { s with sampletype := 'i' })
  else if type = 'f' then
    if s.sampletype = 'i' then
      (loop (fun d i => (getInt d i).bind fun x => .ok (some (floatOf x))) s.numsamples 0 s.datasamples).bind
        fun r => .ok (finish s 'f' none r)
    else if s.sampletype = 'd' then
      (loop (fun d i => (getDouble d i).bind fun x => .ok (some (floatOf x))) s.numsamples 0 s.datasamples).bind
        fun r => .ok (finish s 'f' (some prealloc) r)
    else .ok (0, { s with sampletype := 'f' })
  else if type = 'd' then
    let set := fun d => .ok (0, { s with sampletype := 'd', datasamples := d, datasize := s.numsamples * 8 })
    if s.sampletype = 'i' then (widen getInt s.datasamples s.numsamples 0).bind set
    else if s.sampletype = 'f' then (widen getFloat s.datasamples s.numsamples 0).bind set
    else set fresh
  else .ok (0, s)

end Verif.Model.Convert
