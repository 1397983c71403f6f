import Verif.Model.Bytes
/-!
# Model of the Steim encoders and decoders

libmseed/packdata.c:190-724 and libmseed/unpackdata.c:191-600.  Samples are `Int` (values of
`int32_t`); a signed overflow is the outcome `ub`, an access outside an array is `oob`.  Memory is
bytes; `hostBE` is the host byte order and `swap` the `swapflag` argument.
-/
namespace Verif.Model.Steim
open Verif.Model.Bytes

/-- Outcome of a codec step. -/
inductive Res (α : Type) where
  | ok (v : α)
  /-- the function returned -1 -/
  | err
  /-- signed integer overflow -/
  | ub
  /-- access outside an array, or through a null pointer -/
  | oob
deriving DecidableEq, Repr

def Res.bind {α β} (r : Res α) (f : α → Res β) : Res β :=
  match r with
  | .ok v => f v
  | .err => .err
  | .ub => .ub
  | .oob => .oob

/-- Values of `int32_t`. -/
def fits32 (x : Int) : Bool := decide (-2147483648 ≤ x ∧ x ≤ 2147483647)

/-! ## Encoders -/

/-- packdata.c:190-208 `BITWIDTH`. -/
def bitwidth (v : Int) : Nat :=
  if v ≥ -8 ∧ v ≤ 7 then 4
  else if v ≥ -16 ∧ v ≤ 15 then 5
  else if v ≥ -32 ∧ v ≤ 31 then 6
  else if v ≥ -128 ∧ v ≤ 127 then 8
  else if v ≥ -512 ∧ v ≤ 511 then 10
  else if v ≥ -16384 ∧ v ≤ 16383 then 15
  else if v ≥ -32768 ∧ v ≤ 32767 then 16
  else if v ≥ -536870912 ∧ v ≤ 536870911 then 30
  else 32

/-- Encoder state: `diffs[0..diffcount-1]`, the sample `input[inputidx]` and the samples after it.
`bitwidth[]` always holds the widths of `diffs[]` and is not kept separately; the shift of the
buffer by `packedsamples` (packdata.c:297-302, 495-500) is done right after packing instead of at
the start of the next word (after packing, `diffcount` is always below the capacity). -/
structure Enc where
  diffs : List Int
  prev : Int
  rest : List Int
  /-- `outputsamples` -/
  outputsamples : Nat
deriving Repr

/-- packdata.c:305-310 (503-508): add new differences until the buffer holds `cap`. -/
def fill (cap : Nat) (diffs : List Int) (prev : Int) : List Int → Res (List Int × Int × List Int)
  | [] => .ok (diffs, prev, [])
  | x :: rest =>
    if diffs.length < cap then
      if fits32 (x - prev) then fill cap (diffs ++ [x - prev]) x rest
      else .ub
    else .ok (diffs, prev, x :: rest)

/-- `diffcount >= n && bitwidth[0] <= w && ... && bitwidth[n-1] <= w` (the tests with
`diffcount == cap` are the same, `diffcount` never exceeds the capacity). -/
def fitsN (n w : Nat) (diffs : List Int) : Bool :=
  decide (n ≤ diffs.length) && (diffs.take n).all fun d => decide (bitwidth d ≤ w)

/-- A packed word: the 2-bit code, the four bytes and the number of samples. -/
structure Packed where
  code : Nat
  bytes : List UInt8
  count : Nat
deriving Repr

/-- packdata.c:312-374: choose the packing of one Steim-1 word. -/
def packWord1 (hostBE swap : Bool) (diffs : List Int) : Res Packed :=
  let d := fun i => diffs.getD i 0
  if fitsN 4 8 diffs then
    .ok { code := 1, count := 4
          bytes := [UInt8.ofNat (bits 8 (d 0)), UInt8.ofNat (bits 8 (d 1)),
                    UInt8.ofNat (bits 8 (d 2)), UInt8.ofNat (bits 8 (d 3))] }
  else if fitsN 2 16 diffs then
    .ok { code := 2, count := 2
          bytes := swapIf swap (hostBytes hostBE 2 (bits 16 (d 0)))
                ++ swapIf swap (hostBytes hostBE 2 (bits 16 (d 1))) }
  else if diffs = [] then .oob   -- `diffs[0]` not set
  else .ok { code := 3, count := 1, bytes := swapIf swap (hostBytes hostBE 4 (bits 32 (d 0))) }

/-- `((uint32_t)d & mask)`. -/
def msk (d : Int) (mask : Nat) : Nat := bits 32 d &&& mask

/-- packdata.c:532-541. -/
def w7x4 (d : Nat → Int) : Nat :=
  msk (d 6) 0xF ||| (msk (d 5) 0xF) <<< 4 ||| (msk (d 4) 0xF) <<< 8 ||| (msk (d 3) 0xF) <<< 12
    ||| (msk (d 2) 0xF) <<< 16 ||| (msk (d 1) 0xF) <<< 20 ||| (msk (d 0) 0xF) <<< 24 ||| 2 <<< 30

/-- packdata.c:559-567. -/
def w6x5 (d : Nat → Int) : Nat :=
  msk (d 5) 0x1F ||| (msk (d 4) 0x1F) <<< 5 ||| (msk (d 3) 0x1F) <<< 10 ||| (msk (d 2) 0x1F) <<< 15
    ||| (msk (d 1) 0x1F) <<< 20 ||| (msk (d 0) 0x1F) <<< 25 ||| 1 <<< 30

/-- packdata.c:585-591. -/
def w5x6 (d : Nat → Int) : Nat :=
  msk (d 4) 0x3F ||| (msk (d 3) 0x3F) <<< 6 ||| (msk (d 2) 0x3F) <<< 12 ||| (msk (d 1) 0x3F) <<< 18
    ||| (msk (d 0) 0x3F) <<< 24

/-- packdata.c:631-636. -/
def w3x10 (d : Nat → Int) : Nat :=
  msk (d 2) 0x3FF ||| (msk (d 1) 0x3FF) <<< 10 ||| (msk (d 0) 0x3FF) <<< 20 ||| 3 <<< 30

/-- packdata.c:653-657. -/
def w2x15 (d : Nat → Int) : Nat :=
  msk (d 1) 0x7FFF ||| (msk (d 0) 0x7FFF) <<< 15 ||| 2 <<< 30

/-- packdata.c:673-676. -/
def w1x30 (d : Nat → Int) : Nat := msk (d 0) 0x3FFFFFFF ||| 1 <<< 30

/-- packdata.c:511-697: choose the packing of one Steim-2 word; every word except 4x8 is swapped if
requested. -/
def packWord2 (hostBE swap : Bool) (diffs : List Int) : Res Packed :=
  let d := fun i => diffs.getD i 0
  let st := fun v => swapIf swap (hostBytes hostBE 4 v)
  if fitsN 7 4 diffs then .ok { code := 3, count := 7, bytes := st (w7x4 d) }
  else if fitsN 6 5 diffs then .ok { code := 3, count := 6, bytes := st (w6x5 d) }
  else if fitsN 5 6 diffs then .ok { code := 3, count := 5, bytes := st (w5x6 d) }
  else if fitsN 4 8 diffs then
    .ok { code := 1, count := 4
          bytes := [UInt8.ofNat (bits 8 (d 0)), UInt8.ofNat (bits 8 (d 1)),
                    UInt8.ofNat (bits 8 (d 2)), UInt8.ofNat (bits 8 (d 3))] }
  else if fitsN 3 10 diffs then .ok { code := 2, count := 3, bytes := st (w3x10 d) }
  else if fitsN 2 15 diffs then .ok { code := 2, count := 2, bytes := st (w2x15 d) }
  else if fitsN 1 30 diffs then .ok { code := 2, count := 1, bytes := st (w1x30 d) }
  else .err

/-- Four zero bytes, from `memset (frameptr, 0, 64)`. -/
def zeroWord : List UInt8 := [0, 0, 0, 0]

/-- packdata.c:290-378 (488-701): the loop over words `widx .. 15` of a frame.  First argument:
`16 - widx`.  Result: the word with the codes (host value), words `widx..15`, new state. -/
def encWords (cap samplecount : Nat) (pack : List Int → Res Packed) :
    Nat → Nat → Enc → Res (Nat × List (List UInt8) × Enc)
  | 0, ctrl, s => .ok (ctrl, [], s)
  | k + 1, ctrl, s =>
    if s.outputsamples < samplecount then
      (fill cap s.diffs s.prev s.rest).bind fun (diffs, prev, rest) =>
      (pack diffs).bind fun p =>
      (encWords cap samplecount pack k (ctrl ||| p.code <<< (30 - 2 * (16 - (k + 1))))
        { diffs := diffs.drop p.count, prev, rest,
          outputsamples := s.outputsamples + p.count }).bind fun (ctrl, ws, s) =>
      .ok (ctrl, p.bytes :: ws, s)
    else .ok (ctrl, List.replicate (k + 1) zeroWord, s)

/-- packdata.c:263-384 (461-707): the frames after the first, at most as many as the first argument.
Each frame is the list of its 16 words. -/
def encFrames (hostBE swap : Bool) (cap samplecount : Nat) (pack : List Int → Res Packed) :
    Nat → Enc → Res (List (List (List UInt8)) × Enc)
  | 0, s => .ok ([], s)
  | n + 1, s =>
    if s.outputsamples < samplecount then
      (encWords cap samplecount pack 15 0 s).bind fun (ctrl, ws, s) =>
      (encFrames hostBE swap cap samplecount pack n s).bind fun (fs, s) =>
      .ok ((swapIf swap (hostBytes hostBE 4 ctrl) :: ws) :: fs, s)
    else .ok ([], s)

/-- Result of an encoder: the frames written from the start of the output, and the return value.
`byteswritten` is 64 times the number of frames. -/
structure Encoded where
  frames : List (List (List UInt8))
  samples : Nat
deriving DecidableEq, Repr

/-- The bytes written at the start of the output buffer. -/
def Encoded.bytes (e : Encoded) : List UInt8 := (e.frames.map List.flatten).flatten

/-- packdata.c:225-408 and 425-724: the two encoders differ in the capacity of the difference buffer
and in the packing of a word.  Pointers are assumed non-null.  Word 2 of the first frame (Xn) is set
at the end (packdata.c:387-390, 710-713); with no room for a frame, `Xnp` is null and swapping it is
an invalid access. -/
def encode (hostBE swap : Bool) (cap : Nat) (pack : List Int → Res Packed) (input : List Int)
    (outputlength : Nat) (diff0 : Int) : Res Encoded :=
  match input with
  | [] => .ok { frames := [], samples := 0 }
  | x0 :: rest =>
    if outputlength = 0 then .err
    else match outputlength / 64 with
      | 0 => if swap then .oob else .ok { frames := [], samples := 0 }
      | maxframes + 1 =>
        (encWords cap input.length pack 13 0
          { diffs := [diff0], prev := x0, rest, outputsamples := 0 }).bind fun (ctrl, ws, s) =>
        (encFrames hostBE swap cap input.length pack maxframes s).bind fun (fs, s) =>
        match input[s.outputsamples - 1]? with
        | none => .oob
        | some xn =>
          .ok { frames :=
                  (swapIf swap (hostBytes hostBE 4 ctrl)
                    :: swapIf swap (hostBytes hostBE 4 (bits 32 x0))
                    :: swapIf swap (hostBytes hostBE 4 (bits 32 xn)) :: ws) :: fs
                samples := s.outputsamples }

/-- packdata.c:225-408 `msr_encode_steim1`. -/
def encodeSteim1 (hostBE swap : Bool) (input : List Int) (outputlength : Nat) (diff0 : Int) :
    Res Encoded :=
  encode hostBE swap 4 (packWord1 hostBE swap) input outputlength diff0

/-- packdata.c:425-724 `msr_encode_steim2`. -/
def encodeSteim2 (hostBE swap : Bool) (input : List Int) (outputlength : Nat) (diff0 : Int) :
    Res Encoded :=
  encode hostBE swap 7 (packWord2 hostBE swap) input outputlength diff0

/-! ## Decoders -/

/-- unpackdata.c:31 `EXTRACTBITRANGE`. -/
def extract (v start len : Nat) : Nat := (v >>> start) &&& ((1 <<< len) - 1)

/-- `diff[diffidx++] = d` with an array of `cap` entries. -/
def push (cap : Nat) (diff : List Int) (d : Int) : Res (List Int) :=
  if diff.length < cap then .ok (diff ++ [d]) else .oob

/-- Several of them. -/
def pushAll (cap : Nat) (diff : List Int) : List Int → Res (List Int)
  | [] => .ok diff
  | d :: ds => (push cap diff d).bind fun diff => pushAll cap diff ds

/-- The bytes of word `widx` of the frame copy. -/
def frameWord (frame : List UInt8) (widx : Nat) : List UInt8 := (frame.drop (4 * widx)).take 4

/-- `word->d8[idx]`. -/
def d8 (w : List UInt8) (idx : Nat) : Int := sext 8 ((w.getD idx 0).toNat)

/-- `word->d16[idx]` after the optional swap. -/
def d16 (hostBE swap : Bool) (w : List UInt8) (idx : Nat) : Int :=
  sext 16 (hostNat hostBE (swapIf swap ((w.drop (2 * idx)).take 2)))

/-- A 32-bit word after the optional swap. -/
def u32 (hostBE swap : Bool) (w : List UInt8) : Nat := hostNat hostBE (swapIf swap w)

/-- unpackdata.c:264-312: one Steim-1 word. -/
def decWord1 (hostBE swap : Bool) (nibble : Nat) (w : List UInt8) (diff : List Int) :
    Res (List Int) :=
  match nibble with
  | 0 => .ok diff
  | 1 => pushAll 60 diff [d8 w 0, d8 w 1, d8 w 2, d8 w 3]
  | 2 => pushAll 60 diff [d16 hostBE swap w 0, d16 hostBE swap w 1]
  | 3 => pushAll 60 diff [sext 32 (u32 hostBE swap w)]
  | _ => .ok diff

/-- unpackdata.c:446-571: one Steim-2 word; `err` for the two undefined codes. -/
def decWord2 (hostBE swap : Bool) (nibble : Nat) (w : List UInt8) (diff : List Int) :
    Res (List Int) :=
  let v := u32 hostBE swap w
  match nibble with
  | 0 => .ok diff
  | 1 => pushAll 105 diff [d8 w 0, d8 w 1, d8 w 2, d8 w 3]
  | 2 =>
    match extract v 30 2 with
    | 0 => .err
    | 1 => pushAll 105 diff [sext 30 (extract v 0 30)]
    | 2 => pushAll 105 diff ([0, 1].map fun idx => sext 15 (extract v (15 - idx * 15) 15))
    | 3 => pushAll 105 diff ([0, 1, 2].map fun idx => sext 10 (extract v (20 - idx * 10) 10))
    | _ => .ok diff
  | 3 =>
    match extract v 30 2 with
    | 0 => pushAll 105 diff ([0, 1, 2, 3, 4].map fun idx => sext 6 (extract v (24 - idx * 6) 6))
    | 1 => pushAll 105 diff ([0, 1, 2, 3, 4, 5].map fun idx => sext 5 (extract v (25 - idx * 5) 5))
    | 2 =>
      pushAll 105 diff ([0, 1, 2, 3, 4, 5, 6].map fun idx => sext 4 (extract v (24 - idx * 4) 4))
    | 3 => .err
    | _ => .ok diff
  | _ => .ok diff

/-- unpackdata.c:257-313 (439-572): words `16-k .. 15` of a frame. -/
def decWords (dec : Nat → List UInt8 → List Int → Res (List Int)) (ctrl : Nat)
    (frame : List UInt8) : Nat → List Int → Res (List Int)
  | 0, diff => .ok diff
  | k + 1, diff =>
    let widx := 16 - (k + 1)
    (dec (extract ctrl (30 - 2 * widx) 2) (frameWord frame widx) diff).bind
      (decWords dec ctrl frame k)

/-- unpackdata.c:317-322 (576-581): apply the differences; `output` holds the samples so far,
`outcap` is the number of `int32_t` that fit the output buffer. -/
def applyDiffs (samplecount outcap : Nat) : List Int → List Int → Res (List Int)
  | [], output => .ok output
  | d :: ds, output =>
    if output.length < samplecount then
      match output.getLast? with
      | none => .oob
      | some last =>
        if ¬ fits32 (last + d) then .ub
        else if output.length < outcap then applyDiffs samplecount outcap ds (output ++ [last + d])
        else .oob
    else .ok output

/-- unpackdata.c:228-323 (403-582): the loop over frames.  `frameidx` is the current frame, `n` the
number of frames left.  `memcpy` of 64 bytes outside the input is `oob`. -/
def decFrames (hostBE swap : Bool) (dec : Nat → List UInt8 → List Int → Res (List Int))
    (input : List UInt8) (samplecount outcap : Nat) :
    Nat → Nat → List Int → Int → Res (List Int × Int)
  | 0, _, output, xn => .ok (output, xn)
  | n + 1, frameidx, output, xn =>
    if output.length < samplecount then
      if input.length < 64 * frameidx + 64 then .oob
      else
        let frame := (input.drop (64 * frameidx)).take 64
        let ctrl := u32 hostBE swap (frameWord frame 0)
        if frameidx = 0 then
          if outcap = 0 then .oob
          else
            let xn := sext 32 (u32 hostBE swap (frameWord frame 2))
            (decWords dec ctrl frame 13 []).bind fun diff =>
            (applyDiffs samplecount outcap (diff.drop 1)
              [sext 32 (u32 hostBE swap (frameWord frame 1))]).bind fun output =>
            decFrames hostBE swap dec input samplecount outcap n (frameidx + 1) output xn
        else
          (decWords dec ctrl frame 15 []).bind fun diff =>
          (applyDiffs samplecount outcap diff output).bind fun output =>
          decFrames hostBE swap dec input samplecount outcap n (frameidx + 1) output xn
    else .ok (output, xn)

/-- Result of a decoder: samples stored (their number is the return value) and whether the integrity
warning is printed. -/
structure Decoded where
  output : List Int
  warning : Bool
deriving DecidableEq, Repr

/-- unpackdata.c:191-350 and 361-600.  `input` is the readable memory, `inputlength` the argument;
`outputlength` is the size of the output buffer in bytes.  The product of line 221 (396) is taken
modulo 2^64.  Line 326 (585) reads `output[outputidx - 1]`, which is before the buffer when nothing
was stored. -/
def decode (hostBE swap : Bool) (dec : Nat → List UInt8 → List Int → Res (List Int))
    (input : List UInt8) (inputlength samplecount outputlength : Nat) : Res Decoded :=
  if inputlength / 64 = 0 then .ok { output := [], warning := false }
  else if outputlength = 0 then .err
  else if outputlength < samplecount * 4 % 2 ^ 64 then .err
  else
    (decFrames hostBE swap dec input samplecount (outputlength / 4) (inputlength / 64) 0 [] 0).bind
      fun (output, xn) =>
        if output.length = samplecount then
          match output.getLast? with
          | none => .oob
          | some last => .ok { output, warning := decide (last ≠ xn) }
        else .ok { output, warning := false }

/-- unpackdata.c:191-350 `msr_decode_steim1`. -/
def decodeSteim1 (hostBE swap : Bool) (input : List UInt8)
    (inputlength samplecount outputlength : Nat) : Res Decoded :=
  decode hostBE swap (decWord1 hostBE swap) input inputlength samplecount outputlength

/-- unpackdata.c:361-600 `msr_decode_steim2`. -/
def decodeSteim2 (hostBE swap : Bool) (input : List UInt8)
    (inputlength samplecount outputlength : Nat) : Res Decoded :=
  decode hostBE swap (decWord2 hostBE swap) input inputlength samplecount outputlength

end Verif.Model.Steim
