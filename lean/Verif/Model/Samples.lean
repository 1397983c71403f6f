import Verif.Model.Steim
/-!
# Model of the sample encoders and decoders other than Steim, and of their dispatch

libmseed/packdata.c:37-185, libmseed/unpackdata.c:47-180 and 600-960, libmseed/lookup.c:38-115,
libmseed/unpack.c:1275-1443 `ms_decode_data`, libmseed/pack.c:1612-1800 `msr_pack_data`.

Floating point samples are their bit patterns: assigning a `float` (`double`) copies it.  The loop
counter of the decoders is a `uint32_t`, so the model is exact for fewer than 2^32 samples;
`msr3_unpack_data` (unpack.c:1153) refuses more than 2^31-1.
-/
namespace Verif.Model.Samples
open Verif.Model.Bytes Verif.Model.Steim

/-- Conversion to `int32_t`. -/
def wrap32 (x : Int) : Int := sext 32 (bits 32 x)

/-! ## Encoders -/

/-- The loop of packdata.c:77-85, 110-118, 143-151, 176-184: the bytes stored for the samples and
the number of samples.  `put` gives the bytes of one sample, `size` is their number. -/
def encLoop {α : Type} (size : Nat) (put : α → List UInt8) : List α → Nat → List UInt8 × Nat
  | [], _ => ([], 0)
  | x :: xs, outputlength =>
    if outputlength ≥ size then
      let r := encLoop size put xs (outputlength - size)
      (put x ++ r.1, r.2 + 1)
    else ([], 0)

/-- packdata.c:37-55 `msr_encode_text`. -/
def encodeText (input : List UInt8) (outputlength : Nat) : Res (List UInt8 × Nat) :=
  if input.length = 0 then .ok ([], 0)
  else if outputlength = 0 then .err
  else
    let length := if input.length < outputlength then input.length else outputlength
    .ok (input.take length, length)

/-- packdata.c:65-89 `msr_encode_int16` (the conversion to `int16_t` keeps the low bits). -/
def encodeInt16 (hostBE swap : Bool) (input : List Int) (outputlength : Nat) :
    Res (List UInt8 × Nat) :=
  if input.length = 0 then .ok ([], 0)
  else if outputlength = 0 then .err
  else .ok (encLoop 2 (fun x => swapIf swap (hostBytes hostBE 2 (bits 16 x))) input outputlength)

/-- packdata.c:98-122 `msr_encode_int32`. -/
def encodeInt32 (hostBE swap : Bool) (input : List Int) (outputlength : Nat) :
    Res (List UInt8 × Nat) :=
  if input.length = 0 then .ok ([], 0)
  else if outputlength = 0 then .err
  else .ok (encLoop 4 (fun x => swapIf swap (hostBytes hostBE 4 (bits 32 x))) input outputlength)

/-- packdata.c:131-155 `msr_encode_float32`. -/
def encodeFloat32 (hostBE swap : Bool) (input : List Nat) (outputlength : Nat) :
    Res (List UInt8 × Nat) :=
  if input.length = 0 then .ok ([], 0)
  else if outputlength = 0 then .err
  else .ok (encLoop 4 (fun x => swapIf swap (hostBytes hostBE 4 x)) input outputlength)

/-- packdata.c:164-188 `msr_encode_float64`. -/
def encodeFloat64 (hostBE swap : Bool) (input : List Nat) (outputlength : Nat) :
    Res (List UInt8 × Nat) :=
  if input.length = 0 then .ok ([], 0)
  else if outputlength = 0 then .err
  else .ok (encLoop 8 (fun x => swapIf swap (hostBytes hostBE 8 x)) input outputlength)

/-! ## Decoders -/

/-- The loop of unpackdata.c:62-74, 98-110, 134-146, 170-182, 655-727, 791-822, 885-916, 944-957:
`insize` bytes are read and `outsize` bytes written per sample; reading outside the memory `mem` is
`oob`.  First argument: samples left. -/
def decLoop {α : Type} (insize outsize : Nat) (conv : List UInt8 → Res α) :
    Nat → Nat → List UInt8 → Res (List α)
  | 0, _, _ => .ok []
  | n + 1, outputlength, mem =>
    if outputlength ≥ outsize then
      if mem.length < insize then .oob
      else
        (conv (mem.take insize)).bind fun x =>
        (decLoop insize outsize conv n (outputlength - outsize) (mem.drop insize)).bind fun xs =>
        .ok (x :: xs)
    else .ok []

/-- unpackdata.c:47-77 `msr_decode_int16`. -/
def decodeInt16 (hostBE swap : Bool) (mem : List UInt8) (samplecount outputlength : Nat) :
    Res (List Int) :=
  if samplecount = 0 then .ok []
  else if outputlength < 4 then .err
  else decLoop 2 4 (fun b => .ok (sext 16 (hostNat hostBE (swapIf swap b))))
    samplecount outputlength mem

/-- unpackdata.c:83-113 `msr_decode_int32`. -/
def decodeInt32 (hostBE swap : Bool) (mem : List UInt8) (samplecount outputlength : Nat) :
    Res (List Int) :=
  if samplecount = 0 then .ok []
  else if outputlength < 4 then .err
  else decLoop 4 4 (fun b => .ok (sext 32 (hostNat hostBE (swapIf swap b))))
    samplecount outputlength mem

/-- unpackdata.c:119-149 `msr_decode_float32`. -/
def decodeFloat32 (hostBE swap : Bool) (mem : List UInt8) (samplecount outputlength : Nat) :
    Res (List Nat) :=
  if samplecount = 0 then .ok []
  else if outputlength < 4 then .err
  else decLoop 4 4 (fun b => .ok (hostNat hostBE (swapIf swap b))) samplecount outputlength mem

/-- unpackdata.c:155-185 `msr_decode_float64`. -/
def decodeFloat64 (hostBE swap : Bool) (mem : List UInt8) (samplecount outputlength : Nat) :
    Res (List Nat) :=
  if samplecount = 0 then .ok []
  else if outputlength < 8 then .err
  else decLoop 8 8 (fun b => .ok (hostNat hostBE (swapIf swap b))) samplecount outputlength mem

/-- unpackdata.c:659-676: one GEOSCOPE 24-bit sample.  `sample32` is a union of four bytes and a
`uint32_t`: with `swapflag` the input goes to bytes 2, 1, 0, otherwise to bytes 1, 2, 3.  The value
is numerator and exponent of the divisor, before the conversion to `float`. -/
def geo24 (hostBE swap : Bool) (b : List UInt8) : Int × Nat :=
  let bytes := if swap then [b.getD 2 0, b.getD 1 0, b.getD 0 0, 0]
               else [0, b.getD 0 0, b.getD 1 0, b.getD 2 0]
  let mantissa := sext 32 (hostNat hostBE bytes)
  -- `(unsigned long)mantissa > MAX24`: a negative value is larger than any mask
  let mantissa := if mantissa < 0 ∨ mantissa > 0x7FFFFF then wrap32 (mantissa - 2 * (0x7FFFFF + 1))
                  else mantissa
  (mantissa, 0)

/-- unpackdata.c:677-712: one 16-bit GEOSCOPE sample, `gainMask` distinguishes the two formats. -/
def geo16 (gainMask : Nat) (hostBE swap : Bool) (b : List UInt8) : Int × Nat :=
  let sint := hostNat hostBE (swapIf swap b)
  let mantissa : Int := (sint &&& 0x0FFF : Nat)
  let gainrange := (sint &&& gainMask) >>> 12
  (mantissa - 2048, gainrange)

/-- unpackdata.c:619-730 `msr_decode_geoscope`; the results are numerator and exponent `e` of a
quotient `n / 2^e`, which `(float)` converts exactly if `|n| ≤ 2^24`. -/
def decodeGeoscope (hostBE swap : Bool) (mem : List UInt8) (samplecount outputlength encoding : Nat) :
    Res (List (Int × Nat)) :=
  if samplecount = 0 then .ok []
  else if outputlength = 0 then .err
  else if encoding = 12 then
    decLoop 3 4 (fun b => .ok (geo24 hostBE swap b)) samplecount outputlength mem
  else if encoding = 13 then
    decLoop 2 4 (fun b => .ok (geo16 0x7000 hostBE swap b)) samplecount outputlength mem
  else if encoding = 14 then
    decLoop 2 4 (fun b => .ok (geo16 0xf000 hostBE swap b)) samplecount outputlength mem
  else .err

/-- unpackdata.c:793-819: one CDSN sample. -/
def cdsnSample (hostBE swap : Bool) (b : List UInt8) : Res Int :=
  let sint := hostNat hostBE (swapIf swap b)
  let mantissa : Int := (sint &&& 0x3FFF : Nat)
  let gainrange := (sint &&& 0xC000) >>> 14
  let mult := if gainrange = 0 then 0 else if gainrange = 1 then 2 else if gainrange = 2 then 4 else 7
  let mantissa := wrap32 (mantissa - 0x1FFF)
  .ok (wrap32 (mantissa * 2 ^ mult))

/-- unpackdata.c:775-825 `msr_decode_cdsn`. -/
def decodeCdsn (hostBE swap : Bool) (mem : List UInt8) (samplecount outputlength : Nat) :
    Res (List Int) :=
  if samplecount = 0 then .ok []
  else if outputlength = 0 then .err
  else decLoop 2 4 (cdsnSample hostBE swap) samplecount outputlength mem

/-- unpackdata.c:887-913: one SRO sample. -/
def sroSample (hostBE swap : Bool) (b : List UInt8) : Res Int :=
  let sint := hostNat hostBE (swapIf swap b)
  let mantissa : Int := (sint &&& 0x0FFF : Nat)
  let gainrange : Int := ((sint &&& 0xF000) >>> 12 : Nat)
  let mantissa := if mantissa > 0x7FF then wrap32 (mantissa - 2 * (0x7FF + 1)) else mantissa
  let exponent := (-1 * (gainrange + 0)) + 10
  if exponent < 0 ∨ exponent > 10 then .err
  else .ok (wrap32 (mantissa * 2 ^ exponent.toNat))

/-- unpackdata.c:864-919 `msr_decode_sro`. -/
def decodeSro (hostBE swap : Bool) (mem : List UInt8) (samplecount outputlength : Nat) :
    Res (List Int) :=
  if samplecount = 0 then .ok []
  else if outputlength = 0 then .err
  else decLoop 2 4 (sroSample hostBE swap) samplecount outputlength mem

/-- unpackdata.c:946-953: one DWWSSN sample. -/
def dwwssnSample (hostBE swap : Bool) (b : List UInt8) : Res Int :=
  let sample : Int := hostNat hostBE (swapIf swap b)
  .ok (if sample > 0x7FFF then wrap32 (sample - 2 * (0x7FFF + 1)) else sample)

/-- unpackdata.c:930-960 `msr_decode_dwwssn`. -/
def decodeDwwssn (hostBE swap : Bool) (mem : List UInt8) (samplecount outputlength : Nat) :
    Res (List Int) :=
  if samplecount = 0 then .ok []
  else if outputlength = 0 then .err
  else decLoop 2 4 (dwwssnSample hostBE swap) samplecount outputlength mem

/-! ## Lookups and dispatch -/

/-- lookup.c:38-58 `ms_samplesize`. -/
def sampleSize (sampletype : Char) : Nat :=
  if sampletype = 't' ∨ sampletype = 'a' then 1
  else if sampletype = 'i' ∨ sampletype = 'f' then 4
  else if sampletype = 'd' then 8
  else 0

/-- lookup.c:73-115 `ms_encoding_sizetype`; codes from libmseed.h:1416-1428.  `none` is -1. -/
def encodingSizeType (encoding : Nat) : Option (Nat × Char) :=
  match encoding with
  | 0 => some (1, 't')
  | 1 | 3 | 10 | 11 | 16 | 30 | 32 => some (4, 'i')
  | 4 | 12 | 13 | 14 => some (4, 'f')
  | 5 => some (8, 'd')
  | _ => none

/-- lookup.c:125-195 `ms_encodingstr`. -/
def encodingStr (encoding : Nat) : String :=
  match encoding with
  | 0 => "Text"
  | 1 => "16-bit integer"
  | 2 => "24-bit integer"
  | 3 => "32-bit integer"
  | 4 => "32-bit float (IEEE single)"
  | 5 => "64-bit float (IEEE double)"
  | 10 => "STEIM-1 integer compression"
  | 11 => "STEIM-2 integer compression"
  | 12 => "GEOSCOPE Muxed 24-bit integer"
  | 13 => "GEOSCOPE Muxed 16/3-bit gain/exp"
  | 14 => "GEOSCOPE Muxed 16/4-bit gain/exp"
  | 15 => "US National Network compression"
  | 16 => "CDSN 16-bit gain ranged"
  | 17 => "Graefenberg 16-bit gain ranged"
  | 18 => "IPG - Strasbourg 16-bit gain"
  | 19 => "STEIM-3 integer compression"
  | 30 => "SRO gain ranged"
  | 31 => "HGLP"
  | 32 => "DWWSSN"
  | 33 => "RSTN 16 bit gain ranged"
  | _ => "Unknown"

/-- Samples in memory.  `quotients` are the floats computed by the GEOSCOPE decoder. -/
inductive Samples where
  | text (b : List UInt8)
  | ints (v : List Int)
  | floats (v : List Nat)
  | doubles (v : List Nat)
  | quotients (v : List (Int × Nat))
deriving DecidableEq, Repr

/-- Number of samples. -/
def Samples.count : Samples → Nat
  | .text b => b.length
  | .ints v => v.length
  | .floats v => v.length
  | .doubles v => v.length
  | .quotients v => v.length

/-- Apply a constructor to the result of a decoder and check the sample count
(unpack.c:1434-1439). -/
def finish {α : Type} (samplecount : Nat) (mk : List α → Samples) (r : Res (List α)) : Res Samples :=
  r.bind fun v => if v.length = samplecount then .ok (mk v) else .err

/-- unpack.c:1299-1300: 0 for an unknown encoding. -/
def decodedSampleSize (encoding : Nat) : Nat :=
  match encodingSizeType encoding with
  | some (s, _) => s
  | none => 0

/-- unpack.c:1313-1432: the `switch` of `ms_decode_data`, with the final check of the sample count.
Diagnostic output is not modelled; the warning of the Steim decoders does not affect the result. -/
def decodeBy (hostBE swap : Bool) (mem : List UInt8) (inputsize samplecount decodedsize : Nat) :
    Nat → Res Samples
  | 0 => if mem.length < samplecount then .oob else .ok (.text (mem.take samplecount))
  | 1 => finish samplecount .ints (decodeInt16 hostBE swap mem samplecount decodedsize)
  | 3 => finish samplecount .ints (decodeInt32 hostBE swap mem samplecount decodedsize)
  | 4 => finish samplecount .floats (decodeFloat32 hostBE swap mem samplecount decodedsize)
  | 5 => finish samplecount .doubles (decodeFloat64 hostBE swap mem samplecount decodedsize)
  | 10 => finish samplecount .ints
      ((decodeSteim1 hostBE swap mem inputsize samplecount decodedsize).bind fun d => .ok d.output)
  | 11 => finish samplecount .ints
      ((decodeSteim2 hostBE swap mem inputsize samplecount decodedsize).bind fun d => .ok d.output)
  | 12 => finish samplecount .quotients (decodeGeoscope hostBE swap mem samplecount decodedsize 12)
  | 13 => finish samplecount .quotients (decodeGeoscope hostBE swap mem samplecount decodedsize 13)
  | 14 => finish samplecount .quotients (decodeGeoscope hostBE swap mem samplecount decodedsize 14)
  | 16 => finish samplecount .ints (decodeCdsn hostBE swap mem samplecount decodedsize)
  | 30 => finish samplecount .ints (decodeSro hostBE swap mem samplecount decodedsize)
  | 32 => finish samplecount .ints (decodeDwwssn hostBE swap mem samplecount decodedsize)
  | _ => .err

/-- unpack.c:1275-1443 `ms_decode_data`: `mem` is the readable memory starting at `input`, `err` any
negative return value.  Pointers are non-null.  The product of line 1303 is taken modulo 2^64. -/
def decodeData (hostBE swap : Bool) (mem : List UInt8) (inputsize encoding samplecount outputsize : Nat) :
    Res Samples :=
  if samplecount = 0 then .ok (.text [])
  else if samplecount * decodedSampleSize encoding % 2 ^ 64 > outputsize then .err
  else decodeBy hostBE swap mem inputsize samplecount
    (samplecount * decodedSampleSize encoding % 2 ^ 64) encoding

/-- pack.c:1612-1800 `msr_pack_data`: the bytes written (`byteswritten` is their number) and the
number of samples packed.  The sample type is the constructor of `Samples`.  Steim data is always
big-endian, the first difference is 0. -/
def packData (hostBE swap : Bool) (src : Samples) (maxdatabytes encoding : Nat) :
    Res (List UInt8 × Nat) :=
  match encoding, src with
  | 0, .text b => encodeText b maxdatabytes
  | 1, .ints v => if maxdatabytes < 2 then .err else encodeInt16 hostBE swap v maxdatabytes
  | 3, .ints v => if maxdatabytes < 4 then .err else encodeInt32 hostBE swap v maxdatabytes
  | 4, .floats v => if maxdatabytes < 4 then .err else encodeFloat32 hostBE swap v maxdatabytes
  | 5, .doubles v => if maxdatabytes < 8 then .err else encodeFloat64 hostBE swap v maxdatabytes
  | 10, .ints v =>
    if maxdatabytes < 64 then .err
    else (encodeSteim1 hostBE (!hostBE) v maxdatabytes 0).bind fun e => .ok (e.bytes, e.samples)
  | 11, .ints v =>
    if maxdatabytes < 64 then .err
    else (encodeSteim2 hostBE (!hostBE) v maxdatabytes 0).bind fun e => .ok (e.bytes, e.samples)
  | _, _ => .err

end Verif.Model.Samples
