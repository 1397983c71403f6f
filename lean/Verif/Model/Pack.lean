import Verif.Model.Record3
/-!
# Model of packing samples into version 3 records

libmseed/pack.c:105-143 `msr3_pack` (version 3 branch) and pack.c:154-372 `msr3_pack_mseed3`.
Pointers are non-null and allocation succeeds.  The memory of the record buffer after its first 40
bytes is not initialised: its content is the argument `junk`.  `msr->numsamples` is the number of
samples in `msr->datasamples`.
-/
namespace Verif.Model.Pack
open Verif.Model.Bytes Verif.Model.Steim Verif.Model.Samples Verif.Model.Mem Verif.Model.Record3

/-- The samples from index `n` on: `(char *)msr->datasamples + packoffset`, `packoffset` being
`n * samplesize`. -/
def dropSamples (n : Nat) : Samples → Samples
  | .text b => .text (b.drop n)
  | .ints v => .ints (v.drop n)
  | .floats v => .floats (v.drop n)
  | .doubles v => .doubles (v.drop n)
  | .quotients v => .quotients (v.drop n)

/-- The first `n` samples. -/
def takeSamples (n : Nat) : Samples → Samples
  | .text b => .text (b.take n)
  | .ints v => .ints (v.take n)
  | .floats v => .floats (v.take n)
  | .doubles v => .doubles (v.take n)
  | .quotients v => .quotients (v.take n)

/-- pack.c:200, lookup.c:38-58: the size of the samples. -/
def typeSize : Samples → Nat
  | .text _ => sampleSize 't'
  | .ints _ => sampleSize 'i'
  | .floats _ => sampleSize 'f'
  | .doubles _ => sampleSize 'd'
  | .quotients _ => sampleSize 'f'

/-- pack.c:283: the sample count is converted to `int` and then to the `uint64_t` parameter of
`msr_pack_data`.  A negative `int` becomes a count above 2^63, with which the encoders stop at the
end of the output (at most 10485760 bytes, fewer samples than the at least 2^31 available). -/
def passed (src : Samples) : Samples :=
  if src.count % 2 ^ 32 < 2 ^ 31 then takeSamples (src.count % 2 ^ 32) src else src

/-- What a packer does: the records passed to the handler in order, `*packedsamples` afterwards and
the return value. -/
structure Packing where
  records : List (List UInt8)
  packed : Nat
  ret : Int
deriving DecidableEq, Repr

/-- A record followed by what is packed after it. -/
def Packing.after (record : List UInt8) (p : Packing) : Packing :=
  { records := record :: p.records, packed := p.packed,
    ret := if p.ret < 0 then p.ret else p.ret + 1 }

/-- pack.c:294-317: complete the record in the buffer with `n` samples encoded as `data`; the buffer
and the record passed to the handler. -/
def finishRecord (hostBE : Bool) (buf : List UInt8) (dataoffset : Nat) (data : List UInt8) (n : Nat) :
    Res (List UInt8 × List UInt8) :=
  (poke buf dataoffset data).bind fun buf =>
  (pokes buf [(24, store hostBE hostBE 4 n),
              (36, store hostBE hostBE 4 data.length)]).bind fun buf =>
  (setCrc hostBE 0 buf (dataoffset + data.length)).bind fun buf =>
  (peek buf 0 (dataoffset + data.length)).bind fun record =>
  .ok (buf, record)

/-- The outcome of one round of the loop over records: the end, or the record passed to the handler,
the buffer and `totalpackedsamples`. -/
inductive Round where
  | stop (p : Packing)
  | go (record buf : List UInt8) (total : Nat)

/-- pack.c:280-359: one round of the loop.  `next` is the start time of the record whose first sample
has the given index; `total` is `totalpackedsamples`. -/
def packRound (next : Nat → Out Int) (hostBE : Bool) (src : Samples)
    (encoding maxdatabytes dataoffset : Nat) (buf : List UInt8) (total : Nat) : Res Round :=
  match packData hostBE hostBE (passed (dropSamples total src)) maxdatabytes encoding with
  | .err => .ok (.stop { records := [], packed := total, ret := -1 })
  | .ub => .ub
  | .oob => .oob
  | .ok (data, n) =>
    (finishRecord hostBE buf dataoffset data n).bind fun (buf, record) =>
    if total + n ≥ src.count then
      .ok (.stop { records := [record], packed := total + n, ret := 1 })
    else
      (ofOut (next (total + n))).bind fun t =>
      match nstime2time t with
      | none => .ok (.stop { records := [record], packed := total + n, ret := -1 })
      | some dt =>
        (pokes buf (timeWrites hostBE dt)).bind fun buf => .ok (.go record buf (total + n))

/-- pack.c:278-360: the loop over records.  The result counts the records from here on.  First
argument: bound on the number of rounds, `err` if it is exceeded. -/
def packLoop (next : Nat → Out Int) (hostBE : Bool) (src : Samples)
    (encoding maxdatabytes maxsamples dataoffset : Nat) (flush : Bool) :
    Nat → List UInt8 → Nat → Res Packing
  | 0, _, _ => .err
  | fuel + 1, buf, total =>
    if src.count - total > maxsamples ∨ flush = true then
      (packRound next hostBE src encoding maxdatabytes dataoffset buf total).bind fun r =>
      match r with
      | .stop p => .ok p
      | .go record buf total =>
        (packLoop next hostBE src encoding maxdatabytes maxsamples dataoffset flush fuel buf
          total).bind fun p => .ok (p.after record)
    else .ok { records := [], packed := total, ret := 0 }

/-- pack.c:233-252: the number of samples that surely fill a record. -/
def maxSamples (encoding maxdatabytes samplesize : Nat) : Nat :=
  if encoding = 10 then maxdatabytes / 64 * 60
  else if encoding = 11 then maxdatabytes / 64 * 105
  else maxdatabytes / samplesize

/-- pack.c:154-372 `msr3_pack_mseed3`.  `sampletime` is `ms_sampletime` (start time, offset, bits of
the sample rate; genutils.c:1637-1671).  A failure before the first record leaves `*packedsamples`
as it was, 0 here.  `err` means that the loop does not end within `rounds` rounds. -/
def packMseed3 (negRecip : Nat → Nat) (sampletime : Int → Nat → Nat → Out Int) (hostBE : Bool)
    (msr : Msr) (flush : Bool) (junk : List UInt8) (rounds : Nat) : Res Packing :=
  let maxreclen := (packReclen msr.reclen).toNat
  let encoding := packEncoding msr.encoding
  let failed : Packing := { records := [], packed := 0, ret := -1 }
  if maxreclen < 40 + strlen msr.sid + msr.extra.length then .ok failed
  else
    match packHeader3 negRecip hostBE msr (List.replicate 40 0 ++ junk.take (maxreclen - 40))
      maxreclen with
    | .err => .ok failed
    | .ub => .ub
    | .oob => .oob
    | .ok (buf, dataoffset) =>
      if msr.samples.count = 0 then
        (poke buf 15 [0]).bind fun buf =>
        (setCrc hostBE 0 buf dataoffset).bind fun buf =>
        (peek buf 0 dataoffset).bind fun record =>
        .ok { records := [record], packed := 0, ret := 1 }
      else
        packLoop (fun offset => sampletime msr.starttime offset msr.samprate) hostBE msr.samples
          encoding (maxreclen - dataoffset)
          (maxSamples encoding (maxreclen - dataoffset) (typeSize msr.samples)) dataoffset flush
          rounds buf 0

/-- pack.c:105-143 `msr3_pack` without `MSF_PACKVER2`, for records of other versions than 2. -/
def msrPack (negRecip : Nat → Nat) (sampletime : Int → Nat → Nat → Out Int) (hostBE : Bool)
    (msr : Msr) (flush : Bool) (junk : List UInt8) (rounds : Nat) : Res Packing :=
  if msr.reclen ≠ -1 ∧ (msr.reclen < 40 ∨ msr.reclen > 10485760) then
    .ok { records := [], packed := 0, ret := -1 }
  else packMseed3 negRecip sampletime hostBE msr flush junk rounds

end Verif.Model.Pack
