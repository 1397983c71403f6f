import Verif.Model.Pack
import Verif.Model.Str
/-!
# Model of packing samples into version 2 records

libmseed/pack.c:590-839 `msr3_pack_mseed2` and pack.c:857-1602 `msr3_pack_header2`, reached from
pack.c:105-143 `msr3_pack`.  Pointers are non-null and allocation succeeds.  The memory of the record
buffer after its first 48 bytes is not initialised: its content is the argument `junk`.
`msr->numsamples` is the number of samples in `msr->datasamples`.

The extra headers are a parameter: the values found in the JSON text by the paths looked up, and the
blockettes 500, 200, 201, 300, 310, 320, 390 and 395 that timing exceptions, event detections and
calibrations become (pack.c:1160-1594).  What these are for a JSON text is defined in
`Verif.Model.Blockettes2`.
-/
namespace Verif.Model.Pack2
open Verif.Model.Bytes Verif.Model.Steim Verif.Model.Samples Verif.Model.Mem Verif.Model.Record3
  Verif.Model.Pack

/-- The operations on the sample rate (bit pattern of the `double`), left open: factor and multiplier of
`ms_genfactmult (msr3_sampratehz (msr))` (pack.c:2028-2071), whether `fabs (msr3_sampratehz (msr) -
ms_nomsamprate (factor, multiplier)) > 0.0001`, and the conversion to `float` (bit pattern). -/
structure Rates where
  factors : Nat → Option (Int × Int)
  poor : Nat → Int → Int → Bool
  narrow : Nat → Nat

/-- What the entries of the extra headers make `msr3_pack_header2` do, in order (pack.c:1160-1594). -/
inductive Step where
  /-- refuse the extra headers: return -1 -/
  | refuse
  /-- undefined behaviour -/
  | undefined
  /-- return -1 unless there are `size` bytes left in the buffer -/
  | room (size : Nat)
  /-- add a blockette: if there are `size` bytes left, link it, count it, fill it with zeros, set its type,
  then make the writes, at offsets in the blockette; a value that cannot be had ends the function, with -1 for
  `err` or with undefined behaviour -/
  | add (type size : Nat) (writes : List (Nat × Res (List UInt8)))

/-- The values of the extra headers that are looked up: the first byte of `/FDSN/DataQuality`, the paths
with the boolean `true`, the sign of `/FDSN/Time/LeapSecond` (0 if absent), `/FDSN/Time/Correction` in units
of 0.0001 seconds as converted to `int32_t`, `/FDSN/Time/Quality`, and what timing exceptions, event
detections and calibrations make the function do. -/
structure Extra where
  quality : Option UInt8 := none
  flag : String → Bool := fun _ => false
  leap : Int := 0
  correction : Option Int := none
  timing : Option Nat := none
  steps : List Step := []

/-- pack.c:973-986: the extra headers, if any; `none` if they cannot be parsed. -/
def extraOf (json : List UInt8 → Option Extra) (extra : List UInt8) : Option Extra :=
  if extra.length > 0 then json extra else some {}

/-- pack.c:926-932: the exponent of the record length; arguments: bound on the rounds, `reclenfind`,
`reclenexp`. -/
def expLoop (reclen : Nat) : Nat → Nat → Nat → Nat
  | 0, _, exp => exp
  | fuel + 1, find, exp =>
    if find ≤ 10485760 then
      if find * 2 = reclen then exp else expLoop reclen fuel (find * 2) (exp + 1)
    else exp

/-- pack.c:991-1015: the data quality indicator; `MS2_ISDATAINDICATOR` is D, R, Q or M
(libmseed.h:148). -/
def qualityByte (pubversion : Nat) (eh : Extra) : UInt8 :=
  match eh.quality with
  | some q => if q = 68 ∨ q = 82 ∨ q = 81 ∨ q = 77 then q else byVersion
  | none => byVersion
where byVersion : UInt8 :=
  if pubversion = 1 then 82 else if pubversion = 3 then 81 else if pubversion = 4 then 77 else 68

/-- pack.c:1035-1054 and 1097: the activity flags. -/
def actFlags (flags : Nat) (eh : Extra) : Nat :=
  (if flags.testBit 0 then 0x01 else 0) ||| (if eh.flag "/FDSN/Event/Begin" then 0x04 else 0) |||
  (if eh.flag "/FDSN/Event/End" then 0x08 else 0) |||
  (if eh.leap > 0 then 0x10 else if eh.leap < 0 then 0x20 else 0) |||
  (if eh.flag "/FDSN/Event/InProgress" then 0x40 else 0) ||| (if eh.correction.isSome then 0x02 else 0)

/-- pack.c:1056-1069: the I/O and clock flags. -/
def ioFlags (flags : Nat) (eh : Extra) : Nat :=
  (if eh.flag "/FDSN/Flags/StationVolumeParityError" then 0x01 else 0) |||
  (if eh.flag "/FDSN/Flags/LongRecordRead" then 0x02 else 0) |||
  (if eh.flag "/FDSN/Flags/ShortRecordRead" then 0x04 else 0) |||
  (if eh.flag "/FDSN/Flags/StartOfTimeSeries" then 0x08 else 0) |||
  (if eh.flag "/FDSN/Flags/EndOfTimeSeries" then 0x10 else 0) ||| (if flags.testBit 2 then 0x20 else 0)

/-- pack.c:1071-1089: the data quality flags. -/
def dqFlags (flags : Nat) (eh : Extra) : Nat :=
  (if eh.flag "/FDSN/Flags/AmplifierSaturation" then 0x01 else 0) |||
  (if eh.flag "/FDSN/Flags/DigitizerClipping" then 0x02 else 0) |||
  (if eh.flag "/FDSN/Flags/Spikes" then 0x04 else 0) ||| (if eh.flag "/FDSN/Flags/Glitches" then 0x08 else 0) |||
  (if eh.flag "/FDSN/Flags/MissingData" then 0x10 else 0) |||
  (if eh.flag "/FDSN/Flags/TelemetrySyncError" then 0x20 else 0) |||
  (if eh.flag "/FDSN/Flags/FilterCharging" then 0x40 else 0) ||| (if flags.testBit 1 then 0x80 else 0)

/-- `HO2u (v, swapflag)` and the like with the swap flag of pack.c:654 and 950: big-endian. -/
def big (hostBE : Bool) (n v : Nat) : List UInt8 := store hostBE (!hostBE) n v

/-- The writes of the start time: pack.c:1023-1029 without `UNUSED`, and 822-827. -/
def timeWrites2 (hostBE : Bool) (t : DateTime) : List (Nat × List UInt8) :=
  [ (20, big hostBE 2 t.year.toNat), (22, big hostBE 2 t.yday.toNat),
    (24, store hostBE false 1 t.hour.toNat), (25, store hostBE false 1 t.min.toNat),
    (26, store hostBE false 1 t.sec.toNat), (28, big hostBE 2 (t.nsec.toNat / 100000)) ]

/-- pack.c:962-964: `msec_offset`, the microseconds beyond units of 0.0001 seconds. -/
def microOffset (t : DateTime) : Nat := t.nsec.toNat / 1000 - t.nsec.toNat / 100000 * 100

/-- The four codes in fields of the header, pack.c:1018-1021. -/
structure Codes where
  sta : List UInt8
  loc : List UInt8
  chan : List UInt8
  net : List UInt8

/-- `ms_strncpopen` of a string in an array of 64 bytes. -/
def openField (code : List UInt8) (n : Nat) : Res (List UInt8) :=
  (ofMem (Str.strncpopen (code ++ [0]) n)).bind fun r => .ok r.1

/-- pack.c:934-947 and 1018-1021: the codes of the identifier.  A channel that is not set by `ms_sid2nslc`
would be read uninitialised. -/
def codes (sid : List UInt8) : Res Codes :=
  match Str.sid2nslc sid with
  | none => .err
  | some c =>
    match c.chan with
    | none => .ub
    | some chan =>
      if c.net.length > 2 ∨ c.sta.length > 5 ∨ c.loc.length > 2 ∨ chan.length ≠ 3 then .err
      else
        (openField c.sta 5).bind fun sta => (openField c.loc 2).bind fun loc =>
        (openField chan 3).bind fun chan => (openField c.net 2).bind fun net =>
        .ok { sta, loc, chan, net }

/-- pack.c:988-1106: the writes of the fixed header, in the order of their places; places written more than
once have their last value. -/
def fixedWrites (hostBE : Bool) (msr : Msr) (c : Codes) (t : DateTime) (factor multiplier : Int)
    (eh : Extra) (numblockettes : Nat) : List (Nat × List UInt8) :=
  [ (0, [48, 48, 48, 48, 48, 48]), (6, [qualityByte msr.pubversion eh]), (7, [32]),
    (8, c.sta), (13, c.loc), (15, c.chan), (18, c.net),
    (20, big hostBE 2 t.year.toNat), (22, big hostBE 2 t.yday.toNat),
    (24, store hostBE false 1 t.hour.toNat), (25, store hostBE false 1 t.min.toNat),
    (26, store hostBE false 1 t.sec.toNat), (27, [0]), (28, big hostBE 2 (t.nsec.toNat / 100000)),
    (30, big hostBE 2 0), (32, big hostBE 2 (bits 16 factor)), (34, big hostBE 2 (bits 16 multiplier)),
    (36, store hostBE false 1 (actFlags msr.flags eh)), (37, store hostBE false 1 (ioFlags msr.flags eh)),
    (38, store hostBE false 1 (dqFlags msr.flags eh)), (39, store hostBE false 1 numblockettes),
    (40, big hostBE 4 (bits 32 (eh.correction.getD 0))), (44, big hostBE 2 0), (46, big hostBE 2 48) ]

/-- pack.c:1110-1120: blockette 1000, its link with the last value. -/
def b1000Writes (hostBE : Bool) (encoding exponent next : Nat) : List (Nat × List UInt8) :=
  [ (48, big hostBE 2 1000), (50, big hostBE 2 next), (52, store hostBE false 1 encoding), (53, [1]),
    (54, store hostBE false 1 exponent), (55, [0]) ]

/-- pack.c:1122-1142: blockette 1001 at 56. -/
def b1001Writes (hostBE : Bool) (timing : Option Nat) (micro next : Nat) : List (Nat × List UInt8) :=
  [ (56, big hostBE 2 1001), (58, big hostBE 2 next),
    (60, store hostBE false 1 (match timing with | some q => if q ≤ 255 then q else 0 | none => 0)),
    (61, store hostBE false 1 micro), (62, [0]), (63, [0]) ]

/-- pack.c:1144-1158: blockette 100 at `off`. -/
def b100Writes (hostBE : Bool) (off float : Nat) : List (Nat × List UInt8) :=
  [ (off, big hostBE 2 100), (off + 2, big hostBE 2 0), (off + 4, big hostBE 4 float), (off + 8, [0]),
    (off + 9, [0, 0, 0]) ]

/-- pack.c:1110-1158: the blockettes; `timed` if there is a blockette 1001, `poor` if there is a
blockette 100. -/
def chainWrites (rates : Rates) (hostBE : Bool) (msr : Msr) (exponent : Nat) (t : DateTime) (eh : Extra)
    (timed poor : Bool) : List (Nat × List UInt8) :=
  b1000Writes hostBE (packEncoding msr.encoding) exponent (if timed || poor then 56 else 0) ++
  (if timed then b1001Writes hostBE eh.timing (microOffset t) (if poor then 64 else 0) else []) ++
  (if poor then b100Writes hostBE (if timed then 64 else 56) (rates.narrow msr.samprate) else [])

/-- Writes of values that may not be had, at offsets from `base`. -/
def writeAll (base : Nat) : List UInt8 → List (Nat × Res (List UInt8)) → Res (List UInt8)
  | mem, [] => .ok mem
  | mem, (off, v) :: ws => v.bind fun b => (poke mem (base + off) b).bind fun mem => writeAll base mem ws

/-- pack.c:1168-1184 and the like: make room for a blockette of `size` bytes at `written`.  `next` is the
offset of the link of the blockette before, `count` the number of blockettes so far; the link is a
`uint16_t`, the number a `uint8_t`. -/
def beginBlockette (hostBE : Bool) (buf : List UInt8) (written next count type size : Nat) :
    Res (List UInt8) :=
  pokes buf [ (next, big hostBE 2 (written % 65536)), (39, store hostBE false 1 ((count + 1) % 256)),
    (written, List.replicate size 0), (written, big hostBE 2 type), (written + 2, big hostBE 2 0) ]

/-- pack.c:1160-1594: the steps one after another, the buffer afterwards and `written`.  `recbuflen -
written` is computed with 32 bits, unsigned. -/
def addSteps (hostBE : Bool) (recbuflen : Nat) : List Step → List UInt8 → Nat → Nat → Nat →
    Res (List UInt8 × Nat)
  | [], buf, written, _, _ => .ok (buf, written)
  | .refuse :: _, _, _, _, _ => .err
  | .undefined :: _, _, _, _, _ => .ub
  | .room size :: steps, buf, written, next, count =>
    if (recbuflen + 4294967296 - written) % 4294967296 < size then .err
    else addSteps hostBE recbuflen steps buf written next count
  | .add type size writes :: steps, buf, written, next, count =>
    if (recbuflen + 4294967296 - written) % 4294967296 < size then .err
    else
      (beginBlockette hostBE buf written next count type size).bind fun buf =>
      (writeAll written buf writes).bind fun buf =>
      addSteps hostBE recbuflen steps buf (written + size) (written + 2) (count + 1)

/-- pack.c:857-1602 `msr3_pack_header2`: the buffer afterwards and the returned size.  `buf` is the
memory at `record`; the claimed length `recbuflen` is only looked at for the blockettes of entries. -/
def packHeader2 (rates : Rates) (json : List UInt8 → Option Extra) (hostBE : Bool) (msr : Msr)
    (buf : List UInt8) (recbuflen : Nat) : Res (List UInt8 × Nat) :=
  let reclen := packReclen msr.reclen
  if reclen < 128 ∨ reclen > 10485760 then .err
  else if reclen.toNat &&& (reclen.toNat - 1) ≠ 0 then .err
  else
    (codes (msr.sid.takeWhile (· != 0))).bind fun c =>
    match nstime2time msr.starttime with
    | none => .err
    | some t =>
      match rates.factors msr.samprate with
      | none => .err
      | some (factor, multiplier) =>
        match extraOf json msr.extra with
        | none => .err
        | some eh =>
          let timed := eh.timing.isSome || decide (microOffset t ≠ 0)
          let poor := rates.poor msr.samprate factor multiplier
          let count := 1 + (if timed then 1 else 0) + (if poor then 1 else 0)
          let last := if poor then (if timed then 64 else 56) else if timed then 56 else 48
          (pokes buf (fixedWrites hostBE msr c t factor multiplier eh count ++
            chainWrites rates hostBE msr (expLoop reclen.toNat 25 1 1) t eh timed poor)).bind fun buf =>
          addSteps hostBE recbuflen eh.steps buf (56 + (if timed then 8 else 0) + (if poor then 12 else 0))
            (last + 2) count

/-- pack.c:784-793: complete the record in the buffer with `n` samples encoded as `data`. -/
def finishRecord2 (hostBE : Bool) (buf : List UInt8) (reclen dataoffset : Nat) (data : List UInt8) (n : Nat) :
    Res (List UInt8) :=
  (poke buf dataoffset data).bind fun buf =>
  (poke buf 30 (big hostBE 2 n)).bind fun buf =>
  if dataoffset + data.length < reclen then
    poke buf (dataoffset + data.length) (List.replicate (reclen - (dataoffset + data.length)) 0)
  else .ok buf

/-- pack.c:759-827: one round of the loop.  `next` is the start time of the record whose first sample
has the given index; `total` is `totalpackedsamples`. -/
def packRound2 (next : Nat → Out Int) (hostBE : Bool) (src : Samples)
    (encoding reclen dataoffset : Nat) (buf : List UInt8) (total : Nat) : Res Round :=
  match packData hostBE (!hostBE) (passed (dropSamples total src)) (reclen - dataoffset) encoding with
  | .err => .ok (.stop { records := [], packed := total, ret := -1 })
  | .ub => .ub
  | .oob => .oob
  | .ok (data, n) =>
    if n > 65535 then .ok (.stop { records := [], packed := total, ret := -1 })
    else
      (finishRecord2 hostBE buf reclen dataoffset data n).bind fun buf =>
      if total + n ≥ src.count then
        .ok (.stop { records := [buf], packed := total + n, ret := 1 })
      else
        (ofOut (next (total + n))).bind fun t =>
        match nstime2time t with
        | none => .ok (.stop { records := [buf], packed := total + n, ret := -1 })
        | some dt =>
          (pokes buf (timeWrites2 hostBE dt)).bind fun buf' => .ok (.go buf buf' (total + n))

/-- pack.c:757-828: the loop over records.  The result counts the records from here on.  First
argument: bound on the number of rounds, `err` if it is exceeded. -/
def packLoop2 (next : Nat → Out Int) (hostBE : Bool) (src : Samples)
    (encoding reclen maxsamples dataoffset : Nat) (flush : Bool) : Nat → List UInt8 → Nat → Res Packing
  | 0, _, _ => .err
  | fuel + 1, buf, total =>
    if src.count - total > maxsamples ∨ flush = true then
      (packRound2 next hostBE src encoding reclen dataoffset buf total).bind fun r =>
      match r with
      | .stop p => .ok p
      | .go record buf total =>
        (packLoop2 next hostBE src encoding reclen maxsamples dataoffset flush fuel buf
          total).bind fun p => .ok (p.after record)
    else .ok { records := [], packed := total, ret := 0 }

/-- pack.c:707-709: the first multiple of 64 from 64 on that is not less than the size of the header. -/
def frameOffset (headerlen : Nat) : Nat := if headerlen ≤ 64 then 64 else (headerlen + 63) / 64 * 64

/-- pack.c:704-717: the offset of the data, with the bytes before it set to zero for Steim
encodings. -/
def dataStart (buf : List UInt8) (encoding headerlen : Nat) : Res (List UInt8 × Nat) :=
  if encoding = 10 ∨ encoding = 11 then
    (poke buf headerlen (List.replicate (frameOffset headerlen - headerlen) 0)).bind fun buf =>
    .ok (buf, frameOffset headerlen)
  else .ok (buf, headerlen)

/-- pack.c:673-693: a record without samples.  The encoding becomes 0, text. -/
def emptyRecord (buf : List UInt8) (reclen headerlen : Nat) : Res Packing :=
  (poke buf 52 [0]).bind fun buf =>
  (poke buf headerlen (List.replicate (reclen - headerlen) 0)).bind fun buf =>
  .ok { records := [buf], packed := 0, ret := 1 }

/-- pack.c:590-839 `msr3_pack_mseed2`.  `sampletime` is `ms_sampletime` (start time, offset, bits of
the sample rate; genutils.c:1637-1671).  A failure before the first record leaves `*packedsamples`
as it was, 0 here.  `err` means that the loop does not end within `rounds` rounds. -/
def packMseed2 (rates : Rates) (json : List UInt8 → Option Extra) (sampletime : Int → Nat → Nat → Out Int)
    (hostBE : Bool) (msr : Msr) (flush : Bool) (junk : List UInt8) (rounds : Nat) : Res Packing :=
  let reclen := (packReclen msr.reclen).toNat
  let encoding := packEncoding msr.encoding
  let failed : Packing := { records := [], packed := 0, ret := -1 }
  if reclen < 128 ∨ reclen > 131172 then .ok failed
  else if reclen &&& (reclen - 1) ≠ 0 then .ok failed
  else
    match packHeader2 rates json hostBE msr (List.replicate 48 0 ++ junk.take (reclen - 48)) reclen with
    | .err => .ok failed
    | .ub => .ub
    | .oob => .oob
    | .ok (buf, headerlen) =>
      if msr.samples.count = 0 then emptyRecord buf reclen headerlen
      else
        (dataStart buf encoding headerlen).bind fun (buf, dataoffset) =>
        (poke buf 44 (big hostBE 2 dataoffset)).bind fun buf =>
        packLoop2 (fun offset => sampletime msr.starttime offset msr.samprate) hostBE msr.samples
          encoding reclen (maxSamples encoding (reclen - dataoffset) (typeSize msr.samples)) dataoffset flush
          rounds buf 0

/-- pack.c:105-143 `msr3_pack` with `MSF_PACKVER2` or for records of version 2. -/
def msrPack2 (rates : Rates) (json : List UInt8 → Option Extra) (sampletime : Int → Nat → Nat → Out Int)
    (hostBE : Bool) (msr : Msr) (flush : Bool) (junk : List UInt8) (rounds : Nat) : Res Packing :=
  if msr.reclen ≠ -1 ∧ (msr.reclen < 40 ∨ msr.reclen > 10485760) then
    .ok { records := [], packed := 0, ret := -1 }
  else packMseed2 rates json sampletime hostBE msr flush junk rounds

end Verif.Model.Pack2
