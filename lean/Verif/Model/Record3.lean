import Verif.Model.Calendar
import Verif.Model.Crc
import Verif.Model.Samples
import Verif.Model.Detect
/-!
# Model of version 3 records: parsing, data bounds, header packing, repacking

libmseed/unpack.c:74-229, 1021-1254, libmseed/pack.c:393-579, libmseed/parseutils.c:61-155.

Buffers are byte lists, access outside them is `oob`.  `align` is the address of the record modulo
8.  Allocation succeeds.  Diagnostic output is not modelled, except that the bytes of the source
identifier printed in error messages (`"%.*s"`) count as read.
-/
namespace Verif.Model.Record3
open Verif.Model.Bytes Verif.Model.Steim Verif.Model.Samples Verif.Model.Mem Verif.Model.Detect

/-- libmseed.h:358-382 `MS3Record`, the fields used here.  `sid` are the bytes copied into the zeroed
64-byte array, `samprate` the bit pattern of the `double`, `extra` the `extralength` bytes of extra
headers, `samples` the decoded samples, `swapHeader` and `swapPayload` the bits of `swapflag`. -/
structure Msr where
  sid : List UInt8 := []
  reclen : Int := -1
  swapHeader : Bool := false
  swapPayload : Bool := false
  formatversion : Nat := 3
  flags : Nat := 0
  starttime : Int := NSTUNSET
  samprate : Nat := 0
  encoding : Int := -1
  pubversion : Nat := 0
  samplecnt : Int := 0
  crc : Nat := 0
  extra : List UInt8 := []
  datalength : Nat := 0
  samples : Samples := .text []
deriving DecidableEq, Repr

/-- `strlen (msr->sid)`. -/
def strlen (b : List UInt8) : Nat := (b.takeWhile (· != 0)).length

/-- The outcomes of parsing: a record, a request for more bytes, or a library error code. -/
inductive Parsed where
  | record (msr : Msr)
  | need (n : Nat)
  | notSeed
  | outOfRange
  | genError
  | invalidCrc
deriving DecidableEq, Repr

/-- `Out` of the calendar model as a `Res`. -/
def ofOut {α : Type} : Out α → Res α
  | .ok v => .ok v
  | .ub => .ub

/-- `Option` of the CRC model (`none` is an access outside the buffer) as a `Res`. -/
def ofMem {α : Type} : Option α → Res α
  | some v => .ok v
  | none => .oob

/-- unpack.c:1054-1073: bytes per sample of the fixed-length encodings. -/
def fixedBytes (encoding : Int) : Option Nat :=
  if encoding = 0 then some 1
  else if encoding = 1 then some 2
  else if encoding = 3 then some 4
  else if encoding = 4 then some 4
  else if encoding = 5 then some 8
  else none

/-- unpack.c:1083-1090: removal of trailing zero frames; the frame compared is the one at
`record + (datasize - 64)`.  First argument: `datasize / 64`. -/
def trimFrames (mem : List UInt8) : Nat → Res Nat
  | 0 => .ok 0
  | n + 1 =>
    (peek mem (64 * n) 64).bind fun f =>
    if f.all (· == 0) then trimFrames mem n else .ok (64 * (n + 1))

/-- unpack.c:1075-1079: the size of fixed-length samples if smaller than the data size, cut to 16
bits (line 1078). -/
def sampleBytes (encoding samplecnt : Int) (size : Nat) : Nat :=
  match fixedBytes encoding with
  | some n => if bits 64 (samplecnt * n) < size then bits 64 (samplecnt * n) % 2 ^ 16 else size
  | none => size

/-- unpack.c:1021-1093 `msr3_data_bounds`: data offset and data size.  `mem` is the memory at
`msr->record`; sums and differences are `uint32_t`. -/
def dataBounds (hostBE : Bool) (msr : Msr) (mem : List UInt8) : Res (Nat × Nat) :=
  (if msr.formatversion = 3 then
     .ok ((40 + strlen msr.sid + msr.extra.length) % 2 ^ 32, msr.datalength)
   else if msr.formatversion = 2 then
     (load hostBE msr.swapHeader mem 44 2).bind fun off => .ok (off, bits 32 (msr.reclen - off))
   else .err).bind fun (off, size) =>
  let size := sampleBytes msr.encoding msr.samplecnt size
  if size % 64 = 0 ∧ (msr.encoding = 10 ∨ msr.encoding = 11) then
    (trimFrames mem (size / 64)).bind fun size => .ok (off, size)
  else .ok (off, size)

/-- unpack.c:1191-1204: the memory the decoder works on: the record from the data offset on, or a
copy of `size` bytes if the data is not aligned for the sample size. -/
def encodedMem (align : Nat) (mem : List UInt8) (off size samplesize : Nat) : Res (List UInt8) :=
  if samplesize ≠ 0 ∧ (align + off) % samplesize ≠ 0 then peek mem off size
  else .ok (mem.drop off)

/-- unpack.c:1120-1254 `msr3_unpack_data`: the decoded samples.  All errors are `err`. -/
def unpackData (hostBE : Bool) (align : Nat) (msr : Msr) (mem : List UInt8) : Res Samples :=
  if msr.samplecnt ≤ 0 then .ok (.text [])
  else if msr.reclen < 40 ∨ msr.reclen > 10485760 then .err
  else if msr.samplecnt > 2147483647 then .err
  else
    (dataBounds hostBE msr mem).bind fun (off, size) =>
    if off < 40 ∨ (off : Int) ≥ msr.reclen then .err
    else
      let encoding := if msr.encoding < 0 then 10 else bits 8 msr.encoding
      match encodingSizeType encoding with
      | none => .err
      | some (samplesize, _) =>
        (encodedMem align mem off size samplesize).bind fun enc =>
        decodeData hostBE msr.swapPayload enc size encoding msr.samplecnt.toNat
          (msr.samplecnt.toNat * samplesize)

/-- unpack.c:124-139: the CRC check.  The CRC field is zeroed in place, the CRC of `reclen` bytes
computed and the field restored; the result says whether it matches, with the memory afterwards. -/
def checkCrc (hostBE : Bool) (align : Nat) (mem : List UInt8) (reclen : Int) :
    Res (Bool × List UInt8) :=
  (load hostBE hostBE mem 28 4).bind fun headerCrc =>
  (poke mem 28 [0, 0, 0, 0]).bind fun zeroed =>
  (ofMem (Crc.msCrc32c hostBE (align % 4) zeroed reclen 0)).bind fun calculated =>
  (poke zeroed 28 (store hostBE hostBE 4 headerCrc)).bind fun restored =>
  .ok (decide (headerCrc = calculated.toNat), restored)

/-- unpack.c:1174-1180: the encoding assumed for data of unknown encoding, which `msr3_unpack_data` leaves in the
record. -/
def assumed (encoding : Int) : Int := if encoding < 0 then 10 else encoding

/-- unpack.c:203-226: decode the samples if requested.  All errors of decoding are `genError`. -/
def withSamples (hostBE : Bool) (align : Nat) (mem : List UInt8) (msr : Msr) (unpackdata : Bool) :
    Res Parsed :=
  if unpackdata ∧ msr.samplecnt > 0 then
    match unpackData hostBE align msr mem with
    | .ok samples => .ok (.record { msr with samples, encoding := assumed msr.encoding })
    | .err => .ok .genError
    | .ub => .ub
    | .oob => .oob
  else .ok (.record msr)

/-- unpack.c:142-226: the header fields and, if requested, the samples. -/
def unpackFields (hostBE : Bool) (align : Nat) (mem : List UInt8) (reclen : Int)
    (sidlength : Nat) (unpackdata : Bool) : Res Parsed :=
  (load hostBE false mem 2 1).bind fun formatversion =>
  (load hostBE false mem 3 1).bind fun flags =>
  (peek mem 40 sidlength).bind fun sid =>
  (load hostBE hostBE mem 8 2).bind fun year =>
  (load hostBE hostBE mem 10 2).bind fun day =>
  (load hostBE false mem 12 1).bind fun hour =>
  (load hostBE false mem 13 1).bind fun min =>
  (load hostBE false mem 14 1).bind fun sec =>
  (load hostBE hostBE mem 4 4).bind fun nsec =>
  (ofOut (time2nstime year day hour min sec nsec)).bind fun starttime =>
  if starttime = NSTERROR then .ok .genError
  else
    (load hostBE false mem 15 1).bind fun encoding =>
    (load hostBE hostBE mem 16 8).bind fun samprate =>
    (load hostBE hostBE mem 24 4).bind fun samplecnt =>
    (load hostBE hostBE mem 28 4).bind fun crc =>
    (load hostBE false mem 32 1).bind fun pubversion =>
    (load hostBE hostBE mem 34 2).bind fun extralength =>
    (if extralength ≠ 0 then peek mem (40 + sidlength) extralength else .ok []).bind fun extra =>
    (load hostBE hostBE mem 36 4).bind fun datalength =>
    let swapPayload := if encoding = 10 ∨ encoding = 11 then !hostBE else hostBE
    let msr : Msr := { sid, reclen, swapHeader := hostBE, swapPayload, formatversion, flags,
                       starttime, samprate, encoding, pubversion, samplecnt, crc, extra,
                       datalength }
    withSamples hostBE align mem msr unpackdata

/-- unpack.c:74-229 `msr3_unpack_mseed3`, with the memory of the record afterwards. -/
def unpack3 (hostBE : Bool) (align : Nat) (mem : List UInt8) (reclen : Int)
    (validatecrc unpackdata : Bool) : Res (Parsed × List UInt8) :=
  if reclen < 40 ∨ reclen > 10485760 then .ok (.outOfRange, mem)
  else
    (peek mem 0 15).bind fun h =>
    if !validHeader3 h then .ok (.notSeed, mem)
    else
      (load hostBE false mem 33 1).bind fun sidlength =>
      if sidlength ≥ 64 then (peek mem 40 sidlength).bind fun _ => .ok (.genError, mem)
      else
        (if validatecrc then checkCrc hostBE align mem reclen else .ok (true, mem)).bind
          fun (good, mem) =>
        if !good then (peek mem 40 sidlength).bind fun _ => .ok (.invalidCrc, mem)
        else (unpackFields hostBE align mem reclen sidlength unpackdata).bind fun p => .ok (p, mem)

/-- parseutils.c:61-155 `msr3_parse` with `unpack2` for the version 2 unpacker
(`msr3_unpack_mseed2`, arguments: memory, record length, unpack flag).  `atEOF` is
`MSF_ATENDOFFILE`; the memory afterwards is part of the result. -/
def parse (unpack2 : List UInt8 → Int → Bool → Res Parsed) (hostBE : Bool) (align : Nat)
    (mem : List UInt8) (validatecrc unpackdata atEOF : Bool) : Res (Parsed × List UInt8) :=
  (detect hostBE mem).bind fun (reclen, formatversion) =>
  let reclen : Int :=
    if formatversion = 2 ∧ reclen = 0 ∧ atEOF = true ∧
       mem.length &&& (mem.length - 1) = 0 ∧ mem.length ≤ 10485760 then mem.length else reclen
  if reclen < 0 then .ok (.notSeed, mem)
  else if reclen = 0 then .ok (.need 40, mem)
  else if reclen < 40 ∨ reclen > 10485760 then .ok (.outOfRange, mem)
  else if reclen > mem.length then
    .ok (.need (if reclen.toNat - mem.length > 10485760 then 10485760
                else reclen.toNat - mem.length), mem)
  else if formatversion = 3 then unpack3 hostBE align mem reclen validatecrc unpackdata
  else if formatversion = 2 then
    (unpack2 mem reclen unpackdata).bind fun p => .ok (p, mem)
  else .ok (.genError, mem)

/-! ## Packing -/

/-- pack.c:555-561: the stored rate is `-1.0 / samprate` if `0 < samprate < 1`.  Positive doubles
are ordered like their bit patterns, 0x3FF0000000000000 is 1.0; `negRecip` is the floating point
operation on bit patterns, not modelled further. -/
def storedRate (negRecip : Nat → Nat) (samprate : Nat) : Nat :=
  if 0 < samprate ∧ samprate < 0x3FF0000000000000 then negRecip samprate else samprate

/-- pack.c:506, `MS_PACK_DEFAULT_ENCODING` is 11 (libmseed.h:351). -/
def packEncoding (encoding : Int) : Nat := if encoding < 0 then 11 else bits 8 encoding

/-- pack.c:505, `MS_PACK_DEFAULT_RECLEN` is 4096 (libmseed.h:346). -/
def packReclen (reclen : Int) : Int := if reclen < 0 then 4096 else reclen

/-- The writes of the start time: pack.c:545-550 and 350-355. -/
def timeWrites (hostBE : Bool) (t : DateTime) : List (Nat × List UInt8) :=
  [ (4, store hostBE hostBE 4 t.nsec.toNat),
    (8, store hostBE hostBE 2 t.year.toNat),
    (10, store hostBE hostBE 2 t.yday.toNat),
    (12, store hostBE false 1 t.hour.toNat),
    (13, store hostBE false 1 t.min.toNat),
    (14, store hostBE false 1 t.sec.toNat) ]

/-- pack.c:488-579 `msr3_pack_header3`: the buffer afterwards and the returned size.  `buf` is the
memory at `record`, `recbuflen` the claimed length. -/
def packHeader3 (negRecip : Nat → Nat) (hostBE : Bool) (msr : Msr) (buf : List UInt8)
    (recbuflen : Nat) : Res (List UInt8 × Nat) :=
  let maxreclen := packReclen msr.reclen
  if maxreclen < 40 ∨ maxreclen > 10485760 then .err
  else
    let sid := msr.sid.takeWhile (· != 0)
    let extralength := msr.extra.length
    if recbuflen < (40 + sid.length + extralength) % 2 ^ 32 then .err
    else
      match nstime2time msr.starttime with
      | none => .err
      | some t =>
        if sid.length > 255 then .err
        else
          (pokes buf ([(0, [77]), (1, [83]), (2, [3]), (3, store hostBE false 1 msr.flags)] ++
            timeWrites hostBE t ++
            [ (15, store hostBE false 1 (packEncoding msr.encoding)),
              (16, store hostBE hostBE 8 (storedRate negRecip msr.samprate)),
              (32, store hostBE false 1 msr.pubversion),
              (33, store hostBE false 1 sid.length),
              (34, store hostBE hostBE 2 extralength),
              (40, sid) ] ++
            (if extralength > 0 then [(40 + sid.length, msr.extra)] else []))).bind fun buf =>
          .ok (buf, 40 + sid.length + extralength)

/-- pack.c:209-211, 307-312 and 450-457: CRC of the first `reclen` bytes with a zero CRC field,
stored in the record. -/
def setCrc (hostBE : Bool) (align : Nat) (buf : List UInt8) (reclen : Nat) : Res (List UInt8) :=
  (poke buf 28 [0, 0, 0, 0]).bind fun buf =>
  (ofMem (Crc.msCrc32c hostBE (align % 4) buf reclen 0)).bind fun crc =>
  poke buf 28 (store hostBE hostBE 4 crc.toNat)

/-- pack.c:393-470 `msr3_repack_mseed3`: the destination afterwards and the returned length.  `mem`
is the original record at `msr->record`, `buf` the destination of `recbuflen` bytes. -/
def repack3 (negRecip : Nat → Nat) (hostBE : Bool) (align : Nat) (msr : Msr) (mem buf : List UInt8) :
    Res (List UInt8 × Nat) :=
  let recbuflen := buf.length
  let sidlength := strlen msr.sid
  if recbuflen < 40 + sidlength + msr.extra.length then .err
  else if msr.samplecnt > 4294967295 then .err
  else
    (packHeader3 negRecip hostBE msr buf recbuflen).bind fun (buf, dataoffset) =>
    (dataBounds hostBE msr mem).bind fun (origoffset, origsize) =>
    if recbuflen < (40 + msr.extra.length + origsize) % 2 ^ 32 then .err
    else
      let reclen := (dataoffset + origsize) % 2 ^ 32
      (peek mem origoffset origsize).bind fun data =>
      (poke buf dataoffset data).bind fun buf =>
      (pokes buf [(24, store hostBE hostBE 4 (bits 32 msr.samplecnt)),
                  (36, store hostBE hostBE 4 origsize)]).bind fun buf =>
      (setCrc hostBE align buf reclen).bind fun buf =>
      .ok (buf, reclen)

end Verif.Model.Record3
