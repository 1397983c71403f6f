import Verif.Model.ReadTrace
/-!
# Model of record lists of segments: what their entries point to, and unpacking

libmseed/tracelist.c:1613-1874 `mstl3_unpack_recordlist`, libmseed/libmseed.h:492-503 `MS3RecordPtr`, and where readers
make the entries point to (libmseed/tracelist.c:948-962, libmseed/fileutils.c:720-734).

Allocation succeeds.  Diagnostic output is not modelled.  Access to samples at any address is defined.
-/
namespace Verif.Model.RecordList
open Verif.Model Verif.Model.Bytes Verif.Model.Steim Verif.Model.Samples Verif.Model.Record3
open Verif.Model.Trace (Arrival Seg)
open Verif.Model.ReadTrace (typeOf)

/-- libmseed.h:494-497: where a record is: `bufferptr` (the memory from there on), `fileptr` (the bytes of the open file) and
`fileoffset`, `filename` and `fileoffset`, or nowhere.  If more than one is set the first of them is used
(tracelist.c:1722-1733), the others are left out here. -/
inductive Place where
  | buffer (mem : List UInt8)
  | stream (file : List UInt8) (offset : Int)
  | file (name : List UInt8) (offset : Int)
  | unset

/-- libmseed.h:492-503 `MS3RecordPtr` without the end time: `msr` is a copy of the record without samples
(tracelist.c:1291). -/
structure Pointer where
  msr : Msr
  place : Place
  dataoffset : Nat

/-- tracelist.c:1773-1813: the record read from a file, with `err` if it is not there.  The file buffer has room for two
records; the bytes behind the record in it are those of an earlier one or not set, and taken to be out of bounds
here.  A length that is not positive (the file buffer may not be there) is `oob`. -/
def readRecord (file : List UInt8) (offset reclen : Int) : Res (List UInt8) :=
  if reclen ≤ 0 then .oob
  else if offset < 0 then .err
  else
    let b := (file.drop offset.toNat).take reclen.toNat
    if (b.length : Int) = reclen then .ok b else .err

/-- tracelist.c:1722-1821: the memory at the record.  `files` are the files that can be opened. -/
def locate (files : List UInt8 → Option (List UInt8)) (p : Pointer) : Res (List UInt8) :=
  match p.place with
  | .buffer mem => .ok mem
  | .stream f offset => readRecord f offset p.msr.reclen
  | .file name offset =>
    match files name with
    | some f => readRecord f offset p.msr.reclen
    | none => .err
  | .unset => .err

/-- tracelist.c:1722-1827: the samples of a record.  `room` is what is left of the output buffer.  The whole `swapflag` is handed
to `ms_decode_data`, not only the bit for the payload. -/
def decodeRecord (hostBE : Bool) (files : List UInt8 → Option (List UInt8)) (p : Pointer) (room : Nat) : Res Samples :=
  (locate files p).bind fun mem =>
  if mem.length < p.dataoffset then .oob
  else
    decodeData hostBE (p.msr.swapHeader || p.msr.swapPayload) (mem.drop p.dataoffset)
      (bits 32 (p.msr.reclen - p.dataoffset)) (bits 8 p.msr.encoding) (bits 64 p.msr.samplecnt) room

/-- tracelist.c:1696-1839: the loop over the entries: the samples of each, `err` for -1. -/
def unpackLoop (hostBE : Bool) (files : List UInt8 → Option (List UInt8)) (sampletype : Char) (samplesize decodedsize : Nat) :
    List Pointer → Nat → Res (List Samples)
  | [], _ => .ok []
  | p :: ps, outputoffset =>
    if p.msr.samplecnt = 0 then unpackLoop hostBE files sampletype samplesize decodedsize ps outputoffset
    else
      match encodingSizeType (bits 8 p.msr.encoding) with
      | none => .err
      | some (_, recsampletype) =>
        if recsampletype ≠ sampletype then .err
        else
          (decodeRecord hostBE files p (bits 64 ((decodedsize : Int) - outputoffset))).bind fun s =>
          (unpackLoop hostBE files sampletype samplesize decodedsize ps (outputoffset + s.count * samplesize)).bind fun l =>
          .ok (s :: l)

/-- What unpacking makes: the number of samples returned, the samples written to the output, and the sample type that is
set in the segment, if it is set. -/
structure Unpacked where
  count : Nat
  data : List Int
  sampletype : Option Char
deriving DecidableEq, Repr

/-- tracelist.c:1666-1694: an output buffer too small, or samples in the segment already. -/
def refuses (stored : Bool) (output : Option Nat) (decodedsize : Nat) : Bool :=
  match output with
  | some size => decide (decodedsize > size)
  | none => stored

/-- tracelist.c:1613-1874 `mstl3_unpack_recordlist` of a segment with `samplecnt` samples: `stored` says whether the
segment has samples (`datasamples`), `output` is the size of the output buffer if there is one, the samples are
stored in the segment otherwise.  `err` is -1. -/
def unpackRecordlist (hostBE : Bool) (floatBits : Int × Nat → Nat) (files : List UInt8 → Option (List UInt8))
    (samplecnt : Int) (stored : Bool) (output : Option Nat) : List Pointer → Res Unpacked
  | [] => .err
  | p :: ps =>
    match encodingSizeType (bits 8 p.msr.encoding) with
    | none => .err
    | some (samplesize, sampletype) =>
      let decodedsize := bits 64 (samplecnt * samplesize)
      if refuses stored output decodedsize then .err
      else
        (unpackLoop hostBE files sampletype samplesize decodedsize (p :: ps) 0).bind fun l =>
        let count := (l.map Samples.count).sum
        .ok { count, data := l.flatMap fun s => (typeOf floatBits s).2,
              sampletype := if count > 0 then some sampletype else none }

/-- tracelist.c:948-962: the pointer to a record found in a buffer at an offset, `dataoffset` as told by
`msr3_data_bounds`. -/
def bufferPointer (buf : List UInt8) (offset : Nat) (m : Msr) (dataoffset : Nat) : Pointer :=
  { msr := { m with samples := .text [] }, place := .buffer (buf.drop offset), dataoffset }

/-- fileutils.c:720-734: the pointer to a record read from a file, `path` as given to `ms3_readtracelist_selection`
and `streampos` behind the record. -/
def filePointer (path : List UInt8) (streampos : Int) (m : Msr) (dataoffset : Nat) : Pointer :=
  { msr := { m with samples := .text [] }, place := .file path (streampos - m.reclen), dataoffset }

end Verif.Model.RecordList
