import Verif.Model.Alloc
/-!
# Buffers of segments (tracelist.c, genutils.c)

How segments get and extend their buffers, on the memory of `Model/Alloc`.  `junk` is what is in memory
that has been allocated and not been written.
-/
namespace Verif.Model.SegMem
open Verif.Model.Steim Verif.Model.Alloc

/-- The first `n` bytes, filled up if there are fewer. -/
def resized (junk : Nat → UInt8) (b : List UInt8) (n : Nat) : List UInt8 :=
  b.take n ++ (List.range (n - b.length)).map junk

/-- libmseed.h:1373-1381 `libmseed_memory.realloc` of any address; the memory may move. -/
def reallocTo (junk : Nat → UInt8) (h : Heap) (p : Option Nat) (n : Nat) : Res (Option Nat × Heap) :=
  match p with
  | none => .ok (malloc h (.bytes (resized junk [] n)))
  | some a =>
    match h.cell a with
    | some (.bytes b) =>
      match malloc h (.bytes (resized junk b n)) with
      | (none, h) => .ok (none, h)
      | (some q, h) => (free h a).bind fun h => .ok (some q, h)
    | _ => .ub

/-- genutils.c:64-65: blocks are added while the size is not sufficient.  (Sums of `size_t` do not wrap
around for sizes that can be allocated.)  `0` is not a block size. -/
def addBlocks (block size : Nat) (new : Nat) : Nat :=
  if new < size ∧ 0 < block then addBlocks block size (new + block) else new
termination_by size - new

/-- genutils.c:46-74 `libmseed_memory_prealloc`: the pointer that is returned, `*currentsize` and the
memory. -/
def prealloc (junk : Nat → UInt8) (block : Nat) (h : Heap) (p : Option Nat) (size current : Nat) :
    Res (Option Nat × Nat × Heap) :=
  if block = 0 then .ok (none, current, h)
  else if size < current then .ok (p, current, h)
  else
    let new := addBlocks block size (current + block)
    (reallocTo junk h p new).bind fun x =>
    match x with
    | (none, h) => .ok (none, current, h)
    | (some q, h) => .ok (some q, new, h)

/-- tracelist.c:1083-1093, 1186-1196: a buffer for `size` bytes, and its size. -/
def grow (junk : Nat → UInt8) (block : Nat) (h : Heap) (p : Option Nat) (size current : Nat) :
    Res (Option Nat × Nat × Heap) :=
  if block ≠ 0 then prealloc junk block h p size current
  else (reallocTo junk h p size).bind fun x => .ok (x.1, size, x.2)

/-- `memcpy` to an offset in the memory at an address. -/
def writeAt (h : Heap) (a off : Nat) (b : List UInt8) : Res Heap :=
  match h.cell a with
  | some (.bytes c) =>
    if off + b.length ≤ c.length then
      .ok (h.put a (.bytes (c.take off ++ b ++ c.drop (off + b.length))))
    else .oob
  | _ => .ub

/-- Read a segment. -/
def getSeg (h : Heap) (a : Nat) : Res Seg :=
  match h.cell a with
  | some (.seg s) => .ok s
  | _ => .ub

/-- The samples that are added: sample type, number and address of the buffer. -/
structure More where
  type : Char
  number : Int
  data : Nat

/-- tracelist.c:1065-1105, 1168-1208: make room in the segment `s` at `a`; `none`: an error is returned.
The number of bytes is computed with 64 bits signed, overflow is undefined. -/
def makeRoom (junk : Nat → UInt8) (block : Nat) (h : Heap) (a : Nat) (s : Seg) (m : More) : Res (Option Seg × Heap) :=
  if m.type ≠ s.sampletype then .ok (none, h)
  else
    let size := Samples.sampleSize m.type
    if size = 0 then .ok (none, h)
    else
      let new := (s.numsamples + m.number) * size
      if new < 0 ∨ 2 ^ 63 ≤ new then .ub
      else
        (grow junk block h s.datasamples new.toNat s.datasize).bind fun x =>
        match x with
        | (none, _, h) => .ok (none, h.put a (.seg { s with datasize := 0 }))
        | (some q, cur, h) =>
          let s := { s with datasamples := some q, datasize := cur }
          .ok (some s, h.put a (.seg s))

/-- tracelist.c:1115-1117, 1216-1218: the samples behind those of the segment `s`. -/
def copyBehind (h : Heap) (s : Seg) (m : More) : Res Heap :=
  let size := Samples.sampleSize m.type
  match s.datasamples with
  | some q =>
    (readBytes h m.data (m.number.toNat * size)).bind fun b => writeAt h q (s.numsamples.toNat * size) b
  | none => .ub

/-- tracelist.c:1130-1136: the samples before those of the segment `s`, which are moved. -/
def copyBefore (h : Heap) (s : Seg) (m : More) : Res Heap :=
  let size := Samples.sampleSize m.type
  match s.datasamples with
  | some q =>
    (readBytes h q (s.numsamples.toNat * size)).bind fun old =>
    (writeAt h q (m.number.toNat * size) old).bind fun h =>
    (readBytes h m.data (m.number.toNat * size)).bind fun b => writeAt h q 0 b
  | none => .ub

/-- The samples of a record, if it has any (tracelist.c:1065). -/
def moreOf (r : Record) : Option More :=
  match r.datasamples with
  | some p => if r.numsamples > 0 then some ⟨r.sampletype, r.numsamples, p⟩ else none
  | none => none

/-- tracelist.c:1108-1143: coverage and samples (`room` is the segment with a buffer for them). -/
def addCoverage (h : Heap) (a : Nat) (s : Seg) (r : Record) (m : Option More) (endtime : Int) (whence : Int) :
    Res (Bool × Heap) :=
  if whence = 1 then
    match m with
    | none => .ok (true, h.put a (.seg { s with endtime := endtime, samplecnt := s.samplecnt + r.samplecnt }))
    | some m =>
      (copyBehind h s m).bind fun h => .ok (true, h.put a (.seg { s with
        endtime := endtime, samplecnt := s.samplecnt + r.samplecnt, numsamples := s.numsamples + m.number }))
  else if whence = 2 then
    match m with
    | none => .ok (true, h.put a (.seg { s with starttime := r.starttime, samplecnt := s.samplecnt + r.samplecnt }))
    | some m =>
      (copyBefore h s m).bind fun h => .ok (true, h.put a (.seg { s with
        starttime := r.starttime, samplecnt := s.samplecnt + r.samplecnt, numsamples := s.numsamples + m.number }))
  else .ok (false, h)

/-- tracelist.c:1052-1146 `mstl3_addmsrtoseg` of the record at `b` to the segment at `a`; `false` is NULL. -/
def addmsrtoseg (junk : Nat → UInt8) (block : Nat) (h : Heap) (a b : Nat) (endtime : Int) (whence : Int) :
    Res (Bool × Heap) :=
  (getSeg h a).bind fun s =>
  (getRecord h b).bind fun r =>
  match moreOf r with
  | none => addCoverage h a s r none endtime whence
  | some m =>
    (makeRoom junk block h a s m).bind fun x =>
    match x with
    | (none, h) => .ok (false, h)
    | (some s, h) => addCoverage h a s r (some m) endtime whence

/-- The samples of a segment, if it has any (tracelist.c:1168). -/
def moreOfSeg (r : Seg) : Option More :=
  match r.datasamples with
  | some p => if r.numsamples > 0 then some ⟨r.sampletype, r.numsamples, p⟩ else none
  | none => none

/-- tracelist.c:1155-1222: the part of `mstl3_addsegtoseg` for times and samples, of the segment at `b` to
the one at `a`; `false` is NULL.  The record lists are in `Model/RecMem`. -/
def addsegtoseg (junk : Nat → UInt8) (block : Nat) (h : Heap) (a b : Nat) : Res (Bool × Heap) :=
  (getSeg h a).bind fun s =>
  (getSeg h b).bind fun r =>
  match moreOfSeg r with
  | none => .ok (true, h.put a (.seg { s with endtime := r.endtime, samplecnt := s.samplecnt + r.samplecnt }))
  | some m =>
    (makeRoom junk block h a s m).bind fun x =>
    match x with
    | (none, h) => .ok (false, h)
    | (some s, h) =>
      (copyBehind h s m).bind fun h => .ok (true, h.put a (.seg { s with
        endtime := r.endtime, samplecnt := s.samplecnt + r.samplecnt, numsamples := s.numsamples + m.number }))

/-- tracelist.c:987-1037 `mstl3_msr2seg` of the record at `b`; `rate` is `msr3_sampratehz`.  Negative
numbers of samples are not modelled (`ub`). -/
def msr2seg (h : Heap) (b : Nat) (rate : Nat) (endtime : Int) : Res (Option Nat × Heap) :=
  (getRecord h b).bind fun r =>
  let s : Seg :=
    { starttime := r.starttime, endtime := endtime, samprate := rate, samplecnt := r.samplecnt,
      sampletype := r.sampletype, numsamples := r.numsamples }
  match malloc h (.seg s) with
  | (none, h) => .ok (none, h)
  | (some a, h) =>
    match r.datasamples with
    | none => .ok (some a, h)
    | some p =>
      if r.numsamples = 0 then .ok (some a, h)
      else if r.numsamples < 0 then .ub
      else
        let size := Samples.sampleSize r.sampletype
        if size = 0 then .ok (none, h)
        else
          (readBytes h p (r.numsamples.toNat * size)).bind fun d =>
          match malloc h (.bytes d) with
          | (none, h) => .ok (none, h)
          | (some q, h) => .ok (some a, h.put a (.seg { s with
              datasamples := some q, datasize := r.numsamples.toNat * size }))

end Verif.Model.SegMem
