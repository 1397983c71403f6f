import Verif.Model.Samples
/-!
# Allocated memory: msrutils.c, and `mstl3_free` and `mstl3_resize_buffers` of tracelist.c

Memory is a set of objects at addresses, which are numbers.  An address is never used again after it has been freed, so
that the use of freed memory is always seen.  Each allocation may fail.
-/
namespace Verif.Model.Alloc
open Verif.Model.Steim

/-- libmseed.h:358-382 `MS3Record`.  `record` is the address of the raw record, which belongs to the
caller; `samprate` are the bits of the `double`, `sid` the 64 bytes. -/
structure Record where
  record : Option Nat := none
  reclen : Int := 0
  swapflag : Nat := 0
  sid : List UInt8 := List.replicate 64 0
  formatversion : Nat := 0
  flags : Nat := 0
  starttime : Int := 0
  samprate : Nat := 0
  encoding : Int := 0
  pubversion : Nat := 0
  samplecnt : Int := 0
  crc : Nat := 0
  extralength : Nat := 0
  datalength : Nat := 0
  extra : Option Nat := none
  datasamples : Option Nat := none
  datasize : Nat := 0
  numsamples : Int := 0
  sampletype : Char := '\x00'
deriving DecidableEq, Repr

/-- libmseed.h:550-563 `MS3TraceSeg`.  Left out: `prev`, which none of the functions here uses. -/
structure Seg where
  starttime : Int := 0
  endtime : Int := 0
  samprate : Nat := 0
  samplecnt : Int := 0
  datasamples : Option Nat := none
  datasize : Nat := 0
  numsamples : Int := 0
  sampletype : Char := '\x00'
  prvtptr : Option Nat := none
  recordlist : Option Nat := none
  next : Option Nat := none
deriving DecidableEq, Repr

/-- What is at an address: an `MS3Record`, bytes, an `MS3TraceList` (the first identifier,
libmseed.h:580-584), an `MS3TraceID` (libmseed.h:566-577: `prvtptr`, `first`, `next[0]`; the other
members are not used here), an `MS3TraceSeg`, an `MS3RecordList` (libmseed.h:506-511: `first`, `last`,
`recordcnt`), an `MS3RecordPtr` (libmseed.h:492-503: `msr`, `prvtptr`, `next`, `endtime`; the place of the
record, which readers set, is in `Model/RecordList`), an `MS3Selections` (libmseed.h:445-450,
the pattern up to its terminator), an `MS3SelectTime` (libmseed.h:438-442). -/
inductive Obj where
  | record (r : Record)
  | bytes (b : List UInt8)
  | list (first : Option Nat)
  | id (prvtptr first next : Option Nat)
  | seg (s : Seg)
  | recordlist (first last : Option Nat) (recordcnt : Nat)
  | recordptr (msr prvtptr next : Option Nat) (endtime : Int)
  | select (sidpattern : List UInt8) (timewindows next : Option Nat) (pubversion : Nat)
  | window (start stop : Int) (next : Option Nat)
deriving DecidableEq, Repr

/-- The memory: what is at each address, the next address that is given out, and whether the `n`-th
allocation fails. -/
structure Heap where
  cell : Nat → Option Obj
  next : Nat
  fails : Nat → Bool
  calls : Nat := 0

/-- Write an object. -/
def Heap.put (h : Heap) (a : Nat) (o : Obj) : Heap :=
  { h with cell := fun x => if x = a then some o else h.cell x }

/-- libmseed.h:1373-1381 `libmseed_memory.malloc`, with what is written to the memory afterwards. -/
def malloc (h : Heap) (o : Obj) : Option Nat × Heap :=
  let h' := { h with calls := h.calls + 1 }
  if h.fails h.calls then (none, h')
  else (some h.next, { h'.put h.next o with next := h.next + 1 })

/-- libmseed.h:1373-1381 `libmseed_memory.free` of an address that is not `NULL`. -/
def free (h : Heap) (a : Nat) : Res Heap :=
  match h.cell a with
  | some _ => .ok { h with cell := fun x => if x = a then none else h.cell x }
  | none => .ub

/-- `if (p) libmseed_memory.free (p)` -/
def freeOpt (h : Heap) (p : Option Nat) : Res Heap :=
  match p with
  | some a => free h a
  | none => .ok h

/-- `memcpy` of the first `n` bytes at an address. -/
def readBytes (h : Heap) (a : Nat) (n : Nat) : Res (List UInt8) :=
  match h.cell a with
  | some (.bytes b) => if n ≤ b.length then .ok (b.take n) else .oob
  | _ => .ub

/-- libmseed.h:1373-1381 `libmseed_memory.realloc` of an address that is not `NULL` to at most its
size; the memory may move. -/
def realloc (h : Heap) (a : Nat) (n : Nat) : Res (Option Nat × Heap) :=
  (readBytes h a n).bind fun b =>
  match malloc h (.bytes b) with
  | (none, h) => .ok (none, h)
  | (some a', h) => (free h a).bind fun h => .ok (some a', h)

/-- Read a record. -/
def getRecord (h : Heap) (a : Nat) : Res Record :=
  match h.cell a with
  | some (.record r) => .ok r
  | _ => .ub

/-- msrutils.c:43-78 `msr3_init`. -/
def init (h : Heap) (msr : Option Nat) : Res (Option Nat × Heap) :=
  match msr with
  | none => .ok (malloc h (.record { reclen := -1, samplecnt := -1, encoding := -1 }))
  | some a =>
    (getRecord h a).bind fun r =>
    (freeOpt h r.extra).bind fun h =>
    .ok (some a, h.put a (.record {
      reclen := -1, samplecnt := -1, encoding := -1, datasamples := r.datasamples, datasize := r.datasize }))

/-- msrutils.c:88-103 `msr3_free`, with the pointer at `ppmsr`. -/
def msrFree (h : Heap) (msr : Option Nat) : Res Heap :=
  match msr with
  | none => .ok h
  | some a =>
    (getRecord h a).bind fun r =>
    (freeOpt h r.extra).bind fun h =>
    (freeOpt h r.datasamples).bind fun h =>
    free h a

/-- msrutils.c:162-180: the data samples of the copy at `b`. -/
def dupSamples (h : Heap) (r r' : Record) (b : Nat) (datadup : Bool) : Res (Option Nat × Heap) :=
  match r.datasamples with
  | some p =>
    if datadup ∧ r.numsamples > 0 ∧ r.datasize > 0 then
      (readBytes h p r.datasize).bind fun d =>
      match malloc h (.bytes d) with
      | (none, h) => (msrFree h (some b)).bind fun h => .ok (none, h)
      | (some q, h) => .ok (some b, h.put b (.record { r' with
          datasamples := some q, datasize := r.datasize, numsamples := r.numsamples }))
    else .ok (some b, h)
  | none => .ok (some b, h)

/-- msrutils.c:137-142: the record without what is allocated. -/
def bare (r : Record) : Record :=
  { r with extra := none, extralength := 0, datasamples := none, datasize := 0, numsamples := 0 }

/-- msrutils.c:120-183 `msr3_duplicate`. -/
def duplicate (h : Heap) (msr : Option Nat) (datadup : Bool) : Res (Option Nat × Heap) :=
  match msr with
  | none => .ok (none, h)
  | some a =>
    (init h none).bind fun x =>
    match x with
    | (none, h) => .ok (none, h)
    | (some b, h) =>
      (getRecord h a).bind fun r =>
      let r' := bare r
      let h := h.put b (.record r')
      match r.extra with
      | some p =>
        if r.extralength > 0 then
          (readBytes h p r.extralength).bind fun e =>
          match malloc h (.bytes e) with
          | (none, h) => (msrFree h (some b)).bind fun h => .ok (none, h)
          | (some q, h) =>
            let r' := { r' with extra := some q, extralength := r.extralength }
            dupSamples (h.put b (.record r')) r r' b datadup
        else dupSamples h r r' b datadup
      | none => dupSamples h r r' b datadup

/-- `(size_t) numsamples * samplesize` (msrutils.c:320, tracelist.c:1547). -/
def bytesOf (numsamples : Int) (size : Nat) : Nat := numsamples.toNat * size % 2 ^ 64

/-- msrutils.c:304-337 `msr3_resize_buffer`; `false` is `MS_GENERROR`. -/
def resizeRecord (h : Heap) (msr : Option Nat) : Res (Bool × Heap) :=
  match msr with
  | none => .ok (false, h)
  | some a =>
    (getRecord h a).bind fun r =>
    match r.datasamples with
    | some p =>
      let size := Samples.sampleSize r.sampletype
      if size ≠ 0 ∧ r.numsamples > 0 ∧ r.datasize > bytesOf r.numsamples size then
        (realloc h p (bytesOf r.numsamples size)).bind fun x =>
        match x with
        | (none, h) => .ok (false, h.put a (.record { r with datasamples := none }))
        | (some q, h) => .ok (true, h.put a (.record { r with
            datasamples := some q, datasize := bytesOf r.numsamples size }))
      else .ok (true, h)
    | none => .ok (true, h)

/-- tracelist.c:1543-1561: one segment. -/
def resizeSeg (h : Heap) (a : Nat) (s : Seg) : Res (Bool × Heap) :=
  match s.datasamples with
  | some p =>
    let size := Samples.sampleSize s.sampletype
    if size ≠ 0 ∧ s.numsamples > 0 ∧ s.datasize > bytesOf s.numsamples size then
      (realloc h p (bytesOf s.numsamples size)).bind fun x =>
      match x with
      | (none, h) => .ok (false, h.put a (.seg { s with datasamples := none }))
      | (some q, h) => .ok (true, h.put a (.seg { s with
          datasamples := some q, datasize := bytesOf s.numsamples size }))
    else .ok (true, h)
  | none => .ok (true, h)

/-- tracelist.c:1541-1564: the loop over the segments; `err` if there are more than `fuel`. -/
def resizeSegs : Nat → Heap → Option Nat → Res (Bool × Heap)
  | _, h, none => .ok (true, h)
  | 0, _, some _ => .err
  | fuel + 1, h, some a =>
    match h.cell a with
    | some (.seg s) =>
      (resizeSeg h a s).bind fun x =>
      match x with
      | (false, h) => .ok (false, h)
      | (true, h) => resizeSegs fuel h s.next
    | _ => .ub

/-- tracelist.c:1538-1567: the loop over the identifiers. -/
def resizeIds : Nat → Heap → Option Nat → Res (Bool × Heap)
  | _, h, none => .ok (true, h)
  | 0, _, some _ => .err
  | fuel + 1, h, some a =>
    match h.cell a with
    | some (.id _ first next) =>
      (resizeSegs fuel h first).bind fun x =>
      match x with
      | (false, h) => .ok (false, h)
      | (true, h) => resizeIds fuel h next
    | _ => .ub

/-- tracelist.c:1522-1570 `mstl3_resize_buffers`. -/
def resizeList (fuel : Nat) (h : Heap) (mstl : Option Nat) : Res (Bool × Heap) :=
  match mstl with
  | none => .ok (false, h)
  | some a =>
    match h.cell a with
    | some (.list first) => resizeIds fuel h first
    | _ => .ub

/-- tracelist.c:125-138: the loop over the entries of a record list (the members are read once, at the
beginning, as `next` is in the code); `err` if there are more than
`fuel`. -/
def freePtrs (prvt : Bool) : Nat → Heap → Option Nat → Res Heap
  | _, h, none => .ok h
  | 0, _, some _ => .err
  | fuel + 1, h, some a =>
    match h.cell a with
    | some (.recordptr msr prvtptr next _) =>
      (msrFree h msr).bind fun h =>
      (if prvt then freeOpt h prvtptr else .ok h).bind fun h =>
      (free h a).bind fun h => freePtrs prvt fuel h next
    | _ => .ub

/-- tracelist.c:109-145: the loop over the segments. -/
def freeSegs (prvt : Bool) : Nat → Heap → Option Nat → Res Heap
  | _, h, none => .ok h
  | 0, _, some _ => .err
  | fuel + 1, h, some a =>
    match h.cell a with
    | some (.seg s) =>
      (if prvt then freeOpt h s.prvtptr else .ok h).bind fun h =>
      (freeOpt h s.datasamples).bind fun h =>
      (match s.recordlist with
        | some l =>
          match h.cell l with
          | some (.recordlist first _ _) => (freePtrs prvt fuel h first).bind fun h => free h l
          | _ => .ub
        | none => .ok h).bind fun h =>
      (free h a).bind fun h => freeSegs prvt fuel h s.next
    | _ => .ub

/-- tracelist.c:103-154: the loop over the identifiers. -/
def freeIds (prvt : Bool) : Nat → Heap → Option Nat → Res Heap
  | _, h, none => .ok h
  | 0, _, some _ => .err
  | fuel + 1, h, some a =>
    match h.cell a with
    | some (.id prvtptr first next) =>
      (freeSegs prvt fuel h first).bind fun h =>
      (if prvt then freeOpt h prvtptr else .ok h).bind fun h =>
      (free h a).bind fun h => freeIds prvt fuel h next
    | _ => .ub

/-- tracelist.c:88-161 `mstl3_free`, with the pointer at `ppmstl`, which is read without a test for
`NULL` (line 102). -/
def listFree (fuel : Nat) (h : Heap) (mstl : Option Nat) (prvt : Bool) : Res Heap :=
  match mstl with
  | none => .oob
  | some a =>
    match h.cell a with
    | some (.list first) => (freeIds prvt fuel h first).bind fun h => free h a
    | _ => .ub

/-- tracelist.c:53-76 `mstl3_init`. -/
def listInit (fuel : Nat) (h : Heap) (mstl : Option Nat) : Res (Option Nat × Heap) :=
  (match mstl with
    | some a => listFree fuel h (some a) true
    | none => .ok h).bind fun h => .ok (malloc h (.list none))

end Verif.Model.Alloc
