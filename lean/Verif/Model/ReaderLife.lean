import Verif.Model.ExtraMem
import Verif.Model.PathRange
/-!
# Life of a reader: libmseed/fileutils.c, libmseed/msio.c

What `ms3_readmsr`, `ms3_readmsr_r` and `ms3_readmsr_selection` allocate, open, use, close and free over many calls.
What is in the files does not matter here: `Luck` tells what the allocator, the system and the search for a record
do.  The blocks of a record are one block (see Model/RecMem for them).  Streams are numbered like blocks, the standard
input is 0; a URL has two handles of libcurl, which are numbered like streams, and libcurl refuses to use a multi handle
that is NULL.  Using or closing a stream that is not open is `ub`.  The library is built with URL support.
-/
namespace Verif.Model.ReaderLife
open Verif.Model.Steim Verif.Model.ExtraMem Verif.Model.PathRange

/-- libmseed.h:719-732 `MS3FileParam`: its own block, none for the global one, the buffer, the stream or the handles for
a URL, the offsets, and where the stream was positioned when it was opened. -/
structure Param where
  self : Ptr := none
  buffer : Ptr := none
  handle : Ptr := none
  handle2 : Ptr := none
  path : List UInt8 := []
  start : Int := 0
  stop : Int := 0
  place : Int := 0
deriving DecidableEq, Repr

/-- What happens in a call: the allocations of the parameters, the buffer and the record, `opens` and `seeks` of the
system,
whether the options of a URL can be set and its second handle allocated, whether the server `answers` without an error
code, whether anything is parsed as a record (`found`), and whether a record is returned (`good`). -/
structure Luck where
  param : Bool := true
  buffer : Bool := true
  record : Bool := true
  opens : Bool := true
  seeks : Bool := true
  sets : Bool := true
  multi : Bool := true
  answers : Bool := true
  found : Bool := true
  good : Bool := true
deriving DecidableEq, Repr

/-- The variables of the program for the reader and the record, the memory and the open streams. -/
structure World where
  param : Option Param := none
  msr : Ptr := none
  heap : Heap := {}
  streams : Heap := {}
deriving DecidableEq, Repr

/-- fileutils.c:275-292: the parameters, which are allocated if there are none. -/
def paramOf (k : Luck) (param : Option Param) (h : Heap) : Option Param × Heap :=
  match param with
  | some p => (some p, h)
  | none =>
    match alloc k.param h with
    | (none, h) => (none, h)
    | (some b, h) => (some { self := some b }, h)

/-- fileutils.c:294-318, msio.c:421-456: the call with no path.  The global parameters have no block of their own and
are reset.  `fclose` ends the stream also if it returns an error, and its result is not used. -/
def close (k : Luck) (w : World) : Res (Bool × World) :=
  match paramOf k w.param w.heap with
  | (none, h) => .ok (false, { w with heap := h })
  | (some p, h) =>
    (freePtr w.msr h).bind fun h =>
    (freePtr p.handle w.streams).bind fun s =>
    (freePtr p.handle2 s).bind fun s =>
    (freePtr p.buffer h).bind fun h =>
    (touch p.self h).bind fun h =>
    (freePtr p.self h).bind fun h =>
    .ok (true, ⟨if p.self = none then some {} else none, none, h, s⟩)

/-- fileutils.c:320-328: the buffer, which is allocated if there is none. -/
def bufferOf (k : Luck) (p : Param) (h : Heap) : Bool × Param × Heap :=
  match p.buffer with
  | some _ => (true, p, h)
  | none =>
    match alloc k.buffer h with
    | (none, h) => (false, p, h)
    | (some b, h) => (true, { p with buffer := some b }, h)

/-- fileutils.c:333-351: the path and the offsets are stored; the offsets are those from before if there is no range
in the path. -/
def store (range : Bool) (mspath : List UInt8) (p : Param) : Res Param :=
  (if range then parseRange mspath p.start p.stop else .ok ⟨none, p.start, p.stop⟩).bind fun f =>
  match f.at? with
  | some i =>
    if i < 512 then .ok { p with path := (mspath.take 511).take i, start := f.start, stop := f.stop } else .oob
  | none => .ok { p with path := mspath.take 511, start := f.start, stop := f.stop }

/-- msio.c:196, `strncasecmp` -/
def lower (c : UInt8) : UInt8 := if 65 ≤ c.toNat ∧ c.toNat ≤ 90 then c + 32 else c

/-- msio.c:203: `strstr (path, "://")` -/
def hasScheme : List UInt8 → Bool
  | [] => false
  | c :: t => (c :: t).take 3 == [58, 47, 47] || hasScheme t

/-- msio.c:195-203: is the path a URL?  `file://` is not. -/
def isUrl (path : List UInt8) : Bool :=
  (path.take 7).map lower != [102, 105, 108, 101, 58, 47, 47] && hasScheme path

/-- msio.c:203-385: a URL is opened.  The options before the second handle and those after it are taken together. -/
def openUrl (k : Luck) (p : Param) (s : Heap) : Bool × Param × Heap :=
  match alloc k.opens s with
  | (none, s) => (false, p, s)
  | (some i, s) =>
    if k.sets = false then (false, { p with handle := some i }, s)
    else
      match alloc k.multi s with
      | (none, s) => (false, { p with handle := some i }, s)
      | (some j, s) =>
        if k.answers = false then (false, { p with handle := some i, handle2 := some j }, s)
        else (true, { p with handle := some i, handle2 := some j, place := max 0 p.start }, s)

/-- fileutils.c:330-371, msio.c:386-406: the stream is opened if there is none. -/
def openStream (k : Luck) (range : Bool) (mspath : List UInt8) (p : Param) (s : Heap) : Res (Bool × Param × Heap) :=
  if p.handle ≠ none then .ok (true, p, s)
  else
    (store range mspath p).bind fun p =>
    if mspath = [45] then .ok (true, { p with handle := some 0 }, s)
    else if isUrl p.path = true then .ok (openUrl k p s)
    else
      match alloc k.opens s with
      | (none, s) => .ok (false, p, s)
      | (some i, s) =>
        if p.start > 0 then
          if k.seeks then .ok (true, { p with handle := some i, place := p.start }, s)
          else .ok (false, { p with handle := some i }, s)
        else .ok (true, { p with handle := some i }, s)

/-- fileutils.c:377-568: the search for a record, which uses the stream and the buffer; the record is allocated if
there is none, and freed unless one is returned. -/
def search (k : Luck) (p : Param) (msr : Ptr) (h s : Heap) : Res (Bool × Ptr × Heap) :=
  (touch p.handle s).bind fun _ =>
  (touch p.handle2 s).bind fun _ =>
  (touch p.buffer h).bind fun h =>
  (touch msr h).bind fun h =>
  let r := if k.found = true ∧ msr = none then alloc k.record h else (msr, h)
  if k.found = true ∧ k.good = true ∧ r.1 ≠ none then .ok (true, r)
  else (freePtr r.1 r.2).bind fun h => .ok (false, none, h)

/-- fileutils.c:256-569 `ms3_readmsr_selection` with a path: is there no error, and what is afterwards. -/
def readmsr (k : Luck) (range : Bool) (mspath : List UInt8) (w : World) : Res (Bool × World) :=
  match paramOf k w.param w.heap with
  | (none, h) => .ok (false, { w with heap := h })
  | (some p, h) =>
    (touch p.self h).bind fun h =>
    match bufferOf k p h with
    | (false, p, h) => .ok (false, ⟨some p, w.msr, h, w.streams⟩)
    | (true, p, h) =>
      (openStream k range mspath p w.streams).bind fun o =>
      if o.1 = false then
        (freePtr w.msr h).bind fun h => .ok (false, ⟨some o.2.1, none, h, o.2.2⟩)
      else
        (search k o.2.1 w.msr h o.2.2).bind fun r =>
        .ok (r.1, ⟨some o.2.1, r.2.1, r.2.2, o.2.2⟩)

/-- fileutils.c:74-101 `ms3_mstl_init_fd`, for a program whose variable is NULL: the stream of a descriptor. -/
def initFd (k : Luck) (w : World) : Res (Bool × World) :=
  if w.param ≠ none then .ok (false, w)
  else
    match alloc k.param w.heap with
    | (none, h) => .ok (false, { w with heap := h })
    | (some b, h) =>
      match alloc k.opens w.streams with
      | (none, s) => (free b h).bind fun h => .ok (false, { w with heap := h, streams := s })
      | (some i, s) => .ok (true, { w with param := some { self := some b, handle := some i }, heap := h, streams := s })

/-- The calls of a program. -/
inductive Op where
  | read (range : Bool) (path : List UInt8)
  | close
  | initFd
deriving DecidableEq, Repr

def step (k : Luck) (w : World) : Op → Res (Bool × World)
  | .read range path => readmsr k range path w
  | .close => close k w
  | .initFd => initFd k w

def run : List (Luck × Op) → World → Res World
  | [], w => .ok w
  | x :: l, w => (step x.1 w x.2).bind fun r => run l r.2

end Verif.Model.ReaderLife
