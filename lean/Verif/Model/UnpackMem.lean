/-!
# Memory and streams used to unpack a record list (tracelist.c)

`mstl3_unpack_recordlist` again, with the numbers of memory blocks and streams in use.  Of the records only what decides about
these is kept; what is read and decoded is in `Model/RecordList`.
-/
namespace Verif.Model.UnpackMem

/-- Where a record is (tracelist.c:1722-1735): in a buffer, in a file opened by the caller, in a named file or nowhere.  Names
are compared by address (1740), `p` is the address. -/
inductive Place where
  | buffer
  | handle
  | name (p : Nat)
  | unset
deriving DecidableEq, Repr

/-- A record of the list: it has no samples (1700), its encoding is known and of the type of the first (1706-1720), its length,
its file can be positioned and read (1789, 1801), its samples can be decoded (1829). -/
structure Rec where
  empty : Bool := false
  typed : Bool := true
  place : Place := .buffer
  reclen : Nat := 512
  readable : Bool := true
  decodes : Bool := true
deriving DecidableEq, Repr

/-- The blocks and streams in use, the names in `filelist`, whether `filebuffer` is set, `filebuffersize`, and how often memory
was asked for. -/
structure State where
  blocks : Nat
  streams : Nat
  files : List Nat := []
  buffer : Bool := false
  size : Nat := 0
  asked : Nat := 0
deriving DecidableEq, Repr

/-- The world: whether the n-th request for memory is met and which files can be opened. -/
structure World where
  alloc : Nat → Bool
  opens : Nat → Bool

/-- tracelist.c:1736-1772: the file in the list, added if it is not there; `false` for `break`. -/
def openFile (w : World) (p : Nat) (s : State) : State × Bool :=
  if p ∈ s.files then (s, true)
  else if w.alloc s.asked = false then ({ s with asked := s.asked + 1 }, false)
  else if w.opens p = false then ({ s with blocks := s.blocks + 1, asked := s.asked + 1 }, false)
  else ({ s with blocks := s.blocks + 1, streams := s.streams + 1, files := p :: s.files, asked := s.asked + 1 }, true)

/-- tracelist.c:1774-1786: a file buffer for the record.  `realloc` that fails leaves the old block, but the pointer is
overwritten with NULL.  (The size, twice the record length, is an `int`; lengths of 2^30 and more are left out.) -/
def room (w : World) (reclen : Nat) (s : State) : State × Bool :=
  if reclen > s.size then
    if w.alloc s.asked = false then ({ s with buffer := false, asked := s.asked + 1 }, false)
    else
      ({ s with
          blocks := if s.buffer then s.blocks else s.blocks + 1, buffer := true, size := reclen * 2,
          asked := s.asked + 1 },
        true)
  else (s, true)

/-- tracelist.c:1774-1811: reading a record from a file. -/
def fetch (w : World) (r : Rec) (s : State) : State × Bool :=
  let t := room w r.reclen s
  (t.1, t.2 && r.readable)

/-- tracelist.c:1722-1821: finding the record. -/
def locate (w : World) (r : Rec) (s : State) : State × Bool :=
  match r.place with
  | .buffer => (s, true)
  | .handle => fetch w r s
  | .name p =>
    let t := openFile w p s
    if t.2 then fetch w r t.1 else t
  | .unset => (s, false)

/-- tracelist.c:1697-1839: the loop; `false` if it was left with -1. -/
def loop (w : World) : List Rec → State → State × Bool
  | [], s => (s, true)
  | r :: rs, s =>
    if r.empty then loop w rs s
    else if r.typed = false then (s, false)
    else
      let t := locate w r s
      if t.2 = true ∧ r.decodes = true then loop w rs t.1 else (t.1, false)

/-- tracelist.c:1841-1852: the file buffer and the list are given back, the files in it closed. -/
def finish (s : State) : State :=
  let blocks := if s.buffer then s.blocks - 1 else s.blocks
  { s with blocks := blocks - s.files.length, streams := s.streams - s.files.length, files := [], buffer := false }

/-- tracelist.c:1682-1874, the part after the checks: `output` is whether the caller gave a buffer, other than the samples of the
segment.  The blocks and streams in
use afterwards, and whether the call succeeded.  The state is that of the beginning of the call. -/
def unpack (w : World) (output : Bool) (rs : List Rec) (blocks streams : Nat) : State × Bool :=
  if output then
    let t := loop w rs { blocks, streams }
    (finish t.1, t.2)
  else if w.alloc 0 = false then ({ blocks, streams, asked := 1 }, false)
  else
    let t := loop w rs { blocks := blocks + 1, streams, asked := 1 }
    let s := finish t.1
    if t.2 then (s, true) else ({ s with blocks := s.blocks - 1 }, false)

end Verif.Model.UnpackMem
