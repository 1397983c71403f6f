import Verif.Model.Steim
/-!
# Memory of parsed extra headers: libmseed/extraheaders.c

Which blocks of memory are allocated and freed by the functions for extra headers.  What the texts say does not
matter here: `Luck` tells what yyjson and the allocator do.  A document of yyjson is one block, and what yyjson
allocates and frees by itself is not modelled; it keeps nothing if it fails.  Freeing or using a block that is
not allocated is `ub`.  Pointers to the record, the JSON Pointer and the value are not NULL, and `extra` is not
NULL if `extralength` is not 0.
-/
namespace Verif.Model.ExtraMem
open Verif.Model.Steim

/-- The blocks in use, and the next one. -/
structure Heap where
  live : List Nat := []
  next : Nat := 0
deriving DecidableEq, Repr

abbrev Ptr := Option Nat

/-- Allocation of a block, which may fail. -/
def alloc (ok : Bool) (h : Heap) : Ptr × Heap :=
  if ok then (some h.next, ⟨h.next :: h.live, h.next + 1⟩) else (none, h)

def free (b : Nat) (h : Heap) : Res Heap :=
  if b ∈ h.live then .ok { h with live := h.live.erase b } else .ub

/-- Freeing a pointer unless it is NULL. -/
def freePtr (p : Ptr) (h : Heap) : Res Heap :=
  match p with
  | none => .ok h
  | some b => free b h

/-- Use of what a pointer points to, unless it is NULL. -/
def touch (p : Ptr) (h : Heap) : Res Heap :=
  match p with
  | none => .ok h
  | some b => if b ∈ h.live then .ok h else .ub

/-- libmseed/extraheaders.h:39-43 `LM_PARSED_JSON` with its own block. -/
structure Parsed where
  self : Nat
  doc : Ptr := none
  edit : Ptr := none
deriving DecidableEq, Repr

/-- What the allocator and yyjson do in a call: `state` is the allocation of the state, `read` the reading of
the extra headers or the text, `imut`, `copy` and `fresh` the documents made, `patchRead` and `patchCopy` those of a
patch, `change` whether the change is possible, `write` and `short` whether there is a text of at most 65535
bytes. -/
structure Luck where
  state : Bool
  read : Bool
  imut : Bool
  copy : Bool
  fresh : Bool
  patchRead : Bool
  patchCopy : Bool
  change : Bool
  write : Bool
  short : Bool
deriving DecidableEq, Repr

/-- extraheaders.c:77-105: the second part of `parse_json`; `text` tells whether there is one. -/
def parseText (k : Luck) (text : Bool) (p : Parsed) (h : Heap) : Res (Option Parsed × Heap) :=
  if text = false then .ok (some p, h)
  else
    (freePtr p.doc h).bind fun h =>
    (freePtr p.edit h).bind fun h =>
    match alloc k.read h with
    | (none, h) => .ok (none, h)
    | (some d, h) => .ok (some ⟨p.self, some d, none⟩, h)

/-- extraheaders.c:55-106 `parse_json` -/
def parseJson (k : Luck) (text : Bool) (parsed : Option Parsed) (h : Heap) : Res (Option Parsed × Heap) :=
  match parsed with
  | some p => parseText k text p h
  | none =>
    match alloc k.state h with
    | (none, h) => .ok (none, h)
    | (some b, h) => parseText k text ⟨b, none, none⟩ h

/-- extraheaders.c:187-203, 338-354: the state given, or a new one. -/
def parsedOf (k : Luck) (text : Bool) (state : Option Parsed) (h : Heap) : Res (Option Parsed × Heap) :=
  match state with
  | some p => (touch (some p.self) h).bind fun h => .ok (some p, h)
  | none => parseJson k text none h

/-- extraheaders.c:1053-1072 `mseh_free_parsestate` -/
def freeState (state : Option Parsed) (h : Heap) : Res Heap :=
  match state with
  | none => .ok h
  | some p =>
    (touch (some p.self) h).bind fun h =>
    (freePtr p.doc h).bind fun h =>
    (freePtr p.edit h).bind fun h => free p.self h

/-- The state is kept if there is a place for it, and freed otherwise. -/
def keep (place : Bool) (p : Parsed) (h : Heap) : Res (Option Parsed × Heap) :=
  if place then .ok (some p, h) else (freeState (some p) h).bind fun h => .ok (none, h)

/-- extraheaders.c:149-265 `mseh_get_ptr_r`: the state after it.  `text` tells whether there are extra headers,
`rooted` whether the pointer begins with `/`, `place` whether `parsestate` is not NULL. -/
def getPtr (k : Luck) (text rooted place : Bool) (state : Option Parsed) (h : Heap) : Res (Option Parsed × Heap) :=
  if text = false ∨ rooted = false then .ok (state, h)
  else
    (parsedOf k text (if place then state else none) h).bind fun r =>
    match r.1 with
    | none => .ok (none, r.2)
    | some p =>
      if p.edit ≠ none ∧ p.doc = none then
        (touch p.edit r.2).bind fun h =>
        match alloc k.imut h with
        | (none, h) => keep place p h
        | (some d, h) => (touch (some d) h).bind fun h => keep place { p with doc := some d } h
      else (touch p.doc r.2).bind fun h => keep place p h

/-- extraheaders.c:997-1040 `mseh_serialize`: `extra` after it. -/
def serialize (k : Luck) (extra : Ptr) (state : Option Parsed) (h : Heap) : Res (Ptr × Heap) :=
  match state with
  | none => .ok (extra, h)
  | some p =>
    (touch (some p.self) h).bind fun h =>
    if p.edit = none then .ok (extra, h)
    else
      (touch p.edit h).bind fun h =>
      match alloc k.write h with
      | (none, h) => .ok (extra, h)
      | (some t, h) =>
        if k.short = false then (free t h).bind fun h => .ok (extra, h)
        else (freePtr extra h).bind fun h => .ok (some t, h)

/-- extraheaders.c:407-433: a patch is read, copied and freed; is the change done? -/
def patch (k : Luck) (h : Heap) : Res (Bool × Heap) :=
  match alloc k.patchRead h with
  | (none, h) => .ok (false, h)
  | (some i, h) =>
    match alloc k.patchCopy h with
    | (none, h) => (free i h).bind fun h => .ok (false, h)
    | (some m, h) => (free i h).bind fun h => (free m h).bind fun h => .ok (k.change, h)

/-- extraheaders.c:356-388: the mutable document of the state, if it can be made. -/
def mutable (k : Luck) (p : Parsed) (h : Heap) : Res (Option Parsed × Heap) :=
  if p.edit ≠ none then .ok (some p, h)
  else
    (touch p.doc h).bind fun h =>
    match alloc (if p.doc = none then k.fresh else k.copy) h with
    | (none, h) => .ok (none, h)
    | (some m, h) => .ok (some { p with edit := some m }, h)

/-- extraheaders.c:312-476 `mseh_set_ptr_r`: `extra` and the state after it.  `merge` tells whether the value is a
patch. -/
def setPtr (k : Luck) (text rooted merge place : Bool) (extra : Ptr) (state : Option Parsed) (h : Heap) :
    Res (Ptr × Option Parsed × Heap) :=
  if rooted = false ∧ merge = false then .ok (extra, state, h)
  else
    (parsedOf k text (if place then state else none) h).bind fun r =>
    match r.1 with
    | none => .ok (extra, none, r.2)
    | some p =>
      (mutable k p r.2).bind fun q =>
      match q.1 with
      | none => (keep place p q.2).bind fun s => .ok (extra, s)
      | some p =>
        (touch p.edit q.2).bind fun h =>
        (if merge then patch k h else .ok (k.change, h)).bind fun c =>
        if place = false then
          (serialize k extra (some p) c.2).bind fun s =>
          (freeState (some p) s.2).bind fun h => .ok (s.1, none, h)
        else if c.1 = true then
          (freePtr p.doc c.2).bind fun h => .ok (extra, some { p with doc := none }, h)
        else .ok (extra, some p, c.2)

/-- extraheaders.c:1090-1142 `mseh_replace`: `extra` after it; `json` tells whether the text is not NULL. -/
def replace (k : Luck) (json : Bool) (extra : Ptr) (h : Heap) : Res (Ptr × Heap) :=
  if json = false then (freePtr extra h).bind fun h => .ok (none, h)
  else
    match alloc k.read h with
    | (none, h) => .ok (extra, h)
    | (some d, h) =>
      (touch (some d) h).bind fun h =>
      match alloc k.write h with
      | (none, h) => .ok (extra, h)
      | (some t, h) =>
        if k.short = false then (free t h).bind fun h => .ok (extra, h)
        else (freePtr extra h).bind fun h => .ok (some t, h)

/-- A record's extra headers, the variable for the state and the memory. -/
structure World where
  extra : Ptr := none
  state : Option Parsed := none
  heap : Heap := {}
deriving DecidableEq, Repr

/-- The calls of a program; without a place the variable is not used. -/
inductive Op where
  | get (rooted place : Bool)
  | set (rooted merge place : Bool)
  | serialize
  | freeState
  | replace (json : Bool)
deriving DecidableEq, Repr

def step (k : Luck) (w : World) : Op → Res World
  | .get rooted place =>
    (getPtr k w.extra.isSome rooted place (if place then w.state else none) w.heap).bind fun r =>
    .ok { w with state := if place then r.1 else w.state, heap := r.2 }
  | .set rooted merge place =>
    (setPtr k w.extra.isSome rooted merge place w.extra (if place then w.state else none) w.heap).bind fun r =>
    .ok { extra := r.1, state := if place then r.2.1 else w.state, heap := r.2.2 }
  | .serialize =>
    (serialize k w.extra w.state w.heap).bind fun r => .ok { w with extra := r.1, heap := r.2 }
  | .freeState => (freeState w.state w.heap).bind fun h => .ok { w with state := none, heap := h }
  | .replace json => (replace k json w.extra w.heap).bind fun r => .ok { w with extra := r.1, heap := r.2 }

def run : List (Luck × Op) → World → Res World
  | [], w => .ok w
  | x :: l, w => (step x.1 w x.2).bind fun w => run l w

end Verif.Model.ExtraMem
