import Verif.Model.Steim
import Verif.Model.Samples
/-!
# Trace segments of one source (tracelist.c)

`mstl3_addmsr_recordptr` for a source that is already in the list, at the level of the doubly linked
list of segments: addresses, `next` and `prev` pointers, allocation and release.  Access to memory that
is not allocated is the outcome `ub`.

Times are unbounded integers (the code uses `int64_t`).  Sampling rates are an arbitrary type `R` with
the test `sim` in place of `IS_SAMPRATE_SIMILAR`, the rate tolerance being the same for all records.
Memory allocation succeeds.
-/
namespace Verif.Model.Trace
open Verif.Model.Steim Verif.Model.Samples

/-- libmseed.h:358-382: the part of a record used here, with the values computed from it at
tracelist.c:397, 449, 452-457, 463: `stop` by `msr3_endtime`, `period` by `msr3_nsperiod`, `tol` the
time tolerance `nstimetol` and `rate` by `msr3_sampratehz`.  `data` are the samples (`datasamples`,
`numsamples` of them), empty if there are none; `numsamples` without `datasamples` is not modelled. -/
structure Arrival (R : Type) where
  sid : List UInt8
  pub : Nat
  start : Int
  stop : Int
  period : Int
  tol : Int
  rate : R
  samplecnt : Int
  sampletype : Char
  data : List Int

/-- libmseed.h:550-563: a segment.  `records` is the record list (libmseed.h:492-503), empty if none
is kept. -/
structure Seg (R : Type) where
  start : Int
  stop : Int
  rate : R
  samplecnt : Int
  sampletype : Char
  data : List Int
  records : List (Arrival R)

/-- A segment in memory with its links. -/
structure Node (R : Type) where
  seg : Seg R
  next : Option Nat
  prev : Option Nat

/-- Memory: the nodes allocated, by address. -/
abbrev Heap (R : Type) := Nat → Option (Node R)

/-- libmseed.h:566-577: a source with its segments.  `fresh` is the address of the next allocation. -/
structure Source (R : Type) where
  sid : List UInt8
  pub : Nat
  earliest : Int
  latest : Int
  numsegments : Int
  first : Nat
  last : Nat
  heap : Heap R
  fresh : Nat

variable {R : Type}

/-- Access through a pointer. -/
def fetch (h : Heap R) (a : Nat) : Res (Node R) :=
  match h a with
  | some n => .ok n
  | none => .ub

/-- Memory with the node at an address replaced. -/
def put (h : Heap R) (a : Nat) (n : Node R) : Heap R := fun x => if x = a then some n else h x

/-- `libmseed_memory.free`. -/
def free (h : Heap R) (a : Nat) : Heap R := fun x => if x = a then none else h x

/-- Assignment to `a->next`. -/
def setNext (h : Heap R) (a : Nat) (p : Option Nat) : Res (Heap R) :=
  (fetch h a).bind fun n => .ok (put h a { n with next := p })

/-- Assignment to `a->prev`. -/
def setPrev (h : Heap R) (a : Nat) (p : Option Nat) : Res (Heap R) :=
  (fetch h a).bind fun n => .ok (put h a { n with prev := p })

/-- Assignment to the fields of a segment. -/
def setSeg (h : Heap R) (a : Nat) (s : Seg R) : Res (Heap R) :=
  (fetch h a).bind fun n => .ok (put h a { n with seg := s })

/-- `if (p) p->next = q;` -/
def setNextOf (h : Heap R) (p q : Option Nat) : Res (Heap R) :=
  match p with
  | some a => setNext h a q
  | none => .ok h

/-- `if (p) p->prev = q;` -/
def setPrevOf (h : Heap R) (p q : Option Nat) : Res (Heap R) :=
  match p with
  | some a => setPrev h a q
  | none => .ok h

/-- tracelist.c:987-1037 `mstl3_msr2seg`, and tracelist.c:1265-1337 `mstl3_add_recordptr` for a new
record list if `keep` (tracelist.c:433, 515, 534, 683).  `none`: error. -/
def msr2seg (keep : Bool) (r : Arrival R) : Option (Seg R) :=
  if r.data ≠ [] ∧ sampleSize r.sampletype = 0 then none
  else some { start := r.start, stop := r.stop, rate := r.rate, samplecnt := r.samplecnt,
              sampletype := r.sampletype, data := r.data, records := if keep then [r] else [] }

/-- tracelist.c:1052-1146 `mstl3_addmsrtoseg` with `whence` 1 (`atEnd`) or 2, and
`mstl3_add_recordptr` if `keep` (tracelist.c:496, 550, 616, 666).  `none`: error. -/
def addMsrToSeg (keep : Bool) (s : Seg R) (r : Arrival R) (atEnd : Bool) : Option (Seg R) :=
  if r.data ≠ [] ∧ r.sampletype ≠ s.sampletype then none
  else if r.data ≠ [] ∧ sampleSize r.sampletype = 0 then none
  else if atEnd then
    some { s with stop := r.stop, samplecnt := s.samplecnt + r.samplecnt, data := s.data ++ r.data,
                  records := if keep then s.records ++ [r] else s.records }
  else
    some { s with start := r.start, samplecnt := s.samplecnt + r.samplecnt, data := r.data ++ s.data,
                  records := if keep then r :: s.records else s.records }

/-- tracelist.c:1155-1238 `mstl3_addsegtoseg`.  `none`: error. -/
def addSegToSeg (s1 s2 : Seg R) : Option (Seg R) :=
  if s2.data ≠ [] ∧ s2.sampletype ≠ s1.sampletype then none
  else if s2.data ≠ [] ∧ sampleSize s1.sampletype = 0 then none
  else some { s1 with stop := s2.stop, samplecnt := s1.samplecnt + s2.samplecnt,
                      data := s1.data ++ s2.data, records := s1.records ++ s2.records }

/-- tracelist.c:457, 484, 538, 583, 592: a gap within the time tolerance. -/
def fits (r : Arrival R) (gap : Int) : Bool := decide (gap ≤ r.tol ∧ gap ≥ -r.tol)

/-- tracelist.c:556-559: what the search finds. -/
structure Found where
  before : Option Nat
  after : Option Nat
  follow : Option Nat

/-- tracelist.c:557-605: the search through the segments.  First argument: bound on the number of
segments, `err` if it is exceeded. -/
def search (sim : R → R → Bool) (autoheal : Bool) (r : Arrival R) (h : Heap R) :
    Nat → Option Nat → Found → Res Found
  | _, none, f => .ok f
  | 0, some _, _ => .err
  | fuel + 1, some a, f =>
    (fetch h a).bind fun n =>
    if autoheal = true ∧ r.start = n.seg.start ∧ r.stop = n.seg.stop then
      .ok { f with follow := some a }
    else
      let follow := if r.start > n.seg.start then some a else f.follow
      let before := if f.before = none ∧ fits r (r.start - n.seg.stop - r.period) = true ∧
          sim r.rate n.seg.rate = true then some a else f.before
      let after := if f.after = none ∧ fits r (n.seg.start - r.stop - r.period) = true ∧
          sim r.rate n.seg.rate = true then some a else f.after
      if before.isSome = true ∧ after.isSome = true then .ok ⟨before, after, follow⟩
      else if autoheal = false ∧ (before.isSome = true ∨ after.isSome = true) then
        .ok ⟨before, after, follow⟩
      else search sim autoheal r h fuel n.next ⟨before, after, follow⟩

/-- tracelist.c:727-729: does the segment belong behind the next one? -/
def behind (s t : Seg R) : Bool :=
  decide (s.start > t.start ∨ (s.start = t.start ∧ s.stop < t.stop))

/-- tracelist.c:731-751: swap the segment `a` with the next one `b`. -/
def moveDown (id : Source R) (a b : Nat) : Res (Source R) :=
  (fetch id.heap a).bind fun na =>
  (setNextOf id.heap na.prev (some b)).bind fun h =>
  (fetch h b).bind fun nb =>
  (setPrevOf h nb.next (some a)).bind fun h =>
  (fetch h a).bind fun na =>
  (setPrev h b na.prev).bind fun h =>
  (setPrev h a (some b)).bind fun h =>
  (fetch h b).bind fun nb =>
  (setNext h a nb.next).bind fun h =>
  (setNext h b (some a)).bind fun h =>
  .ok { id with heap := h, first := if id.first = a then b else id.first,
                last := if id.last = b then a else id.last }

/-- tracelist.c:756-775: swap the segment `a` with the previous one `b`. -/
def moveUp (id : Source R) (a b : Nat) : Res (Source R) :=
  (fetch id.heap a).bind fun na =>
  (setPrevOf id.heap na.next (some b)).bind fun h =>
  (fetch h b).bind fun nb =>
  (setNextOf h nb.prev (some a)).bind fun h =>
  (fetch h a).bind fun na =>
  (setNext h b na.next).bind fun h =>
  (setNext h a (some b)).bind fun h =>
  (fetch h b).bind fun nb =>
  (setPrev h a nb.prev).bind fun h =>
  (setPrev h b (some a)).bind fun h =>
  .ok { id with heap := h, first := if id.first = b then a else id.first,
                last := if id.last = a then b else id.last }

/-- tracelist.c:727-751: move the segment `a` down the list.  First argument: bound on the number of
moves, `err` if it is exceeded. -/
def sortDown : Nat → Source R → Nat → Res (Source R)
  | 0, _, _ => .err
  | fuel + 1, id, a =>
    (fetch id.heap a).bind fun n =>
    match n.next with
    | none => .ok id
    | some b =>
      (fetch id.heap b).bind fun m =>
      if behind n.seg m.seg = true then (moveDown id a b).bind fun id => sortDown fuel id a
      else .ok id

/-- tracelist.c:752-775: move the segment `a` up the list. -/
def sortUp : Nat → Source R → Nat → Res (Source R)
  | 0, _, _ => .err
  | fuel + 1, id, a =>
    (fetch id.heap a).bind fun n =>
    match n.prev with
    | none => .ok id
    | some b =>
      (fetch id.heap b).bind fun m =>
      if behind m.seg n.seg = true then (moveUp id a b).bind fun id => sortUp fuel id a
      else .ok id

/-- tracelist.c:714-723: track version, earliest and latest times. -/
def track (id : Source R) (r : Arrival R) : Source R :=
  { id with pub := if r.pub > id.pub then r.pub else id.pub,
            earliest := if r.start < id.earliest then r.start else id.earliest,
            latest := if r.stop > id.latest then r.stop else id.latest }

/-- tracelist.c:714-778: the end of the addition: track, then sort the segment into place. -/
def settle (id : Source R) (r : Arrival R) (a : Nat) : Res (Source R × Option Nat) :=
  let id := track id r
  (sortDown (id.fresh + 1) id a).bind fun id =>
  (sortUp (id.fresh + 1) id a).bind fun id =>
  .ok (id, some a)

/-- tracelist.c:502-512: a new segment at the end of the list. -/
def appendSeg (id : Source R) (r : Arrival R) (s : Seg R) : Res (Source R × Nat) :=
  let a := id.fresh
  let h := put id.heap a { seg := s, next := none, prev := none }
  (setNext h id.last (some a)).bind fun h =>
  (setPrev h a (some id.last)).bind fun h =>
  .ok ({ id with heap := h, fresh := a + 1, last := a, numsegments := id.numsegments + 1,
                 latest := if r.stop > id.latest then r.stop else id.latest }, a)

/-- tracelist.c:521-531: a new segment at the beginning of the list. -/
def prependSeg (id : Source R) (r : Arrival R) (s : Seg R) : Res (Source R × Nat) :=
  let a := id.fresh
  let h := put id.heap a { seg := s, next := none, prev := none }
  (setPrev h id.first (some a)).bind fun h =>
  (setNext h a (some id.first)).bind fun h =>
  .ok ({ id with heap := h, fresh := a + 1, first := a, numsegments := id.numsegments + 1,
                 earliest := if r.start < id.earliest then r.start else id.earliest }, a)

/-- tracelist.c:688-710: a new segment behind `follow`, or first. -/
def insertSeg (id : Source R) (s : Seg R) (follow : Option Nat) : Res (Source R × Nat) :=
  let a := id.fresh
  let h := put id.heap a { seg := s, next := none, prev := none }
  match follow with
  | none =>
    (setNext h a (some id.first)).bind fun h =>
    (setPrev h id.first (some a)).bind fun h =>
    .ok ({ id with heap := h, fresh := a + 1, first := a, numsegments := id.numsegments + 1 }, a)
  | some f =>
    (fetch h f).bind fun nf =>
    (setNext h a nf.next).bind fun h =>
    (setPrev h a (some f)).bind fun h =>
    (setPrevOf h nf.next (some a)).bind fun h =>
    (setNext h f (some a)).bind fun h =>
    .ok ({ id with heap := h, fresh := a + 1, last := if f = id.last then a else id.last,
                   numsegments := id.numsegments + 1 }, a)

/-- tracelist.c:630-632: the last segment once `c` is gone. -/
def newLast (id : Source R) (c : Nat) : Res Nat :=
  if c = id.last then
    (fetch id.heap id.last).bind fun n =>
    match n.prev with
    | some p => .ok p
    | none => .ub
  else .ok id.last

/-- tracelist.c:630-652: remove the segment `c` from the list and release it. -/
def removeSeg (id : Source R) (c : Nat) : Res (Source R) :=
  (newLast id c).bind fun last =>
  (fetch id.heap c).bind fun nc =>
  (setNextOf id.heap nc.prev nc.next).bind fun h =>
  (fetch h c).bind fun nc =>
  (setPrevOf h nc.next nc.prev).bind fun h =>
  (fetch h c).bind fun _ =>
  .ok { id with heap := free h c, last, numsegments := id.numsegments - 1 }

/-- tracelist.c:445-724: add a record to a source.  The result is the source and the segment updated,
`none` on error.  At tracelist.c:632 a removed last segment without predecessor would leave `last`
null, which counts as `ub` here since `last` is always followed. -/
def addToId (sim : R → R → Bool) (autoheal keep : Bool) (id : Source R) (r : Arrival R) :
    Res (Source R × Option Nat) :=
  (fetch id.heap id.last).bind fun nl =>
  (fetch id.heap id.first).bind fun nf =>
  if fits r (r.start - nl.seg.stop - r.period) = true ∧ sim r.rate nl.seg.rate = true then
    match addMsrToSeg keep nl.seg r true with
    | none => .ok (id, none)
    | some s =>
      (setSeg id.heap id.last s).bind fun h =>
      settle { id with heap := h, latest := if r.stop > id.latest then r.stop else id.latest } r
        id.last
  else if r.start - r.period - r.tol > id.latest then
    match msr2seg keep r with
    | none => .ok (id, none)
    | some s => (appendSeg id r s).bind fun (id, a) => settle id r a
  else if r.stop + r.period + r.tol < id.earliest then
    match msr2seg keep r with
    | none => .ok (id, none)
    | some s => (prependSeg id r s).bind fun (id, a) => settle id r a
  else if fits r (nf.seg.start - r.stop - r.period) = true ∧ sim r.rate nf.seg.rate = true then
    match addMsrToSeg keep nf.seg r false with
    | none => .ok (id, none)
    | some s =>
      (setSeg id.heap id.first s).bind fun h =>
      settle { id with heap := h,
                       earliest := if r.start < id.earliest then r.start else id.earliest } r id.first
  else
    (search sim autoheal r id.heap (id.fresh + 1) (some id.first) ⟨none, none, none⟩).bind fun f =>
    match f.before, f.after with
    | some b, after =>
      (fetch id.heap b).bind fun nb =>
      match addMsrToSeg keep nb.seg r true with
      | none => .ok (id, none)
      | some s =>
        (setSeg id.heap b s).bind fun h =>
        let id := { id with heap := h }
        match after with
        | some c =>
          if autoheal = true ∧ b ≠ c then
            (fetch id.heap b).bind fun nb =>
            (fetch id.heap c).bind fun nc =>
            match addSegToSeg nb.seg nc.seg with
            | none => .ok (id, none)
            | some s =>
              (setSeg id.heap b s).bind fun h =>
              (removeSeg { id with heap := h } c).bind fun id => settle id r b
          else settle id r b
        | none => settle id r b
    | none, some c =>
      (fetch id.heap c).bind fun nc =>
      match addMsrToSeg keep nc.seg r false with
      | none => .ok (id, none)
      | some s => (setSeg id.heap c s).bind fun h => settle { id with heap := h } r c
    | none, none =>
      match msr2seg keep r with
      | none => .ok (id, none)
      | some s => (insertSeg id s f.follow).bind fun (id, a) => settle id r a

/-- tracelist.c:409-436: a new source with one segment.  `none`: error. -/
def newId (keep : Bool) (r : Arrival R) : Option (Source R) :=
  match msr2seg keep r with
  | none => none
  | some s =>
    some { sid := r.sid, pub := r.pub, earliest := r.start, latest := r.stop, numsegments := 1,
           first := 0, last := 0, fresh := 1,
           heap := fun x => if x = 0 then some { seg := s, next := none, prev := none } else none }

end Verif.Model.Trace
