import Verif.Model.Trace
/-!
# The skip list of sources (tracelist.c)

The list of sources with its `next` pointers per level, the search, insertion with random heights, and
`mstl3_addmsr_recordptr` as a whole.  Each source keeps its segments in a memory of its own
(`Source.heap`).  Identifiers are the bytes before the terminating NUL.
-/
namespace Verif.Model.TraceList
open Verif.Model.Steim Verif.Model.Trace

/-- libmseed.h:547 `MSTRACEID_SKIPLIST_HEIGHT` -/
def maxHeight : Nat := 8

/-- libmseed.h:580-584: the list.  Address 0 is the head `traces`, which holds no source.
`next a i` is `next[i]` of the entry at address `a`.  `fresh` is the address of the next
allocation. -/
structure TraceList (R : Type) where
  numtraceids : Nat
  sources : Nat → Option (Source R)
  next : Nat → Nat → Option Nat
  prng : Nat
  fresh : Nat

variable {R : Type}

/-- tracelist.c:53-76 `mstl3_init` -/
def init : TraceList R :=
  { numtraceids := 0, sources := fun _ => none, next := fun _ _ => none, prng := 1, fresh := 1 }

/-- tracelist.c:2434-2438 `lm_lcg_r`: new state and value -/
def lcg (state : Nat) : Nat × Nat :=
  let s := (6364136223846793005 * state + 1) % 2 ^ 64
  (s, s / 2 ^ 32)

/-- tracelist.c:2449-2454: the loop; first argument: how much the height may still grow -/
def flips : Nat → Nat → Nat → Nat × Nat
  | 0, height, state => (height, state)
  | left + 1, height, state =>
    let (state, v) := lcg state
    if v < (2 ^ 32 - 1) / 2 then flips left (height + 1) state else (height, state)

/-- tracelist.c:2445-2457 `lm_random_height`: height and new state -/
def randomHeight (maximum state : Nat) : Nat × Nat := flips (maximum - 1) 1 state

/-- `strcmp`: negative, zero or positive -/
def strcmp : List UInt8 → List UInt8 → Int
  | [], [] => 0
  | [], _ :: _ => -1
  | _ :: _, [] => 1
  | a :: s, b :: t => if a = b then strcmp s t else if a < b then -1 else 1

/-- `a->next[i]` -/
def nextOf (tl : TraceList R) (a i : Nat) : Res (Option Nat) :=
  if a = 0 ∨ (tl.sources a).isSome = true then .ok (tl.next a i) else .ub

/-- The source at an address. -/
def source (tl : TraceList R) (a : Nat) : Res (Source R) :=
  match tl.sources a with
  | some s => .ok s
  | none => .ub

/-- tracelist.c:209-215: comparison of an entry with the one wanted -/
def compareId (s : Source R) (sid : List UInt8) (pub : Nat) : Int :=
  let cmp := strcmp s.sid sid
  if cmp = 0 ∧ pub ≠ 0 ∧ s.pub ≠ pub then (if s.pub < pub then -1 else 1) else cmp

/-- tracelist.c:196-230: the search from entry `id`.  First argument: bound on the steps, `err` if it
is exceeded.  The level is one more than in the code, 0 means done.  Result: the entry found, if any,
and the array `prev`. -/
def findLoop (tl : TraceList R) (sid : List UInt8) (pub : Nat) :
    Nat → Nat → Nat → (Nat → Option Nat) → Res (Option Nat × (Nat → Option Nat))
  | 0, _, _, _ => .err
  | _ + 1, _, 0, prev => .ok (none, prev)
  | fuel + 1, id, level + 1, prev =>
    let prev := fun i => if i = level then some id else prev i
    (nextOf tl id level).bind fun n =>
    match n with
    | none => findLoop tl sid pub fuel id level prev
    | some b =>
      (source tl b).bind fun s =>
      let cmp := compareId s sid pub
      if cmp = 0 then .ok (some b, prev)
      else if cmp > 0 then findLoop tl sid pub fuel id level prev
      else findLoop tl sid pub fuel b (level + 1) prev

/-- tracelist.c:179-233 `mstl3_findID` -/
def findID (tl : TraceList R) (sid : List UInt8) (pub : Nat) :
    Res (Option Nat × (Nat → Option Nat)) :=
  findLoop tl sid pub (tl.fresh + maxHeight + 1) 0 maxHeight fun _ => none

/-- Assignment to `a->next[i]`. -/
def setLink (next : Nat → Nat → Option Nat) (a i : Nat) (v : Option Nat) : Nat → Nat → Option Nat :=
  fun x j => if x = a ∧ j = i then v else next x j

/-- tracelist.c:281-294: connect entry `a` at the levels below the first argument.  `none`: no
previous pointer. -/
def connect (tl : TraceList R) (a : Nat) (prev : Nat → Option Nat) : Nat → Res (Option (TraceList R))
  | 0 => .ok (some tl)
  | level + 1 =>
    match prev level with
    | none => .ok none
    | some p =>
      (nextOf tl p level).bind fun n =>
      connect { tl with next := setLink (setLink tl.next a level n) p level (some a) } a prev level

/-- tracelist.c:251-300 `mstl3_addID` for an entry just allocated and cleared
(tracelist.c:411-416), with `prev` from the search.  `none`: error. -/
def addID (tl : TraceList R) (s : Source R) (prev : Nat → Option Nat) :
    Res (Option (TraceList R × Nat)) :=
  let a := tl.fresh
  let (height, prng) := randomHeight maxHeight tl.prng
  let tl := { tl with sources := fun x => if x = a then some s else tl.sources x,
                      next := fun x i => if x = a then none else tl.next x i,
                      prng, fresh := a + 1 }
  (connect tl a prev height).bind fun r =>
  match r with
  | none => .ok none
  | some tl => .ok (some ({ tl with numtraceids := tl.numtraceids + 1 }, a))

/-- tracelist.c:363-778 `mstl3_addmsr_recordptr`.  The result is the list and the addresses of the
entry and segment updated, `none` for NULL.  An error in `mstl3_addID` is `err` (tracelist.c:440). -/
def addMsr (sim : R → R → Bool) (split autoheal keep : Bool) (tl : TraceList R) (r : Arrival R) :
    Res (TraceList R × Option (Nat × Nat)) :=
  (findID tl r.sid (if split then r.pub else 0)).bind fun (found, prev) =>
  match found with
  | none =>
    match newId keep r with
    | none => .ok (tl, none)
    | some s =>
      (addID tl s prev).bind fun added =>
      match added with
      | none => .err
      | some (tl, a) => .ok (tl, some (a, 0))
  | some a =>
    (source tl a).bind fun s =>
    (addToId sim autoheal keep s r).bind fun (s, seg) =>
    .ok ({ tl with sources := fun x => if x = a then some s else tl.sources x },
      seg.map fun g => (a, g))

end Verif.Model.TraceList
