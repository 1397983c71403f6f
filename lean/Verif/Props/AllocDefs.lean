import Verif.Model.Alloc
/-!
# Statements on allocated memory
-/
namespace Verif.Props.Alloc
open Verif.Model.Alloc

/-- Addresses that have not been given out are not in use. -/
def Fresh (h : Heap) : Prop := ∀ x, h.next ≤ x → h.cell x = none

/-- A pointer to bytes, or `NULL`. -/
def Held (h : Heap) (p : Option Nat) (v : Option (List UInt8)) : Prop :=
  match p, v with
  | none, none => True
  | some a, some b => h.cell a = some (.bytes b)
  | _, _ => False

/-- A record at `a` with the extra headers `e` and the data samples `d`, each in memory of its own and
of at least the size that the record has for it. -/
structure HasRecord (h : Heap) (a : Nat) (r : Record) (e d : Option (List UInt8)) : Prop where
  cell : h.cell a = some (.record r)
  extra : Held h r.extra e
  data : Held h r.datasamples d
  extralength : ∀ b, e = some b → r.extralength ≤ b.length
  datasize : ∀ b, d = some b → r.datasize ≤ b.length
  apart : ∀ p, r.extra = some p → r.datasamples ≠ some p

/-- The memory `h'` is `h` without what was at the addresses `S`. -/
def Released (h h' : Heap) (S : List Nat) : Prop :=
  ∀ x, h'.cell x = if x ∈ S then none else h.cell x

/-- The addresses of a record. -/
def ownedRecord (a : Nat) (r : Record) : List Nat := r.extra.toList ++ r.datasamples.toList ++ [a]

/-- An entry of a record list: its address, its record, its private pointer and the time of the last
sample. -/
structure PtrV where
  addr : Nat
  msr : Option (Nat × Record × Option (List UInt8) × Option (List UInt8)) := none
  prvt : Option Nat := none
  endtime : Int := 0

/-- A segment: its address and members, its samples, the entries of its record list. -/
structure SegV where
  addr : Nat
  seg : Seg
  data : Option (List UInt8) := none
  recs : Option (List PtrV) := none

/-- A source: its address, its segments, its private pointer. -/
structure IdV where
  addr : Nat
  segs : List SegV
  prvt : Option Nat := none

/-- A linked list that begins at `p`: `has v next` says that `v` is there and followed by `next`. -/
def Chain {V : Type} (addr : V → Nat) (has : V → Option Nat → Prop) : Option Nat → List V → Prop
  | p, [] => p = none
  | p, v :: l => p = some (addr v) ∧ ∃ next, has v next ∧ Chain addr has next l

/-- A private pointer that is to be freed points to something. -/
def HasPrvt (h : Heap) (prvt : Bool) (p : Option Nat) : Prop :=
  prvt = true → ∀ a, p = some a → h.cell a ≠ none

/-- A private pointer, if it is to be freed. -/
def ownedPrvt (prvt : Bool) (p : Option Nat) : List Nat := if prvt then p.toList else []

def HasPtr (h : Heap) (prvt : Bool) (v : PtrV) (next : Option Nat) : Prop :=
  h.cell v.addr = some (.recordptr (v.msr.map fun x => x.1) v.prvt next v.endtime) ∧
  (∀ a r e d, v.msr = some (a, r, e, d) → HasRecord h a r e d) ∧ HasPrvt h prvt v.prvt

/-- The addresses of its record. -/
def PtrV.ownedMsr (v : PtrV) : List Nat :=
  match v.msr with
  | none => []
  | some (a, r, _, _) => ownedRecord a r

def PtrV.owned (prvt : Bool) (v : PtrV) : List Nat :=
  v.ownedMsr ++ ownedPrvt prvt v.prvt ++ [v.addr]

def HasRecs (h : Heap) (prvt : Bool) (p : Option Nat) (v : Option (List PtrV)) : Prop :=
  match p, v with
  | none, none => True
  | some a, some l => ∃ first last n, h.cell a = some (.recordlist first last n) ∧
      Chain PtrV.addr (HasPtr h prvt) first l
  | _, _ => False

def HasSeg (h : Heap) (prvt : Bool) (v : SegV) (next : Option Nat) : Prop :=
  h.cell v.addr = some (.seg v.seg) ∧ v.seg.next = next ∧ Held h v.seg.datasamples v.data ∧
  (∀ b, v.data = some b → v.seg.datasize ≤ b.length) ∧
  HasRecs h prvt v.seg.recordlist v.recs ∧ HasPrvt h prvt v.seg.prvtptr

def SegV.owned (prvt : Bool) (v : SegV) : List Nat :=
  ownedPrvt prvt v.seg.prvtptr ++ v.seg.datasamples.toList ++
    ((v.recs.getD []).flatMap (PtrV.owned prvt) ++ v.seg.recordlist.toList) ++ [v.addr]

def HasId (h : Heap) (prvt : Bool) (v : IdV) (next : Option Nat) : Prop :=
  ∃ first, h.cell v.addr = some (.id v.prvt first next) ∧ Chain SegV.addr (HasSeg h prvt) first v.segs ∧
    HasPrvt h prvt v.prvt

def IdV.owned (prvt : Bool) (v : IdV) : List Nat :=
  v.segs.flatMap (SegV.owned prvt) ++ ownedPrvt prvt v.prvt ++ [v.addr]

/-- A trace list at `a`. -/
def HasList (h : Heap) (prvt : Bool) (a : Nat) (l : List IdV) : Prop :=
  ∃ first, h.cell a = some (.list first) ∧ Chain IdV.addr (HasId h prvt) first l

/-- All its addresses (with the private pointers if these are to be freed). -/
def ownedList (prvt : Bool) (a : Nat) (l : List IdV) : List Nat := l.flatMap (IdV.owned prvt) ++ [a]

/-- The bytes of a sample of a type. -/
def width (t : Char) : Nat :=
  match t with
  | 't' => 1
  | 'a' => 1
  | 'i' => 4
  | 'f' => 4
  | 'd' => 8
  | _ => 0

/-- The bytes that `n` samples of type `t` take. -/
def needed (n : Int) (t : Char) : Nat := n.toNat * width t

/-- A buffer `d` of `size` bytes with `n` samples of type `t` has become the buffer `d'` of `size'`
bytes: the samples are the same; if there are any, the size is what they need. -/
structure Trim (n : Int) (t : Char) (size : Nat) (d : Option (List UInt8)) (size' : Nat)
    (d' : Option (List UInt8)) : Prop where
  kept : d'.map (·.take (needed n t)) = d.map (·.take (needed n t))
  exact : d ≠ none → 0 < needed n t → size' = needed n t
  freed : ∀ b, d' = some b → 0 < needed n t → needed n t < size → b.length = needed n t
  none : d = none ∨ needed n t = 0 → size' = size ∧ d' = d

/-- The buffer is large enough for its samples. -/
def Room (n : Int) (t : Char) (size : Nat) (d : Option (List UInt8)) : Prop :=
  size < 2 ^ 64 ∧ (d ≠ none → needed n t ≤ size)

/-- A segment with a smaller buffer. -/
def SegV.Trimmed (v v' : SegV) : Prop :=
  v'.addr = v.addr ∧ v'.recs = v.recs ∧
  v'.seg = { v.seg with datasamples := v'.seg.datasamples, datasize := v'.seg.datasize } ∧
  Trim v.seg.numsamples v.seg.sampletype v.seg.datasize v.data v'.seg.datasize v'.data

/-- Two lists with corresponding members. -/
def Pairs {V : Type} (R : V → V → Prop) : List V → List V → Prop
  | [], [] => True
  | v :: l, v' :: l' => R v v' ∧ Pairs R l l'
  | _, _ => False

/-- A source with smaller buffers. -/
def IdV.Trimmed (v v' : IdV) : Prop :=
  v'.addr = v.addr ∧ v'.prvt = v.prvt ∧ Pairs SegV.Trimmed v.segs v'.segs

/-- From the memory `h` with the addresses `S` to the memory `h'` with `S'`: what is in neither is as it
was, what is no longer used is free, what is new was free. -/
structure Step (h h' : Heap) (S S' : List Nat) : Prop where
  fresh : Fresh h'
  next : h.next ≤ h'.next
  fails : h'.fails = h.fails
  old : ∀ x ∈ S', x ∈ S ∨ h.next ≤ x
  low : ∀ x ∈ S', x < h'.next
  rest : ∀ x, x ∉ S → x ∉ S' → h'.cell x = h.cell x
  gone : ∀ x ∈ S, x ∉ S' → h'.cell x = none
  nodup : S'.Nodup

/-- The copy at `b` in the memory `h'`, of the record `r` with `e` and `d` in the memory `h`. -/
structure IsCopy (h h' : Heap) (r : Record) (e d : Option (List UInt8)) (dup : Bool) (b : Nat) (r' : Record)
    (e' d' : Option (List UInt8)) : Prop where
  has : HasRecord h' b r' e' d'
  same : r' = { r with
    extra := r'.extra, extralength := r'.extralength, datasamples := r'.datasamples,
    datasize := r'.datasize, numsamples := r'.numsamples }
  extra : e'.getD [] = (e.getD []).take r.extralength ∧ r'.extralength = (e'.getD []).length
  data : d' = (if dup = true ∧ r.numsamples > 0 ∧ r.datasize > 0 then d.map (·.take r.datasize) else none)
  size : r'.datasize = (d'.getD []).length ∧ r'.numsamples = if d' = none then 0 else r.numsamples
  fresh : ∀ x ∈ ownedRecord b r', h.cell x = none
  other : ∀ x, x ∉ ownedRecord b r' → h'.cell x = h.cell x

end Verif.Props.Alloc
