import Verif.Props.SegMemDefs
/-!
# Record lists in memory: what the theorems speak of
-/
namespace Verif.Props.RecMem
open Verif.Model.Alloc Verif.Props.Alloc

/-- The pointer of a segment to its record list, with the entries in the order of the list: `NULL` if there are
none, otherwise to a list that knows its first and its last entry and their number. -/
def RecList (h : Heap) (prvt : Bool) (p : Option Nat) (l : List PtrV) : Prop :=
  match p with
  | none => l = []
  | some a => l ≠ [] ∧ ∃ first,
      h.cell a = some (.recordlist first (l.getLast?.map PtrV.addr) l.length) ∧ Chain PtrV.addr (HasPtr h prvt) first l

/-- Its addresses (with the private pointers if these are to be freed). -/
def ownedRecs (prvt : Bool) (p : Option Nat) (l : List PtrV) : List Nat := l.flatMap (PtrV.owned prvt) ++ p.toList

/-- The record `r'` with extra headers `e'` is a copy of `r` with `e`, without the samples. -/
structure HeaderCopy (r : Record) (e : Option (List UInt8)) (r' : Record) (e' : Option (List UInt8)) : Prop where
  same : r' = { r with
    extra := r'.extra, extralength := r'.extralength, datasamples := none, datasize := 0, numsamples := 0 }
  extra : e'.getD [] = (e.getD []).take r.extralength ∧ r'.extralength = (e'.getD []).length

/-- From the memory `h` with the addresses `S` to the memory `h'` with `S'`, where nothing is given back. -/
structure Adds (h h' : Heap) (S S' : List Nat) : Prop where
  fresh : Fresh h'
  fails : h'.fails = h.fails
  kept : ∀ x ∈ S, x ∈ S'
  new : ∀ x ∈ S', x ∈ S ∨ h.cell x = none
  rest : ∀ x, x ∉ S' → h'.cell x = h.cell x
  nodup : S'.Nodup

/-- The addresses given back with a segment that has been joined to another: its own, those of its samples and its
private pointer, and that of its record list if the other segment has one. -/
def dropped (b : Nat) (r : Seg) (list : Option Nat) : List Nat :=
  r.datasamples.toList ++ (if list = none then [] else r.recordlist.toList) ++ r.prvtptr.toList ++ [b]

end Verif.Props.RecMem
