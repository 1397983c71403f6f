import Verif.Props.AllocDefs
import Verif.Model.SelectMem
/-!
# Statements on selections in memory
-/
namespace Verif.Props.SelectMem
open Verif.Model.Alloc Verif.Props.Alloc
open Verif.Model.Select (Entry Window)

/-- An entry in memory: its address and members, and its time windows with their addresses. -/
structure SelV where
  addr : Nat
  sidpattern : List UInt8
  pubversion : Nat
  wins : List (Nat × Window)

/-- The entry. -/
def SelV.entry (v : SelV) : Entry := ⟨v.sidpattern, v.wins.map (·.2), v.pubversion⟩

/-- Its addresses. -/
def SelV.owned (v : SelV) : List Nat := v.wins.map (·.1) ++ [v.addr]

def HasWindow (h : Heap) (v : Nat × Window) (next : Option Nat) : Prop :=
  h.cell v.1 = some (.window v.2.start v.2.stop next)

def HasSelect (h : Heap) (v : SelV) (next : Option Nat) : Prop :=
  ∃ tw, h.cell v.addr = some (.select v.sidpattern tw next v.pubversion) ∧
    Chain (fun v : Nat × Window => v.1) (HasWindow h) tw v.wins

/-- A list of selections that begins at `first`. -/
def HasSelects (h : Heap) (first : Option Nat) (l : List SelV) : Prop :=
  Chain SelV.addr (HasSelect h) first l

/-- Its addresses. -/
def ownedSelects (l : List SelV) : List Nat := l.flatMap SelV.owned

/-- The entry is for this pattern and version. -/
def Same (pattern : List UInt8) (pub : Nat) (e : Entry) : Prop := e.sidpattern = pattern ∧ e.pubversion = pub

/-- The time window has been added: to the first entry for the pattern and the version, in front of its
time windows, or, if there is none, in an entry of its own in front of the others, which has the first 99
characters of the pattern. -/
def Added (pattern : List UInt8) (pub : Nat) (w : Window) (l l' : List Entry) : Prop :=
  (∃ l1 e l2, l = l1 ++ e :: l2 ∧ Same pattern pub e ∧ (∀ x ∈ l1, ¬ Same pattern pub x) ∧
    l' = l1 ++ { e with timewindows := w :: e.timewindows } :: l2) ∨
  ((∀ x ∈ l, ¬ Same pattern pub x) ∧ l' = ⟨pattern.take 99, [w], pub⟩ :: l)

/-- A selection that is asked for. -/
structure Asked where
  pattern : List UInt8
  start : Int
  stop : Int
  pub : Nat

/-- The calls of `ms3_addselect` for these, until one returns an error. -/
def addAll (fuel : Nat) : Heap → Option Nat → List Asked → Verif.Model.Steim.Res (Bool × Option Nat × Heap)
  | h, first, [] => .ok (true, first, h)
  | h, first, q :: qs =>
    (Verif.Model.SelectMem.addSelect fuel h first q.pattern q.start q.stop q.pub).bind fun x =>
    match x with
    | (true, first, h) => addAll fuel h first qs
    | (false, first, h) => .ok (false, first, h)

end Verif.Props.SelectMem
