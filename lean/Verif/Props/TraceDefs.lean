import Verif.Model.Trace
/-!
# The terms of the properties of trace segments (C37, C38, C40, C41, C67, C68)
-/
namespace Verif.Props.Trace
open Verif.Model.Steim Verif.Model.Samples Verif.Model.Trace

variable {R : Type}

/-- The segments of a source are at the addresses `l`: walking from the first by `next` visits exactly
these, walking back by `prev` as well, and there are as many as the source says. -/
structure Linked (id : Source R) (l : List Nat) : Prop where
  distinct : l.Nodup
  head : l.head? = some id.first
  last : l.getLast? = some id.last
  count : id.numsegments = l.length
  next : ∀ i a, l[i]? = some a → (id.heap a).map Node.next = some l[i + 1]?
  prev : ∀ i a, l[i]? = some a →
    (id.heap a).map Node.prev = some (if i = 0 then none else l[i - 1]?)

/-- The segment at an address. -/
def segAt (id : Source R) (a : Nat) : Option (Seg R) := (id.heap a).map Node.seg

/-- The segments in the order of the list. -/
def segments (id : Source R) (l : List Nat) : List (Seg R) := l.filterMap (segAt id)

/-- Ordered by start time, and for equal start the longer first. -/
def InOrder (l : List (Seg R)) : Prop :=
  l.Pairwise fun s t => s.start < t.start ∨ (s.start = t.start ∧ t.stop ≤ s.stop)

/-- A history of additions to one source: the records with the answer of the function (`false` if it
returned NULL), and the source afterwards. -/
inductive Reached (sim : R → R → Bool) (autoheal keep : Bool) :
    List (Arrival R × Bool) → Source R → Prop
  | new (r id) : newId keep r = some id → Reached sim autoheal keep [(r, true)] id
  | add (hist id r id' res) : Reached sim autoheal keep hist id →
      addToId sim autoheal keep id r = .ok (id', res) →
      Reached sim autoheal keep (hist ++ [(r, res.isSome)]) id'

/-- The records of a history the function accepted. -/
def accepted (hist : List (Arrival R × Bool)) : List (Arrival R) :=
  (hist.filter fun x => x.2).map Prod.fst

/-- The gap between two records differs from a sample period of one of them by no more than its time
tolerance. -/
def Near (a b : Arrival R) : Prop :=
  ∃ x, (x = a ∨ x = b) ∧ b.start - a.stop - x.period ≤ x.tol ∧ -x.tol ≤ b.start - a.stop - x.period

/-- `P` for all neighbours in a list. -/
def Adjacent {α : Type} (P : α → α → Prop) : List α → Prop
  | [] => True
  | [_] => True
  | a :: b :: t => P a b ∧ Adjacent P (b :: t)

/-- The segment is the chain of the records `rs`. -/
structure Made (keep : Bool) (rs : List (Arrival R)) (s : Seg R) : Prop where
  start : rs.head?.map Arrival.start = some s.start
  stop : rs.getLast?.map Arrival.stop = some s.stop
  samplecnt : s.samplecnt = (rs.map Arrival.samplecnt).sum
  data : s.data = rs.flatMap Arrival.data
  near : Adjacent Near rs
  records : s.records = if keep then rs else []

/-- The record has samples of type `T`, which has a size, or none. -/
def OfType (T : Char) (r : Arrival R) : Prop :=
  r.sampletype = T ∧ (r.data = [] ∨ sampleSize T ≠ 0)

/-- Records following one another at the sample period `P`, with time tolerances below it. -/
structure Contiguous (P : Int) (T : Char) (chain : List (Arrival R)) : Prop where
  follow : Adjacent (fun a b => b.start = a.stop + P) chain
  long : ∀ r ∈ chain, r.start ≤ r.stop
  period : ∀ r ∈ chain, r.period = P
  tol : ∀ r ∈ chain, 0 ≤ r.tol ∧ r.tol < P
  type : ∀ r ∈ chain, OfType T r

end Verif.Props.Trace
