import Verif.Model.TraceList
import Verif.Props.TraceDefs
/-!
# The terms of the properties of lists of sources (C39, C69)
-/
namespace Verif.Props.TraceList
open Verif.Model.Steim Verif.Model.Trace Verif.Model.TraceList Verif.Props.Trace

variable {R : Type}

/-- Following `next[0]` from the head visits exactly the entries at the addresses `l`, each once, and
there are as many as the list says. -/
structure Walk (tl : TraceList R) (l : List Nat) : Prop where
  distinct : l.Nodup
  count : tl.numtraceids = l.length
  first : tl.next 0 0 = l.head?
  next : ∀ i a, l[i]? = some a → tl.next a 0 = l[i + 1]?
  source : ∀ a, a ∈ l ↔ (tl.sources a).isSome = true

/-- The order of sources: by identifier, byte by byte, and if versions are split, by version. -/
def Before (split : Bool) (s t : Source R) : Prop :=
  s.sid < t.sid ∨ (split = true ∧ s.sid = t.sid ∧ s.pub < t.pub)

/-- A history of additions to a list: the records, with the answer of the function (`false` if it
returned NULL).  Any seed of the random number generator. -/
inductive Listed (sim : R → R → Bool) (split autoheal keep : Bool) :
    List (Arrival R × Bool) → TraceList R → Prop
  | init (seed) : Listed sim split autoheal keep [] { init with prng := seed }
  | add (hist tl r tl' res) : Listed sim split autoheal keep hist tl →
      addMsr sim split autoheal keep tl r = .ok (tl', res) →
      Listed sim split autoheal keep (hist ++ [(r, res.isSome)]) tl'

/-- The record belongs to this identifier and, if versions are split, version. -/
def Belongs (split : Bool) (sid : List UInt8) (pub : Nat) (r : Arrival R) : Bool :=
  r.sid == sid && (!split || r.pub == pub)

/-- The records of one source (version), from the first one accepted. -/
def own (split : Bool) (sid : List UInt8) (pub : Nat) (hist : List (Arrival R × Bool)) :
    List (Arrival R × Bool) :=
  (hist.filter fun y => Belongs split sid pub y.1).dropWhile fun y => !y.2

end Verif.Props.TraceList
