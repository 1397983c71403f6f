import Verif.Spec.Glob
/-!
# What a data selection selects
-/
namespace Verif.Spec.Select
open Verif.Spec.Glob

/-- A request: pattern of source identifiers, open or given first and last time, version (0: any). -/
structure Request where
  pattern : List Tok
  first : Option Int
  last : Option Int
  version : Nat

/-- A record: source identifier, times of the first and last sample, version. -/
structure Record where
  sid : List UInt8
  start : Int
  stop : Int
  version : Nat

/-- The time span of the record and the requested one have a point in common. -/
def Overlaps (first last : Option Int) (r : Record) : Prop :=
  ∃ t, r.start ≤ t ∧ t ≤ r.stop ∧ (∀ f ∈ first, f ≤ t) ∧ (∀ l ∈ last, t ≤ l)

/-- The request selects the record. -/
def Selects (code : UInt8 → Int) (q : Request) (r : Record) : Prop :=
  Matches code q.pattern r.sid ∧ (q.version = 0 ∨ q.version = r.version) ∧ Overlaps q.first q.last r

end Verif.Spec.Select
