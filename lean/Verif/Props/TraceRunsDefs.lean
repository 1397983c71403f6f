import Verif.Props.TraceDefs
/-!
# The terms of the properties of records in time order (C101)
-/
namespace Verif.Props.TraceRuns
open Verif.Model.Steim Verif.Model.Trace Verif.Props.Trace

variable {R : Type}

/-- Records in time order in runs: each record follows the one before it at the period `P` to within the
tolerance `B` and belongs to the same run, or comes later and begins a run. -/
inductive Runs (P B : Int) : List (List (Arrival R)) → Prop
  | first (x) : Runs P B [[x]]
  | near (gs g a x) : Runs P B (gs ++ [g ++ [a]]) → -B ≤ x.start - (a.stop + P) → x.start - (a.stop + P) ≤ B →
      Runs P B (gs ++ [g ++ [a, x]])
  | far (gs g a x) : Runs P B (gs ++ [g ++ [a]]) → B < x.start - (a.stop + P) →
      Runs P B (gs ++ [g ++ [a], [x]])

/-- Records of period `P`, tolerance `B` and sample type `T`, not ending before they start. -/
structure Uniform (P B : Int) (T : Char) (r : Arrival R) : Prop where
  long : r.start ≤ r.stop
  period : r.period = P
  tol : r.tol = B
  type : OfType T r

end Verif.Props.TraceRuns
