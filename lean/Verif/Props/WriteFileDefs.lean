import Verif.Model.WriteFile
import Verif.Props.ReaderDefs
/-!
# The terms of the properties of writing files (C118)
-/
namespace Verif.Props.WriteFile
open Verif.Model Verif.Model.Steim Verif.Model.Samples Verif.Model.Record3 Verif.Model.TracePack Verif.Model.WriteFile
open Verif.Props.Reader

/-- The files but for `path`, and the standard output, are the same. -/
structure Leaves (path : List UInt8) (d d' : Disk) : Prop where
  files : ∀ p, p ≠ path → d'.files p = d.files p
  out : d'.out = d.out
  outOpen : d'.outOpen = d.outOpen

/-- What a file is written behind. -/
def before (d : Disk) (path : List UInt8) (overwrite : Bool) : List UInt8 :=
  if overwrite then [] else (d.files path).getD []

/-- Write series of samples one after the other to a file, all with flush, the first with `overwrite`. -/
def writeSeries (c : Packers) (path : List UInt8) : Bool → List Msr → Disk → Res (List Int × Disk)
  | _, [], d => .ok ([], d)
  | overwrite, m :: ms, d =>
    (msrWrite c d m path overwrite true false).bind fun (n, d) =>
    (writeSeries c path false ms d).bind fun (ns, d) => .ok (n :: ns, d)

/-- The records returned have the samples of the series in order, each series from its first sample to its last, at their
times. -/
def CoversAll (time : Msr → Nat → Out Int) : List Msr → List (Int × Msr) → Prop
  | [], l => l = []
  | m :: ms, l => ∃ l1 l2, l = l1 ++ l2 ∧ Covers m.samples (time m) 0 l1 m.samples.count ∧ CoversAll time ms l2

end Verif.Props.WriteFile
