import Verif.Model.RecordList
import Verif.Props.Samples
/-!
# The terms of the properties of record lists (C117)
-/
namespace Verif.Props.RecordList
open Verif.Model Verif.Model.Steim Verif.Model.Samples Verif.Model.Record3 Verif.Model.RecordList
open Verif.Props.Samples (typeCode)

/-- The entry points to the bytes `b`: they begin at the address, or at the offset in the file. -/
def Located (files : List UInt8 → Option (List UInt8)) (p : Pointer) (b : List UInt8) : Prop :=
  match p.place with
  | .buffer mem => ∃ t, mem = b ++ t
  | .stream f offset => ∃ a t, f = a ++ (b ++ t) ∧ offset = (a.length : Nat)
  | .file name offset => ∃ a t, files name = some (a ++ (b ++ t)) ∧ offset = (a.length : Nat)
  | .unset => False

/-- The entry points to a record whose samples are `s`, as told by `msr3_unpack_data`.  The encoding is known, and if the
header has to be swapped so has the payload. -/
structure Points (h : Bool) (files : List UInt8 → Option (List UInt8)) (p : Pointer) (s : Samples) : Prop where
  record : ∃ b, Located files p b ∧ (b.length : Int) = p.msr.reclen ∧
    (∃ size, dataBounds h p.msr b = .ok (p.dataoffset, size)) ∧ ∃ align, unpackData h align p.msr b = .ok s
  whole : p.msr.formatversion = 3 → (p.dataoffset : Int) + p.msr.datalength = p.msr.reclen
  encoding : 0 ≤ p.msr.encoding ∧ p.msr.encoding < 256
  order : p.msr.swapHeader = true → p.msr.swapPayload = true

/-- An entry with the samples of its record: there are none if the record says so. -/
def Entry (h : Bool) (files : List UInt8 → Option (List UInt8)) (x : Pointer × Samples) : Prop :=
  (x.1.msr.samplecnt = 0 ∧ x.2 = .text []) ∨ (0 < x.1.msr.samplecnt ∧ Points h files x.1 x.2)

/-- The samples as numbers: text by its bytes, floating point values by their bits, quotients by the bits of the
`float` computed of them. -/
def values (floatBits : Int × Nat → Nat) : Samples → List Int
  | .text b => b.map fun x => ((x.toNat : Nat) : Int)
  | .ints v => v
  | .floats v => v.map fun n => ((n : Nat) : Int)
  | .doubles v => v.map fun n => ((n : Nat) : Int)
  | .quotients v => v.map fun x => ((floatBits x : Nat) : Int)

end Verif.Props.RecordList
