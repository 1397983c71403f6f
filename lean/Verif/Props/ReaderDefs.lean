import Verif.Model.Reader
import Verif.Props.PackDefs
import Verif.Props.Record2
/-!
# Statements on reading files: the calls of a program that reads a file to its end

A program calls `ms3_readmsr_selection` again and again until it does not return a record.
-/
namespace Verif.Props.Reader
open Verif.Model Verif.Model.Record3 Verif.Model.Reader Verif.Model.Steim Verif.Model.Samples
open Verif.Spec.Record3 (Signature2 Signature3)

/-- The calls until no record is returned: the records returned, each with its offset in the file
(stream position less the record length), and the last return code. -/
inductive Calls (o : Opts) : Reader → List (Int × Msr) → Ret → Prop where
  | stop (r r' : Reader) (ret : Ret) : readmsr o r = .ok (ret, r') → (∀ m, ret ≠ .record m) →
      Calls o r [] ret
  | next (r r' : Reader) (m : Msr) (l : List (Int × Msr)) (ret : Ret) :
      readmsr o r = .ok (.record m, r') → Calls o r' l ret →
      Calls o r ((r'.streampos - m.reclen, m) :: l) ret

/-- The records of a file that are to be returned, with their offsets.  The file has from `pos` on
one after the other some bytes `j` that belong to no record and the bytes `b` of a record. -/
def expected (pos : Int) : List (List UInt8 × List UInt8 × Bool × Msr) → List (Int × Msr)
  | [] => []
  | (j, b, wanted, m) :: l =>
    if wanted then (pos + j.length, m) :: expected (pos + j.length + b.length) l
    else expected (pos + j.length + b.length) l

/-- The calls until no record is returned, the records with the bytes that the read buffer has where
the record began. -/
inductive Takes (o : Opts) : Reader → List (Int × Msr × List UInt8) → Ret → Prop where
  | stop (r r' : Reader) (ret : Ret) : readmsr o r = .ok (ret, r') → (∀ m, ret ≠ .record m) →
      Takes o r [] ret
  | next (r r' : Reader) (m : Msr) (b t : List UInt8) (l : List (Int × Msr × List UInt8)) (ret : Ret) :
      readmsr o r = .ok (.record m, r') → m.reclen = b.length → m.reclen ≤ r'.readoffset →
      r'.buf.drop (r'.readoffset - m.reclen).toNat = b ++ t → Takes o r' l ret →
      Takes o r ((r'.streampos - m.reclen, m, b) :: l) ret

/-- As `expected` with the bytes of the records. -/
def expectedBytes (pos : Int) :
    List (List UInt8 × List UInt8 × Bool × Msr) → List (Int × Msr × List UInt8)
  | [] => []
  | (j, b, wanted, m) :: l =>
    if wanted then (pos + j.length, m, b) :: expectedBytes (pos + j.length + b.length) l
    else expectedBytes (pos + j.length + b.length) l

/-- The last return code after the records. -/
def lastCode (l : List (Int × Msr)) : Ret := if l = [] then .notSeed else .endOfFile

/-- `msr3_parse` makes the record `m` of the bytes `b` alone. -/
def Alone (env : Record2.Env) (h vc : Bool) (b : List UInt8) (m : Msr) : Prop :=
  parse (Record2.unpack2 env h 0) h 0 b vc false false = .ok (.record m, b)

/-- The record `m'` returned for the bytes `b` that `msr3_parse` makes the record `m` of: the same, or
with unpacking what `msr3_parse` with unpacking makes of them at any address and with anything
following. -/
def Full (env : Record2.Env) (h vc ud : Bool) (b : List UInt8) (m m' : Msr) : Prop :=
  if ud then ∀ align t eof, parse (Record2.unpack2 env h align) h align (b ++ t) vc true eof =
    .ok (.record m', b ++ t)
  else m' = m

/-- No record begins in the bytes `j` before the bytes `b`. -/
def NoRecord (j b : List UInt8) : Prop :=
  ∀ k, k < j.length → ¬ Signature2 ((j ++ b).drop k) ∧ ¬ Signature3 ((j ++ b).drop k)

/-- A part of a file: bytes that belong to no record, the bytes of a record, the record and
the record as it is to be returned (with the samples if they are unpacked). -/
structure Entry where
  junk : List UInt8 := []
  bytes : List UInt8
  msr : Msr
  full : Msr

/-- The file of the parts and further bytes. -/
def fileOf (l : List Entry) (tail : List UInt8) : List UInt8 :=
  (l.flatMap fun e => e.junk ++ e.bytes) ++ tail

/-- The bytes of a valid version 3 record. -/
def Version3 (b : List UInt8) : Prop :=
  ∃ r : Spec.Record3.Rec, r.Valid ∧ b = r.bytes ∧ b.length ≤ 10485760

/-- The bytes of a valid version 2 record with a blockette 1000, whose byte order a host of byte
order `h` tells and whose time is not the one reserved for errors. -/
def Version2 (h : Bool) (b : List UInt8) : Prop :=
  ∃ r : Spec.Record2.Rec, r.Valid ∧ (r.be = h ∨ ¬ Record2.Ambiguous r) ∧ ¬ Record2.Reserved r ∧
    (r.last Spec.Record2.Blkt.data?).isSome ∧ b = r.bytes

/-- The same with a blockette 1000 as the first one. -/
def Version2First (h : Bool) (b : List UInt8) : Prop :=
  ∃ r : Spec.Record2.Rec, r.Valid ∧ (r.be = h ∨ ¬ Record2.Ambiguous r) ∧ ¬ Record2.Reserved r ∧
    (∃ enc order exponent x pad l, r.chain = (.data enc order exponent x, pad) :: l) ∧ b = r.bytes

/-- There is nothing between the records, or if skipping is asked for bytes in which no record begins, and at most 39
bytes or if skipping is asked for such bytes behind the last. -/
def Gaps (skip : Bool) (l : List Entry) (tail : List UInt8) : Prop :=
  (∀ e ∈ l, e.junk = [] ∨ (skip = true ∧ NoRecord e.junk e.bytes)) ∧
  (tail.length < 40 ∨ (skip = true ∧ NoRecord tail []))

/-- The files that are shown to be read, on a host: version 3 records (on little-endian hosts); or records of both
versions with lengths that are multiples of 64 bytes one after the other, version 2 with the blockette 1000 first; or any
records in a file smaller than the read buffer of 10 MiB. -/
def Kinds (h skip : Bool) (l : List Entry) (tail : List UInt8) : Prop :=
  ((∀ e ∈ l, h = false ∧ Version3 e.bytes) ∧ Gaps skip l tail) ∨
  ((∀ e ∈ l, ((h = false ∧ Version3 e.bytes) ∨ Version2First h e.bytes) ∧ 64 ∣ e.bytes.length ∧ e.junk = []) ∧
    tail.length < 40) ∨
  ((∀ e ∈ l, (h = false ∧ Version3 e.bytes) ∨ Version2 h e.bytes) ∧ Gaps skip l tail ∧
    (fileOf l tail).length < 10485760)

/-- Whether a record is asked for. -/
def wanted (select : Option (Msr → Bool)) (m : Msr) : Bool :=
  match select with
  | some f => f m
  | none => true

/-- The records of the file for `expected`. -/
def ofFile (select : Option (Msr → Bool)) (l : List Entry) :
    List (List UInt8 × List UInt8 × Bool × Msr) :=
  l.map fun e => (e.junk, e.bytes, wanted select e.msr, e.full)

/-- The records returned have the samples of `src` from number `a` up to number `b`, in order, at the
times `time`. -/
def Covers (src : Samples) (time : Nat → Out Int) : Nat → List (Int × Msr) → Nat → Prop
  | a, [], b => a = b
  | a, (_, m) :: l, b => ∃ n : Nat, 1 ≤ n ∧ m.samplecnt = n ∧ m.samples = Pack.slice a n src ∧
      time a = .ok m.starttime ∧ Covers src time (a + n) l b

/-- No bytes of the file are parsed as a record longer than these bytes, or of no length, and
unpacking the samples leaves the length. -/
structure Sane (o : Opts) (file : List UInt8) : Prop where
  parse : ∀ p mem rest off ud eof m mem', file.drop p = mem ++ rest →
    o.parse off mem ud eof = .ok (.record m, mem') → 1 ≤ m.reclen ∧ m.reclen ≤ mem.length
  unpack : ∀ off mem m m', o.unpack off mem m = .ok (.record m') → m'.reclen = m.reclen

/-- The record `m` is the one at offset `p` of the file: parsing the bytes there, followed by as
much of the file as the buffer had, gives `m` or the record that unpacking the samples makes `m`; it
is chosen by the selections and inside the file. -/
def Found (o : Opts) (file : List UInt8) (p : Int) (m : Msr) : Prop :=
  0 ≤ p ∧ 1 ≤ m.reclen ∧ ∃ off mem rest eof m0, file.drop p.toNat = mem ++ rest ∧
    (eof = true → rest = []) ∧ m.reclen ≤ mem.length ∧
    o.parse off mem (o.unpackdata && o.select.isNone) eof = .ok (.record m0, mem) ∧
    chosen o m0 = true ∧ (m = m0 ∨ o.unpack off mem m0 = .ok (.record m))

/-- The records lie one after the other, from `lo` on, where they are found. -/
def Placed (o : Opts) (file : List UInt8) : Int → List (Int × Msr) → Prop
  | _, [] => True
  | lo, (p, m) :: l => lo ≤ p ∧ Found o file p m ∧ Placed o file (p + m.reclen) l

end Verif.Props.Reader
