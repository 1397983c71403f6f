import Verif.Props.Pack2Defs
import Verif.Model.TracePack
/-!
# The terms of the properties of packing trace lists (C91 to C94)
-/
namespace Verif.Props.TracePack
open Verif.Model Verif.Model.Steim Verif.Model.Samples Verif.Model.Record3 Verif.Model.TracePack
open Verif.Model.Trace (Seg Arrival addMsrToSeg)
open Verif.Model.Record2 (Env)
open Verif.Proof.Pack (GoodTime)
open Verif.Proof.Pack2 (Head Input2)
open Verif.Props.Samples Verif.Props.Record3 Verif.Props.Pack Verif.Props.Pack2

/-- Corresponding elements of two lists of the same length satisfy `P`. -/
def Each {α β : Type} (P : α → β → Prop) : List α → List β → Prop
  | [], [] => True
  | a :: as, b :: bs => P a b ∧ Each P as bs
  | _, _ => False

/-- The sample types. -/
def Known (ty : Char) : Prop := ty = 't' ∨ ty = 'i' ∨ ty = 'f' ∨ ty = 'd'

instance (ty : Char) : Decidable (Known ty) := by unfold Known; infer_instance

/-- The values as samples of a type. -/
def typed (ty : Char) (v : List Int) : Samples :=
  if ty = 't' then .text (v.map fun x => UInt8.ofNat x.toNat)
  else if ty = 'i' then .ints v
  else if ty = 'f' then .floats (v.map Int.toNat)
  else .doubles (v.map Int.toNat)

/-- The record that describes a segment: text and floating point samples in their encoding, integers in the
one asked for. -/
def recordOf (reclen encoding : Int) (extra sid : List UInt8) (pub : Nat) (s : Seg Nat) : Msr :=
  { sid, reclen, formatversion := 0, starttime := s.start, samprate := s.rate, pubversion := pub,
    encoding := (if s.sampletype = 't' then 0 else if s.sampletype = 'f' then 4
      else if s.sampletype = 'd' then 5 else encoding),
    samplecnt := s.samplecnt, extra, samples := typed s.sampletype s.data }

/-- A way of reading records: what is read from the record satisfies the predicate. -/
abbrev Reading := List UInt8 → (Msr → Prop) → Prop

/-- Reading version 2 records. -/
def reads2 : Reading := fun r Q => ∀ env, Reads2 env r Q

/-- The records, read in order, give the values `v` in order, each record one or more of them, and each
satisfies `Q` for the number of its first sample, counted from `off` on. -/
def Carries (reads : Reading) (ty : Char) (Q : Nat → Msr → Prop) :
    Nat → List (List UInt8) → List Int → Prop
  | _, [], v => v = []
  | off, r :: rs, v => ∃ n, 1 ≤ n ∧ n ≤ v.length ∧
      reads r (fun m' => m'.samples = typed ty (v.take n) ∧ m'.samplecnt = n ∧ Q off m') ∧
      Carries reads ty Q (off + n) rs (v.drop n)

/-- What has become of a segment: its records, the number of samples in them and the segment afterwards. -/
structure Done where
  records : List (List UInt8)
  count : Nat
  failed : Bool
  after : Seg Nat

/-- The records of a segment that describe it: identifier, version and, for the record beginning with sample
`off`, the time of that sample as computed by `ms_sampletime`. -/
def Tells3 (c : Packers) (m : Msr) (off : Nat) (m' : Msr) : Prop :=
  m'.sid = m.sid ∧ m'.pubversion = m.pubversion ∧ m'.extra = m.extra ∧
  m'.samprate = storedRate c.negRecip m.samprate ∧ timeOf c.sampletime m off = .ok m'.starttime

/-- The same for version 2 records, with times to 0.1 milliseconds. -/
def Tells2 (c : Packers) (m : Msr) (off : Nat) (m' : Msr) : Prop :=
  m'.sid = m.sid ∧ ∃ t, timeOf c.sampletime m off = .ok t ∧
    t - 100000 < m'.starttime ∧ m'.starttime < t + 100000

/-- What a segment needs to be packed into version 3 records: samples of a known type, meeting `Input`, and
space for the header; or no samples and a header that can be packed. -/
structure Packable3 (c : Packers) (m : Msr) : Prop where
  input : m.samples.count ≠ 0 → Input c.negRecip c.sampletime m
  packable : Packable c.negRecip m
  default : m.reclen < 0 → m.reclen = -1
  header : 40 + m.sid.length + m.extra.length ≤ (packReclen m.reclen).toNat
  memory : (packReclen m.reclen).toNat - 40 ≤ c.junk.length

/-- What a segment needs to be packed into version 2 records. -/
structure Packable2 (c : Packers) (m : Msr) (net sta loc : List UInt8) (band source position : UInt8)
    (d : Head) : Prop where
  input : Input2 c.rates c.json c.sampletime m net sta loc band source position d
  some : m.samples.count ≠ 0 → Some2 m
  readable : Readable m d
  memory : packReclen m.reclen ≤ c.junk.length + 48

/-- The times of at most `n` samples from a time on are computed and can be stored, wherever the counting
begins. -/
structure Timely (sampletime : Int → Nat → Nat → Out Int) (rate : Nat) (ok : Nat → Int → Prop) : Prop where
  good : ∀ n t, ok n t → GoodTime t
  next : ∀ n t k, ok n t → 0 < k → k < n → ∃ t', sampletime t k rate = .ok t' ∧ ok (n - k) t'
  less : ∀ n m t, ok n t → m ≤ n → ok m t

/-- A segment used as a buffer: each round appends a record to its end and packs the list, with or without
flush.  The segment afterwards and all records made. -/
def rolling (c : Packers) (reclen encoding : Int) (extra sid : List UInt8) (pub : Nat) :
    List (Arrival Nat × Bool) → Seg Nat → Res (Seg Nat × List (List UInt8))
  | [], s => .ok (s, [])
  | (a, flush) :: rest, s =>
    match addMsrToSeg false s a true with
    | none => .err
    | some s =>
      (mstlPack c false flush false reclen encoding extra [{ sid, pub, segs := [s] }]).bind fun r =>
      match r.1 with
      | [{ segs := [s'], .. }] =>
        (rolling c reclen encoding extra sid pub rest s').bind fun q => .ok (q.1, r.2.records ++ q.2)
      | _ => .err

end Verif.Props.TracePack
