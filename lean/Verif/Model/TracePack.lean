import Verif.Model.Pack2
import Verif.Model.Trace
/-!
# Packing a trace list (tracelist.c:1935-2101 `mstl3_pack`)

The list is the list of its sources in order, each with the list of its segments in order: the function
follows the links and only changes fields of segments.  Sampling rates are the bits of the `double`.
`datasamples` are the values `data` of a segment, of the kind given by its sample type.  Pointers are
non-null and allocation succeeds; the allocated size of the buffers (`datasize`) is not modelled.
-/
namespace Verif.Model.TracePack
open Verif.Model.Steim Verif.Model.Samples Verif.Model.Record3 Verif.Model.Pack
  Verif.Model.Pack2
open Verif.Model.Trace (Seg)

/-- libmseed.h:566-577: a source with its segments. -/
structure Trace where
  sid : List UInt8
  pub : Nat
  segs : List (Seg Nat)

/-- What the packers use (see `msrPack`, `msrPack2`). -/
structure Packers where
  negRecip : Nat → Nat
  sampletime : Int → Nat → Nat → Out Int
  rates : Rates
  json : List UInt8 → Option Extra
  hostBE : Bool
  junk : List UInt8

/-- tracelist.c:2009-2011: the samples of a segment, `none` for an unknown sample type. -/
def samplesOf (sampletype : Char) (data : List Int) : Option Samples :=
  if sampletype = 't' ∨ sampletype = 'a' then some (.text (data.map fun x => UInt8.ofNat x.toNat))
  else if sampletype = 'i' then some (.ints data)
  else if sampletype = 'f' then some (.floats (data.map Int.toNat))
  else if sampletype = 'd' then some (.doubles (data.map Int.toNat))
  else if data = [] then some (.text [])
  else none

/-- tracelist.c:2014-2027: the encoding. -/
def encodingFor (sampletype : Char) (encoding : Int) : Int :=
  if sampletype = 't' then 0
  else if sampletype = 'f' then 4
  else if sampletype = 'd' then 5
  else encoding

/-- tracelist.c:1966-1991, 2000-2001, 2007-2027: the record description for a segment. -/
def describe (reclen encoding : Int) (extra : List UInt8) (sid : List UInt8) (pub : Nat) (s : Seg Nat)
    (samples : Samples) : Msr :=
  { sid, reclen, formatversion := 0, flags := 0, starttime := s.start, samprate := s.rate,
    encoding := encodingFor s.sampletype encoding, pubversion := pub, samplecnt := s.samplecnt,
    extra, samples }

/-- pack.c:105-143 `msr3_pack`: the format is version 2 if requested (`MSF_PACKVER2`).  The bound on the
number of rounds is one more than the number of samples. -/
def callPack (c : Packers) (ver2 flush : Bool) (m : Msr) : Res Packing :=
  if ver2 then msrPack2 c.rates c.json c.sampletime c.hostBE m flush c.junk (m.samples.count + 1)
  else msrPack c.negRecip c.sampletime c.hostBE m flush c.junk (m.samples.count + 1)

/-- tracelist.c:2029-2030: pack one segment.  An unknown sample type is an error of the packer
(pack.c:254-260, 696-702). -/
def packSeg (c : Packers) (ver2 flush : Bool) (reclen encoding : Int) (extra sid : List UInt8) (pub : Nat)
    (s : Seg Nat) : Res Packing :=
  match samplesOf s.sampletype s.data with
  | none => .ok { records := [], packed := 0, ret := -1 }
  | some samples => callPack c ver2 flush (describe reclen encoding extra sid pub s samples)

/-- tracelist.c:2040-2043: the start time after `n` samples have been packed. -/
def startAfter (c : Packers) (s : Seg Nat) (n : Nat) : Res Int :=
  if n = s.data.length then .ok s.stop else ofOut (c.sampletime s.start n s.rate)

/-- tracelist.c:2037-2084: the segment after `n` samples have been packed.  (The check of the sample size at
2045-2049 cannot fail: the packer has accepted the sample type.) -/
def removed (c : Packers) (maintain : Bool) (s : Seg Nat) (n : Nat) : Res (Seg Nat) :=
  if maintain = false ∧ n > 0 then
    (startAfter c s n).bind fun start =>
    .ok { s with start, data := s.data.drop n, samplecnt := s.samplecnt - n }
  else .ok s

/-- What packing does: the records passed to the handler in order, the number returned and the number of
samples packed. -/
structure Total where
  records : List (List UInt8)
  ret : Int
  packed : Nat
deriving DecidableEq, Repr

/-- tracelist.c:2086-2087. -/
def Total.plus (t : Total) (p : Packing) : Total :=
  { records := t.records ++ p.records, ret := t.ret + p.ret, packed := t.packed + p.packed }

/-- tracelist.c:2004-2090: the loop over segments. -/
def packSegs (c : Packers) (ver2 flush maintain : Bool) (reclen encoding : Int) (extra sid : List UInt8)
    (pub : Nat) : List (Seg Nat) → Total → Res (List (Seg Nat) × Total)
  | [], t => .ok ([], t)
  | s :: rest, t =>
    (packSeg c ver2 flush reclen encoding extra sid pub s).bind fun p =>
    (removed c maintain s p.packed).bind fun s' =>
    (packSegs c ver2 flush maintain reclen encoding extra sid pub rest (t.plus p)).bind fun r =>
    .ok (s' :: r.1, r.2)

/-- tracelist.c:1996-2093: the loop over sources. -/
def packTraces (c : Packers) (ver2 flush maintain : Bool) (reclen encoding : Int) (extra : List UInt8) :
    List Trace → Total → Res (List Trace × Total)
  | [], t => .ok ([], t)
  | tr :: rest, t =>
    (packSegs c ver2 flush maintain reclen encoding extra tr.sid tr.pub tr.segs t).bind fun r =>
    (packTraces c ver2 flush maintain reclen encoding extra rest r.2).bind fun q =>
    .ok ({ tr with segs := r.1 } :: q.1, q.2)

/-- tracelist.c:1935-2101 `mstl3_pack`: the list afterwards, and what has been packed. -/
def mstlPack (c : Packers) (ver2 flush maintain : Bool) (reclen encoding : Int) (extra : List UInt8)
    (traces : List Trace) : Res (List Trace × Total) :=
  if extra.length > 65535 then .ok (traces, { records := [], ret := -1, packed := 0 })
  else packTraces c ver2 flush maintain reclen encoding extra traces { records := [], ret := 0, packed := 0 }

end Verif.Model.TracePack
