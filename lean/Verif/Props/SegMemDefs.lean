import Verif.Props.AllocDefs
import Verif.Model.SegMem
/-!
# Statements on the buffers of segments
-/
namespace Verif.Props.SegMem
open Verif.Model.Alloc Verif.Props.Alloc

/-- A segment at `a` with the buffer `d`: the buffer is as large as the segment says and its samples are
in it; without a buffer there are no samples. -/
structure SegBuf (h : Heap) (a : Nat) (s : Seg) (d : Option (List UInt8)) : Prop where
  cell : h.cell a = some (.seg s)
  data : Held h s.datasamples d
  size : ∀ b, d = some b → s.datasize ≤ b.length
  room : d ≠ none → needed s.numsamples s.sampletype ≤ s.datasize
  empty : d = none → s.numsamples = 0 ∧ s.datasize = 0
  nonneg : 0 ≤ s.numsamples

/-- The bytes of its samples. -/
def samplesOf (s : Seg) (d : Option (List UInt8)) : List UInt8 := (d.getD []).take (needed s.numsamples s.sampletype)

/-- Its addresses. -/
def ownedSeg (a : Nat) (s : Seg) : List Nat := s.datasamples.toList ++ [a]

/-- The size of a buffer is chosen as configured: what is needed, or so many blocks more than before. -/
def Sized (block needed before after : Nat) : Prop :=
  (block = 0 → after = needed) ∧ (block ≠ 0 → needed ≤ after ∧ ∃ k, after = before + k * block)

/-- The number of samples that come from a structure that says it has `n` samples and has the buffer `d`. -/
def present (n : Int) (d : Option (List UInt8)) : Int :=
  match d with
  | none => 0
  | some _ => max n 0

/-- The samples can be added to the segment: they are in the buffer, of the same known type, and the total
size can be computed. -/
structure Fits (s : Seg) (t : Char) (n : Int) (d : Option (List UInt8)) : Prop where
  type : t = s.sampletype
  known : width t ≠ 0
  inside : ∀ b, d = some b → needed n t ≤ b.length
  total : needed (s.numsamples + n) s.sampletype < 2 ^ 63

/-- The segment at `a` after `n` samples have been added, so that its samples are `all`. -/
structure Added (block : Nat) (h h' : Heap) (a : Nat) (s : Seg) (n : Int) (all : List UInt8) (s' : Seg)
    (d' : Option (List UInt8)) : Prop where
  buf : SegBuf h' a s' d'
  same : s' = { s with
    starttime := s'.starttime, endtime := s'.endtime, samplecnt := s'.samplecnt, numsamples := s.numsamples + n,
    datasamples := s'.datasamples, datasize := s'.datasize }
  samples : samplesOf s' d' = all
  size : if n = 0 then s'.datasamples = s.datasamples ∧ s'.datasize = s.datasize
    else Sized block (needed (s.numsamples + n) s.sampletype) s.datasize s'.datasize
  step : Step h h' (ownedSeg a s) (ownedSeg a s')

/-- What is left when the samples cannot be added: everything as it was, but the size recorded in the
segment, and an allocation has failed. -/
def Kept (h h' : Heap) (a : Nat) (s : Seg) : Prop :=
  (∀ y, h'.cell y = if y = a then some (.seg { s with datasize := 0 }) else h.cell y) ∧ h'.next = h.next ∧
  ∃ k, h.fails k = true

end Verif.Props.SegMem
