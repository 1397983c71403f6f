import Verif.Model.TraceList
import Verif.Model.Rate
import Verif.Model.Calendar
/-!
# The gap list (tracelist.c:2324-2422)

`double` values are rationals, operations are rounded by `rnd`.  The result is the list of lines
printed: the text is not modelled.
-/
namespace Verif.Model.Gaps
open Verif.Model Verif.Model.Steim Verif.Model.Trace Verif.Model.TraceList Verif.Model.Rate

/-- One line of the list: identifier, times around the gap, gap in seconds and number of samples. -/
structure Line where
  sid : List UInt8
  before : Int
  after : Int
  gap : Rat
  nsamples : Rat

/-- `(double)(a - b) / NSTMODULUS` -/
def seconds (rnd : Rat → Rat) (ns : Int) : Rat := rnd (rnd ns / 1000000000)

/-- tracelist.c:2357-2365: the gap between a segment and the next. -/
def gapOf (rnd : Rat → Rat) (s t : Seg Rat) : Rat :=
  let gap := seconds rnd (t.start - s.stop)
  if gap < 0 then
    let delta := if t.rate ≠ 0 then rnd (1 / t.rate) else 0
    let coverage := rnd (seconds rnd (t.stop - t.start) + delta)
    if -gap > coverage then -coverage else gap
  else gap

/-- The differences of times in `gapOf` are of 64 bits, overflow is undefined behaviour.  (The code computes
the second, the time covered, only for overlaps: `ub` covers more than in the code.) -/
def gapChecked (rnd : Rat → Rat) (s t : Seg Rat) : Res Rat :=
  if fitsInt64 (t.start - s.stop) && fitsInt64 (t.stop - t.start) then .ok (gapOf rnd s t) else .ub

/-- tracelist.c:2367-2376: is the line printed? -/
def wanted (mingap maxgap : Option Rat) (gap : Rat) : Bool :=
  (match mingap with
   | some m => !decide (gap < m)
   | none => true) &&
  (match maxgap with
   | some m => !decide (gap > m)
   | none => true)

/-- tracelist.c:2380-2385: number of samples missing or doubled. -/
def samplesOf (rnd : Rat → Rat) (gap rate : Rat) : Rat :=
  let n := rnd (fabs gap * rate)
  if gap > 0 then rnd (n - 1) else rnd (n + 1)

/-- tracelist.c:2348-2411: the segments of a source, from address `a`.  First argument: bound on the
number of segments, `err` if it is exceeded. -/
def gapsOf (rnd : Rat → Rat) (mingap maxgap : Option Rat) (id : Source Rat) :
    Nat → Nat → Res (List Line)
  | 0, _ => .err
  | fuel + 1, a =>
    (fetch id.heap a).bind fun s =>
    match s.next with
    | none => .ok []
    | some b =>
      (fetch id.heap b).bind fun t =>
      (gapsOf rnd mingap maxgap id fuel b).bind fun rest =>
      if s.seg.rate = 0 then .ok rest
      else
        (gapChecked rnd s.seg t.seg).bind fun gap =>
        if wanted mingap maxgap gap = true then
          .ok ({ sid := id.sid, before := s.seg.stop, after := t.seg.start, gap,
                 nsamples := samplesOf rnd gap s.seg.rate } :: rest)
        else .ok rest

/-- tracelist.c:2343-2415: the sources from address `a`. -/
def allGaps (rnd : Rat → Rat) (mingap maxgap : Option Rat) (tl : TraceList Rat) :
    Nat → Option Nat → Res (List Line)
  | _, none => .ok []
  | 0, some _ => .err
  | fuel + 1, some a =>
    (source tl a).bind fun id =>
    (gapsOf rnd mingap maxgap id (id.fresh + 1) id.first).bind fun lines =>
    (nextOf tl a 0).bind fun n =>
    (allGaps rnd mingap maxgap tl fuel n).bind fun rest => .ok (lines ++ rest)

/-- tracelist.c:2324-2422 `mstl3_printgaplist`: the lines printed and the total. -/
def printGapList (rnd : Rat → Rat) (mingap maxgap : Option Rat) (tl : TraceList Rat) :
    Res (List Line × Nat) :=
  (allGaps rnd mingap maxgap tl (tl.fresh + 1) (tl.next 0 0)).bind fun lines =>
  .ok (lines, lines.length)

end Verif.Model.Gaps
