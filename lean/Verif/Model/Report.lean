import Verif.Model.Gaps
import Verif.Model.Printf
import Verif.Model.TimeStr
import Verif.Model.Str
import Verif.Model.ReadTrace
import Verif.Model.Options
/-!
# The lists printed by the program

libmseed/tracelist.c:2119-2235 `mstl3_printtracelist`, 2251-2310 `mstl3_printsynclist` and the text of
2324-2422 `mstl3_printgaplist` (its lines are in Model/Gaps), and the use of them in src/msi.c:142-143,
240-241, 354-374.

Output is a list of messages, one for each call of `ms_log` with level 0; the program sets no prefix for
them (msi.c:95).  Numbers are written as in Model/Printf.  Counters are unbounded; in the code they are
of type `int`, and the lines with totals are shorter than messages may be.  The list is not NULL.
-/
namespace Verif.Model.Report
open Verif.Model Verif.Model.Steim Verif.Model.Record3 Verif.Model.Trace Verif.Model.TraceList
open Verif.Model.Gaps (gapChecked)
open Verif.Model.Options (lit Options)
open Verif.Model.ReadTrace (Adding addRecord)

/-- `%-ws` and the like: spaces behind the text up to the width. -/
def left (w : Nat) (s : List UInt8) : List UInt8 := s ++ List.replicate (w - s.length) 32

/-- A call of `ms_log`: logging.c:396-404, at most 199 characters. -/
def message (text : List UInt8) : List UInt8 := text.take 199

/-- ASCII characters as bytes. -/
def bytes (s : List Char) : List UInt8 := s.map fun c => UInt8.ofNat c.toNat

/-- `ms_nstime2timestr` into an array of 40 bytes, which is large enough (C07); `none` for NULL. -/
def timeText (fmt : TimeStr.Format) (sub : TimeStr.Sub) (t : Int) : Option (List UInt8) :=
  let p := TimeStr.nstime2timestr t fmt sub
  if p.ok then p.text.map bytes else none

/-- tracelist.c:2197-2206, 2391-2398: the text of a gap, in an array of 40 bytes.  `none`: there is no
segment before. -/
def gapText (rnd : Rat → Rat) (gap : Option Rat) : List UInt8 :=
  (match gap with
   | none => lit " == "
   | some g =>
     if g ≥ 86400 ∨ g ≤ -86400 then left 3 (bytes (Printf.fixed 1 (rnd (g / 86400)))) ++ lit "d"
     else if g ≥ 3600 ∨ g ≤ -3600 then left 3 (bytes (Printf.fixed 1 (rnd (g / 3600)))) ++ lit "h"
     else if g = 0 then lit "-0  "
     else left 4 (bytes (Printf.general 4 g))).take 39

/-! ## The trace list -/

/-- tracelist.c:2142-2149 -/
def traceHeader (details gaps : Bool) : List UInt8 :=
  if details ∧ gaps then
    lit "       SourceID                      Start sample                End sample           Gap  Hz  Samples\n"
  else if gaps then
    lit "       SourceID                      Start sample                End sample           Gap\n"
  else if details then
    lit "       SourceID                      Start sample                End sample           Hz  Samples\n"
  else
    lit "       SourceID                      Start sample                End sample\n"

/-- tracelist.c:2156-2164: the identifier displayed, with the version in an array of 74 bytes. -/
def displaySid (versions : Bool) (id : Source Rat) : List UInt8 :=
  if versions then (id.sid ++ 35 :: bytes (TimeStr.printD id.pub)).take 73 else id.sid

/-- tracelist.c:2180-2194: the gap before a segment. -/
def gapBefore (rnd : Rat → Rat) (heap : Heap Rat) (n : Node Rat) : Res (Option Rat) :=
  match n.prev with
  | none => .ok none
  | some b => (fetch heap b).bind fun m => (gapChecked rnd m.seg n.seg).bind fun g => .ok (some g)

/-- The first three columns. -/
def columns (sid start stop : List UInt8) : List UInt8 :=
  left 27 sid ++ 32 :: left 28 start ++ 32 :: left 28 stop

/-- The columns of rate and samples. -/
def detailText (s : Seg Rat) : List UInt8 :=
  left 3 (bytes (Printf.general 3 s.rate)) ++ 32 :: bytes (TimeStr.printD s.samplecnt)

/-- tracelist.c:2168-2217: the line of a segment; `none` if a time cannot be written. -/
def segLine (rnd : Rat → Rat) (fmt : TimeStr.Format) (details gaps : Bool) (sid : List UInt8)
    (heap : Heap Rat) (n : Node Rat) : Res (Option (List UInt8)) :=
  match timeText fmt .nanoMicro n.seg.start, timeText fmt .nanoMicro n.seg.stop with
  | some start, some stop =>
    if gaps then
      (gapBefore rnd heap n).bind fun gap =>
      if details then
        .ok (some (message (columns sid start stop ++ 32 :: gapText rnd gap ++ 32 :: detailText n.seg ++ [10])))
      else .ok (some (message (columns sid start stop ++ 32 :: left 4 (gapText rnd gap) ++ [10])))
    else if details then .ok (some (message (columns sid start stop ++ 32 :: detailText n.seg ++ [10])))
    else .ok (some (message (columns sid start stop ++ [10])))
  | _, _ => .ok none

/-- tracelist.c:2166-2223: the segments of a source from an address on; the flag is false if the function
returns early.  First argument: bound on the number of segments, `err` if it is exceeded. -/
def segLines (rnd : Rat → Rat) (fmt : TimeStr.Format) (details gaps : Bool) (sid : List UInt8)
    (heap : Heap Rat) : Nat → Option Nat → Res (List (List UInt8) × Bool)
  | _, none => .ok ([], true)
  | 0, some _ => .err
  | fuel + 1, some a =>
    (fetch heap a).bind fun n =>
    (segLine rnd fmt details gaps sid heap n).bind fun l =>
    match l with
    | none => .ok ([], false)
    | some l =>
      (segLines rnd fmt details gaps sid heap fuel n.next).bind fun r => .ok (l :: r.1, r.2)

/-- tracelist.c:2151-2227: the sources from an address on, with the number of sources. -/
def sourceLines (rnd : Rat → Rat) (fmt : TimeStr.Format) (details gaps versions : Bool)
    (tl : TraceList Rat) : Nat → Option Nat → Res (List (List UInt8) × Nat × Bool)
  | _, none => .ok ([], 0, true)
  | 0, some _ => .err
  | fuel + 1, some a =>
    (source tl a).bind fun id =>
    (segLines rnd fmt details gaps (displaySid versions id) id.heap (id.fresh + 1) (some id.first)).bind fun r =>
    if r.2 then
      (nextOf tl a 0).bind fun n =>
      (sourceLines rnd fmt details gaps versions tl fuel n).bind fun q =>
      .ok (r.1 ++ q.1, q.2.1 + 1, q.2.2)
    else .ok (r.1, 0, false)

/-- tracelist.c:2229-2230 -/
def traceTotal (traces segs : Nat) : List UInt8 :=
  lit "Total: " ++ bytes (TimeStr.printD traces) ++ lit " trace(s) with " ++ bytes (TimeStr.printD segs) ++
    lit " segment(s)\n"

/-- tracelist.c:2119-2235 `mstl3_printtracelist`; `details` and `gaps` are whether the arguments are
positive. -/
def printTraceList (rnd : Rat → Rat) (fmt : TimeStr.Format) (details gaps versions : Bool)
    (tl : TraceList Rat) : Res (List (List UInt8)) :=
  (sourceLines rnd fmt details gaps versions tl (tl.fresh + 1) (tl.next 0 0)).bind fun r =>
  .ok (message (traceHeader details gaps) :: r.1 ++
    if r.2.2 ∧ details then [traceTotal r.2.1 r.1.length] else [])

/-! ## The SYNC list -/

/-- The arrays `net`, `sta`, `loc` and `chan` (tracelist.c:2259-2262), as strings. -/
structure Codes where
  net : List UInt8 := []
  sta : List UInt8 := []
  loc : List UInt8 := []
  chan : List UInt8 := []
deriving DecidableEq, Repr

/-- tracelist.c:2285: `ms_sid2nslc` into the arrays of 11 bytes, of which the return value is not used: if it
fails they keep what they have. -/
def codesOf (c : Codes) (sid : List UInt8) : Res Codes :=
  match Str.sid2nslc sid with
  | none => .ok c
  | some n =>
    if n.net.length > 10 ∨ n.sta.length > 10 ∨ n.loc.length > 10 ∨ (n.chan.getD []).length > 10 then .oob
    else .ok { net := n.net, sta := n.sta, loc := n.loc, chan := n.chan.getD c.chan }

/-- tracelist.c:2291-2300: the line of a segment.  A time that cannot be written is an array that is not
set. -/
def syncLine (sub : TimeStr.Sub) (day : List UInt8) (c : Codes) (s : Seg Rat) : Res (List UInt8) :=
  match timeText .seedOrdinal sub s.start, timeText .seedOrdinal sub s.stop with
  | some start, some stop =>
    .ok (message (c.net ++ 124 :: c.sta ++ 124 :: c.loc ++ 124 :: c.chan ++ 124 :: start ++ 124 :: stop ++
      lit "||" ++ bytes (Printf.general 10 s.rate) ++ 124 :: bytes (TimeStr.printD s.samplecnt) ++ lit "|||||||" ++ day ++ [10]))
  | _, _ => .ub

/-- tracelist.c:2288-2303: the segments of a source. -/
def syncSegs (sub : TimeStr.Sub) (day : List UInt8) (c : Codes) (heap : Heap Rat) :
    Nat → Option Nat → Res (List (List UInt8))
  | _, none => .ok []
  | 0, some _ => .err
  | fuel + 1, some a =>
    (fetch heap a).bind fun n =>
    (syncLine sub day c n.seg).bind fun l =>
    (syncSegs sub day c heap fuel n.next).bind fun r => .ok (l :: r)

/-- tracelist.c:2281-2306: the sources. -/
def syncSources (sub : TimeStr.Sub) (day : List UInt8) (tl : TraceList Rat) :
    Nat → Option Nat → Codes → Res (List (List UInt8))
  | _, none, _ => .ok []
  | 0, some _, _ => .err
  | fuel + 1, some a, c =>
    (source tl a).bind fun id =>
    (codesOf c id.sid).bind fun c =>
    (syncSegs sub day c id.heap (id.fresh + 1) (some id.first)).bind fun l =>
    (nextOf tl a 0).bind fun n =>
    (syncSources sub day tl fuel n c).bind fun r => .ok (l ++ r)

/-- tracelist.c:2251-2310 `mstl3_printsynclist`; `day` is the local date, `%04d,%03d` (2270-2275). -/
def printSyncList (dccid : Option (List UInt8)) (sub : TimeStr.Sub) (day : List UInt8)
    (tl : TraceList Rat) : Res (List (List UInt8)) :=
  (syncSources sub day tl (tl.fresh + 1) (tl.next 0 0) {}).bind fun l =>
  .ok (message (dccid.getD (lit "DCC") ++ 124 :: day ++ [10]) :: l)

/-! ## The gap list -/

/-- tracelist.c:2391-2409: the line of a gap.  A time that cannot be written is an array that is not
set. -/
def gapLine (rnd : Rat → Rat) (fmt : TimeStr.Format) (l : Gaps.Line) : Res (List UInt8) :=
  match timeText fmt .nanoMicro l.before, timeText fmt .nanoMicro l.after with
  | some a, some b =>
    .ok (message (columns l.sid a b ++ 32 :: left 4 (gapText rnd (some l.gap)) ++ 32 :: bytes (Printf.general 8 l.nsamples) ++
      [10]))
  | _, _ => .ub

/-- The lines of a list of gaps. -/
def gapLines (rnd : Rat → Rat) (fmt : TimeStr.Format) : List Gaps.Line → Res (List (List UInt8))
  | [] => .ok []
  | l :: t => (gapLine rnd fmt l).bind fun x => (gapLines rnd fmt t).bind fun r => .ok (x :: r)

/-- tracelist.c:2344 -/
def gapHeader : List UInt8 :=
  lit "       SourceID                      Last Sample                 Next Sample          Gap  Samples\n"

/-- tracelist.c:2324-2422 `mstl3_printgaplist` -/
def printGapText (rnd : Rat → Rat) (fmt : TimeStr.Format) (mingap maxgap : Option Rat)
    (tl : TraceList Rat) : Res (List (List UInt8)) :=
  (Gaps.printGapList rnd mingap maxgap tl).bind fun (lines, total) =>
  (gapLines rnd fmt lines).bind fun l =>
  .ok (message gapHeader ::
    l ++ [lit "Total: " ++ bytes (TimeStr.printD total) ++ lit " gap(s)\n"])

/-! ## The program -/

/-- msi.c:240-241: the records are added as they come; a record that is refused is passed over.  The argument
`autoheal` is given the reading flags, which are never 0 (136-140). -/
def addAll (c : Adding) (split : Bool) : List Msr → TraceList Rat → Res (TraceList Rat)
  | [], tl => .ok tl
  | m :: ms, tl => (addRecord c split true false tl m).bind fun r => addAll c split ms r.1

/-- msi.c:62-63, 498-505: what `mstl3_addmsr` is given for the tolerances; `number` is `strtod`. -/
def adding (rnd : Rat → Rat) (leaps : List SampleTime.Leap) (rate : Nat → Rat) (number : List UInt8 → Rat)
    (o : Options) : Adding :=
  { rnd, leaps, rate, timetol := o.timetol.map fun v _ => number v,
    ratetol := (o.sampratetol.map number).getD (-1) }

/-- msi.c:354-374: one of the lists (the totals are in Model/Screen). -/
def reportText (rnd : Rat → Rat) (number : List UInt8 → Rat) (day : List UInt8) (tl : TraceList Rat) :
    Options.Report → Res (List (List UInt8))
  | .totals => .ok []
  | .traces gaps versions fmt => printTraceList rnd fmt true gaps versions tl
  | .gaps min max fmt => printGapText rnd fmt (min.map number) (max.map number) tl
  | .sync => printSyncList none .micro day tl

/-- All of them. -/
def reportTexts (rnd : Rat → Rat) (number : List UInt8 → Rat) (day : List UInt8) (tl : TraceList Rat) :
    List Options.Report → Res (List (List UInt8))
  | [] => .ok []
  | r :: t =>
    (reportText rnd number day tl r).bind fun x =>
    (reportTexts rnd number day tl t).bind fun y => .ok (x ++ y)

/-- msi.c:142-143, 240-241, 351-374: the lists printed for the records that were processed with these options;
the list begins with the state of its random numbers `seed`. -/
def finalText (rnd : Rat → Rat) (leaps : List SampleTime.Leap) (rate : Nat → Rat)
    (number : List UInt8 → Rat) (day : List UInt8) (seed : Nat) (o : Options) (traces : List Msr) :
    Res (List (List UInt8)) :=
  (addAll (adding rnd leaps rate number o) o.splitversion traces { TraceList.init with prng := seed }).bind fun tl =>
  reportTexts rnd number day tl (Options.reports o)

end Verif.Model.Report
