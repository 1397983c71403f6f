import Verif.Model.Alloc
import Verif.Model.Select
import Verif.Model.Screen
/-!
# Data selections in memory (selection.c)

`ms3_addselect` and `ms3_freeselections` on the memory of `Model/Alloc`; the pointer at `ppselections`
is an argument and a result.
-/
namespace Verif.Model.SelectMem
open Verif.Model.Alloc
open Verif.Model.Steim (Res)
open Verif.Model.Options (lit)

/-- selection.c:227-236: the loop that looks for the first entry with this pattern and version; `err` if
there are more than `fuel`. -/
def findSelect (pattern : List UInt8) (pub : Nat) : Nat → Heap → Option Nat → Res (Option Nat)
  | _, _, none => .ok none
  | 0, _, some _ => .err
  | fuel + 1, h, some a =>
    match h.cell a with
    | some (.select p _ next v) =>
      if TraceList.strcmp p pattern = 0 ∧ v = pub then .ok (some a) else findSelect pattern pub fuel h next
    | _ => .ub

/-- selection.c:204-219, 246-263: a new entry, in front of `first`, with the time window at `w`. -/
def newSelect (h : Heap) (pattern : List UInt8) (pub : Nat) (w : Nat) (first : Option Nat) :
    Bool × Option Nat × Heap :=
  match malloc h (.select (Select.copied pattern) (some w) first pub) with
  | (none, h) => (false, first, h)
  | (some a, h) => (true, some a, h)

/-- selection.c:238-243: the time window at `w` in front of those of the entry at `a`. -/
def linkWindow (h : Heap) (start stop : Int) (w a : Nat) : Res Heap :=
  match h.cell a with
  | some (.select p tw next v) => .ok ((h.put w (.window start stop tw)).put a (.select p (some w) next v))
  | _ => .ub

/-- selection.c:180-269 `ms3_addselect`: whether it returns 0, the pointer at `ppselections` and the
memory afterwards.  `pattern` is a C string, without zero bytes. -/
def addSelect (fuel : Nat) (h : Heap) (first : Option Nat) (pattern : List UInt8) (start stop : Int) (pub : Nat) :
    Res (Bool × Option Nat × Heap) :=
  match malloc h (.window start stop none) with
  | (none, h) => .ok (false, first, h)
  | (some w, h) =>
    match first with
    | none => .ok (newSelect h pattern pub w none)
    | some f =>
      (findSelect pattern pub fuel h (some f)).bind fun m =>
      match m with
      | some a => (linkWindow h start stop w a).bind fun h => .ok (true, some f, h)
      | none => .ok (newSelect h pattern pub w (some f))

/-- selection.c:681-690: the loop over the time windows. -/
def freeWindows : Nat → Heap → Option Nat → Res Heap
  | _, h, none => .ok h
  | 0, _, some _ => .err
  | fuel + 1, h, some a =>
    match h.cell a with
    | some (.window _ _ next) => (free h a).bind fun h => freeWindows fuel h next
    | _ => .ub

/-- selection.c:664-697 `ms3_freeselections`. -/
def freeSelects : Nat → Heap → Option Nat → Res Heap
  | _, h, none => .ok h
  | 0, _, some _ => .err
  | fuel + 1, h, some a =>
    match h.cell a with
    | some (.select _ tw next _) =>
      (freeWindows fuel h tw).bind fun h =>
      (free h a).bind fun h => freeSelects fuel h next
    | _ => .ub

/-- selection.c:725-728 and 730-733: a time, or what is printed without one; `none` if
`ms_nstime2timestr` gives NULL (the array is not written then). -/
def windowTime (missing : List UInt8) (t : Int) : Option (List UInt8) :=
  if t ≠ Select.nstError ∧ t ≠ Select.nstUnset then Report.timeText .isoMonthDayZ .nanoMicroNone t
  else some missing

/-- selection.c:722-738: the line of a time window. -/
def windowLine (w : Select.Window) : Option (List UInt8) :=
  match windowTime (lit "No start time") w.start, windowTime (lit "No end time") w.stop with
  | some a, some b => some (Report.message (lit "  " ++ Screen.right 30 a ++ lit "  " ++ Screen.right 30 b ++ [10]))
  | _, _ => none

/-- selection.c:717-741: an entry and its time windows. -/
def entryText (e : Select.Entry) : Option (List UInt8) :=
  (e.timewindows.mapM windowLine).map fun ws =>
    Report.message (lit "Selection: " ++ e.sidpattern ++ lit "  pubversion: " ++
      Report.bytes (TimeStr.printD e.pubversion) ++ [10]) ++ ws.flatten

/-- selection.c:706-742 `ms3_printselections` of a list of entries: what is printed; `none` if an array
without content is printed. -/
def printSelections (l : List Select.Entry) : Option (List UInt8) := (l.mapM entryText).map List.flatten

end Verif.Model.SelectMem
