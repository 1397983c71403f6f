import Verif.Model.SegMem
/-!
# Record lists in memory

libmseed/tracelist.c:1265-1337 `mstl3_add_recordptr`, the end of `mstl3_addsegtoseg` (1222-1235) and the
release of the segment that was joined to another in `mstl3_addmsr_recordptr` (642-652).  The memory is
that of `Model/Alloc`.
-/
namespace Verif.Model.RecMem
open Verif.Model.Steim Verif.Model.Alloc Verif.Model.SegMem

/-- tracelist.c:1316-1334: the entry at `p`, of the record at `c`, added to the list at `l`. -/
def link (h : Heap) (l p c : Nat) (endtime whence : Int) : Res (Option Nat × Heap) :=
  match h.cell l with
  | some (.recordlist first last n) =>
    if whence = 2 then
      .ok (some p, (h.put p (.recordptr (some c) none first endtime)).put l (.recordlist (some p) last (n + 1)))
    else
      match last with
      | none => .ub
      | some q =>
        match h.cell q with
        | some (.recordptr m v _ e) =>
          .ok (some p, (h.put q (.recordptr m v (some p) e)).put l (.recordlist first (some p) (n + 1)))
        | _ => .ub
  | _ => .ub

/-- tracelist.c:1265-1337 `mstl3_add_recordptr` of the record at `b` to the segment at `a`; `none` is NULL.
The counter does not overflow. -/
def addRecordptr (h : Heap) (a b : Nat) (endtime whence : Int) : Res (Option Nat × Heap) :=
  (getSeg h a).bind fun s =>
  if s.recordlist ≠ none ∧ whence ≠ 1 ∧ whence ≠ 2 then .ok (none, h)
  else
    match malloc h (.recordptr none none none 0) with
    | (none, h) => .ok (none, h)
    | (some p, h) =>
      (duplicate h (some b) false).bind fun x =>
      match x with
      | (none, h) => (free h p).bind fun h => .ok (none, h)
      | (some c, h) =>
        let h := h.put p (.recordptr (some c) none none endtime)
        match s.recordlist with
        | some l => link h l p c endtime whence
        | none =>
          match malloc h (.recordlist (some p) (some p) 1) with
          | (none, h) => (free h p).bind fun h => .ok (none, h)
          | (some l, h) => .ok (some p, h.put a (.seg { s with recordlist := some l }))

/-- tracelist.c:1222-1235: the end of `mstl3_addsegtoseg`. -/
def joinLists (h : Heap) (a b : Nat) : Res Heap :=
  (getSeg h a).bind fun s =>
  (getSeg h b).bind fun r =>
  match r.recordlist with
  | none => .ok h
  | some m =>
    match s.recordlist with
    | none => .ok ((h.put a (.seg { s with recordlist := some m })).put b (.seg { r with recordlist := none }))
    | some l =>
      match h.cell l, h.cell m with
      | some (.recordlist first (some q) n), some (.recordlist first' last' n') =>
        match h.cell q with
        | some (.recordptr c v _ e) =>
          .ok ((h.put q (.recordptr c v first' e)).put l (.recordlist first last' (n + n')))
        | _ => .ub
      | _, _ => .ub

/-- tracelist.c:642-652: the segment at `b` is given back. -/
def dropSeg (h : Heap) (b : Nat) : Res Heap :=
  (getSeg h b).bind fun r =>
  (freeOpt h r.datasamples).bind fun h =>
  (freeOpt h r.recordlist).bind fun h =>
  (freeOpt h r.prvtptr).bind fun h =>
  free h b

/-- tracelist.c:625-652: the segment at `b` is joined to the one at `a` and given back; `false` is NULL.  The
links between segments are in `Model/Trace`. -/
def heal (junk : Nat → UInt8) (block : Nat) (h : Heap) (a b : Nat) : Res (Bool × Heap) :=
  (addsegtoseg junk block h a b).bind fun x =>
  match x with
  | (false, h) => .ok (false, h)
  | (true, h) =>
    (joinLists h a b).bind fun h =>
    (dropSeg h b).bind fun h => .ok (true, h)

end Verif.Model.RecMem
