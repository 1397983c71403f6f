import Verif.Model.TraceList
/-!
# `mstl3_addID` as called from outside, without previous pointers (tracelist.c)
-/
namespace Verif.Model.TraceAdd
open Verif.Model.Steim Verif.Model.Trace Verif.Model.TraceList

variable {R : Type}

/-- tracelist.c:281-294: connect entry `a` at the levels below the last argument, from the top; the list afterwards,
also if there is no previous pointer at a level, and whether there always was one. -/
def connectAll (tl : TraceList R) (a : Nat) (prev : Nat → Option Nat) : Nat → Res (TraceList R × Bool)
  | 0 => .ok (tl, true)
  | level + 1 =>
    match prev level with
    | none => .ok (tl, false)
    | some p =>
      (nextOf tl p level).bind fun n =>
      connectAll { tl with next := setLink (setLink tl.next a level n) p level (some a) } a prev level

/-- tracelist.c:250-300 `mstl3_addID` with `prev` NULL, for an entry `s` that the caller has allocated and cleared
before filling it; its address is `tl.fresh`.  The list afterwards and whether the entry is returned (`false` for
NULL).  The search is for the identifier alone (tracelist.c:266), its result is not looked at. -/
def addAlone (tl : TraceList R) (s : Source R) : Res (TraceList R × Bool) :=
  (findID tl s.sid 0).bind fun (_, prev) =>
  let a := tl.fresh
  let (height, prng) := randomHeight maxHeight tl.prng
  let tl := { tl with sources := fun x => if x = a then some s else tl.sources x,
                      next := fun x i => if x = a then none else tl.next x i,
                      prng, fresh := a + 1 }
  (connectAll tl a prev height).bind fun (tl, done) =>
  .ok (if done then { tl with numtraceids := tl.numtraceids + 1 } else tl, done)

/-- The caller gives back the memory of the entry at `a`. -/
def release (tl : TraceList R) (a : Nat) : TraceList R :=
  { tl with sources := fun x => if x = a then none else tl.sources x }

end Verif.Model.TraceAdd
