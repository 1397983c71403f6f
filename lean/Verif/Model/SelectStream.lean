import Verif.Model.SelectFile
/-!
# The stream opened to read selections (selection.c)

`ms3_readselectionsfile` again, with the number of streams the process has open.
-/
namespace Verif.Model.SelectStream
open Verif.Model.Select Verif.Model.SelectFile
open Verif.Model.Steim (Res)

/-- The result and the number of open streams. -/
structure State where
  loaded : Loaded
  streams : Nat
deriving DecidableEq, Repr

/-- selection.c:651-654: the end, after the last line; `std` is `fp == stdin`. -/
def finish (std : Bool) (streams : Nat) (sels : List Entry) (n : Nat) : Res State :=
  .ok { loaded := { sels, ret := n }, streams := if std then streams else streams - 1 }

/-- selection.c:468-654: the loop over the lines and the end; `n` is `selectcount`.  The returns of -1 (559, 576, 597, 609, 628,
640) are in the loop.  First argument as for `readLines`. -/
def readLines (signed : Bool) (rnd : Rat → Rat) (std : Bool) (streams : Nat) :
    Nat → List UInt8 → List Entry → Nat → Res State
  | 0, _, sels, n => finish std streams sels n
  | fuel + 1, s, sels, n =>
    let p := fgets 198 s
    if p.1 = [] then finish std streams sels n
    else
      (lineStep signed rnd sels p.1).bind fun step =>
      match step with
      | .fail => .ok { loaded := { sels, ret := -1 }, streams }
      | .skip => readLines signed rnd std streams fuel p.2 sels n
      | .count sels => readLines signed rnd std streams fuel p.2 sels (n + 1)

/-- selection.c:427-655 `ms3_readselectionsfile`: `none` is a file that cannot be opened, `std` is the file name `-`. -/
def read (signed : Bool) (rnd : Rat → Rat) (sels : List Entry) (std : Bool) (file : Option (List UInt8)) (streams : Nat) :
    Res State :=
  match file with
  | none => .ok { loaded := { sels, ret := -1 }, streams }
  | some s => readLines signed rnd std (if std then streams else streams + 1) (s.length + 1) s sels 0

/-- Calls one after another, each with the list that the one before left; the results in order. -/
def reads (signed : Bool) (rnd : Rat → Rat) :
    List Entry → List (Bool × Option (List UInt8)) → Nat → Res (List Int × Nat)
  | _, [], streams => .ok ([], streams)
  | sels, (std, file) :: t, streams =>
    (read signed rnd sels std file streams).bind fun s =>
    (reads signed rnd s.loaded.sels t s.streams).bind fun r =>
    .ok (s.loaded.ret :: r.1, r.2)

end Verif.Model.SelectStream
