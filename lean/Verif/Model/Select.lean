import Verif.Model.Glob
import Verif.Model.TraceList
import Verif.Model.Str
import Verif.Model.Steim
/-!
# Data selections (selection.c)

A list of selections is the list of its entries in order, each with the list of its time windows in
order.  `NULL` pointers and failed allocations are not modelled.
-/
namespace Verif.Model.Select
open Verif.Model.Glob hiding Res
open Verif.Model.TraceList
open Verif.Model.Steim (Res)

/-- libmseed.h:235 `NSTERROR` -/
def nstError : Int := -2145916800000000000

/-- libmseed.h:240 `NSTUNSET` -/
def nstUnset : Int := -2145916799999999999

/-- libmseed.h:438-442 `MS3SelectTime` -/
structure Window where
  start : Int
  stop : Int
deriving DecidableEq, Repr

/-- libmseed.h:445-450 `MS3Selections`.  `sidpattern` up to its terminator. -/
structure Entry where
  sidpattern : List UInt8
  timewindows : List Window
  pubversion : Nat
deriving DecidableEq, Repr

/-- selection.c:91-94 and 99-102: both times are given. -/
def given (a b : Int) : Bool :=
  decide (a ≠ nstError ∧ a ≠ nstUnset ∧ b ≠ nstError ∧ b ≠ nstUnset)

/-- selection.c:91-105: the window is passed over. -/
def skipped (start stop : Int) (w : Window) : Bool :=
  if given start w.start = true ∧
      (start < w.start ∧ ¬ (start ≤ w.start ∧ stop ≥ w.start)) then true
  else if given stop w.stop = true ∧
      (stop > w.stop ∧ ¬ (start ≤ w.stop ∧ stop ≥ w.stop)) then true
  else false

/-- selection.c:57-122 `ms3_matchselect`: the index of the matching entry and its matching window, if
any.  `i` is the index of the first entry.  `oob`: the glob matcher reads past a
pattern, `err`: it reaches its loop bound. -/
def matchFrom (signed : Bool) (sid : List UInt8) (start stop : Int) (pub : Nat) :
    Nat → List Entry → Res (Option (Nat × Option Window))
  | _, [] => .ok none
  | i, e :: rest =>
    match msGlobmatch signed sid e.sidpattern with
    | .ret true =>
      if e.pubversion > 0 ∧ e.pubversion ≠ pub then
        matchFrom signed sid start stop pub (i + 1) rest
      else if e.timewindows = [] then .ok (some (i, none))
      else
        match e.timewindows.find? fun w => !skipped start stop w with
        | some w => .ok (some (i, some w))
        | none => matchFrom signed sid start stop pub (i + 1) rest
    | .ret false => matchFrom signed sid start stop pub (i + 1) rest
    | .oob => .oob
    | .fuel => .err

/-- selection.c:57-122 `ms3_matchselect` -/
def matchSelect (signed : Bool) (sels : List Entry) (sid : List UInt8) (start stop : Int) (pub : Nat) :
    Res (Option (Nat × Option Window)) :=
  matchFrom signed sid start stop pub 0 sels

/-- selection.c:213-214 and 255-256: `strncpy` into 100 bytes, the last of which is set to zero. -/
def copied (pattern : List UInt8) : List UInt8 := pattern.take 99

/-- selection.c:228-246: add a window to the first entry with this pattern and version.  `none` if
there is no such entry. -/
def addWindow (pattern : List UInt8) (pub : Nat) (w : Window) : List Entry → Option (List Entry)
  | [] => none
  | e :: rest =>
    if strcmp e.sidpattern pattern = 0 ∧ e.pubversion = pub then
      some ({ e with timewindows := w :: e.timewindows } :: rest)
    else (addWindow pattern pub w rest).map (e :: ·)

/-- selection.c:180-269 `ms3_addselect`.  `pattern` is a C string, without zero bytes. -/
def addSelect (sels : List Entry) (pattern : List UInt8) (start stop : Int) (pub : Nat) : List Entry :=
  match addWindow pattern pub ⟨start, stop⟩ sels with
  | some s => s
  | none => { sidpattern := copied pattern, timewindows := [⟨start, stop⟩], pubversion := pub } :: sels

/-- selection.c:318-353: a component, cut to 19 bytes, or the wildcard if it is not given. -/
def component (c : Option (List UInt8)) : List UInt8 :=
  match c with
  | some c => c.take 19
  | none => [42]

/-- selection.c:337-353: the location, with `--` for an empty one. -/
def locComponent (c : Option (List UInt8)) : List UInt8 :=
  match c with
  | some c => if strcmp c [45, 45] = 0 then [] else c.take 19
  | none => [42]

/-- selection.c:358: `[?*a-zA-Z0-9]` three times. -/
def seedGlob : List UInt8 :=
  let one := "[?*a-zA-Z0-9]".toList.map fun c => UInt8.ofNat c.toNat
  one ++ one ++ one

/-- selection.c:355-372: the channel, extended if it has three characters.  (The buffer of 20 bytes
holds the 6 bytes stored by `ms_seedchan2xchan`; the bytes after its terminator do not matter.) -/
def chanComponent (signed : Bool) (c : Option (List UInt8)) : Res (List UInt8) :=
  match c with
  | some c =>
    match msGlobmatch signed c seedGlob with
    | .ret true =>
      match Str.seedchan2xchan (c ++ [0]) with
      | some (some x) => .ok (Str.cstr x)
      | _ => .oob
    | .ret false => .ok (c.take 19)
    | .oob => .oob
    | .fuel => .err
  | none => .ok [42]

/-- selection.c:304-387 `ms3_addselect_comp`.  `some none` is the return value -1. -/
def addSelectComp (signed : Bool) (sels : List Entry) (net sta loc chan : Option (List UInt8))
    (start stop : Int) (pub : Nat) : Res (Option (List Entry)) :=
  (chanComponent signed chan).bind fun selchan =>
    match Str.nslc2sid 100 (component net) (component sta) (some (locComponent loc)) selchan with
    | none => .ok none
    | some (sidpattern, _) => .ok (some (addSelect sels sidpattern start stop pub))

end Verif.Model.Select
