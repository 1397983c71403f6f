import Verif.Model.Select
import Verif.Model.TimeStr
/-!
# Reading selections from a file (selection.c)

The file is the sequence of its bytes; reading does not fail.  A line in `selectline` is the sequence of its
bytes before the first NUL.
-/
namespace Verif.Model.SelectFile
open Verif.Model.Glob hiding Res
open Verif.Model.Select
open Verif.Model.Steim (Res)

/-- `isspace ((int)*cp)` in the C locale.  With a signed `char` the argument is negative for bytes from 128
on, which is undefined unless it is `EOF` (-1). -/
def isSpace (signed : Bool) (b : UInt8) : Res Bool :=
  if signed = true ∧ 128 ≤ b.toNat ∧ b.toNat < 255 then .ub
  else .ok (decide (b.toNat = 32 ∨ (9 ≤ b.toNat ∧ b.toNat ≤ 13)))

/-- `isdigit ((int)*string)`, undefined in the same cases. -/
def isDigit (signed : Bool) (b : UInt8) : Res Bool :=
  if signed = true ∧ 128 ≤ b.toNat ∧ b.toNat < 255 then .ub
  else .ok (decide (48 ≤ b.toNat ∧ b.toNat ≤ 57))

/-- `fgets` of at most `n` bytes: up to and with a newline. -/
def fgets : Nat → List UInt8 → List UInt8 × List UInt8
  | 0, s => ([], s)
  | _ + 1, [] => ([], [])
  | n + 1, c :: s =>
    if c = 10 then ([c], s)
    else
      let p := fgets n s
      (c :: p.1, p.2)

/-- selection.c:495-499: pass over spaces. -/
def skipSpaces (signed : Bool) : List UInt8 → Res (List UInt8)
  | [] => .ok []
  | c :: s => (isSpace signed c).bind fun b => if b then skipSpaces signed s else .ok (c :: s)

/-- selection.c:481-499: trim spaces at the end, then at the beginning.  (The pointer `cp` is set
before the beginning of the line if nothing else is in it, which is taken to be harmless.) -/
def trim (signed : Bool) (line : List UInt8) : Res (List UInt8) :=
  (skipSpaces signed line.reverse).bind fun r => skipSpaces signed r.reverse

/-- selection.c:509-536: the fields.  `n` is `fieldidx`, `inside` is `next`.  The result is the rest of the
field that `cp` is in, and the fields that follow.  At the beginning of the eighth field the loop ends, so
it extends to the end of the line. -/
def split (signed : Bool) : Nat → Bool → List UInt8 → Res (List UInt8 × List (List UInt8))
  | _, _, [] => .ok ([], [])
  | n, inside, c :: s =>
    if n ≥ 8 then .ok (c :: s, [])
    else
      (isSpace signed c).bind fun b =>
      if b then (split signed n false s).bind fun p => .ok ([], p.2)
      else if inside then (split signed n true s).bind fun p => .ok (c :: p.1, p.2)
      else (split signed (n + 1) true s).bind fun p => .ok ([], (c :: p.1) :: p.2)

/-- selection.c:539 `INITDATEGLOB` -/
def dateGlob : List UInt8 :=
  "[0-9][0-9][0-9][0-9][-/,][0-9]*".toList.map fun c => UInt8.ofNat c.toNat

/-- selection.c:541-544: the field is there and begins like a date. -/
def isDate (signed : Bool) (f : Option (List UInt8)) : Res Bool :=
  match f with
  | none => .ok false
  | some f =>
    match msGlobmatch signed f dateGlob with
    | .ret b => .ok b
    | .oob => .oob
    | .fuel => .err

/-- `ms_timestr2nstime` of a field; `outside` never happens (C79). -/
def fieldTime (rnd : Rat → Rat) (f : List UInt8) : Res Int :=
  match TimeStr.timestr2nstime rnd (f.map fun b => Char.ofNat b.toNat) with
  | .ok t => .ok t
  | .ub => .ub
  | .outside => .err

/-- selection.c:546-578: the time in field `i` or field `j`; `none` inside is the failure. -/
def lineTime (rnd : Rat → Rat) (fields : List (List UInt8)) (isI isJ : Bool) (i j : Nat) :
    Res (Option Int) :=
  match (if isI then fields[i]? else if isJ then fields[j]? else none) with
  | none => .ok (some nstUnset)
  | some f => (fieldTime rnd f).bind fun t => .ok (if t = nstUnset then none else some t)

/-- selection.c:752-763 `ms_isinteger` -/
def isInteger (signed : Bool) : List UInt8 → Res Bool
  | [] => .ok true
  | c :: s => (isDigit signed c).bind fun b => if b then isInteger signed s else .ok false

/-- selection.c:588-603 and 619-634: the publication version of digits; `none` if it is above 255.
(`strtol` gives its largest value for numbers that do not fit.) -/
def version (f : List UInt8) : Option Nat :=
  let n := f.foldl (fun v c => v * 10 + (c.toNat - 48)) 0
  if n > 255 then none else some n

/-- What a line does. -/
inductive Step where
  /-- return -1 -/
  | fail
  /-- next line, without counting -/
  | skip
  /-- count and go on -/
  | count (sels : List Entry)
deriving DecidableEq, Repr

/-- selection.c:586-603 and 617-634: the version in field `f`, 0 if it is missing. -/
def fieldVersion (f : Option (List UInt8)) : Option Nat :=
  match f with
  | none => some 0
  | some f => version f

/-- selection.c:586-611: a source identifier with times. -/
def addLine (sels : List Entry) (fields : List (List UInt8)) (start stop : Int) : Res Step :=
  match fieldVersion fields[3]? with
  | none => .ok .fail
  | some v => .ok (.count (addSelect sels (fields[0]?.getD []) start stop v))

/-- selection.c:617-634: the version in the fifth field, ignored unless an integer. -/
def quality (signed : Bool) (f : Option (List UInt8)) : Res (Option Nat) :=
  match f with
  | none => .ok (some 0)
  | some f => (isInteger signed f).bind fun int => .ok (if int then version f else some 0)

/-- selection.c:617-642: four components.  The version is looked at if it is an integer. -/
def addCompLine (signed : Bool) (sels : List Entry) (fields : List (List UInt8)) (start stop : Int) :
    Res Step :=
  (quality signed fields[4]?).bind fun q =>
  match q with
  | none => .ok .fail
  | some v =>
    (addSelectComp signed sels fields[0]? fields[1]? fields[2]? fields[3]? start stop v).bind fun r =>
    match r with
    | none => .ok .fail
    | some sels => .ok (.count sels)

/-- selection.c:580-584: the line has the first format. -/
def firstFormat (signed : Bool) (fields : List (List UInt8)) (isstart2 isend3 : Bool) : Res Bool :=
  match fields with
  | [_] => .ok true
  | [_, _] => .ok isstart2
  | [_, _, _] => .ok (isstart2 && isend3)
  | [_, _, _, v] => if isstart2 && isend3 then isInteger signed v else .ok false
  | _ => .ok false

/-- selection.c:612-615: the line has the second format. -/
def secondFormat (fields : List (List UInt8)) (isstart6 isend7 : Bool) : Bool :=
  fields.length = 4 || fields.length = 5 || (fields.length = 6 && isstart6) ||
    (fields.length = 7 && isstart6 && isend7)

/-- selection.c:538-648: the fields of a line that is neither empty nor a comment.  An unrecognized line is
reported and counted. -/
def fieldsStep (signed : Bool) (rnd : Rat → Rat) (sels : List Entry) (fields : List (List UInt8)) :
    Res Step :=
  (isDate signed fields[1]?).bind fun isstart2 =>
  (isDate signed fields[2]?).bind fun isend3 =>
  (isDate signed fields[5]?).bind fun isstart6 =>
  (isDate signed fields[6]?).bind fun isend7 =>
  (lineTime rnd fields isstart2 isstart6 1 5).bind fun start =>
  match start with
  | none => .ok .fail
  | some start =>
    (lineTime rnd fields isend3 isend7 2 6).bind fun stop =>
    match stop with
    | none => .ok .fail
    | some stop =>
      (firstFormat signed fields isstart2 isend3).bind fun first =>
      if first then addLine sels fields start stop
      else if secondFormat fields isstart6 isend7 then addCompLine signed sels fields start stop
      else .ok (.count sels)

/-- selection.c:470-648: one line as read by `fgets`. -/
def lineStep (signed : Bool) (rnd : Rat → Rat) (sels : List Entry) (line : List UInt8) : Res Step :=
  (trim signed (line.takeWhile (· != 0))).bind fun line =>
  if line = [] ∨ line.head? = some 35 then .ok .skip
  else (split signed 0 false line).bind fun p => fieldsStep signed rnd sels p.2

/-- The list of selections afterwards and the value returned. -/
structure Loaded where
  sels : List Entry
  ret : Int
deriving DecidableEq, Repr

/-- selection.c:468-649: the loop over the lines; `n` is `selectcount`.  First argument: bound on the number
of lines, each of which has at least a byte. -/
def readLines (signed : Bool) (rnd : Rat → Rat) : Nat → List UInt8 → List Entry → Nat → Res Loaded
  | 0, _, sels, n => .ok { sels, ret := n }
  | fuel + 1, s, sels, n =>
    let p := fgets 198 s
    if p.1 = [] then .ok { sels, ret := n }
    else
      (lineStep signed rnd sels p.1).bind fun step =>
      match step with
      | .fail => .ok { sels, ret := -1 }
      | .skip => readLines signed rnd fuel p.2 sels n
      | .count sels => readLines signed rnd fuel p.2 sels (n + 1)

/-- selection.c:427-655 `ms3_readselectionsfile`: `none` is a file that cannot be opened. -/
def readselectionsfile (signed : Bool) (rnd : Rat → Rat) (sels : List Entry) (file : Option (List UInt8)) :
    Res Loaded :=
  match file with
  | none => .ok { sels, ret := -1 }
  | some s => readLines signed rnd (s.length + 1) s sels 0

end Verif.Model.SelectFile
