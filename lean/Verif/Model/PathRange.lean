import Verif.Model.Reader
/-!
# Model of byte ranges in path names

libmseed/fileutils.c:1012-1064 `parse_pathname_range` and 331-369, the opening of a file by
`ms3_readmsr_selection`.  Strings are lists of bytes without a NUL; `char` is signed.
-/
namespace Verif.Model.PathRange
open Verif.Model.Steim

/-- `isdigit`: the behaviour is undefined for a negative `char`. -/
def isDigit (c : UInt8) : Res Bool :=
  if c.toNat < 128 then .ok (decide (48 ≤ c.toNat ∧ c.toNat ≤ 57)) else .ub

/-- fileutils.c:1015-1019 `startstr`, `endstr` and whether a dash was found. -/
structure State where
  startstr : List UInt8 := []
  endstr : List UInt8 := []
  dash : Bool := false
deriving DecidableEq, Repr

/-- fileutils.c:1032-1047: one character; `none` is the return of NULL.  The second call of `isdigit`
and the writes to `startstr` and `endstr`, of 21 bytes, are within their arrays since the walk stops
as soon as 21 digits are stored. -/
def char (c : UInt8) (s : State) : Res (Option State) :=
  (isDigit c).bind fun digit =>
  if digit = true ∧ s.dash = false then
    if s.startstr.length < 21 then .ok (some { s with startstr := s.startstr ++ [c] }) else .oob
  else if digit = true ∧ s.dash = true then
    if s.endstr.length < 21 then .ok (some { s with endstr := s.endstr ++ [c] }) else .oob
  else if c = 45 ∧ s.dash = true then .ok none
  else if c = 45 ∧ s.dash = false then .ok (some { s with dash := true })
  else .ok none

/-- fileutils.c:1030-1052: the walk over the characters after the `@`. -/
def walk : List UInt8 → State → Res (Option State)
  | [], s => .ok (some s)
  | c :: t, s =>
    (char c s).bind fun r =>
    match r with
    | none => .ok none
    | some s => if s.startstr.length ≥ 21 ∨ s.endstr.length ≥ 21 then .ok none else walk t s

/-- `strtoull` of digits in base 10: `ULLONG_MAX` on overflow. -/
def strtoull (s : List UInt8) : Nat :=
  s.foldl (fun v c => if v * 10 + (c.toNat - 48) < 2 ^ 64 then v * 10 + (c.toNat - 48)
    else 2 ^ 64 - 1) 0

/-- The conversion of `uint64_t` to `int64_t`. -/
def toInt64 (n : Nat) : Int := if n < 2 ^ 63 then n else (n : Int) - 2 ^ 64

/-- `strrchr`: the index of the last `c`. -/
def lastIndex (c : UInt8) : List UInt8 → Option Nat
  | [] => none
  | x :: t =>
    match lastIndex c t with
    | some i => some (i + 1)
    | none => if x = c then some 0 else none

/-- What `parse_pathname_range` does: the index of the `@` starting the range, or `none`, and the
offsets afterwards. -/
structure Found where
  at? : Option Nat
  start : Int
  stop : Int
deriving DecidableEq, Repr

/-- fileutils.c:1012-1064 `parse_pathname_range`, `start` and `stop` being the offsets before. -/
def parseRange (string : List UInt8) (start stop : Int) : Res Found :=
  match lastIndex 64 string with
  | none => .ok ⟨none, start, stop⟩
  | some i =>
    (walk (string.drop (i + 1)) {}).bind fun r =>
    match r with
    | none => .ok ⟨none, start, stop⟩
    | some s => .ok ⟨some i, if s.startstr.length ≠ 0 then toInt64 (strtoull s.startstr) else start,
        if s.endstr.length ≠ 0 then toInt64 (strtoull s.endstr) else stop⟩

/-- The path and the offsets with which the file is opened. -/
structure Opening where
  path : List UInt8
  start : Int
  stop : Int
deriving DecidableEq, Repr

/-- fileutils.c:331-353 for a new `MS3FileParam`: `range` is the flag `MSF_PNAMERANGE`; the path is
copied to an array of 512 bytes (libmseed.h:721) that was zero. -/
def opening (range : Bool) (mspath : List UInt8) : Res Opening :=
  (if range then parseRange mspath 0 0 else .ok ⟨none, 0, 0⟩).bind fun f =>
  let path := mspath.take 511
  match f.at? with
  | some i => if i < 512 then .ok ⟨path.take i, f.start, f.stop⟩ else .oob
  | none => .ok ⟨path, f.start, f.stop⟩

/-- fileutils.c:331-369: open a regular file (`mspath` is not `-` nor a URL); `files` gives the
content of the files. -/
def openFile (files : List UInt8 → List UInt8) (range : Bool) (mspath : List UInt8) :
    Res Reader.Reader :=
  (opening range mspath).bind fun o => .ok (Reader.opened (files o.path) o.start o.stop)

end Verif.Model.PathRange
