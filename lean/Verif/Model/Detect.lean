import Verif.Model.Mem
/-!
# Model of record detection

libmseed/parseutils.c:179-287 `ms3_detect` and the header signature macros of libmseed.h.
The buffer is a list of `recbuflen` bytes; pointers are non-null.
-/
namespace Verif.Model.Detect
open Verif.Model.Bytes Verif.Model.Steim Verif.Model.Mem

/-- Byte `i` as a number. -/
def byte (b : List UInt8) (i : Nat) : Nat := (b.getD i 0).toNat

/-- libmseed.h:166-170 `MS3_ISVALIDHEADER` on the first 15 bytes. -/
def validHeader3 (b : List UInt8) : Bool :=
  byte b 0 == 77 && byte b 1 == 83 && byte b 2 == 3 &&
  decide (byte b 12 ≤ 23) && decide (byte b 13 ≤ 59) && decide (byte b 14 ≤ 60)

/-- A digit, a space or a NUL (libmseed.h:189-194). -/
def seqChar (c : Nat) : Bool := (decide (48 ≤ c ∧ c ≤ 57)) || c == 32 || c == 0

/-- libmseed.h:188-199 `MS2_ISVALIDHEADER` on the first 27 bytes; `MS2_ISDATAINDICATOR`
(libmseed.h:148) accepts D, R, Q and M. -/
def validHeader2 (b : List UInt8) : Bool :=
  seqChar (byte b 0) && seqChar (byte b 1) && seqChar (byte b 2) &&
  seqChar (byte b 3) && seqChar (byte b 4) && seqChar (byte b 5) &&
  (byte b 6 == 68 || byte b 6 == 82 || byte b 6 == 81 || byte b 6 == 77) &&
  (byte b 7 == 32 || byte b 7 == 0) &&
  decide (byte b 24 ≤ 23) && decide (byte b 25 ≤ 59) && decide (byte b 26 ≤ 60)

/-- mseedformat.h:655 `MS_ISVALIDYEARDAY`. -/
def validYearDay (y d : Nat) : Bool := decide (1900 ≤ y ∧ y ≤ 2100 ∧ 1 ≤ d ∧ d ≤ 366)

/-- Outcome of the blockette loop. -/
inductive Blkt where
  /-- record length from blockette 1000 -/
  | found (reclen : Int)
  /-- no blockette 1000 -/
  | none
  /-- invalid offset: `ms3_detect` returns -1 -/
  | invalid
deriving DecidableEq, Repr

/-- parseutils.c:227-263, the blockette loop; `fuel` bounds the iterations, running out of it is
the outcome `err` (C28 shows it never happens).  The shift count of line 247 is a byte of the
record: 64 and above are undefined; a length of 2^63 converts to a negative `int64_t`. -/
def blktLoop (hostBE swap : Bool) (mem : List UInt8) : Nat → Nat → Res Blkt
  | 0, _ => .err
  | fuel + 1, off =>
    if off ≠ 0 ∧ off > 47 ∧ off ≤ mem.length then
      (load hostBE swap mem off 2).bind fun type =>
      (load hostBE swap mem (off + 2) 2).bind fun next =>
      if type = 1000 ∧ off + 8 ≤ mem.length then
        (load hostBE false mem (off + 6) 1).bind fun e =>
        if e ≥ 64 then .ub else .ok (.found (sext 64 (2 ^ e)))
      else if next ≠ 0 ∧ (next < 4 ∨ (next : Int) - 4 ≤ off) then .ok .invalid
      else blktLoop hostBE swap mem fuel next
    else .ok .none

/-- parseutils.c:269-284, the search for the next header in steps of 64 bytes: `none` when there is
none.  The 27 bytes of the header macro are read at once.  `fuel` as in `blktLoop`. -/
def scanNext (mem : List UInt8) : Nat → Nat → Res (Option Nat)
  | 0, _ => .err
  | fuel + 1, off =>
    if off + 48 < mem.length then
      (peek mem off 27).bind fun h =>
      if validHeader2 h then .ok (some off) else scanNext mem fuel (off + 64)
    else .ok none

/-- parseutils.c:216-285, version 2. -/
def detect2 (hostBE : Bool) (mem : List UInt8) : Res Int :=
  (load hostBE false mem 20 2).bind fun year =>
  (load hostBE false mem 22 2).bind fun day =>
  let swap := !validYearDay year day
  (load hostBE swap mem 46 2).bind fun off =>
  (blktLoop hostBE swap mem 65536 off).bind fun r =>
  match r with
  | .found n => .ok n
  | .invalid => .ok (-1)
  | .none =>
    (scanNext mem mem.length 64).bind fun r =>
    match r with
    | some n => .ok n
    | none => .ok 0

/-- parseutils.c:179-287 `ms3_detect`: record length and format version.  The length of version 3
is a sum of `uint32_t`, taken from the record in host byte order. -/
def detect (hostBE : Bool) (mem : List UInt8) : Res (Int × Nat) :=
  if mem.length < 40 then .ok (-1, 0)
  else
    (peek mem 0 15).bind fun h3 =>
    if validHeader3 h3 then
      (load hostBE false mem 33 1).bind fun sidlength =>
      (load hostBE false mem 34 2).bind fun extralength =>
      (load hostBE false mem 36 4).bind fun datalength =>
      .ok (((40 + sidlength + extralength + datalength) % 2 ^ 32 : Nat), 3)
    else
      (peek mem 0 27).bind fun h2 =>
      if validHeader2 h2 then (detect2 hostBE mem).bind fun n => .ok (n, 2)
      else .ok (-1, 0)

end Verif.Model.Detect
