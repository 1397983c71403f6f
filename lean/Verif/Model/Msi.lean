import Verif.Model.PathRange
import Verif.Model.Glob
import Verif.Model.SampleTime
/-!
# Model of the program msi

src/msi.c:75-379 `main`: the loops over the input files and their records, with the files written, the
totals, the records added to the trace list and what is printed of each record and its samples.

The options are given as `Config` (387-639 `processparam` sets them).  The `int` counter and the
`int64_t` totals do not overflow, writing the files does not fail, and verbose messages, the text of
`msr3_print`, the latency and the raw records of `-z` are not modelled.  `fuel` bounds the number of
calls of `ms3_readmsr_r` for one file; running out of it is the outcome `err`.
-/
namespace Verif.Model.Msi
open Verif.Model.Steim Verif.Model.Mem Verif.Model.Samples Verif.Model.Record3 Verif.Model.Reader

/-- msi.c:35-62, the options used here; `count` is `reccntdown`.  `matching` and `reject` have the
wildcards that `processparam` adds (606-630); `printdata` is 1 for `-d`, 2 for `-D`; `tracegapsum` and
`tracegaponly` only tell whether they are set. -/
structure Config where
  starttime : Int := NSTERROR
  endtime : Int := NSTERROR
  matching : Option (List UInt8) := none
  reject : Option (List UInt8) := none
  count : Int := -1
  printoffset : Bool := false
  printdata : Nat := 0
  binfile : Bool := false
  outfile : Bool := false
  tracegapsum : Bool := false
  tracegaponly : Bool := false
  skipnotdata : Bool := false
deriving DecidableEq, Repr

/-- msi.c:606-630: the wildcards around a pattern. -/
def wildcards (pattern : List UInt8) : List UInt8 := 42 :: pattern ++ [42]

/-- One sample as it is printed (297-305): `%10d`, `%10.8g` of a `float`, also of a quotient, or
`%10.10g` of a `double`. -/
inductive Cell where
  | int (v : Int)
  | float (v : Nat)
  | double (v : Nat)
  | quotient (v : Int × Nat)
deriving DecidableEq, Repr

/-- What is printed: a record with its offset if that is asked for, a line of samples, text. -/
inductive Line where
  | record (offset : Option Int) (msr : Msr)
  | row (cells : List Cell)
  | text (b : List UInt8)
deriving DecidableEq, Repr

/-- The state of `main`: what is left to count, the totals, and the output. -/
structure State where
  count : Int
  recs : Int := 0
  samps : Int := 0
  files : Int := 0
  printed : List Line := []
  traces : List Msr := []
  binary : List Samples := []
  output : List UInt8 := []
deriving DecidableEq, Repr

/-- What `main` uses: the library for reading (`opts` of Model/Reader), `msr3_endtime`, whether
`char` is signed, and the files that can be opened. -/
structure World where
  opts : Opts
  endtime : Msr → Out Int
  signed : Bool
  files : List UInt8 → Option (List UInt8)

/-- msi.c:159-182: whether the record is kept by the time window. -/
def inWindow (w : World) (c : Config) (m : Msr) : Res Bool :=
  if c.starttime ≠ NSTERROR ∨ c.endtime ≠ NSTERROR then
    (ofOut (w.endtime m)).bind fun recend =>
    if c.starttime ≠ NSTERROR ∧ (m.starttime < c.starttime ∧
        ¬ (m.starttime ≤ c.starttime ∧ recend ≥ c.starttime)) then .ok false
    else if c.endtime ≠ NSTERROR ∧ (recend > c.endtime ∧
        ¬ (m.starttime ≤ c.endtime ∧ recend ≥ c.endtime)) then .ok false
    else .ok true
  else .ok true

/-- `my_globmatch` of the source identifier as a `Res`. -/
def globbed (w : World) (m : Msr) (pattern : List UInt8) : Res Bool :=
  match Glob.myGlobmatch w.signed (m.sid.takeWhile (· != 0)) pattern with
  | .ret b => .ok b
  | .oob => .oob
  | .fuel => .err

/-- msi.c:184-213: whether the record is kept by the patterns. -/
def matched (w : World) (c : Config) (m : Msr) : Res Bool :=
  (match c.matching with
   | some p => globbed w m p
   | none => .ok true).bind fun b =>
  if b = false then .ok false
  else
    match c.reject with
    | some p => (globbed w m p).bind fun b => .ok (!b)
    | none => .ok true

/-- The samples as they are printed. -/
def cells : Samples → List Cell
  | .text _ => []
  | .ints v => v.map .int
  | .floats v => v.map .float
  | .doubles v => v.map .double
  | .quotients v => v.map .quotient

/-- msi.c:286-315: the lines from sample number `cnt` on, 6 samples each; the first argument is the
number of lines left. -/
def rows (l : List Cell) : Nat → Nat → List Line
  | 0, _ => []
  | k + 1, cnt => .row ((l.drop cnt).take 6) :: rows l k (cnt + ((l.drop cnt).take 6).length)

/-- `ms_log (0, "%.*s", ...)`: the bytes up to a NUL, cut to the message buffer of 200 bytes
(libmseed.h:1106, logging.c:396-404; msi sets no prefix for these messages, msi.c:95). -/
def logged (b newline : List UInt8) : List UInt8 := (b.takeWhile (· != 0) ++ newline).take 199

/-- msi.c:264-284: text is printed in pieces of 199 bytes (`MAX_LOG_MSG_LENGTH - 1`). -/
def textPieces (b : List UInt8) : List UInt8 :=
  if 199 < b.length then logged (b.take 199) [] ++ textPieces (b.drop 199)
  else if 0 < b.length then logged b [10] else [10]
termination_by b.length
decreasing_by rw [List.length_drop]; omega

/-- "Text Data:" and a newline. -/
def textTitle : List UInt8 := [84, 101, 120, 116, 32, 68, 97, 116, 97, 58, 10]

/-- msi.c:248-316: the lines printed of the samples. -/
def sampleLines (printdata : Nat) (x : Samples) : List Line :=
  match x with
  | .text b => [.text (textTitle ++ textPieces b)]
  | x =>
    let l := rows (cells x) (x.count / 6 + 1) 0
    if printdata = 1 then l.take 1 else l

/-- msi.c:243-327: unpack the samples, print them, write them to the binary file.  If unpacking
fails `msr->numsamples` is 0 and nothing is written. -/
def data (o : Opts) (c : Config) (off : Nat) (mem : List UInt8) (m : Msr) (s : State) : Res State :=
  (o.unpack off mem m).bind fun p =>
  match p with
  | .record m =>
    if m.samples.count > 0 then
      let s := if c.printdata ≠ 0 ∧ c.tracegaponly = false then
        { s with printed := s.printed ++ sampleLines c.printdata m.samples } else s
      .ok (if c.binfile then { s with binary := s.binary ++ [m.samples] } else s)
    else .ok s
  | _ => .ok s

/-- msi.c:215-332: a record that is kept; `r` is the reader after the record. -/
def record (o : Opts) (c : Config) (m : Msr) (r : Reader) (s : State) : Res State :=
  let s := { s with count := if s.count > 0 then s.count - 1 else s.count
                    recs := s.recs + 1, samps := s.samps + m.samplecnt }
  let s := if c.tracegaponly then s else
    { s with printed := s.printed ++
        [.record (if c.printoffset then some (r.streampos - m.reclen) else none) m] }
  let s := if c.tracegapsum || c.tracegaponly then { s with traces := s.traces ++ [m] } else s
  if r.readoffset - m.reclen < 0 then .oob
  else
    let off := (r.readoffset - m.reclen).toNat
    let mem := r.buf.drop off
    (if c.printdata ≠ 0 ∨ c.binfile = true then data o c off mem m s else .ok s).bind fun s =>
    if c.outfile then
      (peek mem 0 m.reclen.toNat).bind fun b => .ok { s with output := s.output ++ b }
    else .ok s

/-- msi.c:152-333: the loop over the records of a file; `none` if it ends because enough records are
counted, otherwise the last return code. -/
def readFile (w : World) (c : Config) : Nat → Reader → State → Res (Option Ret × State)
  | 0, _, _ => .err
  | fuel + 1, r, s =>
    if s.count = 0 then .ok (none, s)
    else
      (readmsr w.opts r).bind fun (ret, r) =>
      match ret with
      | .record m =>
        (inWindow w c m).bind fun b =>
        if b = false then readFile w c fuel r s
        else
          (matched w c m).bind fun b =>
          if b = false then readFile w c fuel r s
          else (record w.opts c m r s).bind fun s => readFile w c fuel r s
      | ret => .ok (some ret, s)

/-- fileutils.c:331-369: open a file, `none` if it cannot be opened (`ms3_readmsr_r` then returns
`MS_GENERROR`). -/
def openPath (w : World) (path : List UInt8) : Res (Option Reader) :=
  (PathRange.opening true path).bind fun o =>
  .ok ((w.files o.path).map fun f => opened f o.start o.stop)

/-- msi.c:151-333: one file, which is opened by the first call of `ms3_readmsr_r`. -/
def oneFile (w : World) (c : Config) (fuel : Nat) (path : List UInt8) (s : State) :
    Res (Option Ret × State) :=
  if s.count = 0 then .ok (none, s)
  else
    (openPath w path).bind fun r =>
    match r with
    | none => .ok (some .genError, s)
    | some r => readFile w c fuel r s

/-- msi.c:146-347: the loop over the files; `false` is the exit with an error. -/
def processFiles (w : World) (c : Config) (fuel : Nat) : List (List UInt8) → State → Res (Bool × State)
  | [], s => .ok (true, s)
  | path :: paths, s =>
    (oneFile w c fuel path s).bind fun (ret, s) =>
    if ret ≠ some .endOfFile ∧ s.count ≠ 0 then .ok (false, s)
    else processFiles w c fuel paths { s with files := s.files + 1 }

/-- msi.c:75-379 `main` after the options are processed. -/
def main (w : World) (c : Config) (fuel : Nat) (paths : List (List UInt8)) : Res (Bool × State) :=
  processFiles w c fuel paths { count := c.count }

/-- The world of the program: the flags are `MSF_VALIDATECRC`, `MSF_PNAMERANGE` and, with `-snd`,
`MSF_SKIPNOTDATA` (msi.c:136-140); `rate` is the value of a bit pattern of a `double`. -/
def world (env : Record2.Env) (hostBE : Bool) (base : Nat) (rnd : Rat → Rat) (rate : Nat → Rat)
    (leaps : List SampleTime.Leap) (signed : Bool) (files : List UInt8 → Option (List UInt8))
    (c : Config) : World where
  opts := Reader.opts env hostBE base true false c.skipnotdata none
  endtime m := SampleTime.endtime rnd leaps m.starttime m.samplecnt (rate m.samprate)
  signed := signed
  files := files

end Verif.Model.Msi
