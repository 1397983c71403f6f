import Verif.Model.Record2
/-!
# Model of reading records from a file

libmseed/fileutils.c:159-189 and 256-569, `ms3_readmsr_selection` after the file is opened, with
the regular file parts of libmseed/msio.c:478-496 `msio_fread` and 593-606 `msio_feof`.

The file does not change while it is read and reading does not fail: `fread` returns the requested
number of bytes or all that are left, in which case it sets the end-of-file indicator.  Pointers are
valid, allocation succeeds, diagnostic output is not modelled.  Reading bytes of the read buffer
behind those that came from the file is `oob`, as behind the buffer.
-/
namespace Verif.Model.Reader
open Verif.Model.Bytes Verif.Model.Steim Verif.Model.Mem Verif.Model.Record3

/-- libmseed.h:137 -/
def MAXRECLEN : Nat := 10485760

/-- libmseed.h:719-732 `MS3FileParam` with the state of the file: the bytes not yet read and the
end-of-file indicator.  `buf` is `readbuffer` up to `readlength`. -/
structure Reader where
  unread : List UInt8
  eof : Bool := false
  buf : List UInt8 := []
  readoffset : Int := 0
  streampos : Int := 0
  endoffset : Int := 0
  recordcount : Nat := 0
deriving DecidableEq, Repr

/-- fileutils.c:359-369 and msio.c:395-404: a file opened with the offsets of a range (0 for
none); the stream starts at the start offset. -/
def opened (file : List UInt8) (startoffset endoffset : Int) : Reader :=
  { unread := file.drop startoffset.toNat
    streampos := if startoffset > 0 then startoffset else 0, endoffset }

/-- What the flags and selections of a call ask for.  `parse off mem unpackdata atEOF` is
`msr3_parse` of the bytes at offset `off` of the read buffer, `unpack off mem msr` is
`msr3_unpack_data` of a record parsed there (errors are `genError`).  `select` is the test
`ms3_matchselect` with the fields of the record, `none` without selections; `unpackdata` and `skip`
are `MSF_UNPACKDATA` and `MSF_SKIPNOTDATA`. -/
structure Opts where
  parse : Nat → List UInt8 → Bool → Bool → Res (Parsed × List UInt8)
  unpack : Nat → List UInt8 → Msr → Res Parsed
  select : Option (Msr → Bool) := none
  unpackdata : Bool := false
  skip : Bool := false

/-- The functions of the library for a host and a read buffer at an address `base`. -/
def opts (env : Record2.Env) (hostBE : Bool) (base : Nat) (validatecrc unpackdata skip : Bool)
    (select : Option (Msr → Bool)) : Opts where
  parse off mem ud eof :=
    Record3.parse (Record2.unpack2 env hostBE (base + off)) hostBE (base + off) mem validatecrc ud eof
  unpack off mem msr := withSamples hostBE (base + off) mem msr true
  select := select
  unpackdata := unpackdata
  skip := skip

/-- The return codes; `record` is `MS_NOERROR` with the record. -/
inductive Ret where
  | record (msr : Msr)
  | endOfFile
  | notSeed
  | outOfRange
  | genError
  | invalidCrc
deriving DecidableEq, Repr

/-- The outcome of one pass of the loop: return, or another pass with a reader; the Boolean is
`parseval > 0`. -/
inductive Step where
  | done (ret : Ret) (r : Reader)
  | again (more : Bool) (r : Reader)
deriving DecidableEq, Repr

/-- fileutils.c:192 `MSFPBUFLEN`, an `int`. -/
def buflen (r : Reader) : Res Int :=
  let n := (r.buf.length : Int) - r.readoffset
  if -2147483648 ≤ n ∧ n ≤ 2147483647 then .ok n else .ub

/-- fileutils.c:387-418: read more if needed; `false` is the error `MS_GENERROR`.  The shift of
`ms3_shift_msfp` (159-189) is by `readoffset`, which leaves `streampos`. -/
def refill (n : Int) (more : Bool) (r : Reader) : Bool × Reader :=
  if r.eof = false ∧ (n < 40 ∨ more) then
    let buf := if n ≤ 0 then [] else r.buf.drop r.readoffset.toNat
    let readoffset := if n ≤ 0 ∨ r.readoffset > 0 then 0 else r.readoffset
    let size := MAXRECLEN - buf.length
    let got := r.unread.take size
    let eof := decide (r.unread.length < size)
    let r := { r with buf, readoffset, unread := r.unread.drop size, eof }
    if got.length = 0 ∧ eof = false then (false, r) else (true, { r with buf := buf ++ got })
  else (true, r)

/-- Advance by `n` bytes (444-445, 466-467, 486-487, 520-521). -/
def advance (n : Int) (r : Reader) : Reader :=
  { r with readoffset := r.readoffset + n, streampos := r.streampos + n }

/-- fileutils.c:474-511: an error of parsing. -/
def failed (o : Opts) (e : Ret) (r : Reader) : Step :=
  if o.skip then .again false (advance 1 r) else .done e r

/-- fileutils.c:433-435: whether a record is asked for. -/
def chosen (o : Opts) (m : Msr) : Bool :=
  match o.select with
  | some f => f m
  | none => true

/-- fileutils.c:449-471: return a record, with its samples if unpacking was deferred. -/
def deliver (o : Opts) (off : Nat) (mem : List UInt8) (m : Msr) (r : Reader) : Res Step :=
  (if o.unpackdata = true ∧ o.select.isSome = true ∧ m.samplecnt > 0 then o.unpack off mem m
   else .ok (.record m)).bind fun p =>
  match p with
  | .record m =>
    .ok (.done (.record m) (advance m.reclen { r with recordcount := r.recordcount + 1 }))
  | _ => .ok (.done .genError r)

/-- fileutils.c:512-542: a record that needs `k` more bytes than the `n` in the buffer. -/
def wanting (o : Opts) (n : Int) (k : Nat) (r : Reader) : Step :=
  if n + k > MAXRECLEN then
    if o.skip then .again true (advance 1 r) else .done .outOfRange r
  else if r.eof then .done .endOfFile r
  else .again true r

/-- fileutils.c:420-543: parse at the reading position, where `n` bytes are left. -/
def attempt (o : Opts) (n : Int) (r : Reader) : Res Step :=
  if r.readoffset < 0 then .oob
  else
    (o.parse r.readoffset.toNat (r.buf.drop r.readoffset.toNat) (o.unpackdata && o.select.isNone)
      r.eof).bind fun (p, mem) =>
    let off := r.readoffset.toNat
    let r := { r with buf := r.buf.take off ++ mem }
    match p with
    | .record m => if chosen o m then deliver o off mem m r else .ok (.again false (advance m.reclen r))
    | .notSeed => .ok (failed o .notSeed r)
    | .outOfRange => .ok (failed o .outOfRange r)
    | .genError => .ok (failed o .genError r)
    | .invalidCrc => .ok (failed o .invalidCrc r)
    | .need k => .ok (wanting o n k r)

/-- fileutils.c:545-559: the end of the stream. -/
def finished (s : Step) : Res Step :=
  match s with
  | .done .. => .ok s
  | .again more r =>
    if r.eof then
      (buflen r).bind fun n =>
      if n < 40 then .ok (.done (if r.recordcount = 0 then .notSeed else .endOfFile) r)
      else .ok (.again more r)
    else .ok (.again more r)

/-- fileutils.c:378-560: one pass of the loop. -/
def step (o : Opts) (more : Bool) (r : Reader) : Res Step :=
  if r.endoffset ≠ 0 ∧ r.endoffset + 1 - r.streampos < 40 then .ok (.done .endOfFile r)
  else
    (buflen r).bind fun n =>
    match refill n more r with
    | (false, r) => .ok (.done .genError r)
    | (true, r) =>
      (buflen r).bind fun n =>
      (if n ≥ 40 then attempt o n r else .ok (.again more r)).bind finished

/-- fileutils.c:378-560: the loop; `fuel` bounds the passes, running out of it is the outcome `err`
(C34 shows it never happens). -/
def loop (o : Opts) : Nat → Bool → Reader → Res (Ret × Reader)
  | 0, _, _ => .err
  | fuel + 1, more, r =>
    (step o more r).bind fun s =>
    match s with
    | .done ret r => .ok (ret, r)
    | .again more r => loop o fuel more r

/-- fileutils.c:256-569 `ms3_readmsr_selection` of an open file. -/
def readmsr (o : Opts) (r : Reader) : Res (Ret × Reader) :=
  loop o (4 * r.unread.length + 2 * r.buf.length + 6) false r

end Verif.Model.Reader
