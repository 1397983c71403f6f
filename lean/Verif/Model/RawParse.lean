import Verif.Model.Record2
/-!
# Model of the header checks behind `msi -z`

libmseed/parseutils.c:316-492 `ms_parse_raw3`, 527-1347 `ms_parse_raw2`.

The result is the value returned and the error messages in their order, by what they complain about; the text of the
messages and of the fields printed is not modelled, but every byte of the record that is printed counts as read.  `mem` is
the memory at `record`, access outside it is `oob`.  Unaligned access to fields is taken to work, the character classes are
those of the C locale, `maxreclen` is not negative.
-/
namespace Verif.Model.RawParse
open Verif.Model.Bytes Verif.Model.Steim Verif.Model.Mem Verif.Model.Detect Verif.Model.Record2

/-- What an error message is about. -/
inductive Message where
  /-- the maximum length given is too small (333-338, 545-549) -/
  | maxreclen
  /-- a source identifier of less than 4 characters (353-357) -/
  | identifier
  /-- the source identifier ends after the maximum length (360-364) -/
  | cut
  /-- the record indicator (372-377) or the quality indicator (582-586) -/
  | indicator
  /-- the format version (380-385) -/
  | version
  | year
  | day
  | hour
  | minute
  | second
  /-- the nanoseconds (418-423) or the fractional seconds (658-662) -/
  | fraction
  | sequence
  | reserved
  | station
  | location
  | channel
  | network
  | samples
  /-- data before the blockettes (673-682) -/
  | space
  /-- a blockette of unknown length (831-835) -/
  | length
  /-- a blockette that does not fit (841-847) -/
  | fit
  /-- an unknown blockette type (1285-1289) -/
  | type
  /-- the encoding in a blockette 1000 (1191-1197) -/
  | encoding
  /-- the byte order in a blockette 1000 (1200-1206) -/
  | order
  /-- a link into the blockette it is in (1292-1297) -/
  | link
  /-- a link beyond the maximum length (1307-1312) -/
  | beyond
  /-- the data offset beyond the record length of blockette 1000 (1315-1320) -/
  | dataBeyond
  /-- the offset of the first blockette beyond the record length of blockette 1000 (1321-1326) -/
  | firstBeyond
  /-- the data offset before the end of the blockettes (1329-1335) -/
  | dataWithin
  /-- the number of blockettes (1338-1343) -/
  | count
deriving DecidableEq, Repr

/-- The value returned and the error messages. -/
structure Report where
  retval : Nat := 0
  messages : List Message := []
deriving DecidableEq, Repr

/-- `if (c) { ms_log (2, ...); retval++; }` -/
def say (c : Bool) (m : Message) (r : Report) : Report :=
  if c then ⟨r.retval + 1, r.messages ++ [m]⟩ else r

/-- The bytes read by `"%.*s"` with precision `n`: up to `n`, as far as the first NUL. -/
def text (mem : List UInt8) (off : Nat) : Nat → Res Unit
  | 0 => .ok ()
  | n + 1 =>
    (peek mem off 1).bind fun b => if b = [0] then .ok () else text mem (off + 1) n

/-- parseutils.c:316-492 `ms_parse_raw3`.  The identifier is read by every message and with `details` of 1 and above, the extra
headers by `mseh_print` with more than 1. -/
def raw3 (hostBE : Bool) (mem : List UInt8) (maxreclen : Nat) (details : Int) : Res Report :=
  if maxreclen < 40 then .ok ⟨1, [.maxreclen]⟩
  else
    (load hostBE false mem 33 1).bind fun sidlength =>
    if sidlength < 4 then .ok ⟨1, [.identifier]⟩
    else if 40 + sidlength > maxreclen then .ok ⟨1, [.cut]⟩
    else
      (peek mem 0 3).bind fun x =>
      (load hostBE hostBE mem 8 2).bind fun year =>
      (load hostBE hostBE mem 10 2).bind fun day =>
      (load hostBE false mem 12 1).bind fun hour =>
      (load hostBE false mem 13 1).bind fun min =>
      (load hostBE false mem 14 1).bind fun sec =>
      (load hostBE hostBE mem 4 4).bind fun nsec =>
      let r := say (byte x 0 != 77 || byte x 1 != 83) .indicator {}
      let r := say (byte x 2 != 3) .version r
      let r := say (decide (year < 1900 ∨ year > 2100)) .year r
      let r := say (decide (day < 1 ∨ day > 366)) .day r
      let r := say (decide (hour > 23)) .hour r
      let r := say (decide (min > 59)) .minute r
      let r := say (decide (sec > 60)) .second r
      let r := say (decide (nsec > 999999999)) .fraction r
      (if r.retval ≠ 0 ∨ details ≥ 1 then text mem 40 sidlength else .ok ()).bind fun _ =>
      (if details ≥ 1 then peek mem 0 40 else .ok []).bind fun _ =>
      (load hostBE hostBE mem 34 2).bind fun extralength =>
      (if details > 1 ∧ extralength > 0 ∧ 40 + sidlength + extralength ≤ maxreclen then
         peek mem (40 + sidlength) extralength else .ok []).bind fun _ =>
      .ok r

/-- parseutils.c:572-574, `isdigit` of characters, as far as the first that is none.  A `char` below 0 other than -1 (`EOF`)
is no argument for `isdigit`. -/
def digits (signedChar : Bool) : List UInt8 → Res Bool
  | [] => .ok true
  | c :: cs =>
    if signedChar ∧ 128 ≤ c.toNat ∧ c.toNat ≠ 255 then .ub
    else if 48 ≤ c.toNat ∧ c.toNat ≤ 57 then digits signedChar cs
    else .ok false

/-- `isalnum ((unsigned char) c) || c == ' '` in the C locale. -/
def codeChar (c : UInt8) : Bool :=
  decide ((48 ≤ c.toNat ∧ c.toNat ≤ 57) ∨ (65 ≤ c.toNat ∧ c.toNat ≤ 90) ∨ (97 ≤ c.toNat ∧ c.toNat ≤ 122)) || c == 32

/-- parseutils.c:568-682: the checks of the fixed header. -/
def header2 (hostBE signedChar swap : Bool) (mem : List UInt8) : Res Report :=
  (peek mem 0 20).bind fun x =>
  (digits signedChar (x.take 6)).bind fun seq =>
  (load hostBE swap mem 20 2).bind fun year =>
  (load hostBE swap mem 22 2).bind fun day =>
  (load hostBE false mem 24 1).bind fun hour =>
  (load hostBE false mem 25 1).bind fun min =>
  (load hostBE false mem 26 1).bind fun sec =>
  (load hostBE swap mem 28 2).bind fun fsec =>
  (load hostBE swap mem 30 2).bind fun numsamples =>
  (load hostBE false mem 39 1).bind fun numblockettes =>
  (load hostBE swap mem 44 2).bind fun dataoffset =>
  (load hostBE swap mem 46 2).bind fun first =>
  let r := say (!seq) .sequence {}
  let r := say (!(byte x 6 == 68 || byte x 6 == 82 || byte x 6 == 81 || byte x 6 == 77)) .indicator r
  let r := say (!(byte x 7 == 32 || byte x 7 == 0)) .reserved r
  let r := say (!((x.drop 8).take 5).all codeChar) .station r
  let r := say (!((x.drop 13).take 2).all codeChar) .location r
  let r := say (!((x.drop 15).take 3).all codeChar) .channel r
  let r := say (!((x.drop 18).take 2).all codeChar) .network r
  let r := say (decide (year < 1900 ∨ year > 2100)) .year r
  let r := say (decide (day < 1 ∨ day > 366)) .day r
  let r := say (decide (hour > 23)) .hour r
  let r := say (decide (min > 59)) .minute r
  let r := say (decide (sec > 60)) .second r
  let r := say (decide (fsec > 9999)) .fraction r
  let r := say (decide (numsamples > 20000)) .samples r
  .ok (say (decide (numsamples > 0 ∧ numblockettes > 0 ∧ dataoffset ≤ first)) .space r)

/-- A field of a blockette that is printed: a number (or several) or a text; `all` for details above 1 only. -/
inductive Item where
  | num (off n : Nat)
  | text (off n : Nat)
  | all (off n : Nat)
deriving DecidableEq, Repr

/-- The fields printed of each blockette type, offsets from mseedformat.h; parseutils.c: type 100 849-869, 200 871-908, 201
910-946, 300 948-985, 310 987-1027, 320 1029-1065, 390 1067-1097, 395 1099-1115, 400 1117-1128, 405 1130-1134, 500 1136-1156,
1000 1173-1185, 1001 1209-1221, 2000 1223-1283 without the payload. -/
def items (type : Nat) : List Item :=
  if type = 100 then [.num 4 4, .all 8 1, .all 9 3]
  else if type = 200 then [.num 4 4, .num 8 4, .num 12 4, .all 16 1, .all 17 1, .num 18 10, .text 28 24]
  else if type = 201 then
    [.num 4 4, .num 8 4, .num 12 4, .num 16 1, .all 17 1, .num 18 10, .num 28 6, .num 34 1, .num 35 1, .text 36 24]
  else if type = 300 then
    [.num 4 10, .num 14 1, .num 15 1, .num 16 4, .num 20 4, .num 24 4, .text 28 3, .all 31 1, .num 32 4, .text 36 12,
     .text 48 12]
  else if type = 310 then
    [.num 4 10, .all 14 1, .num 15 1, .num 16 4, .num 20 4, .num 24 4, .text 28 3, .all 31 1, .num 32 4, .text 36 12,
     .text 48 12]
  else if type = 320 then
    [.num 4 10, .all 14 1, .num 15 1, .num 16 4, .num 20 4, .text 24 3, .all 27 1, .num 28 4, .text 32 12, .text 44 12,
     .text 56 8]
  else if type = 390 then [.num 4 10, .all 14 1, .num 15 1, .num 16 4, .num 20 4, .text 24 3, .all 27 1]
  else if type = 395 then [.num 4 10, .all 14 2]
  else if type = 400 then [.num 4 4, .num 8 4, .num 12 2, .all 14 2]
  else if type = 405 then [.num 4 2]
  else if type = 500 then
    [.num 4 4, .num 8 10, .num 18 1, .num 19 1, .num 20 4, .text 24 16, .text 40 32, .text 72 128]
  else if type = 1000 then [.num 4 1, .num 5 1, .num 6 1, .all 7 1]
  else if type = 1001 then [.num 4 1, .num 5 1, .all 6 1, .num 7 1]
  else if type = 2000 then [.num 4 2, .num 6 2, .num 8 4, .num 12 1, .num 13 1, .num 14 1]
  else []

/-- The bytes read to print a field of a blockette at `off`. -/
def item (mem : List UInt8) (off : Nat) (details : Int) : Item → Res Unit
  | .num o n => (peek mem (off + o) n).bind fun _ => .ok ()
  | .text o n => text mem (off + o) n
  | .all o n => if details > 1 then (peek mem (off + o) n).bind fun _ => .ok () else .ok ()

/-- The bytes read to print fields. -/
def itemsRead (mem : List UInt8) (off : Nat) (details : Int) : List Item → Res Unit
  | [] => .ok ()
  | i :: is => (item mem off details i).bind fun _ => itemsRead mem off details is

/-- The types that have a case in the loop. -/
def known (type : Nat) : Bool :=
  [100, 200, 201, 300, 310, 320, 390, 395, 400, 405, 500, 1000, 1001, 2000].contains type

/-- parseutils.c:849-1289: one blockette at `off`: the messages and `b1000reclen`.  The shift count of line 1163 is a byte of
the record: 32 and above are undefined, 31 converts to a negative `int`.  The payload of type 2000 (1278-1281) is printed with
the precision `data offset - 15`; a negative precision is none, so that it is read to the first NUL. -/
def blockette (hostBE swap : Bool) (mem : List UInt8) (details : Int) (off type : Nat) (r : Report) (reclen : Int) :
    Res (Report × Int) :=
  (if details ≥ 1 then itemsRead mem off details (items type) else .ok ()).bind fun _ =>
  if type = 1000 then
    (load hostBE false mem (off + 6) 1).bind fun e =>
    if e ≥ 32 then .ub
    else
      (load hostBE false mem (off + 4) 1).bind fun enc =>
      (load hostBE false mem (off + 5) 1).bind fun order =>
      let r := say (decide (¬ enc ≤ 5 ∧ ¬ (10 ≤ enc ∧ enc ≤ 19) ∧ ¬ (30 ≤ enc ∧ enc ≤ 33))) .encoding r
      .ok (say (decide (order ≠ 0 ∧ order ≠ 1)) .order r, sext 32 (2 ^ e))
  else if type = 2000 then
    (peek mem (off + 12) 1).bind fun _ =>
    (if details > 1 then
      (load hostBE swap mem (off + 6) 2).bind fun data =>
      text mem (off + 15) (if data < 15 then mem.length + 1 else data - 15)
     else .ok ()).bind fun _ =>
    .ok (r, reclen)
  else .ok (say (!known type) .type r, reclen)

/-- The variables changed in the loop: messages, `b1000reclen`, `endofblockettes`, `blkt_count`. -/
structure Walk where
  report : Report
  reclen : Int := -1
  last : Int := -1
  count : Nat := 0
deriving DecidableEq, Repr

/-- parseutils.c:810-1304, the blockette loop: the variables and `blkt_offset` after it.  `fuel` bounds the iterations, running
out of it is the outcome `err`. -/
def walk (hostBE swap : Bool) (mem : List UInt8) (maxreclen : Nat) (details : Int) :
    Nat → Nat → Walk → Res (Walk × Nat)
  | 0, _, _ => .err
  | fuel + 1, off, w =>
    if off ≠ 0 ∧ off < maxreclen then
      (load hostBE swap mem off 2).bind fun type =>
      (load hostBE swap mem (off + 2) 2).bind fun next =>
      (blktLen hostBE swap mem off type).bind fun len =>
      let r := say (decide (len = 0)) .length w.report
      let last : Int := (off : Int) + len - 1
      if last > maxreclen then .ok ({ w with report := say true .fit r, last }, off)
      else
        (blockette hostBE swap mem details off type r w.reclen).bind fun (r, reclen) =>
        if next ≠ 0 ∧ (next : Int) ≤ last then
          walk hostBE swap mem maxreclen details fuel 0
            { report := { r with messages := r.messages ++ [.link] }, reclen, last, count := w.count + 1 }
        else
          walk hostBE swap mem maxreclen details fuel next { report := r, reclen, last, count := w.count + 1 }
    else .ok (w, off)

/-- parseutils.c:1306-1343: the checks after the loop. -/
def finish (maxreclen numsamples numblockettes dataoffset first off : Nat) (w : Walk) : Report :=
  let r := say (decide (off > maxreclen)) .beyond w.report
  let r := say (decide (w.reclen ≠ 0 ∧ (dataoffset : Int) > w.reclen)) .dataBeyond r
  let r := say (decide (w.reclen ≠ 0 ∧ (first : Int) > w.reclen)) .firstBeyond r
  let r := say (decide (numsamples ≠ 0 ∧ (dataoffset : Int) ≤ w.last)) .dataWithin r
  say (decide (numblockettes ≠ w.count)) .count r

/-- parseutils.c:527-1347 `ms_parse_raw2`. -/
def raw2 (hostBE signedChar : Bool) (mem : List UInt8) (maxreclen : Nat) (details swapflag : Int) (fuel : Nat) : Res Report :=
  if maxreclen < 48 then .ok ⟨1, [.maxreclen]⟩
  else
    (recordSid mem).bind fun _ =>
    (load hostBE false mem 20 2).bind fun year =>
    (load hostBE false mem 22 2).bind fun day =>
    let swap := decide (swapflag = -1) && !Detect.validYearDay year day
    (header2 hostBE signedChar swap mem).bind fun r =>
    (if details ≥ 1 then peek mem 0 48 else .ok []).bind fun _ =>
    (load hostBE swap mem 46 2).bind fun first =>
    if first > 46 ∧ first < maxreclen then
      (load hostBE swap mem 30 2).bind fun numsamples =>
      (load hostBE false mem 39 1).bind fun numblockettes =>
      (load hostBE swap mem 44 2).bind fun dataoffset =>
      (walk hostBE swap mem maxreclen details fuel first { report := r }).bind fun (w, off) =>
      .ok (finish maxreclen numsamples numblockettes dataoffset first off w)
    else .ok r

end Verif.Model.RawParse
