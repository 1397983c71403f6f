import Verif.Model.Report
import Verif.Model.Msi
import Verif.Model.ExtraHeaders
/-!
# The text printed for records

libmseed/msrutils.c:227-290 `msr3_print` and the text that src/msi.c:221-238, 248-316 and 354-374 print.

Text is what the calls of `ms_log` with level 0 print one after the other; the program sets no prefix for them
(msi.c:95).  Numbers are written as in Model/Printf, so that infinities and NaN are not modelled.  The latency
(`-L`) and raw records (`-z`) are not modelled.
-/
namespace Verif.Model.Screen
open Verif.Model Verif.Model.Steim Verif.Model.Samples Verif.Model.Record3 Verif.Model.Msi Verif.Model.Report
open Verif.Model.Options (lit Options)
open Verif.Model.ReadTrace (hertz)

/-- What the numbers in the text depend on: rounding of `double` operations, the value of a sample rate field,
the value of a sample that is a `float` or a `double`. -/
structure Texts where
  rnd : Rat → Rat
  rate : Nat → Rat
  value : Cell → Rat

/-- `%d` and the like. -/
def num (n : Int) : List UInt8 := bytes (TimeStr.printD n)

/-- `%X` -/
def hex (n : Nat) : List UInt8 := bytes ((Nat.toDigits 16 n).map Char.toUpper)

/-- `%.10g` of `msr3_sampratehz` (msrutils.c:248, 288). -/
def rateText (c : Texts) (m : Msr) : List UInt8 := bytes (Printf.general 10 (hertz c.rnd (c.rate m.samprate)))

/-- msrutils.c:286-289: the line without details. -/
def summary (c : Texts) (m : Msr) (time : List UInt8) : List UInt8 :=
  message (m.sid.takeWhile (· ≠ 0) ++ lit ", " ++ num m.pubversion ++ lit ", " ++ num m.reclen ++ lit ", " ++
    num m.samplecnt ++ lit " samples, " ++ rateText c m ++ lit " Hz, " ++ time ++ [10])

/-- msrutils.c:256-271: what the bits of the flags say, from bit 0 on. -/
def flagTexts : List (List UInt8) :=
  [lit "Calibration signals present", lit "Time tag is questionable", lit "Clock locked", lit "Undefined bit set",
   lit "Undefined bit set", lit "Undefined bit set", lit "Undefined bit set", lit "Undefined bit set"]

/-- msrutils.c:252-255: a bit as a digit. -/
def bitDigit (flags i : Nat) : UInt8 := if flags.testBit i then 49 else 48

/-- msrutils.c:256-271: the lines of the bits that are set, from bit `i` on. -/
def flagLines (flags : Nat) : Nat → List (List UInt8) → List UInt8
  | _, [] => []
  | i, t :: ts =>
    (if flags.testBit i then message (lit "                         [Bit " ++ num i ++ lit "] " ++ t ++ [10]) else []) ++
      flagLines flags (i + 1) ts

/-- msrutils.c:250-272 -/
def flagText (flags : Nat) : List UInt8 :=
  message (lit "                  flags: [" ++ ([7, 6, 5, 4, 3, 2, 1, 0].map (bitDigit flags)) ++ lit "] 8 bits\n") ++
    flagLines flags 0 flagTexts

/-- msrutils.c:241-283: with details; `more` for more than 1.  The number of data bytes is printed as an `int`; it
is taken to be below 2^31. -/
def detailed (c : Texts) (more : Bool) (m : Msr) (time : List UInt8) : List UInt8 :=
  message (m.sid.takeWhile (· ≠ 0) ++ lit ", version " ++ num m.pubversion ++ lit ", " ++ num m.reclen ++ lit " bytes (format: " ++
    num m.formatversion ++ lit ")\n") ++
  message (lit "             start time: " ++ time ++ [10]) ++
  message (lit "      number of samples: " ++ num m.samplecnt ++ [10]) ++
  message (lit "       sample rate (Hz): " ++ rateText c m ++ [10]) ++
  (if more then flagText m.flags else []) ++
  message (lit "                    CRC: 0x" ++ hex m.crc ++ [10]) ++
  message (lit "    extra header length: " ++ num m.extra.length ++ lit " bytes\n") ++
  message (lit "    data payload length: " ++ num m.datalength ++ lit " bytes\n") ++
  message (lit "       payload encoding: " ++ lit (encodingStr (m.encoding % 256).toNat) ++ lit " (val: " ++ num m.encoding ++
    lit ")\n") ++
  (if more ∧ m.extra ≠ [] then lit "          extra headers:\n" ++ ExtraHeaders.print m.extra 16 else [])

/-- msrutils.c:227-290 `msr3_print`.  A time that cannot be written is an array that is not set. -/
def printRecord (c : Texts) (details : Int) (m : Msr) : Res (List UInt8) :=
  match timeText .isoMonthDayDoyZ .nanoMicro m.starttime with
  | none => .ub
  | some time => .ok (if details > 0 then detailed c (details > 1) m time else summary c m time)

/-- `%10d` and the like: spaces before the text up to the width. -/
def right (w : Nat) (s : List UInt8) : List UInt8 := List.replicate (w - s.length) 32 ++ s

/-- msi.c:296-304: a sample with the two spaces behind it. -/
def cellText (c : Texts) : Cell → List UInt8
  | .int v => right 10 (num v) ++ lit "  "
  | .double v => right 10 (bytes (Printf.general 10 (c.value (.double v)))) ++ lit "  "
  | x => right 10 (bytes (Printf.general 8 (c.value x))) ++ lit "  "

/-- msi.c:221-238 a record, 264-284 text, 286-315 a line of samples. -/
def lineText (c : Texts) (details : Int) : Line → Res (List UInt8)
  | .record offset m =>
    (printRecord c details m).bind fun t =>
    .ok ((match offset with
      | some p => left 10 (num p)
      | none => []) ++ t)
  | .row cells => .ok (cells.flatMap (cellText c) ++ [10])
  | .text b => .ok b

/-- The lines one after the other. -/
def linesText (c : Texts) (details : Int) : List Line → Res (List UInt8)
  | [] => .ok []
  | l :: ls => (lineText c details l).bind fun t => (linesText c details ls).bind fun ts => .ok (t ++ ts)

/-- msi.c:355-357 -/
def totalsText (s : State) : List UInt8 :=
  message (lit "Files: " ++ num s.files ++ lit ", Records: " ++ num s.recs ++ lit ", Samples: " ++ num s.samps ++ [10])

/-- msi.c:146-374: everything printed for the state at the end, without `-z` and `-L`; `ok` is false if the program
stops at an error of a file (336-340).  `number` is `strtod`, `day` the local date, `seed` the state of the random
numbers of the list. -/
def screen (c : Texts) (leaps : List SampleTime.Leap) (number : List UInt8 → Rat) (day : List UInt8) (seed : Nat) (o : Options)
    (ok : Bool) (s : State) : Res (List UInt8) :=
  (linesText c o.ppackets s.printed).bind fun t =>
  if ok then
    (finalText c.rnd leaps c.rate number day seed o s.traces).bind fun l =>
    .ok (t ++ (if o.basicsum then totalsText s else []) ++ l.flatten)
  else .ok t

end Verif.Model.Screen
