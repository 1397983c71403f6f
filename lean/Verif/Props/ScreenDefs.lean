import Verif.Props.ReportDefs
import Verif.Props.MsiDefs
import Verif.Model.Samples
/-!
# The terms of the properties of the text printed for records (C119, C120)
-/
namespace Verif.Props.Screen
open Verif.Model.Record3 Verif.Model.Samples Verif.Model.Msi
open Verif.Props.Report Verif.Props.Msi

/-- A text. -/
def txt (s : String) : List UInt8 := ascii s.toList

/-- A number in decimal. -/
def dec (n : Int) : List UInt8 := ascii (toString n).toList

/-- The identifier of a record. -/
def ident (m : Msr) : List UInt8 := m.sid.takeWhile (· ≠ 0)

/-- The number written by hexadecimal digits. -/
def hexValue (s : List UInt8) : Nat :=
  s.foldl (fun v c => v * 16 + (if c.toNat < 58 then c.toNat - 48 else c.toNat - 55)) 0

/-- The text is the number in hexadecimal with capital letters. -/
def HexShown (n : Nat) (s : List UInt8) : Prop :=
  s ≠ [] ∧ (∀ c ∈ s, (48 ≤ c.toNat ∧ c.toNat ≤ 57) ∨ (65 ≤ c.toNat ∧ c.toNat ≤ 70)) ∧ hexValue s = n

/-- The line of a record of sample rate `r`. -/
inductive Summary (r : Rat) (m : Msr) : List UInt8 → Prop
  | mk {rate time} : NumberShown 10 r rate → TimeShown .isoMonthDayDoyZ .nanoMicro m.starttime time →
      Summary r m (ident m ++ txt ", " ++ dec m.pubversion ++ txt ", " ++ dec m.reclen ++ txt ", " ++ dec m.samplecnt ++
        txt " samples, " ++ rate ++ txt " Hz, " ++ time ++ txt "\n")

/-- A title at the right of 23 columns and what is said of it. -/
def entry (title : String) (text : List UInt8) : List UInt8 := (txt title).leftpad 23 32 ++ txt ": " ++ text ++ txt "\n"

/-- What a bit of the flags says. -/
def meaning : Nat → String
  | 0 => "Calibration signals present"
  | 1 => "Time tag is questionable"
  | 2 => "Clock locked"
  | _ => "Undefined bit set"

/-- The flags: the bits from the highest to the lowest, and a line for each that is set, from the lowest to the highest. -/
def flagEntry (flags : Nat) : List UInt8 :=
  entry "flags" (txt "[" ++ ((List.range 8).reverse.map fun i => if flags.testBit i then 49 else 48) ++ txt "] 8 bits") ++
    ((List.range 8).filter fun i => flags.testBit i).flatMap fun i =>
      (txt s!"[Bit {i}]").leftpad 32 32 ++ txt " " ++ txt (meaning i) ++ txt "\n"

/-- The names of the encodings. -/
def encodingNames : List (Int × String) :=
  [(0, "Text"), (1, "16-bit integer"), (2, "24-bit integer"), (3, "32-bit integer"), (4, "32-bit float (IEEE single)"),
   (5, "64-bit float (IEEE double)"), (10, "STEIM-1 integer compression"), (11, "STEIM-2 integer compression"),
   (12, "GEOSCOPE Muxed 24-bit integer"), (13, "GEOSCOPE Muxed 16/3-bit gain/exp"),
   (14, "GEOSCOPE Muxed 16/4-bit gain/exp"), (15, "US National Network compression"), (16, "CDSN 16-bit gain ranged"),
   (17, "Graefenberg 16-bit gain ranged"), (18, "IPG - Strasbourg 16-bit gain"), (19, "STEIM-3 integer compression"),
   (30, "SRO gain ranged"), (31, "HGLP"), (32, "DWWSSN"), (33, "RSTN 16 bit gain ranged")]

/-- The name of an encoding. -/
def encodingName (e : Int) : String := ((encodingNames.find? fun x => x.1 = e % 256).map (·.2)).getD "Unknown"

/-- The first line of a record in detail. -/
def firstLine (m : Msr) : List UInt8 :=
  ident m ++ txt ", version " ++ dec m.pubversion ++ txt ", " ++ dec m.reclen ++ txt " bytes (format: " ++
    dec m.formatversion ++ txt ")\n"

/-- The lines of a record in detail; `extra` is the text for the extra headers. -/
inductive Details (more : Bool) (r : Rat) (m : Msr) (extra : List UInt8) : List UInt8 → Prop
  | mk {rate time crc} : NumberShown 10 r rate → TimeShown .isoMonthDayDoyZ .nanoMicro m.starttime time →
      HexShown m.crc crc →
      Details more r m extra (firstLine m ++ entry "start time" time ++ entry "number of samples" (dec m.samplecnt) ++ entry "sample rate (Hz)" rate ++
        (if more then flagEntry m.flags else []) ++
        entry "CRC" (txt "0x" ++ crc) ++ entry "extra header length" (dec m.extra.length ++ txt " bytes") ++
        entry "data payload length" (dec m.datalength ++ txt " bytes") ++
        entry "payload encoding" (txt (encodingName m.encoding) ++ txt " (val: " ++ dec m.encoding ++ txt ")") ++
        (if more ∧ m.extra ≠ [] then txt "          extra headers:\n" ++ extra else []))

/-- The values are those of the types of the fields (libmseed.h:358-382), the rate is `r`. -/
structure Fields (r : Rat) (m : Msr) : Prop where
  sid : (ident m).length ≤ 63
  pub : m.pubversion < 2 ^ 8
  reclen : -2 ^ 31 ≤ m.reclen ∧ m.reclen < 2 ^ 31
  version : m.formatversion < 2 ^ 8
  flags : m.flags < 2 ^ 8
  start : Verif.Spec.InInt64 m.starttime
  samples : -2 ^ 63 ≤ m.samplecnt ∧ m.samplecnt < 2 ^ 63
  crc : m.crc < 2 ^ 32
  extra : m.extra.length < 2 ^ 16
  data : m.datalength < 2 ^ 31
  encoding : -2 ^ 15 ≤ m.encoding ∧ m.encoding < 2 ^ 15
  rate : r = 0 ∨ (10 ^ (-900 : Int) ≤ r.abs ∧ r.abs < 10 ^ (900 : Int))

/-- The text of a record with `-p` given `details` times. -/
def RecordText (details : Int) (r : Rat) (m : Msr) (extra t : List UInt8) : Prop :=
  if details > 0 then Details (decide (details > 1)) r m extra t else Summary r m t

/-- The text of a sample: at the right of ten columns, and two spaces. -/
inductive CellShown (value : Cell → Rat) : Cell → List UInt8 → Prop
  | int {v} : CellShown value (.int v) ((dec v).leftpad 10 32 ++ txt "  ")
  | double {v t} : NumberShown 10 (value (.double v)) t → CellShown value (.double v) (t.leftpad 10 32 ++ txt "  ")
  | other {x t} : (∀ v, x ≠ .int v) → (∀ v, x ≠ .double v) → NumberShown 8 (value x) t →
      CellShown value x (t.leftpad 10 32 ++ txt "  ")

/-- Texts one after the other, each as `P` says of an element. -/
inductive Row {α : Type} (P : α → List UInt8 → Prop) : List α → List UInt8 → Prop
  | nil : Row P [] []
  | cons {x l t ts} : P x t → Row P l ts → Row P (x :: l) (t ++ ts)

/-- The text of what is printed at once. -/
inductive LineShown (value : Cell → Rat) (details : Int) (rate : Msr → Rat) (extra : Msr → List UInt8) : Line → List UInt8 → Prop
  | record {m t} : RecordText details (rate m) m (extra m) t → LineShown value details rate extra (.record none m) t
  | offset {p m t} : RecordText details (rate m) m (extra m) t →
      LineShown value details rate extra (.record (some p) m) ((dec p).rightpad 10 32 ++ t)
  | row {l t} : Row (CellShown value) l t → LineShown value details rate extra (.row l) (t ++ txt "\n")
  | text {b} : LineShown value details rate extra (.text b) b

end Verif.Props.Screen
