import Verif.Props.TraceListDefs
import Verif.Props.TracePackDefs
import Verif.Model.TimeStr
import Verif.Model.Gaps
import Verif.Props.Str
import Verif.Spec.Decimal
/-!
# The terms of the properties of the lists printed (C43, C103-C106)
-/
namespace Verif.Props.Report
open Verif.Model.Steim Verif.Model.Trace Verif.Model.TraceList Verif.Props.Trace Verif.Props.TraceList

variable {R : Type}

/-- The sources of a list, in the order of their links, each with its segments, in the order of theirs. -/
def Contents (tl : TraceList R) (rows : List (Source R × List (Seg R))) : Prop :=
  ∃ (l : List Nat) (segs : Nat → List Nat), Walk tl l ∧ (∀ a s, tl.sources a = some s → Linked s (segs a)) ∧
    rows = l.filterMap fun a => (tl.sources a).map fun s => (s, segments s (segs a))

/-- Times within 146 years of 1970, so that differences fit 64 bits. -/
def Modern (t : Int) : Prop := -2 ^ 62 < t ∧ t < 2 ^ 62

/-- Characters as bytes. -/
def ascii (s : List Char) : List UInt8 := s.map fun c => UInt8.ofNat c.toNat

/-- A line of a table: cells with spaces behind them up to their widths, a space between them. -/
def table (cells : List (Nat × List UInt8)) : List UInt8 :=
  [32].intercalate (cells.map fun c => c.2.rightpad c.1 32) ++ [10]

/-- Spaces and ends of lines. -/
def blank (c : UInt8) : Bool := c == 32 || c == 10

/-- A character before a text of which the first word (empty if it begins with a blank) and the others are
known. -/
def before (c : UInt8) (x : List UInt8 × List (List UInt8)) : List UInt8 × List (List UInt8) :=
  if blank c then ([], if x.1 = [] then x.2 else x.1 :: x.2) else (c :: x.1, x.2)

/-- The words of a text: what is between blanks. -/
def words (s : List UInt8) : List (List UInt8) :=
  let x := s.foldr before ([], [])
  if x.1 = [] then x.2 else x.1 :: x.2

/-- The text is the one `ms_nstime2timestr` gives (C08). -/
def TimeShown (fmt : Verif.Model.TimeStr.Format) (sub : Verif.Model.TimeStr.Sub) (t : Int) (text : List UInt8) :
    Prop :=
  ∃ s, Verif.Model.TimeStr.nstime2timestr t fmt sub = ⟨true, some s⟩ ∧ text = ascii s

/-- `a` and `b` differ by at most `e`. -/
def Within (a b e : Rat) : Prop := a - b ≤ e ∧ b - a ≤ e

/-- The text is the value to `p` digits; if the value has no more, it is the value. -/
def NumberShown (p : Nat) (x : Rat) (text : List UInt8) : Prop :=
  ∃ t y, text = ascii t ∧ Verif.Spec.Decimal.Writes t y ∧ (y - x).abs ≤ x.abs * (1 / 2 / 10 ^ (p - 1)) ∧
    (Verif.Spec.Decimal.HasDigits p x → y = x)

/-- A gap in seconds as it is shown: `==` for none, days and hours to one decimal, `-0` for zero and seconds
to four digits. -/
inductive GapShown : Option Rat → List UInt8 → Prop
  | first : GapShown none (ascii " ==".toList)
  | days {g t y} : 86400 ≤ g.abs → Verif.Spec.Decimal.Writes t y →
      Within y (g / 86400) (1 / 20 + (g / 86400).abs / 2 ^ 53) → GapShown (some g) (ascii (t ++ ['d']))
  | hours {g t y} : 3600 ≤ g.abs → g.abs < 86400 → Verif.Spec.Decimal.Writes t y →
      Within y (g / 3600) (1 / 20 + (g / 3600).abs / 2 ^ 53) → GapShown (some g) (ascii (t ++ ['h']))
  | zero : GapShown (some 0) (ascii "-0".toList)
  | seconds {g s} : 0 < g.abs → g.abs < 3600 → NumberShown 4 g s → GapShown (some g) s

/-- Each element with the one before it. -/
def pairs {α : Type} : Option α → List α → List (Option α × α)
  | _, [] => []
  | p, s :: t => (p, s) :: pairs (some s) t

/-- The name of a source in the list, with the version if it is asked for. -/
def name (versions : Bool) (id : Source R) : List UInt8 :=
  if versions then id.sid ++ ascii s!"#{id.pub}".toList else id.sid

/-- The line of a segment `s` with the segment `p` before it. -/
inductive TraceRow (rnd : Rat → Rat) (fmt : Verif.Model.TimeStr.Format) (details gaps : Bool) (sid : List UInt8)
    (p : Option (Seg Rat)) (s : Seg Rat) : List UInt8 → Prop
  | mk {start stop gap rate} : TimeShown fmt .nanoMicro s.start start → TimeShown fmt .nanoMicro s.stop stop →
      GapShown (p.map fun q => Verif.Model.Gaps.gapOf rnd q s) gap → NumberShown 3 s.rate rate →
      TraceRow rnd fmt details gaps sid p s (table ([(27, sid), (28, start), (28, stop)] ++
        (if gaps then [(4, gap)] else []) ++
        (if details then [(3, rate), (0, ascii (toString s.samplecnt).toList)] else [])))

/-- The segments of the sources, each with the one before it in its source. -/
def entries (rows : List (Source Rat × List (Seg Rat))) : List (Source Rat × Option (Seg Rat) × Seg Rat) :=
  rows.flatMap fun x => (pairs none x.2).map fun y => (x.1, y)

/-- The line of a gap. -/
inductive GapRow (fmt : Verif.Model.TimeStr.Format) (l : Verif.Model.Gaps.Line) : List UInt8 → Prop
  | mk {last next gap samples} : TimeShown fmt .nanoMicro l.before last → TimeShown fmt .nanoMicro l.after next →
      GapShown (some l.gap) gap → NumberShown 8 l.nsamples samples →
      GapRow fmt l (table [(27, l.sid), (28, last), (28, next), (4, gap), (0, samples)])

/-- A line of fields with bars between them. -/
def fields (l : List (List UInt8)) : List UInt8 := [124].intercalate l ++ [10]

/-- The source has these codes, with a channel of three characters. -/
structure Named (sid net sta loc chan : List UInt8) : Prop where
  sid : ∃ b s p, chan = [b, s, p] ∧ sid = Verif.Props.Str.sidText net sta loc [b, 95, s, 95, p]
  net : Verif.Props.Str.CodeOK net ∧ net.length ≤ 10
  sta : Verif.Props.Str.CodeOK sta ∧ sta.length ≤ 10
  loc : Verif.Props.Str.CodeOK loc ∧ loc.length ≤ 10
  chan : Verif.Props.Str.CodeOK chan

/-- The SYNC line of a segment. -/
inductive SyncRow (sub : Verif.Model.TimeStr.Sub) (day : List UInt8) (sid : List UInt8) (s : Seg Rat) :
    List UInt8 → Prop
  | mk {net sta loc chan start stop rate} : Named sid net sta loc chan →
      TimeShown .seedOrdinal sub s.start start → TimeShown .seedOrdinal sub s.stop stop →
      NumberShown 10 s.rate rate →
      SyncRow sub day sid s (fields [net, sta, loc, chan, start, stop, [], rate,
        ascii (toString s.samplecnt).toList, [], [], [], [], [], [], day])

/-- Results of at least one half are whole multiples of 2^-54, as those of 53 bits are. -/
def Grained (rnd : Rat → Rat) : Prop := ∀ x, 1 / 2 ≤ rnd x → ∃ k : Int, rnd x = k / 2 ^ 54

/-- Rates that are numbers of samples in a second and of the size of a `double`. -/
def Sensible (r : Rat) : Prop := r = 0 ∨ (10 ^ (-400 : Int) ≤ r ∧ r < 10 ^ (400 : Int))

/-- A segment with modern times, in order, a sensible rate and a number of samples. -/
structure Neat (s : Seg Rat) : Prop where
  start : Modern s.start
  stop : Modern s.stop
  order : s.start ≤ s.stop
  rate : Sensible s.rate
  samples : 0 ≤ s.samplecnt ∧ s.samplecnt < 2 ^ 63

/-- The sources have identifiers of at most 63 bytes, versions of one byte and neat segments. -/
def Tidy (tl : TraceList Rat) : Prop :=
  ∀ rows, Contents tl rows → ∀ x ∈ rows, x.1.sid.length ≤ 63 ∧ x.1.pub ≤ 255 ∧ ∀ s ∈ x.2, Neat s

/-- The record has modern times, a sensible rate and identifier, a number of samples and a time tolerance no
larger than its sample period. -/
structure Ordinary (r : Arrival Rat) : Prop where
  start : Modern r.start
  stop : Modern r.stop
  order : r.start ≤ r.stop
  tol : r.tol ≤ r.period
  rate : Sensible r.rate
  sid : r.sid.length ≤ 63
  pub : r.pub ≤ 255
  samples : 0 ≤ r.samplecnt

/-- The records of a history are ordinary, and their samples can be counted. -/
def Usual (hist : List (Arrival Rat × Bool)) : Prop :=
  (∀ y ∈ hist, Ordinary y.1) ∧ (hist.map fun y => y.1.samplecnt).sum < 2 ^ 63

end Verif.Props.Report
