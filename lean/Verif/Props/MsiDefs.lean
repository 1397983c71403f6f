import Verif.Model.Msi
import Verif.Spec.Msi
import Verif.Props.ReaderDefs
import Verif.Spec.Rounding
import Verif.Spec.PathRange
/-!
# Statements on the program msi
-/
namespace Verif.Props.Msi
open Verif.Model Verif.Model.Steim Verif.Model.Record3 Verif.Model.Reader Verif.Model.Samples
  Verif.Model.Msi
open Verif.Props.Reader
open Verif.Spec.Msi
open Verif.Spec.PathRange (value Range)

/-- A record of a file: its offset, what `msr3_parse` makes of it, its bytes. -/
abbrev Taken := Int × Msr × List UInt8

/-- An input file: its name as given, its records, and the return code after them. -/
structure Source where
  path : List UInt8
  recs : List Taken
  ret : Ret

/-- The library gives these records and the return code for the file, or cannot open it. -/
def Source.Read (w : World) (x : Source) : Prop :=
  (∃ r, openPath w x.path = .ok (some r) ∧ Takes w.opts r x.recs x.ret) ∨
  (openPath w x.path = .ok none ∧ x.recs = [] ∧ x.ret = .genError)

/-- Whether all of the file was read. -/
def Source.complete (x : Source) : Bool := decide (x.ret = .endOfFile)

/-- The time that is given, if any. -/
def given (t : Int) : Option Int := if t = NSTERROR then none else some t

/-- The samples of a record are `x`, none if they cannot be decoded. -/
def Decodes (o : Opts) (e : Taken) (x : Samples) : Prop :=
  ∀ off t, (∃ m, o.unpack off (e.2.2 ++ t) e.2.1 = .ok (.record m) ∧ m.samples = x) ∨
    (o.unpack off (e.2.2 ++ t) e.2.1 = .ok .genError ∧ x = .text [])

/-- What is to be printed of a record. -/
def linesOf (c : Config) (x : Taken → Samples) (e : Taken) : List Line :=
  if c.tracegaponly then []
  else .record (if c.printoffset then some e.1 else none) e.2.1 ::
    (if c.printdata ≠ 0 ∧ (x e).count > 0 then sampleLines c.printdata (x e) else [])

/-- The records `l` have been processed from state `s` to state `s'`: the totals, and all the output
in the order of the records. -/
structure Processed (c : Config) (x : Taken → Samples) (s : State) (l : List Taken) (s' : State) :
    Prop where
  recs : s'.recs = s.recs + l.length
  samps : s'.samps = s.samps + (l.map fun e => e.2.1.samplecnt).sum
  printed : s'.printed = s.printed ++ l.flatMap (linesOf c x)
  traces : s'.traces = s.traces ++
    if c.tracegapsum || c.tracegaponly then l.map fun e => e.2.1 else []
  binary : s'.binary = s.binary ++
    if c.binfile then (l.map x).filter fun y => decide (y.count > 0) else []
  output : s'.output = s.output ++ if c.outfile then l.flatMap fun e => e.2.2 else []

/-- The files with only the records that are kept. -/
def keptOf (keep : Taken → Bool) (l : List Source) : List (List Taken × Bool) :=
  l.map fun x => (x.recs.filter keep, x.complete)

/-- What the program assumes: every file is read, the decision to keep a record is `keep`, its samples
are `x`. -/
structure Inputs (w : World) (c : Config) (keep : Taken → Bool) (x : Taken → Samples)
    (l : List Source) : Prop where
  read : ∀ f ∈ l, f.Read w
  window : ∀ f ∈ l, ∀ e ∈ f.recs, ∃ b, inWindow w c e.2.1 = .ok b ∧
    (b = true → matched w c e.2.1 = .ok (keep e)) ∧ (b = false → keep e = false)
  samples : c.printdata ≠ 0 ∨ c.binfile = true → ∀ f ∈ l, ∀ e ∈ f.recs, Decodes w.opts e (x e)

/-- A byte range in the name of an input file: the name of the file, the text after the `@` and the
numbers in it. -/
structure Cut where
  name : List UInt8
  text : List UInt8
  first : List UInt8
  last : List UInt8

/-- The record begins at the first byte of the range or later, and its first 40 bytes are in the range
(which is open if it ends in 0 or nowhere). -/
def Cut.Has (c : Cut) (e : Taken) : Prop :=
  (value c.first : Int) ≤ e.1 ∧ ((value c.last : Int) = 0 ∨ e.1 + 39 ≤ (value c.last : Int))

instance (c : Cut) (e : Taken) : Decidable (c.Has e) := by unfold Cut.Has; exact inferInstance

/-- A file with records, the name of the file on the command line (with its byte range). -/
structure InFile where
  path : List UInt8
  entries : List Entry
  tail : List UInt8 := []
  range : Option Cut := none

/-- The name of the file without the range. -/
def InFile.name (f : InFile) : List UInt8 :=
  match f.range with
  | none => f.path
  | some c => c.name

/-- The records of the file, or of the range of it, with their offsets. -/
def InFile.recs (f : InFile) : List Taken :=
  match f.range with
  | none => expectedBytes 0 (ofFile none f.entries)
  | some c => (expectedBytes 0 (ofFile none f.entries)).filter fun e => decide (c.Has e)

/-- The range begins where a record begins or in the bytes before it. -/
def Cut.Starts (c : Cut) (l : List Entry) : Prop :=
  ∃ l0 l1 k, l = l0 ++ l1 ∧ (k = 0 ∨ ∃ e l', l1 = e :: l' ∧ k ≤ e.junk.length) ∧
    value c.first = (fileOf l0 []).length + k

/-- The file can be read: the name has at most 511 characters and a range as documented or none; there
are records (in the range), with right CRCs, of one of the kinds that the reader is shown to read
(`Kinds`). -/
structure InFile.Valid (env : Record2.Env) (be skip : Bool) (files : List UInt8 → Option (List UInt8))
    (f : InFile) : Prop where
  path : match f.range with
    | none => (64 : UInt8) ∉ f.path
    | some c => f.path = c.name ++ 64 :: c.text ∧ Range c.text c.first c.last ∧
        value c.first < 2 ^ 63 ∧ value c.last < 2 ^ 63 ∧ c.Starts f.entries
  name : f.name.length ≤ 511
  exist : files f.name = some (fileOf f.entries f.tail)
  some : f.recs ≠ []
  parsed : ∀ e ∈ f.entries, Alone env be true e.bytes e.msr ∧ e.full = e.msr
  kind : Kinds be skip f.entries f.tail

/-- The record is to be processed: it has an instant of the time window, some part of its source
identifier matches the pattern of `-m` and none that of `-r`. -/
def Wanted (c : Config) (signed : Bool) (m r : Option (List Spec.Glob.Tok)) (stop : Taken → Int)
    (e : Taken) : Prop :=
  Meets (given c.starttime) (given c.endtime) e.2.1.starttime (stop e) ∧
  (∀ p, m = some p → Contains (Glob.charVal signed) p (e.2.1.sid.takeWhile (· != 0))) ∧
  ∀ p, r = some p → ¬ Contains (Glob.charVal signed) p (e.2.1.sid.takeWhile (· != 0))

/-- The patterns are well formed and the program's options are made of them. -/
def Patterns (c : Config) (m r : Option (List Spec.Glob.Tok)) : Prop :=
  (∀ p, m = some p → ∀ t ∈ p, t.WF) ∧ (∀ p, r = some p → ∀ t ∈ p, t.WF) ∧
  c.matching = m.map (fun p => wildcards (Spec.Glob.render p)) ∧
  c.reject = r.map (fun p => wildcards (Spec.Glob.render p))

/-- A run of the program on a host of any byte order, with the files `l`: all can be read, the patterns
are well formed, `stop` gives the end times of the records, the time window is not reversed, `keep`
decides which records are wanted and `x` gives the samples if they are used. -/
structure Run (env : Record2.Env) (be : Bool) (base : Nat) (rnd : Rat → Rat) (rate : Nat → Rat)
    (leaps : List SampleTime.Leap) (signed : Bool) (files : List UInt8 → Option (List UInt8))
    (c : Config) (mp rp : Option (List Spec.Glob.Tok)) (l : List InFile) (stop : Taken → Int)
    (keep : Taken → Bool) (x : Taken → Samples) : Prop where
  rounding : Spec.Rounding rnd
  patterns : Patterns c mp rp
  valid : ∀ f ∈ l, f.Valid env be c.skipnotdata files
  ends : ∀ f ∈ l, ∀ e ∈ f.recs, SampleTime.endtime rnd leaps e.2.1.starttime e.2.1.samplecnt
    (rate e.2.1.samprate) = .ok (stop e)
  window : ∀ a b, given c.starttime = some a → given c.endtime = some b → a ≤ b
  wanted : ∀ f ∈ l, ∀ e ∈ f.recs, (keep e = true ↔ Wanted c signed mp rp stop e)
  samples : c.printdata ≠ 0 ∨ c.binfile = true → ∀ f ∈ l, ∀ e ∈ f.recs,
    Decodes (world env be base rnd rate leaps signed files c).opts e (x e)

/-- The records to be processed: those of the files, in order, that are wanted, up to the limit. -/
def processed (c : Config) (keep : Taken → Bool) (l : List InFile) : List Taken :=
  limit c.count ((l.flatMap InFile.recs).filter keep)

/-- The samples in a line. -/
def cellsOf : Line → List Cell
  | .row l => l
  | _ => []

end Verif.Props.Msi
