import Verif.Model.Options
import Verif.Spec.Options
/-!
# Statements on the command line of msi
-/
namespace Verif.Props.Options
open Verif.Model Verif.Model.Steim Verif.Model.Msi Verif.Model.Options
open Verif.Spec Verif.Spec.Options
open Verif.Spec.SelectFile (text fileText)

/-- The instant that a time string is read as. -/
def instantOf (rnd : Rat → Rat) (v : List UInt8) : Int :=
  match TimeStr.timestr2nstime rnd (text v) with
  | .ok t => t
  | _ => NSTERROR

/-- The letters of repeated options, counted by a variable of 8 bits. -/
def letters (f : Item → Option Nat) (items : List Item) : Int :=
  (((items.filterMap f).sum : Nat) : Int).bmod 256

/-- The letters of `-v`. -/
def verboseLetters : Item → Option Nat
  | .verbose n _ => some (n + 1)
  | _ => none

/-- The letters of `-p`. -/
def detailLetters : Item → Option Nat
  | .details n _ => some (n + 1)
  | _ => none

/-- `-d` or `-D`, samples. -/
def samplesOf : Item → Option Nat
  | .flag .firstSamples => some 1
  | .flag .allSamples => some 2
  | _ => none

/-- `-t` or `-g`, the lists after the records. -/
def afterwards : Item → Option Nat
  | .flag .traces => some 1
  | .flag .gaps => some 2
  | _ => none

/-- `-T`, `-G` or `-S`, the lists instead of the records; also `-tg` if `alone` is set. -/
def instead (alone : Bool) : Item → Option Nat
  | .flag .onlyTraces => some 1
  | .flag .onlyGaps => some 2
  | .flag .sync => some 3
  | .flag .estimates => if alone then some 1 else none
  | _ => none

/-- The list instead of the records, by the last option for it.  `-tg` counts as such an option as long
as neither `-t` nor `-g` are given before it. -/
def insteadOf (items : List Item) : Nat :=
  let first := items.takeWhile fun i => (afterwards i).isNone
  let rest := items.dropWhile fun i => (afterwards i).isNone
  ((first.filterMap (instead true) ++ rest.filterMap (instead false)).getLast?).getD 0

/-- The format of `-tf`. -/
def formatOf (v : Option (List UInt8)) : TimeStr.Format :=
  match v with
  | none => .isoMonthDayZ
  | some v =>
    if TimeStr.value (text v) = 0 then .seedOrdinal
    else if TimeStr.value (text v) = 1 then .isoMonthDay else .unixEpoch

/-- What the command line says: each option by its last value. -/
def meaning (rnd : Rat → Rat) (lines : List UInt8 → List (List UInt8)) (items : List Item) : Options where
  verbose := letters verboseLetters items
  ppackets := letters detailLetters items
  printdata := (lastOf samplesOf items).getD 0
  printraw := decide (.flag .raw ∈ items)
  printoffset := decide (.flag .offsets ∈ items)
  printlatency := decide (.flag .latency ∈ items)
  basicsum := decide (.flag .summary ∈ items)
  tracegapsum := (lastOf afterwards items).getD 0
  tracegaponly := insteadOf items
  tracegaps := decide (.flag .estimates ∈ items)
  timeformat := formatOf (last .timeFormat items)
  splitversion := decide (.flag .versions ∈ items ∨ .flag .qualities ∈ items)
  skipnotdata := decide (.flag .skipOther ∈ items)
  mingap := last .minGap items
  maxgap := last .maxGap items
  timetol := last .timeTolerance items
  sampratetol := last .rateTolerance items
  count := match last .count items with | none => -1 | some v => TimeStr.value (text v)
  binfile := last .samplesTo items
  outfile := last .recordsTo items
  starttime := match last .after items with | none => NSTERROR | some v => instantOf rnd v
  endtime := match last .before items with | none => NSTERROR | some v => instantOf rnd v
  matching := (last .containing items).map fun v => ascii "*" ++ v ++ ascii "*"
  reject := (last .without items).map fun v => ascii "*" ++ v ++ ascii "*"
  files := inputs lines items

/-- The command line is made of options, files and list files: texts are no options themselves, times can
be read, the number of `-n` is below 2^31, the format of `-tf` is 0, 1 or 2, and the list files have the
given lines; there is an input file.  (The values of `-gmin` and `-gmax` are ASCII.) -/
structure Valid (h : Host) (lines : List UInt8 → List (List UInt8)) (items : List Item) : Prop where
  written : ∀ i ∈ items, i.Written
  plain : ∀ k v, .value k v ∈ items → k = .minGap ∨ k = .maxGap → ∀ b ∈ v, b.toNat < 128
  times : ∀ k v, .value k v ∈ items → k = .after ∨ k = .before →
    ∃ t, TimeStr.timestr2nstime h.rnd (text v) = .ok t ∧ t ≠ NSTERROR
  count : ∀ v, last .count items = some v → ∃ n, TimeStr.Numeral (text v) n ∧ n < 2 ^ 31
  format : ∀ v, last .timeFormat items = some v → ∃ n, TimeStr.Numeral (text v) n ∧ n ≤ 2
  lists : ∀ name, .list name ∈ items → (∃ l, h.files name = some (fileText (lines name) l)) ∧
    ∀ s ∈ lines name, ListLine s
  inputs : inputs lines items ≠ []

end Verif.Props.Options
