import Verif.Spec.SelectFile
/-!
# Independent specification: command lines of msi

The options of the manual, command lines made of them, and what a list of them says.  Nothing here refers
to the C code or to the model.
-/
namespace Verif.Spec.Options

/-- The bytes of an ASCII text. -/
def ascii (s : String) : List UInt8 := s.toList.map fun c => UInt8.ofNat c.toNat

/-- The options without a value. -/
inductive Flag where
  | skipOther | offsets | latency | summary | firstSamples | allSamples | raw
  | traces | onlyTraces | estimates | gaps | onlyGaps | sync | versions | qualities
deriving DecidableEq, Repr

/-- How they are written. -/
def Flag.name : Flag → List UInt8
  | .skipOther => ascii "-snd"
  | .offsets => ascii "-O"
  | .latency => ascii "-L"
  | .summary => ascii "-s"
  | .firstSamples => ascii "-d"
  | .allSamples => ascii "-D"
  | .raw => ascii "-z"
  | .traces => ascii "-t"
  | .onlyTraces => ascii "-T"
  | .estimates => ascii "-tg"
  | .gaps => ascii "-g"
  | .onlyGaps => ascii "-G"
  | .sync => ascii "-S"
  | .versions => ascii "-P"
  | .qualities => ascii "-Q"

/-- The options with a value. -/
inductive Key where
  | after | before | containing | without | count | timeTolerance | rateTolerance
  | minGap | maxGap | timeFormat | samplesTo | recordsTo
deriving DecidableEq, Repr

/-- How they are written. -/
def Key.name : Key → List UInt8
  | .after => ascii "-ts"
  | .before => ascii "-te"
  | .containing => ascii "-m"
  | .without => ascii "-r"
  | .count => ascii "-n"
  | .timeTolerance => ascii "-tt"
  | .rateTolerance => ascii "-rt"
  | .minGap => ascii "-gmin"
  | .maxGap => ascii "-gmax"
  | .timeFormat => ascii "-tf"
  | .samplesTo => ascii "-b"
  | .recordsTo => ascii "-o"

/-- An item of a command line.  `verbose` and `details` have a letter that may be repeated: `n` times
more, and then other text. -/
inductive Item where
  | flag (f : Flag)
  | verbose (n : Nat) (more : List UInt8)
  | details (n : Nat) (more : List UInt8)
  | value (k : Key) (v : List UInt8)
  | file (name : List UInt8)
  | list (name : List UInt8)
deriving DecidableEq, Repr

/-- The arguments it is written as. -/
def Item.args : Item → List (List UInt8)
  | .flag f => [f.name]
  | .verbose n more => [45 :: 118 :: (List.replicate n 118 ++ more)]
  | .details n more => [45 :: 112 :: (List.replicate n 112 ++ more)]
  | .value k v => [k.name, v]
  | .file name => [name]
  | .list name => [64 :: name]

/-- The arguments of a command line. -/
def line (items : List Item) : List (List UInt8) := items.flatMap Item.args

/-- A text that can be the value of the option: it is no option itself. -/
def ValueText (k : Key) (v : List UInt8) : Prop :=
  v.head? ≠ some 45 ∨ (k = .recordsTo ∧ v = [45]) ∨
    ((k = .minGap ∨ k = .maxGap) ∧ ∃ d, v = 45 :: d ∧ ∀ b ∈ d, SelectFile.DigitByte b)

/-- A name that can be an argument: it is no option and no list. -/
def FileText (name : List UInt8) : Prop := (name.head? ≠ some 45 ∨ name = [45]) ∧ name.head? ≠ some 64

/-- The item is written in a way that can be told from other items. -/
def Item.Written : Item → Prop
  | .flag _ => True
  | .verbose _ more => more.head? ≠ some 118
  | .details _ more => more.head? ≠ some 112
  | .value k v => ValueText k v
  | .file name => FileText name
  | .list _ => True

/-- The value in an item, if it is for the option. -/
def valueOf (k : Key) : Item → Option (List UInt8)
  | .value k' v => if k' = k then some v else none
  | _ => none

/-- The value given to an option, the last if there are more. -/
def last (k : Key) (items : List Item) : Option (List UInt8) := (items.filterMap (valueOf k)).getLast?

/-- The last of the items for which `f` gives a value. -/
def lastOf {α : Type} (f : Item → Option α) (items : List Item) : Option α := (items.filterMap f).getLast?

/-- The lines of a list file that name a file: not the empty ones and not the comments. -/
def names (lines : List (List UInt8)) : List (List UInt8) :=
  lines.filter fun s => !s.isEmpty && s.head? != some 35

/-- A line of a list file. -/
structure ListLine (s : List UInt8) : Prop where
  bytes : ∀ b ∈ s, b ≠ 0 ∧ b ≠ 10
  short : s.length ≤ 1023

/-- The input files in order, `lines name` being the lines of the list file `name`. -/
def inputs (lines : List UInt8 → List (List UInt8)) (items : List Item) : List (List UInt8) :=
  items.flatMap fun
    | .file name => [name]
    | .list name => names (lines name)
    | _ => []

end Verif.Spec.Options
