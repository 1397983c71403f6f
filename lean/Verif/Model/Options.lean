import Verif.Model.Msi
import Verif.Model.SelectFile
/-!
# The command line of msi (src/msi.c)

387-639 `processparam` with `getoptval`, `lisnumber`, `addfile` and `addlistfile`, and what `main` does with
the options.  The library is built without URL support (`LIBMSEED_URL` is not defined).  Arguments are C
strings, without zero bytes.  Allocations do not fail, messages are not modelled, and the real numbers of
`-tt`, `-rt`, `-gmin` and `-gmax` are kept as the text given to `strtod`.
-/
namespace Verif.Model.Options
open Verif.Model.Steim
open Verif.Model.Msi

/-- The bytes of a string literal. -/
def lit (s : String) : List UInt8 := s.toList.map fun c => UInt8.ofNat c.toNat

/-- msi.c:35-73, the static variables, with the local variables `match_pattern`, `reject_pattern` and
`timeformat_option` of `processparam` (390-393).  Pointers that are `NULL` are `none`. -/
structure Options where
  verbose : Int := 0
  ppackets : Int := 0
  printdata : Nat := 0
  printraw : Bool := false
  printoffset : Bool := false
  printlatency : Bool := false
  basicsum : Bool := false
  tracegapsum : Nat := 0
  tracegaponly : Nat := 0
  tracegaps : Bool := false
  timeformat : TimeStr.Format := .isoMonthDayZ
  splitversion : Bool := false
  skipnotdata : Bool := false
  mingap : Option (List UInt8) := none
  maxgap : Option (List UInt8) := none
  timetol : Option (List UInt8) := none
  sampratetol : Option (List UInt8) := none
  count : Int := -1
  binfile : Option (List UInt8) := none
  outfile : Option (List UInt8) := none
  starttime : Int := NSTERROR
  endtime : Int := NSTERROR
  matching : Option (List UInt8) := none
  reject : Option (List UInt8) := none
  files : List (List UInt8) := []
  matchPattern : Option (List UInt8) := none
  rejectPattern : Option (List UInt8) := none
  timeformatOption : Int := -1
deriving DecidableEq, Repr

/-- `int8_t x; x += n`: the conversion to 8 bits wraps. -/
def addInt8 (x : Int) (n : Nat) : Int := (x + n).bmod 256

/-- `strspn (&arg[1], c)` for a single character `c`. -/
def span (c : UInt8) (arg : List UInt8) : Nat := (arg.tail.takeWhile (· == c)).length

/-- `isspace` and `isdigit` as used inside `strtol`. -/
def spaceByte (b : UInt8) : Bool := b.toNat == 32 || (9 ≤ b.toNat && b.toNat ≤ 13)
/-- See `spaceByte`. -/
def digitByte (b : UInt8) : Bool := 48 ≤ b.toNat && b.toNat ≤ 57

/-- The value of the digits at the beginning. -/
def digits (s : List UInt8) : Nat :=
  (s.takeWhile digitByte).foldl (fun v c => v * 10 + (c.toNat - 48)) 0

/-- `strtol (v, NULL, 10)` with a `long` of 64 bits: space, a sign, digits; limited to the type. -/
def strtol (v : List UInt8) : Int :=
  match v.dropWhile spaceByte with
  | 45 :: s => - (min (digits s) (2 ^ 63) : Nat)
  | 43 :: s => (min (digits s) (2 ^ 63 - 1) : Nat)
  | s => (min (digits s) (2 ^ 63 - 1) : Nat)

/-- `(int)strtol (v, NULL, 10)`: the conversion to 32 bits wraps. -/
def intOf (v : List UInt8) : Int := (strtol v).bmod (2 ^ 32)

/-- msi.c:689-711 `lisnumber` -/
def lisnumber (signed : Bool) (v : List UInt8) : Res Bool :=
  match v with
  | 45 :: s => SelectFile.isInteger signed s
  | s => SelectFile.isInteger signed s

/-- msi.c:676-677: the argument that follows, unless it begins with a minus sign. -/
def notOption (rest : List (List UInt8)) : Option (List UInt8) :=
  match rest with
  | [] => none
  | v :: _ => if v.head? = some 45 then none else some v

/-- msi.c:653-680 `getoptval`: the value of the option `arg`, followed by `rest`; `none` is the exit with
an error. -/
def getoptval (signed : Bool) (arg : List UInt8) (rest : List (List UInt8)) :
    Res (Option (List UInt8)) :=
  if arg = lit "-o" ∧ rest.head? = some (lit "-") then .ok rest.head?
  else if arg = lit "-gmin" ∨ arg = lit "-gmax" then
    match rest with
    | [] => .ok none
    | v :: _ => (lisnumber signed v).bind fun b => .ok (if b then some v else notOption rest)
  else .ok (notOption rest)

/-- msi.c:783-808: one line as read by `fgets`: the name in it, if any. -/
def listEntry (line : List UInt8) : Option (List UInt8) :=
  let s := line.takeWhile fun c => c != 0 && c != 10
  if s = [] then none else if s.head? = some 35 then none else some s

/-- msi.c:783-808: the loop over the lines of the list file.  First argument: bound on the number of
lines, each of which has at least a byte. -/
def listLoop : Nat → List UInt8 → List (List UInt8)
  | 0, _ => []
  | fuel + 1, s =>
    let p := SelectFile.fgets 1023 s
    if p.1 = [] then [] else (listEntry p.1).toList ++ listLoop fuel p.2

/-- msi.c:769-813 `addlistfile`: the names added; `none` if the file cannot be opened. -/
def addlistfile (files : List UInt8 → Option (List UInt8)) (name : List UInt8) :
    Option (List (List UInt8)) :=
  (files name).map fun s => listLoop (s.length + 1) s

/-- What an argument does: exit, go on, or go on after the value that follows. -/
inductive Step where
  | exit (code : Nat)
  | next (o : Options)
  | skip (o : Options)
deriving DecidableEq, Repr

/-- What the options are given for: whether `char` is signed, the rounding of reals in time strings,
and the files that can be opened. -/
structure Host where
  signed : Bool
  rnd : Rat → Rat
  files : List UInt8 → Option (List UInt8)

/-- An option with a value. -/
def valued (h : Host) (arg : List UInt8) (rest : List (List UInt8))
    (f : List UInt8 → Res Step) : Res Step :=
  (getoptval h.signed arg rest).bind fun v =>
  match v with
  | none => .ok (.exit 1)
  | some v => f v

/-- msi.c:424-435: a time; returning -1 makes `main` return 1 (97-99). -/
def timed (h : Host) (v : List UInt8) (f : Int → Options) : Res Step :=
  (SelectFile.fieldTime h.rnd v).bind fun t => .ok (if t = NSTERROR then .exit 1 else .skip (f t))

/-- msi.c:548-577: the argument is no option. -/
def input (h : Host) (o : Options) (arg : List UInt8) : Step :=
  match arg with
  | 64 :: name =>
    match addlistfile h.files name with
    | none => .exit 1
    | some l => .next { o with files := o.files ++ l }
  | _ => .next { o with files := o.files ++ [arg] }

/-- msi.c:396-577: one argument, followed by `rest`. -/
def param (h : Host) (o : Options) (arg : List UInt8) (rest : List (List UInt8)) : Res Step :=
  if arg = lit "-V" then .ok (.exit 0)
  else if arg = lit "-h" then .ok (.exit 0)
  else if arg.take 2 = lit "-v" then
    .ok (.next { o with verbose := addInt8 o.verbose (span 118 arg) })
  else if arg = lit "-ts" then valued h arg rest fun v => timed h v fun t => { o with starttime := t }
  else if arg = lit "-te" then valued h arg rest fun v => timed h v fun t => { o with endtime := t }
  else if arg = lit "-m" then valued h arg rest fun v => .ok (.skip { o with matchPattern := some v })
  else if arg = lit "-r" then valued h arg rest fun v => .ok (.skip { o with rejectPattern := some v })
  else if arg = lit "-n" then valued h arg rest fun v => .ok (.skip { o with count := intOf v })
  else if arg = lit "-snd" then .ok (.next { o with skipnotdata := true })
  else if arg.take 2 = lit "-p" then
    .ok (.next { o with ppackets := addInt8 o.ppackets (span 112 arg) })
  else if arg = lit "-O" then .ok (.next { o with printoffset := true })
  else if arg = lit "-L" then .ok (.next { o with printlatency := true })
  else if arg = lit "-s" then .ok (.next { o with basicsum := true })
  else if arg = lit "-d" then .ok (.next { o with printdata := 1 })
  else if arg = lit "-D" then .ok (.next { o with printdata := 2 })
  else if arg = lit "-z" then .ok (.next { o with printraw := true })
  else if arg = lit "-t" then .ok (.next { o with tracegapsum := 1 })
  else if arg = lit "-T" then .ok (.next { o with tracegaponly := 1 })
  else if arg = lit "-tg" then
    .ok (.next { o with
      tracegaps := true
      tracegaponly := if o.tracegapsum = 0 then 1 else o.tracegaponly })
  else if arg = lit "-tt" then valued h arg rest fun v => .ok (.skip { o with timetol := some v })
  else if arg = lit "-rt" then valued h arg rest fun v => .ok (.skip { o with sampratetol := some v })
  else if arg = lit "-g" then .ok (.next { o with tracegapsum := 2 })
  else if arg = lit "-G" then .ok (.next { o with tracegaponly := 2 })
  else if arg = lit "-S" then .ok (.next { o with tracegaponly := 3 })
  else if arg = lit "-gmin" then valued h arg rest fun v => .ok (.skip { o with mingap := some v })
  else if arg = lit "-gmax" then valued h arg rest fun v => .ok (.skip { o with maxgap := some v })
  else if arg = lit "-Q" ∨ arg = lit "-P" then .ok (.next { o with splitversion := true })
  else if arg = lit "-tf" then
    valued h arg rest fun v => .ok (.skip { o with timeformatOption := intOf v })
  else if arg = lit "-b" then valued h arg rest fun v => .ok (.skip { o with binfile := some v })
  else if arg = lit "-o" then valued h arg rest fun v => .ok (.skip { o with outfile := some v })
  else if arg.head? = some 45 ∧ arg.length > 1 then .ok (.exit 1)
  else .ok (input h o arg)

/-- How the processing of the arguments ends. -/
inductive End where
  | exit (code : Nat)
  | run (o : Options)
deriving DecidableEq, Repr

/-- msi.c:396-577: the loop over the arguments; the first argument tells that the value of an option is
passed over. -/
def params (h : Host) : Bool → List (List UInt8) → Options → Res End
  | _, [], o => .ok (.run o)
  | true, _ :: rest, o => params h false rest o
  | false, arg :: rest, o =>
    (param h o arg rest).bind fun s =>
    match s with
    | .exit code => .ok (.exit code)
    | .next o => params h false rest o
    | .skip o => params h true rest o

/-- msi.c:580-597: the time format; `none` is the exit with an error. -/
def timeFormat (o : Options) : Option TimeStr.Format :=
  if o.timeformatOption ≥ 0 then
    if o.timeformatOption = 0 then some .seedOrdinal
    else if o.timeformatOption = 1 then some .isoMonthDay
    else if o.timeformatOption = 2 then some .unixEpoch
    else none
  else some o.timeformat

/-- msi.c:579-638: after the loop.  The local variables are reset, they are not used after this. -/
def finish (o : Options) : End :=
  match timeFormat o with
  | none => .exit 1
  | some f =>
    if o.files = [] then .exit 1
    else .run { o with
      timeformat := f
      matching := o.matchPattern.map wildcards
      reject := o.rejectPattern.map wildcards
      matchPattern := none
      rejectPattern := none
      timeformatOption := -1 }

/-- msi.c:387-639 `processparam`, `args` being the arguments after the name of the program. -/
def processparam (h : Host) (args : List (List UInt8)) : Res End :=
  (params h false args {}).bind fun e =>
  match e with
  | .exit code => .ok (.exit code)
  | .run o => .ok (finish o)

/-- The options used in `main` (`Config` of Model/Msi). -/
def Options.config (o : Options) : Config where
  starttime := o.starttime
  endtime := o.endtime
  matching := o.matching
  reject := o.reject
  count := o.count
  printoffset := o.printoffset
  printdata := o.printdata
  binfile := o.binfile.isSome
  outfile := o.outfile.isSome
  tracegapsum := o.tracegapsum != 0
  tracegaponly := o.tracegaponly != 0
  skipnotdata := o.skipnotdata

/-- What is printed after the files (msi.c:355-374). -/
inductive Report where
  | totals
  | traces (gaps versions : Bool) (format : TimeStr.Format)
  | gaps (min max : Option (List UInt8)) (format : TimeStr.Format)
  | sync
deriving DecidableEq, Repr

/-- msi.c:355-374 -/
def reports (o : Options) : List Report :=
  (if o.basicsum then [.totals] else []) ++
  (if o.tracegapsum = 1 ∨ o.tracegaponly = 1 then [.traces o.tracegaps o.splitversion o.timeformat]
   else []) ++
  (if o.tracegapsum = 2 ∨ o.tracegaponly = 2 then [.gaps o.mingap o.maxgap o.timeformat] else []) ++
  (if o.tracegaponly = 3 then [.sync] else [])

/-- The program: the exit code, the state of `main` at the end and what is printed then. -/
structure Result where
  code : Nat
  state : Option State := none
  reports : List Report := []
deriving DecidableEq, Repr

/-- msi.c:75-379 `main`, with the arguments after the name of the program.  The output files can be
opened (105-131). -/
def program (env : Record2.Env) (hostBE : Bool) (base : Nat) (rate : Nat → Rat)
    (leaps : List SampleTime.Leap) (h : Host) (fuel : Nat) (args : List (List UInt8)) : Res Result :=
  (processparam h args).bind fun e =>
  match e with
  | .exit code => .ok { code }
  | .run o =>
    (Msi.main (world env hostBE base h.rnd rate leaps h.signed h.files o.config) o.config fuel
      o.files).bind fun (ok, s) =>
    .ok (if ok then { code := 0, state := some s, reports := reports o }
         else { code := 1, state := some s })

end Verif.Model.Options
