import Verif.Model.Log
import Verif.Spec.Log
/-! Definitions used in the statements about logging. -/
namespace Verif.Props.Log
open Verif.Model.Log
open Verif.Spec.Log (Msg chomp keep reported remaining)
open Verif.Model.Steim (Res)

/-- What `ms_rloginit` accepts as a prefix. -/
def GoodPrefix (s : Option Bytes) : Prop := ∀ x, s = some x → x.length < 200 ∧ 0 ∉ x

/-- The prefix documented for each level. -/
def levelPrefix (p : Params) (level : Int) : Bytes :=
  if level ≥ 2 then p.errprefix.getD [69, 114, 114, 111, 114, 58, 32] else p.logprefix.getD []

/-- The prefix and the text cut to 199 characters. -/
def full (p : Params) (level : Int) (text : Bytes) : Bytes := (levelPrefix p level ++ text).take 199

/-- The parameters are as `ms_rloginit` leaves them. -/
structure Good (p : Params) : Prop where
  log : GoodPrefix p.logprefix
  err : GoodPrefix p.errprefix
  max : 0 ≤ p.registry.maxmessages
  cnt : (p.registry.messages.length : Int) ≤ p.registry.messagecnt

/-- An entry of the registry as a message. -/
def toMsg (e : Entry) : Msg := ⟨e.level, e.function, e.message⟩

/-- The registry as a queue, oldest first. -/
def queue (p : Params) : List Msg := p.registry.messages.reverse.map toMsg

/-- The call of a print function for a text: diagnostics for levels of 1 and more, none for negative
levels; a newline ends the text only when it goes to `stderr` or `stdout`. -/
def call (p : Params) (level : Int) (text terminator : Bytes) : List Call :=
  if level ≥ 1 then [⟨true, p.diagPrint, text ++ if p.diagPrint then [] else terminator⟩]
  else if level = 0 then [⟨false, p.logPrint, text ++ if p.logPrint then [] else terminator⟩]
  else []

/-- The text of a registered message when it is emitted. -/
def withContext (context : Bool) (m : Msg) : Bytes :=
  if context = true ∧ m.function ≠ [] then m.function ++ [40, 41, 32] ++ m.text.take 167 else m.text

/-- Operations on logging parameters. -/
inductive Op where
  | log (function : Option Bytes) (level : Int) (text : Bytes)
  | emit (count : Int) (context : Bool)
  | free
  | limit (max : Nat)

/-- The operations of the model, one after the other, with all that is printed. -/
def run (p : Params) : List Op → Res (Params × List Call)
  | [] => .ok (p, [])
  | op :: ops =>
    (match op with
      | .log f level text => (rlog p f level text).bind fun r => .ok (r.2.1, r.2.2)
      | .emit count context => .ok ((emit p count context).2.1, (emit p count context).2.2)
      | .free => .ok ((free p).2, [])
      | .limit m => rloginit p false none false none m).bind fun r =>
    (run r.1 ops).bind fun r' => .ok (r'.1, r.2 ++ r'.2)

/-- The same operations on a queue of at most `m` messages; `p` gives the prefixes and the print
functions. -/
def expected (p : Params) (m : Nat) (q : List Msg) : List Op → Nat × List Msg × List Call
  | [] => (m, q, [])
  | .log f level text :: ops =>
    if level ≥ 1 ∧ 0 < m then
      expected p m (keep m q ⟨level, (f.getD []).take 29, chomp (full p level text)⟩) ops
    else
      let r := expected p m q ops
      (r.1, r.2.1, call p level (full p level text) [] ++ r.2.2)
  | .emit count context :: ops =>
    let r := expected p m (remaining q count) ops
    (r.1, r.2.1, (reported q count).flatMap (fun x => call p x.level (withContext context x) [10]) ++
      r.2.2)
  | .free :: ops => expected p m [] ops
  | .limit n :: ops => expected p n q ops

/-- A message that the code registers without leaving its buffer: not empty, not longer than 199
characters, without NUL characters. -/
def Fits (p : Params) : Op → Prop
  | .log _ level text => 0 ∉ text ∧
      (1 ≤ level → levelPrefix p level ++ text ≠ [] ∧ (levelPrefix p level ++ text).length ≤ 199)
  | _ => True

/-- The number of messages logged. -/
def logs : List Op → Nat
  | [] => 0
  | .log .. :: ops => logs ops + 1
  | _ :: ops => logs ops

/-- The prefix after setting one: the new one if it is given and short enough. -/
def chosen (new old : Option Bytes) : Option Bytes :=
  match new with
  | some x => if x.length < 200 then some x else old
  | none => old

end Verif.Props.Log
