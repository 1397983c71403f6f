import Verif.Model.Steim
/-!
# Model of the message logging

libmseed/logging.c.  Pointers are not null unless said, `malloc` succeeds.  The linked list of
entries, which no caller may change, is a list, newest first as in C.  A message is given as the text
that its format and arguments produce; formats that fail (`vsnprintf` returning a negative value) and
texts of 2^31 - 200 bytes or more are not modelled.
-/
namespace Verif.Model.Log
open Verif.Model.Steim (Res)

abbrev Bytes := List UInt8

/-- libmseed.h:1106 `MAX_LOG_MSG_LENGTH`. -/
def maxLength : Nat := 200

/-- libmseed.h:1111-1117 `MSLogEntry`; the two strings without their terminating NUL. -/
structure Entry where
  level : Int
  function : Bytes
  message : Bytes
deriving DecidableEq, Repr

/-- libmseed.h:1122-1127 `MSLogRegistry`. -/
structure Registry where
  maxmessages : Int
  messagecnt : Int
  messages : List Entry
deriving DecidableEq, Repr

/-- libmseed.h:1143-1150 `MSLogParam`: prefixes (`none` is NULL), whether functions to print with
were given. -/
structure Params where
  logPrint : Bool
  logprefix : Option Bytes
  diagPrint : Bool
  errprefix : Option Bytes
  registry : Registry
deriving DecidableEq, Repr

/-- A call of a print function: the one for diagnostics or for normal messages, the caller's or
`fprintf` to `stderr` or `stdout`, and the bytes. -/
structure Call where
  diag : Bool
  custom : Bool
  bytes : Bytes
deriving DecidableEq, Repr

/-- An array of characters; `none` is an indeterminate one. -/
abbrev Buffer := List (Option UInt8)

/-- Writing bytes into an array. -/
def put (buf : Buffer) (pos : Nat) (bytes : Bytes) : Buffer :=
  buf.take pos ++ bytes.map some ++ buf.drop (pos + bytes.length)

/-- The string that begins an array: `none` if no NUL ends it. -/
def cstring : Buffer → Option Bytes
  | [] => none
  | none :: _ => none
  | some 0 :: _ => some []
  | some c :: t => (cstring t).map (c :: ·)

/-- `strncpy` of at most `n` characters of a string, padded with NULs. -/
def strncpy (buf : Buffer) (s : Bytes) (n : Nat) : Buffer :=
  put buf 0 (s.take n ++ List.replicate (n - s.length) 0)

/-- "Error: " -/
def errorPrefix : Bytes := [69, 114, 114, 111, 114, 58, 32]

/-- logging.c:357-370, 381-385, 396-400: the array with the prefix of the level. -/
def prefixed (p : Params) (level : Int) (buf : Buffer) : Buffer :=
  if level ≥ 2 then
    match p.errprefix with
    | some s => put (strncpy buf s maxLength) (maxLength - 1) [0]
    | none => strncpy buf errorPrefix maxLength
  else if level = 1 ∨ level = 0 then
    match p.logprefix with
    | some s => put (strncpy buf s maxLength) (maxLength - 1) [0]
    | none => buf
  else buf

/-- `vsnprintf` of a text of at most `size - 1` characters. -/
def vsnprintf (buf : Buffer) (pos size : Nat) (text : Bytes) : Buffer :=
  put buf pos (text.take (size - 1) ++ [0])

/-- logging.c:513-543 `print_message_int`. -/
def printMessage (p : Params) (level : Int) (message : Bytes) (terminator : Bytes) : List Call :=
  if level ≥ 1 then
    [⟨true, p.diagPrint, if p.diagPrint then message else message ++ terminator⟩]
  else if level = 0 then
    [⟨false, p.logPrint, if p.logPrint then message else message ++ terminator⟩]
  else []

/-- The loop of logging.c:484-498: `count` entries have been passed; those beyond the maximum are
freed.  The list would be left pointing at a freed entry if the maximum were not positive, but then
no message is added. -/
def trim (maxmessages : Int) : List Entry → Int → List Entry
  | [], _ => []
  | e :: t, count =>
    if count + 1 = maxmessages then [e]        -- its next pointer is cleared; what follows is freed
    else if count + 1 > maxmessages then trim maxmessages t (count + 1)
    else e :: trim maxmessages t (count + 1)

/-- logging.c:442-502 `add_message_int`.  The counter is an `int`. -/
def addMessage (r : Registry) (function : Option Bytes) (level : Int) (message : Bytes) :
    Res Registry :=
  let entry : Entry :=
    { level, function := ((function.getD []).take 29), message := message.take (maxLength - 1) }
  if r.messagecnt + 1 > 2147483647 then .ub
  else
    let r := { r with messages := entry :: r.messages, messagecnt := r.messagecnt + 1 }
    .ok (if r.messagecnt > r.maxmessages then
      { r with messages := trim r.maxmessages r.messages 0 } else r)

/-- logging.c:341-427 `rlog_int`: the number of characters formatted, the parameters with the
registry changed, and what was printed. -/
def rlog (p : Params) (function : Option Bytes) (level : Int) (text : Bytes) :
    Res (Int × Params × List Call) :=
  let buf := put (List.replicate maxLength none) 0 [0]
  let buf := prefixed p level buf
  match cstring buf with
  | none => .oob
  | some pre =>
    let presize := pre.length
    let buf :=
      if level ≥ 0 then
        put (vsnprintf buf presize (maxLength - presize) text) (maxLength - 1) [0]
      else buf
    let printed : Int := if level ≥ 0 then text.length + presize else 0
    if level ≥ 1 ∧ p.registry.maxmessages > 0 then
      if printed - 1 < 0 ∨ printed - 1 ≥ maxLength then .oob
      else
        match buf[(printed - 1).toNat]? with
        | some (some c) =>
          let newline := decide (c = 10)
          let buf := if newline then put buf (printed - 1).toNat [0] else buf
          let printed := if newline then printed - 1 else printed
          match cstring buf with
          | none => .oob
          | some message =>
            (addMessage p.registry function level message).bind fun r =>
            .ok (printed, { p with registry := r }, [])
        | _ => .ub
    else
      match cstring buf with
      | none => .oob
      | some message => .ok (printed, p, printMessage p level message [])

/-- The first loop of logging.c:585-597: entries are popped off and put in front of the print list. -/
def pop : List Entry → Int → List Entry → List Entry × List Entry
  | [], _, out => ([], out)
  | e :: t, emit, out =>
    if emit = 0 then (e :: t, out)
    else pop t (if emit > 0 then emit - 1 else emit) (e :: out)

/-- The message of logging.c:604-616: `snprintf` into 200 bytes of `"%s() %.*s"`. -/
def emitText (context : Bool) (e : Entry) : Bytes :=
  if context ∧ e.function ≠ [] then
    (e.function ++ [40, 41, 32] ++ e.message.take (maxLength - 30 - 3)).take (maxLength - 1)
  else e.message

/-- logging.c:572-625 `ms_rlog_emit`: the value returned, the parameters, what was printed. -/
def emit (p : Params) (count : Int) (context : Bool) : Int × Params × List Call :=
  let popped := pop p.registry.messages (if count > 0 then count else -1) []
  (0, { p with registry := { p.registry with messages := popped.1 } },
   popped.2.flatMap fun e => printMessage p e.level (emitText context e) [10])

/-- logging.c:636-657 `ms_rlog_free`. -/
def free (p : Params) : Int × Params :=
  (p.registry.messages.length, { p with registry := { p.registry with messages := [] } })

/-- "log message prefix is too large" -/
def logPrefixLarge : Bytes := "log message prefix is too large".toList.map fun c => c.toNat.toUInt8
/-- "error message prefix is too large" -/
def errPrefixLarge : Bytes := "error message prefix is too large".toList.map fun c => c.toNat.toUInt8
/-- The name of the function. -/
def rloginitName : Bytes := "rloginit_int".toList.map fun c => c.toNat.toUInt8

/-- logging.c:188-198, 203-213: a prefix is stored, or refused with an error message. -/
def setPrefix (p : Params) (s : Option Bytes) (store : Params → Bytes → Params) (complaint : Bytes) :
    Res (Params × List Call) :=
  match s with
  | none => .ok (p, [])
  | some s =>
    if s.length ≥ maxLength then
      (rlog p (some rloginitName) 2 complaint).bind fun r => .ok (r.2.1, r.2.2)
    else .ok (store p s, [])

/-- logging.c:178-223 `rloginit_int`; the functions to print with are given or not. -/
def rloginit (p : Params) (logPrint : Bool) (logprefix : Option Bytes) (diagPrint : Bool)
    (errprefix : Option Bytes) (maxmessages : Int) : Res (Params × List Call) :=
  let p := if logPrint then { p with logPrint := true } else p
  (setPrefix p logprefix (fun p s => { p with logprefix := some s }) logPrefixLarge).bind fun r1 =>
  let p := if diagPrint then { r1.1 with diagPrint := true } else r1.1
  (setPrefix p errprefix (fun p s => { p with errprefix := some s }) errPrefixLarge).bind fun r2 =>
  let p := r2.1
  .ok (if maxmessages ≥ 0 then
      { p with registry := { p.registry with maxmessages } } else p, r1.2 ++ r2.2)

end Verif.Model.Log
