import Verif.Model.PathRange
import Verif.Model.Report
import Verif.Model.Options
import Verif.Model.Blockettes2
/-!
# Reading from URLs (msio.c with `LIBMSEED_URL`)

libcurl is the environment: it hands the bytes of the object over in pieces, by calls of the write
callback, whenever it is given control.  If the callback asks for a pause it keeps the piece and hands
nothing over until it is told to go on; being told to go on may already call the callback (documentation of
`curl_easy_pause`).  How many pieces it hands over at a time and when it reports the end is up to it.
-/
namespace Verif.Model.Url
open Verif.Model.Steim
open Verif.Model.Options (lit)

/-- msio.c:45-50 `recv_callback_parameters`: the bytes written to the buffer, the room left and the flag. -/
structure Rcp where
  got : List UInt8 := []
  size : Nat
  isPaused : Bool := false
deriving DecidableEq, Repr

/-- msio.c:68-93 `recv_callback`: `false` if it asks for a pause. -/
def recvCallback (b : List UInt8) (r : Rcp) : Bool × Rcp :=
  if b.length > r.size then (false, { r with isPaused := true })
  else (true, { r with got := r.got ++ b, size := r.size - b.length })

/-- The connection: the pieces that have not been handed over, whether libcurl has been asked to pause,
and `io->still_running`. -/
structure Conn where
  pieces : List (List UInt8)
  paused : Bool := false
  running : Bool := true
deriving DecidableEq, Repr

/-- libcurl hands over at most `n` pieces, until the callback asks for a pause. -/
def handOver : Nat → Conn → Rcp → Conn × Rcp
  | 0, c, r => (c, r)
  | n + 1, c, r =>
    match c.pieces with
    | [] => (c, r)
    | b :: t =>
      match recvCallback b r with
      | (true, r) => handOver n { c with pieces := t } r
      | (false, r) => ({ c with paused := true }, r)

/-- What libcurl does when it is given control: hand over at most `pieces` pieces, report the end if
nothing is left (`finish`), or break off the transfer (`broken`). -/
structure Act where
  pieces : Nat := 0
  finish : Bool := false
  broken : Bool := false
deriving DecidableEq, Repr

/-- `curl_multi_perform`; nothing is handed over during a pause. -/
def perform (a : Act) (c : Conn) (r : Rcp) : Conn × Rcp :=
  if a.broken then ({ c with running := false }, r)
  else if c.paused then (c, r)
  else
    let x := handOver a.pieces c r
    ({ x.1 with running := !(a.finish && x.1.pieces.isEmpty) }, x.2)

/-- msio.c:523-575: the loop, `null` if the buffer is NULL; `none` if it still waits after what libcurl
does. -/
def wait (null : Bool) : List Act → Conn → Rcp → Option (Conn × Rcp × List Act)
  | [], _, _ => none
  | a :: as, c, r =>
    match perform a c r with
    | (c, r) =>
      if c.running = true ∧ r.isPaused = false ∧ (r.size > 0 ∨ null = true) then wait null as c r
      else some (c, r, as)

/-- msio.c:478-584 `msio_fread` of a URL: the bytes read (at most `size`; the number returned is their
number), the connection and what libcurl does later; `first` pieces are handed over by
`curl_easy_pause`.  Errors of `curl_easy_setopt` and `curl_multi_fdset` are not modelled. -/
def fread (size : Nat) (first : Nat) (acts : List Act) (c : Conn) : Option (List UInt8 × Conn × List Act) :=
  if c.running = false then some ([], c, acts)
  else
    let x := handOver first { c with paused := false } { size := size }
    (wait (size = 0) acts x.1 { x.2 with isPaused := false }).map fun y => (y.2.1.got, y.1, y.2.2)

/-- msio.c:593-622 `msio_feof` of a URL. -/
def feof (c : Conn) : Bool := !c.running

/-! ## Ranges -/

/-- msio.c:105-110: the digits found and whether there was a dash. -/
structure Range where
  startstr : List UInt8 := []
  endstr : List UInt8 := []
  dash : Bool := false
deriving DecidableEq, Repr

/-- msio.c:121-146: the loop over the characters of a header after `bytes`.  The character behind the
last one is read before the position is compared with the size (`oob`). -/
def rangeLoop : List UInt8 → Range → Res Range
  | [], _ => .oob
  | c :: t, s =>
    if c = 0 then .ok s
    else if c = 32 ∧ s.startstr = [] then rangeLoop t s
    else
      (PathRange.isDigit c).bind fun digit =>
      let next (s : Range) : Res Range :=
        if s.startstr.length ≥ 21 ∨ s.endstr.length ≥ 21 then .ok { s with startstr := [], endstr := [] }
        else rangeLoop t s
      if digit = true ∧ s.dash = false then next { s with startstr := s.startstr ++ [c] }
      else if digit = true ∧ s.dash = true then next { s with endstr := s.endstr ++ [c] }
      else if c = 45 ∧ s.dash = false then next { s with dash := true }
      else .ok s

/-- msio.c:100-156 `header_callback`: the offsets after a line of the header.  (`&&` in line 118 does
not read the line if it is short.) -/
def headerCallback (line : List UInt8) (start stop : Int) : Res (Int × Int) :=
  if line.length > 22 ∧ Blockettes2.like line "Content-Range: bytes" = true then
    (rangeLoop (line.drop 20) {}).bind fun s =>
    .ok (if s.startstr ≠ [] then PathRange.toInt64 (PathRange.strtoull s.startstr) else start,
         if s.endstr ≠ [] then PathRange.toInt64 (PathRange.strtoull s.endstr) else stop)
  else .ok (start, stop)

/-- All the lines of a header. -/
def headers : List (List UInt8) → Int → Int → Res (Int × Int)
  | [], start, stop => .ok (start, stop)
  | l :: ls, start, stop => (headerCallback l start stop).bind fun x => headers ls x.1 x.2

/-- A decimal number. -/
def num (n : Int) : List UInt8 := Report.bytes (TimeStr.printD n)

/-- msio.c:311-334: the range that is asked for, if any. -/
def rangeAsked (start stop : Int) : Option (List UInt8) :=
  if start > 0 ∨ stop > 0 then
    some ((if start > 0 then num start else if stop > 0 then lit "0" else []) ++ [45] ++
      (if stop > 0 then num stop else []))
  else none

/-- What a server answers: the status (0 if there is no connection), the lines of the header, the
pieces of the body. -/
structure Answer where
  status : Nat
  header : List (List UInt8)
  pieces : List (List UInt8)
deriving DecidableEq, Repr

/-- msio.c:206-387 `msio_fopen` of a URL with pointers to offsets: `none` if it returns -1, otherwise the
offsets and the connection, if libcurl does `acts` during `msio_fread (io, NULL, 0)` (the header is
complete by then); without a connection it breaks off.  Outer `none`: still waiting. -/
def urlOpen (server : Option (List UInt8) → Answer) (start stop : Int) (first : Nat) (acts : List Act) :
    Res (Option (Int × Int × Conn)) :=
  let a := server (rangeAsked start stop)
  (headers a.header start stop).bind fun x =>
  match fread 0 first acts { pieces := a.pieces } with
  | none => .err
  | some (_, c, _) =>
    if 400 ≤ a.status ∧ a.status < 600 then .ok none else .ok (some (x.1, x.2, c))

end Verif.Model.Url
