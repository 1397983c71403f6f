import Verif.Model.Reader
import Verif.Model.Url
/-!
# Reading records from a URL

libmseed/fileutils.c:256-569 `ms3_readmsr_selection` after the URL is opened: the reader of `Model/Reader`
with `msio_fread` and `msio_feof` of `Model/Url`.  The simplifications are those of the two.
-/
namespace Verif.Model.UrlReader
open Verif.Model.Steim Verif.Model.Record3 Verif.Model.Reader
open Verif.Model.Url (Conn Act fread feof)

/-- libmseed.h:719-732 `MS3FileParam` with the connection.  `eof` is what `msio_feof` says of the connection;
`unread`, what the connection has not handed over, is not used. -/
structure State where
  r : Reader
  conn : Conn
deriving DecidableEq, Repr

/-- fileutils.c:331-369: after opening, with the offsets that `msio_fopen` has set. -/
def opened (conn : Conn) (startoffset endoffset : Int) : State :=
  { r := { unread := conn.pieces.flatten, eof := feof conn, streampos := if startoffset > 0 then startoffset else 0, endoffset }, conn }

/-- What libcurl does during a read: the pieces handed over by the call that ends a pause, and what it does
each time it is given control. -/
abbrev During := Nat × List Act

/-- fileutils.c:387-418: read more if needed; `false` is the error `MS_GENERROR`, `none` if the read
still waits. -/
def refill (w : During) (n : Int) (more : Bool) (s : State) : Option (Bool × State) :=
  if s.r.eof = false ∧ (n < 40 ∨ more) then
    let buf := if n ≤ 0 then [] else s.r.buf.drop s.r.readoffset.toNat
    let readoffset := if n ≤ 0 ∨ s.r.readoffset > 0 then 0 else s.r.readoffset
    (fread (MAXRECLEN - buf.length) w.1 w.2 s.conn).map fun x =>
      let r := { s.r with buf := buf ++ x.1, readoffset, eof := feof x.2.1, unread := x.2.1.pieces.flatten }
      (!(decide (x.1.length = 0) && !feof x.2.1), { r, conn := x.2.1 })
  else some (true, s)

/-- The step of the reader with the connection. -/
inductive Pass where
  | done (ret : Ret) (s : State)
  | again (more : Bool) (s : State)
deriving DecidableEq, Repr

/-- With the connection `c`. -/
def withConn (c : Conn) : Step → Pass
  | .done ret r => .done ret { r, conn := c }
  | .again more r => .again more { r, conn := c }

/-- fileutils.c:378-560: one pass of the loop; `err` if a read still waits. -/
def step (o : Opts) (w : During) (more : Bool) (s : State) : Res Pass :=
  if s.r.endoffset ≠ 0 ∧ s.r.endoffset + 1 - s.r.streampos < 40 then .ok (.done .endOfFile s)
  else
    (buflen s.r).bind fun n =>
    match refill w n more s with
    | none => .err
    | some (false, s) => .ok (.done .genError s)
    | some (true, s) =>
      (buflen s.r).bind fun n =>
      ((if n ≥ 40 then attempt o n s.r else .ok (.again more s.r)).bind finished).bind fun x =>
      .ok (withConn s.conn x)

/-- fileutils.c:256-569 `ms3_readmsr_selection` of an open URL, with what libcurl does in each pass of the loop;
`err` if it has not returned by then. -/
def readmsr (o : Opts) : List During → Bool → State → Res (Ret × State)
  | [], _, _ => .err
  | w :: ws, more, s =>
    (step o w more s).bind fun x =>
    match x with
    | .done ret s => .ok (ret, s)
    | .again more s => readmsr o ws more s

end Verif.Model.UrlReader
