import Verif.Model.UrlReader
import Verif.Props.ReaderDefs
import Verif.Props.UrlDefs
/-!
# Statements on reading records from a URL
-/
namespace Verif.Props.UrlReader
open Verif.Model Verif.Model.Record3 Verif.Model.Reader Verif.Model.UrlReader Verif.Model.Steim
open Verif.Model.Url (Conn Act)
open Verif.Props.Url (Sound)

/-- What libcurl does in the passes of a call: it does not break off the transfer and hands over at most one piece in a
call that ends a pause. -/
def Gentle (ws : List During) : Prop := ∀ w ∈ ws, Sound w.2 ∧ w.1 ≤ 1

/-- The calls until no record is returned, whatever libcurl does that `ok` allows: the records returned, each with its
offset (stream position less the record length), and the last return code. -/
inductive Calls (ok : List During → Prop) (o : Opts) : State → List (Int × Msr) → Ret → Prop where
  | stop (ws : List During) (s s' : State) (ret : Ret) : ok ws → UrlReader.readmsr o ws false s = .ok (ret, s') →
      (∀ m, ret ≠ .record m) → Calls ok o s [] ret
  | next (ws : List During) (s s' : State) (m : Msr) (l : List (Int × Msr)) (ret : Ret) : ok ws →
      UrlReader.readmsr o ws false s = .ok (.record m, s') → Calls ok o s' l ret →
      Calls ok o s ((s'.r.streampos - m.reclen, m) :: l) ret

/-- The state after some calls that return records. -/
inductive After (ok : List During → Prop) (o : Opts) : State → State → Prop where
  | here (s : State) : After ok o s s
  | next (ws : List During) (s s' s2 : State) (m : Msr) : ok ws → UrlReader.readmsr o ws false s = .ok (.record m, s') →
      After ok o s' s2 → After ok o s s2

/-- libcurl hands over pieces of 1 to 16384 bytes (`CURL_MAX_WRITE_SIZE`). -/
def Pieces (c : Conn) : Prop := ∀ p ∈ c.pieces, p ≠ [] ∧ p.length ≤ 16384

/-- In each of `k` passes libcurl is given control more often than there are pieces, hands over a piece each time and
says when there is none left. -/
def Enough (k : Nat) (c : Conn) (ws : List During) : Prop :=
  k ≤ ws.length ∧ ∀ w ∈ ws, (∀ a ∈ w.2, 0 < a.pieces ∧ a.finish = true) ∧ c.pieces.length < w.2.length

end Verif.Props.UrlReader
