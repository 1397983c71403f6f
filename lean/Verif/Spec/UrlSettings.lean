/-!
# Specification of the settings of requests

What a program has asked for by a sequence of calls that were accepted.
-/
namespace Verif.Spec.UrlSettings

/-- A call that was accepted. -/
inductive Call where
  | header (line : List UInt8)
  | login (userpassword : List UInt8)
  | forget
deriving DecidableEq

def Call.line? : Call → Option (List UInt8)
  | .header l => some l
  | _ => none

def Call.login? : Call → Option (List UInt8)
  | .login u => some u
  | _ => none

/-- The headers asked for: the lines of the calls behind the last one to forget them. -/
def lines (calls : List Call) : List (List UInt8) :=
  ((calls.reverse.takeWhile (· ≠ .forget)).reverse).filterMap Call.line?

/-- User and password are those given last. -/
def login (calls : List Call) : Option (List UInt8) := (calls.filterMap Call.login?).getLast?

def text (s : String) : List UInt8 := s.toList.map fun c => UInt8.ofNat c.toNat

/-- The line that names the program: `User-Agent: program/version libmseed/3.1.2 libcurl/…`. -/
def agentLine (curl program : List UInt8) (version : Option (List UInt8)) : List UInt8 :=
  text "User-Agent: " ++ (program ++ (match version with | none => [] | some v => text "/" ++ v)) ++
    (text " libmseed/3.1.2" ++ (text " libcurl/" ++ curl))

end Verif.Spec.UrlSettings
