/-!
# Independent specification: a registry of messages

A registry is a queue of messages, oldest first, of limited length.  Nothing here refers to the C
code or to the model.
-/
namespace Verif.Spec.Log

abbrev Bytes := List UInt8

/-- A message with its level and the function it came from. -/
structure Msg where
  level : Int
  function : Bytes
  text : Bytes
deriving DecidableEq, Repr

/-- A line sent to a print function: to the one for diagnostics or to the one for normal messages. -/
structure Line where
  diag : Bool
  bytes : Bytes
deriving DecidableEq, Repr

/-- A text without a newline at its end. -/
def chomp (s : Bytes) : Bytes := if s.getLast? = some 10 then s.dropLast else s

/-- Registering a message in a queue of at most `m`: the oldest go. -/
def keep (m : Nat) (q : List Msg) (x : Msg) : List Msg :=
  (q ++ [x]).drop ((q ++ [x]).length - m)

/-- The messages reported by an emission of `count`, 0 or less for all: the newest, oldest first. -/
def reported (q : List Msg) (count : Int) : List Msg :=
  if count > 0 then q.drop (q.length - count.toNat) else q

/-- The messages that remain. -/
def remaining (q : List Msg) (count : Int) : List Msg :=
  if count > 0 then q.take (q.length - count.toNat) else []

end Verif.Spec.Log
