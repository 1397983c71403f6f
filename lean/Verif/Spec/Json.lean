/-!
# JSON values and the places in them

JSON values as in RFC 8259 with integers and other numbers apart, JSON Pointer (RFC 6901) and JSON Merge
Patch (RFC 7386).  Strings are lists of bytes.
-/
namespace Verif.Spec.Json

/-- A JSON value.  Numbers are integers or `double` values, given by their bits. -/
inductive Json where
  | null
  | bool (b : Bool)
  | int (i : Int)
  | real (bits : UInt64)
  | str (s : List UInt8)
  | arr (l : List Json)
  | obj (l : List (List UInt8 × Json))
deriving Repr

/-- A reference token of a pointer: the name of a member or an index. -/
abbrev Token := List UInt8

/-- RFC 6901, 3: `~` is written `~0` and `/` is written `~1`. -/
def escape (t : Token) : List UInt8 :=
  t.flatMap fun c => if c = 126 then [126, 48] else if c = 47 then [126, 49] else [c]

/-- The text of a pointer: every token after a `/`. -/
def pointer (ts : List Token) : List UInt8 := ts.flatMap fun t => 47 :: escape t

/-- The token of an index: the number in decimal without leading zeros. -/
def index (i : Nat) : Token := (Nat.toDigits 10 i).map fun c => UInt8.ofNat c.toNat

/-- The value of the first member with a name. -/
def member (k : Token) (l : List (List UInt8 × Json)) : Option Json :=
  (l.find? fun y => decide (y.1 = k)).map Prod.snd

/-- The element with an index.  Indices of more than 19 digits are beyond any array in memory. -/
def element (k : Token) (l : List Json) : Option Json :=
  if k.length ≤ 19 then ((List.range l.length).find? fun i => decide (index i = k)).bind fun i => l[i]? else none

/-- RFC 6901, 4: one step. -/
def child (k : Token) : Json → Option Json
  | .obj l => member k l
  | .arr l => element k l
  | _ => none

/-- RFC 6901, 4: the value at a place. -/
def resolve : List Token → Json → Option Json
  | [], v => some v
  | k :: ks, v => (child k v).bind (resolve ks)

/-- Can a value be placed there?  Objects on the way take new members, arrays and other values do not. -/
def Settable : List Token → Json → Prop
  | [], _ => True
  | k :: ks, .obj l => ∀ v, member k l = some v → Settable ks v
  | k :: ks, .arr l => ∃ v, element k l = some v ∧ Settable ks v
  | _ :: _, _ => False

/-- Two places of which neither is within the other. -/
def Apart (p q : List Token) : Prop := ¬ p <+: q ∧ ¬ q <+: p

/-- The same kind of container: an object, or an array with as many elements. -/
def SameKind : Json → Json → Prop
  | .obj _, .obj _ => True
  | .arr l, .arr m => l.length = m.length
  | _, _ => False

/-- What placing a value at a place does. -/
structure Placed (p : List Token) (new v v' : Json) : Prop where
  there : resolve p v' = some new
  apart : ∀ q, Apart p q → resolve q v' = resolve q v
  above : ∀ q, q <+: p → q ≠ p → ∀ u, resolve q v = some u → ∃ u', resolve q v' = some u' ∧ SameKind u u'

/-- The member of a value with a name, if it is an object. -/
def under (k : Token) : Json → Option Json
  | .obj l => member k l
  | _ => none

/-- RFC 7386 as a relation between what is there (if anything), a patch and the result: a patch that is not an
object replaces; otherwise members of the patch that are null are removed, others are merged, and the rest is
kept. -/
inductive Merged : Option Json → Json → Json → Prop
  | replaced (o p) : (∀ l, p ≠ .obj l) → Merged o p p
  | members (o pl rl) (r : Token → Json) :
      (∀ k, member k pl = none → member k rl = o.bind (under k)) →
      (∀ k, member k pl = some .null → member k rl = none) →
      (∀ k p, member k pl = some p → p ≠ .null → member k rl = some (r k)) →
      (∀ k p, member k pl = some p → p ≠ .null → Merged (o.bind (under k)) p (r k)) →
      Merged o (.obj pl) (.obj rl)

mutual
/-- No object has two members with the same name. -/
def Distinct : Json → Prop
  | .arr l => DistinctItems l
  | .obj l => (l.map Prod.fst).Nodup ∧ DistinctMembers l
  | _ => True

/-- `Distinct` for all elements. -/
def DistinctItems : List Json → Prop
  | [] => True
  | v :: t => Distinct v ∧ DistinctItems t

/-- `Distinct` for all members. -/
def DistinctMembers : List (List UInt8 × Json) → Prop
  | [] => True
  | (_, v) :: t => Distinct v ∧ DistinctMembers t
end

end Verif.Spec.Json
