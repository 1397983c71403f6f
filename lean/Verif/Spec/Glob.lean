/-!
# Specification of shell-style glob patterns

Abstract syntax, concrete syntax (`render`) and meaning (`Matches`) of glob patterns over bytes,
after the comment msi.c:820-838 (the same comment is at selection.c:770-788).  Nothing here refers
to the model of the matchers.
-/
namespace Verif.Spec.Glob

/-- A member of a bracket expression. -/
inductive SetItem where
  /-- one character -/
  | one (c : UInt8)
  /-- a range `lo-hi`; when `hi` is below `lo` it is just the two characters -/
  | range (lo hi : UInt8)
deriving DecidableEq, Repr

inductive Tok where
  /-- a character standing for itself -/
  | lit (c : UInt8)
  /-- `\c` -/
  | esc (c : UInt8)
  /-- `?` -/
  | any
  /-- `*` -/
  | star
  /-- `[items]` or `[^items]` -/
  | set (neg : Bool) (items : List SetItem)
deriving DecidableEq, Repr

/-- Meaning of a set member; `code` is the numeric value of a character on the platform. -/
def SetItem.Mem (code : UInt8 → Int) (ch : UInt8) : SetItem → Prop
  | .one c => ch = c
  | .range lo hi => ch = lo ∨ ch = hi ∨ (code lo < code ch ∧ code ch < code hi)

/-- The characters accepted by a one-character token (`*` is not one). -/
def Tok.Accepts (code : UInt8 → Int) (ch : UInt8) : Tok → Prop
  | .lit c => ch = c
  | .esc c => ch = c
  | .any => True
  | .star => False
  | .set neg items => (neg = false ∧ ∃ i ∈ items, i.Mem code ch) ∨
                      (neg = true ∧ ∀ i ∈ items, ¬ i.Mem code ch)

/-- Meaning of a pattern. -/
inductive Matches (code : UInt8 → Int) : List Tok → List UInt8 → Prop where
  | nil : Matches code [] []
  | char {t ts ch s} : t.Accepts code ch → Matches code ts s → Matches code (t :: ts) (ch :: s)
  | starEmpty {ts s} : Matches code ts s → Matches code (.star :: ts) s
  | starMore {ts ch s} : Matches code (.star :: ts) s → Matches code (.star :: ts) (ch :: s)

def SetItem.render : SetItem → List UInt8
  | .one c => [c]
  | .range lo hi => [lo, 45, hi]         -- lo-hi

def Tok.render : Tok → List UInt8
  | .lit c => [c]
  | .esc c => [92, c]                     -- \c
  | .any => [63]                          -- ?
  | .star => [42]                         -- *
  | .set neg items => 91 :: ((if neg then [94] else []) ++ items.flatMap SetItem.render ++ [93])

/-- Concrete syntax of a pattern. -/
def render (ts : List Tok) : List UInt8 := ts.flatMap Tok.render

/-- Well-formed member after the first one: `]` would close the set and a bare `-` would be read as
a range. -/
def SetItem.WF : SetItem → Prop
  | .one c => c ≠ 0 ∧ c ≠ 93 ∧ c ≠ 45
  | .range lo hi => lo ≠ 0 ∧ lo ≠ 93 ∧ lo ≠ 45 ∧ hi ≠ 0 ∧ hi ≠ 93

/-- Well-formed first member: `]` and `-` are literal there, a leading `^` is the negation sign. -/
def SetItem.WFFirst (neg : Bool) : SetItem → Prop
  | .one c => c ≠ 0 ∧ (neg = false → c ≠ 94)
  | .range lo hi => lo ≠ 0 ∧ (neg = false → lo ≠ 94) ∧ hi ≠ 0 ∧ hi ≠ 93

/-- Well-formed tokens: no NUL byte, a literal is not one of `* ? [ \`, sets are non-empty. -/
def Tok.WF : Tok → Prop
  | .lit c => c ≠ 0 ∧ c ≠ 42 ∧ c ≠ 63 ∧ c ≠ 91 ∧ c ≠ 92
  | .esc c => c ≠ 0
  | .any => True
  | .star => True
  | .set _ [] => False
  | .set neg (i :: is) => i.WFFirst neg ∧ ∀ j ∈ is, j.WF

end Verif.Spec.Glob
