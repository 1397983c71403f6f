/-!
# Model of the two glob matchers

`my_globmatch` (src/msi.c:866-979) and `ms_globmatch` (libmseed/selection.c:816-931).
A C string is the list of its bytes before the terminator; a pointer into it is the remaining
suffix, `[]` when it points at the terminator (which reads as 0).  Advancing a pointer beyond the
terminator and reading there is the distinct outcome `oob`.  The loops are bounded by a fuel
argument; `fuel` is the outcome of running out of it (proved impossible from the top level).
-/
namespace Verif.Model.Glob

/-- Outcome of a matcher: returned value, a read beyond the terminator, or fuel exhausted. -/
inductive Res where
  | ret (b : Bool)
  | oob
  | fuel
deriving DecidableEq, Repr

/-- Numeric value of a `char` (signed on x86, unsigned on most ARM ABIs). -/
def charVal (signed : Bool) (c : UInt8) : Int :=
  if signed && 128 ≤ c.toNat then (c.toNat : Int) - 256 else c.toNat

/-- Result of the set loop: `return FALSE` from inside, or loop exit with `match` and the pattern
pointer (`none`: one past the terminator). -/
inductive SetRes where
  | retFalse
  | exit (m : Bool) (p : Option (List UInt8))
deriving DecidableEq, Repr

/-- msi.c:920-951 (selection.c:870-901): the body of the set loop, with `c` already read by
`c = *pattern++` (non-zero) and the pattern pointer behind it; `ch` is `*string`.  Looping back
re-reads the current pattern character as the new `c`. -/
def setBody (signed : Bool) (ch : UInt8) : UInt8 → List UInt8 → SetRes
  | _, [] => .retFalse
  | c, d :: r =>
    if d = 45 then
      match r with
      | [] => .retFalse
      | e :: r' =>
        if e ≠ 93 then
          if ch = c ∨ ch = e ∨
              (charVal signed ch > charVal signed c ∧ charVal signed ch < charVal signed e) then
            .exit true (some (e :: r'))
          else setBody signed ch e r'
        else .exit (decide (charVal signed ch ≥ charVal signed c)) (some (e :: r'))
    else if d ≠ 93 then
      if c = ch ∨ d = ch then .exit true (some (d :: r)) else setBody signed ch d r
    else .exit (decide (c = ch)) (some (d :: r))

/-- msi.c:919-952 (selection.c:869-902): `while (!match && (c = *pattern++)) {...}`, entered with
`match` false. -/
def setLoop (signed : Bool) (ch : UInt8) : List UInt8 → SetRes
  | [] => .exit false none
  | c :: p => setBody signed ch c p

/-- msi.c:892-897 (selection.c:842-847): try the rest of the pattern at each non-empty suffix. -/
def starLoop (f : List UInt8 → Res) : List UInt8 → Res
  | [] => .ret false
  | ch :: t =>
    match f (ch :: t) with
    | .ret true => .ret true
    | .ret false => starLoop f t
    | bad => bad

/-- msi.c:866-979 `my_globmatch` with `escLit := true`; selection.c:816-931 `ms_globmatch` with
`escLit := false`.  The two functions have the same text except that in `ms_globmatch` the `'\\'`
case ends in `break` (selection.c:916-919) instead of falling through to the comparison
(msi.c:966-972).  Arguments: string, pattern. -/
def glob (escLit signed : Bool) : Nat → List UInt8 → List UInt8 → Res
  | _, s, [] => .ret s.isEmpty
  | 0, _, _ :: _ => .fuel
  | n + 1, s, c :: p =>
    if c = 42 then
      match p.dropWhile (· == 42) with
      | [] => .ret true
      | q :: p' =>
        starLoop (fun t => glob escLit signed n t (q :: p'))
          (if q ≠ 63 ∧ q ≠ 91 ∧ q ≠ 92 then s.dropWhile (· != q) else s)
    else
      match s with
      | [] => .ret false
      | ch :: t =>
        if c = 63 then glob escLit signed n t p
        else if c = 91 then
          let negate := p.head? == some 94
          let p1 := if negate then p.tail else p
          match setLoop signed ch p1 with
          | .retFalse => .ret false
          | .exit m p2 =>
            if negate = m then .ret false
            else
              match p2 with
              | none => .oob
              | some p2 =>
                match p2.dropWhile (· != 93) with
                | [] => .ret false
                | _ :: p3 => glob escLit signed n t p3
        else if c = 92 then
          match p with
          | [] => if escLit && decide (c ≠ ch) then .ret false else glob escLit signed n t []
          | c' :: p' =>
            if escLit && decide (c' ≠ ch) then .ret false else glob escLit signed n t p'
        else if c ≠ ch then .ret false
        else glob escLit signed n t p

/-- src/msi.c:866-979.  Every iteration consumes pattern, so its length is enough fuel. -/
def myGlobmatch (signed : Bool) (string pattern : List UInt8) : Res :=
  glob true signed pattern.length string pattern

/-- libmseed/selection.c:816-931. -/
def msGlobmatch (signed : Bool) (string pattern : List UInt8) : Res :=
  glob false signed pattern.length string pattern

end Verif.Model.Glob
