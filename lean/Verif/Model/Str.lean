/-!
# Model of the string helpers

`libmseed/genutils.c`: UTF-8 length, fixed-field copies, channel mapping and source identifiers.
Readable memory behind a `const char *` is a `List UInt8`; a read beyond it is the outcome `none`.
-/
namespace Verif.Model.Str

/-- genutils.c:510-525 `utf8d`. -/
def utf8d : List Nat := [
  0, 0, 0, 0, 0, 0, 0, 0, 0, 0, 0, 0, 0, 0, 0, 0, 0, 0, 0, 0, 0, 0, 0, 0, 0, 0, 0, 0, 0, 0, 0, 0,
  0, 0, 0, 0, 0, 0, 0, 0, 0, 0, 0, 0, 0, 0, 0, 0, 0, 0, 0, 0, 0, 0, 0, 0, 0, 0, 0, 0, 0, 0, 0, 0,
  0, 0, 0, 0, 0, 0, 0, 0, 0, 0, 0, 0, 0, 0, 0, 0, 0, 0, 0, 0, 0, 0, 0, 0, 0, 0, 0, 0, 0, 0, 0, 0,
  0, 0, 0, 0, 0, 0, 0, 0, 0, 0, 0, 0, 0, 0, 0, 0, 0, 0, 0, 0, 0, 0, 0, 0, 0, 0, 0, 0, 0, 0, 0, 0,
  1, 1, 1, 1, 1, 1, 1, 1, 1, 1, 1, 1, 1, 1, 1, 1, 9, 9, 9, 9, 9, 9, 9, 9, 9, 9, 9, 9, 9, 9, 9, 9,
  7, 7, 7, 7, 7, 7, 7, 7, 7, 7, 7, 7, 7, 7, 7, 7, 7, 7, 7, 7, 7, 7, 7, 7, 7, 7, 7, 7, 7, 7, 7, 7,
  8, 8, 2, 2, 2, 2, 2, 2, 2, 2, 2, 2, 2, 2, 2, 2, 2, 2, 2, 2, 2, 2, 2, 2, 2, 2, 2, 2, 2, 2, 2, 2,
  10, 3, 3, 3, 3, 3, 3, 3, 3, 3, 3, 3, 3, 4, 3, 3, 11, 6, 6, 6, 5, 8, 8, 8, 8, 8, 8, 8, 8, 8, 8, 8,
  0, 1, 2, 3, 5, 8, 7, 1, 1, 1, 4, 6, 1, 1, 1, 1, 1, 1, 1, 1, 1, 1, 1, 1, 1, 1, 1, 1, 1, 1, 1, 1,
  1, 0, 1, 1, 1, 1, 1, 0, 1, 0, 1, 1, 1, 1, 1, 1, 1, 2, 1, 1, 1, 1, 1, 2, 1, 2, 1, 1, 1, 1, 1, 1,
  1, 1, 1, 1, 1, 1, 1, 2, 1, 1, 1, 1, 1, 1, 1, 1, 1, 2, 1, 1, 1, 1, 1, 1, 1, 2, 1, 1, 1, 1, 1, 1,
  1, 1, 1, 1, 1, 1, 1, 3, 1, 3, 1, 1, 1, 1, 1, 1, 1, 3, 1, 1, 1, 1, 1, 3, 1, 3, 1, 1, 1, 1, 1, 1,
  1, 3, 1, 1, 1, 1, 1, 1, 1, 1, 1, 1, 1, 1, 1, 1]

/-- genutils.c:555 `type = utf8d[(uint8_t)str[offset]]`. -/
def utf8Type (b : UInt8) : Nat := (utf8d[b.toNat]?).getD 1

/-- genutils.c:555-556: one step of the automaton. -/
def utf8Step (state : Nat) (b : UInt8) : Nat := (utf8d[256 + state * 16 + utf8Type b]?).getD 1

/-- genutils.c:553-561, the loop of `utf8length_int`.  Arguments: memory from `str+offset`,
`maxlength - offset` (0 when not positive), `state`, `offset`, `length`.  The loop condition
`str[offset] && offset < maxlength` reads the byte before it checks the limit. -/
def utf8Loop : List UInt8 → Nat → Nat → Nat → Nat → Option Nat
  | [], _, _, _, _ => none
  | b :: m, room, state, offset, length =>
    if b = 0 then some length
    else match room with
      | 0 => some length
      | room + 1 =>
        let state := utf8Step state b
        utf8Loop m room state (offset + 1) (if state = 0 then offset + 1 else length)

/-- genutils.c:545-563 `utf8length_int`. -/
def utf8Length (mem : List UInt8) (maxlength : Int) : Option Nat :=
  utf8Loop mem maxlength.toNat 0 0 0

/-- genutils.c:598-611, the copy loop of `ms_strncpclean`; first argument: remaining
`length - sidx`, last: bytes stored so far in order. -/
def cleanLoop : Nat → List UInt8 → List UInt8 → Option (List UInt8)
  | 0, _, dest => some dest
  | _ + 1, [], _ => none
  | n + 1, b :: m, dest =>
    if b = 0 then some dest
    else cleanLoop n m (if b ≠ 32 then dest ++ [b] else dest)

/-- genutils.c:584-617 `ms_strncpclean` with both pointers given.  Result: all bytes stored at
`dest` (with the terminator) and the return value. -/
def strncpclean (source : List UInt8) (length : Int) : Option (List UInt8 × Nat) :=
  (utf8Length source length).bind fun len =>
  (cleanLoop len source []).map fun dest => (dest ++ [0], dest.length)

/-- genutils.c:657-668, the backwards loop of `ms_strncpcleantail`.  Arguments: the source bytes
from `idx` down to 0, `pretail`, and the part of `dest` above `idx`. -/
def tailLoop : List UInt8 → Nat → List UInt8 → List UInt8 × Nat
  | [], pretail, dest => (dest, pretail)
  | b :: m, pretail, dest =>
    if pretail = 0 ∧ b = 32 then tailLoop m pretail (0 :: dest)
    else tailLoop m (pretail + 1) (b :: dest)

/-- genutils.c:638-671 `ms_strncpcleantail` with both pointers given. -/
def strncpcleantail (source : List UInt8) (length : Int) : Option (List UInt8 × Nat) :=
  (utf8Length source length).map fun len => tailLoop (source.take len).reverse 0 [0]

/-- genutils.c:710-722, the loop of `ms_strncpopen`; `n` is `length - didx`, `k` is
`utf8max - didx` (0 when not positive). -/
def openLoop : Nat → Nat → List UInt8 → List UInt8 × Nat
  | 0, _, _ => ([], 0)
  | n + 1, k + 1, b :: m => let (d, c) := openLoop n k m; (b :: d, c + 1)
  | n + 1, k, m => let (d, c) := openLoop n k m; (32 :: d, c)

/-- genutils.c:690-725 `ms_strncpopen` with both pointers given. -/
def strncpopen (source : List UInt8) (length : Int) : Option (List UInt8 × Nat) :=
  (utf8Length source length).map fun utf8max => openLoop length.toNat utf8max source

/-- Result of the two channel mappings: outer `none` = read outside the input, `some none` =
return -1, `some (some out)` = return 0 with these bytes stored. -/
abbrev MapRes := Option (Option (List UInt8))

/-- genutils.c:435-456 `ms_seedchan2xchan`; `&&` evaluates left to right and stops early. -/
def seedchan2xchan (seedchan : List UInt8) : MapRes :=
  (seedchan[0]?).bind fun a => if a = 0 then some none else
  (seedchan[1]?).bind fun b => if b = 0 then some none else
  (seedchan[2]?).bind fun c => if c = 0 then some none else
  (seedchan[3]?).bind fun d => if d = 0 then some (some [a, 95, b, 95, c, 0]) else some none

/-- genutils.c:480-504 `ms_xchan2seedchan`. -/
def xchan2seedchan (xchan : List UInt8) : MapRes :=
  (xchan[0]?).bind fun a => if a = 0 then some none else
  (xchan[1]?).bind fun u => if u ≠ 95 then some none else
  (xchan[2]?).bind fun b => if b = 0 then some none else
  (xchan[3]?).bind fun v => if v ≠ 95 then some none else
  (xchan[4]?).bind fun c => if c = 0 then some none else
  (xchan[5]?).bind fun d => if d = 0 then some (some [a, b, c, 0]) else some none

/-- The C string starting at a memory: bytes before the first NUL. -/
def cstr (mem : List UInt8) : List UInt8 := mem.takeWhile (· ≠ 0)

/-- genutils.c:341-345 and the like: `if ((sptr - sid) < sidlen) *sptr++ = c;`. -/
def sidPut (sidlen : Nat) (buf : List UInt8) (c : UInt8) : List UInt8 :=
  if buf.length < sidlen then buf ++ [c] else buf

/-- genutils.c:339-345 and the like: copy one code; `needed` is tracked by the caller as the number
of characters. -/
def sidPutAll (sidlen : Nat) (buf : List UInt8) (code : List UInt8) : List UInt8 :=
  code.foldl (sidPut sidlen) buf

/-- genutils.c:383-386: the channel in extended form if it is a 3-character code. -/
def toXchan (chan : List UInt8) : List UInt8 :=
  match seedchan2xchan (chan ++ [0]) with
  | some (some x) => cstr x
  | _ => chan

/-- genutils.c:334-404 (`ms_nslc2sid`): the C string left in `sid` by the copy loops, before the
terminator; `sidlen ≥ 16` was checked. -/
def nslcStored (sidlen : Nat) (net sta loc chan : List UInt8) : List UInt8 :=
  let buf := [70, 68, 83, 78, 58]
  let buf := sidPutAll sidlen buf net
  let buf := sidPut sidlen buf 95
  let buf := sidPutAll sidlen buf sta
  let buf := sidPut sidlen buf 95
  let buf := sidPutAll sidlen buf loc
  let buf := sidPut sidlen buf 95
  let buf := sidPutAll sidlen buf chan
  if buf.length < sidlen then buf else buf.dropLast

/-- genutils.c:314-416 `ms_nslc2sid`, all pointers but possibly `loc` given, codes as C strings.
`none` is the return -1; otherwise the C string stored and the returned length.  The `-1` for a
buffer that is too small comes after the (truncated, terminated) copy `nslcStored`. -/
def nslc2sid (sidlen : Nat) (net sta : List UInt8) (loc : Option (List UInt8))
    (chan : List UInt8) : Option (List UInt8 × Nat) :=
  if sidlen < 16 then none
  else
    let loc := loc.getD []
    let chan := toXchan chan
    let buf := nslcStored sidlen net sta loc chan
    let needed := 5 + net.length + 1 + sta.length + 1 + loc.length + 1 + chan.length + 1
    if needed > sidlen then none else some (buf, buf.length)

/-- `strchr (top, '_')`: the text before the first underscore and the text after it. -/
def splitUnderscore : List UInt8 → Option (List UInt8 × List UInt8)
  | [] => none
  | c :: s => if c = 95 then some ([], s)
              else (splitUnderscore s).map fun (a, b) => (c :: a, b)

/-- `strrchr (sid, ':') + 1`: the text after the last colon (all of it when there is none; the
caller has checked the prefix `FDSN:`). -/
def afterLastColon (s : List UInt8) : List UInt8 :=
  (s.reverse.takeWhile (· ≠ 58)).reverse

/-- genutils.c:258-266: the channel in SEED form if possible, else copied. -/
def toSeedchan (top : List UInt8) : List UInt8 :=
  match xchan2seedchan (top ++ [0]) with
  | some (some x) => cstr x
  | _ => top

/-- Outputs of `ms_sid2nslc`; `chan` is `none` when the destination is left untouched. -/
structure Nslc where
  net : List UInt8
  sta : List UInt8
  loc : List UInt8
  chan : Option (List UInt8)
deriving DecidableEq, Repr

/-- genutils.c:183-279 `ms_sid2nslc`, all destinations given, `sid` a C string; `none` is -1.
Destinations are assumed large enough (`strcpy`).  With exactly five underscores the three
`strchr` calls always find one, the `none` branches below are dead. -/
def sid2nslc (sid : List UInt8) : Option Nslc :=
  if sid.take 5 = [70, 68, 83, 78, 58] then
    let id := afterLastColon sid
    if id.count 95 ≠ 5 then none
    else
      match splitUnderscore id with
      | none => none
      | some (net, r) =>
        match splitUnderscore r with
        | none => none
        | some (sta, r) =>
          match splitUnderscore r with
          | none => none
          | some (loc, top) =>
            some { net, sta, loc,
                   chan := if top = [] then none else some (toSeedchan top) }
  else none

end Verif.Model.Str
