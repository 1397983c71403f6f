import Verif.Model.Json
/-!
# JSON texts: reading and writing in libmseed/yyjson.c

`yyjson_read_opts` without flags, and `yyjson_mut_write_opts` and `yyjson_write_opts` without flags.  The text
is a list of bytes; what is read after its end is padding with zeros (yyjson.c:6670-6674), which no part of a text
matches, so that it is the same as the end of the list.  The loops that look at several bytes at
once do the same as those that look at one after another.  The parts for the conversion of decimal numerals to `double`
and back are parameters.  Messages and positions of errors are not modelled and memory is always available.
-/
namespace Verif.Model.JsonText
open Verif.Spec.Json (Json)
open Verif.Model.Json (digits)

/-- Numbers with a fraction or an exponent: yyjson.c:4369-4978 for the `double` of a numeral (`none` if it is
infinite), 7365-7511 for the numeral of a finite `double`. -/
structure Reals where
  read : List UInt8 → Option UInt64
  write : UInt64 → List UInt8

/-! ## Reading -/

/-- yyjson.c:3561 `char_is_space` -/
def isSpace (c : UInt8) : Bool := decide (c = 32 ∨ c = 9 ∨ c = 10 ∨ c = 13)

/-- `while (char_is_space(*cur)) cur++;` -/
def skip : List UInt8 → List UInt8
  | [] => []
  | c :: t => if isSpace c then skip t else c :: t

/-- yyjson.c:3659 `digi_is_digit` -/
def isDigit (c : UInt8) : Bool := decide (48 ≤ c.toNat ∧ c.toNat ≤ 57)

/-- The digits at the head and the rest. -/
def spanDigits : List UInt8 → List UInt8 × List UInt8
  | [] => ([], [])
  | c :: t => if isDigit c then (c :: (spanDigits t).1, (spanDigits t).2) else ([], c :: t)

/-- yyjson.c:3692-3727 `hex_conv_table`; `none` is 0xF0. -/
def hexConv (c : UInt8) : Option Nat :=
  if 48 ≤ c.toNat ∧ c.toNat ≤ 57 then some (c.toNat - 48)
  else if 65 ≤ c.toNat ∧ c.toNat ≤ 70 then some (c.toNat - 65 + 10)
  else if 97 ≤ c.toNat ∧ c.toNat ≤ 102 then some (c.toNat - 97 + 10)
  else none

/-- yyjson.c:3735-3747 `read_hex_u16`: the number and the rest. -/
def readHex : List UInt8 → Option (Nat × List UInt8)
  | c0 :: c1 :: c2 :: c3 :: t =>
    match hexConv c0, hexConv c1, hexConv c2, hexConv c3 with
    | some a, some b, some c, some d => some (a * 4096 + b * 256 + c * 16 + d, t)
    | _, _, _, _ => none
  | _ => none

/-- yyjson.c:5299-5303 `is_valid_seq_2` -/
def seq2 (a b : UInt8) : Bool := decide (a &&& 0xE0 = 0xC0 ∧ b &&& 0xC0 = 0x80 ∧ a &&& 0x1E ≠ 0)

/-- yyjson.c:5305-5309 `is_valid_seq_3` -/
def seq3 (a b c : UInt8) : Bool :=
  decide (a &&& 0xF0 = 0xE0 ∧ b &&& 0xC0 = 0x80 ∧ c &&& 0xC0 = 0x80 ∧
    ¬ (a &&& 0x0F = 0 ∧ b &&& 0x20 = 0) ∧ ¬ (a &&& 0x0F = 0x0D ∧ b &&& 0x20 = 0x20))

/-- yyjson.c:5311-5315 `is_valid_seq_4` -/
def seq4 (a b c d : UInt8) : Bool :=
  decide (a &&& 0xF8 = 0xF0 ∧ b &&& 0xC0 = 0x80 ∧ c &&& 0xC0 = 0x80 ∧ d &&& 0xC0 = 0x80 ∧
    ¬ (a &&& 0x07 = 0 ∧ b &&& 0x30 = 0) ∧ (a &&& 0x04 = 0 ∨ (a &&& 0x03 = 0 ∧ b &&& 0x30 = 0)))

/-- A valid sequence of two to four bytes at the head and the rest: yyjson.c:5396-5408, 5593-5612, 7982-8082. -/
def sequence : List UInt8 → Option (List UInt8 × List UInt8)
  | a :: b :: t =>
    if seq2 a b then some ([a, b], t)
    else match t with
      | c :: t =>
        if seq3 a b c then some ([a, b, c], t)
        else match t with
          | d :: t => if seq4 a b c d then some ([a, b, c, d], t) else none
          | [] => none
      | [] => none
  | _ => none

/-- yyjson.c:5436-5447 and 5459-5466: the bytes of a character that is not a surrogate, or of a pair. -/
def encode (u : Nat) : List UInt8 :=
  if u ≥ 0x10000 then
    [UInt8.ofNat (0xF0 ||| (u >>> 18)), UInt8.ofNat (0x80 ||| ((u >>> 12) &&& 0x3F)),
      UInt8.ofNat (0x80 ||| ((u >>> 6) &&& 0x3F)), UInt8.ofNat (0x80 ||| (u &&& 0x3F))]
  else if u ≥ 0x800 then
    [UInt8.ofNat (0xE0 ||| (u >>> 12)), UInt8.ofNat (0x80 ||| ((u >>> 6) &&& 0x3F)), UInt8.ofNat (0x80 ||| (u &&& 0x3F))]
  else if u ≥ 0x80 then [UInt8.ofNat (0xC0 ||| (u >>> 6)), UInt8.ofNat (0x80 ||| (u &&& 0x3F))]
  else [UInt8.ofNat u]

/-- yyjson.c:5420-5470: what follows a backslash: the bytes of the character and the rest. -/
def readEscape : List UInt8 → Option (List UInt8 × List UInt8)
  | [] => none
  | c :: t =>
    if c = 34 then some ([34], t)
    else if c = 92 then some ([92], t)
    else if c = 47 then some ([47], t)
    else if c = 98 then some ([8], t)
    else if c = 102 then some ([12], t)
    else if c = 110 then some ([10], t)
    else if c = 114 then some ([13], t)
    else if c = 116 then some ([9], t)
    else if c = 117 then
      match readHex t with
      | none => none
      | some (hi, t) =>
        if hi &&& 0xF800 ≠ 0xD800 then some (encode hi, t)
        else if hi &&& 0xFC00 ≠ 0xD800 then none
        else match t with
          | 92 :: 117 :: t =>
            match readHex t with
            | none => none
            | some (lo, t) =>
              if lo &&& 0xFC00 ≠ 0xDC00 then none
              else some (encode ((((hi - 0xD800) <<< 10) ||| (lo - 0xDC00)) + 0x10000), t)
          | _ => none
    else none

/-- yyjson.c:5186-5636 `read_string` after the opening quotation mark: the string and the rest.  The first argument
bounds the number of characters. -/
def readString : Nat → List UInt8 → Option (List UInt8 × List UInt8)
  | 0, _ => none
  | _ + 1, [] => none
  | fuel + 1, c :: t =>
    if c = 34 then some ([], t)
    else if c = 92 then
      match readEscape t with
      | none => none
      | some (s, t) => (readString fuel t).map fun r => (s ++ r.1, r.2)
    else if c.toNat < 32 then none
    else if c.toNat < 128 then (readString fuel t).map fun r => (c :: r.1, r.2)
    else match sequence (c :: t) with
      | none => none
      | some (s, t) => (readString fuel t).map fun r => (s ++ r.1, r.2)

/-- The fraction, if there is one, and the rest: yyjson.c:4439-4443, 4487-4488, 4504-4523, 4559-4564. -/
def readFrac (s : List UInt8) : Option (List UInt8 × List UInt8) :=
  match s with
  | 46 :: t => let (d, r) := spanDigits t; if d = [] then none else some (46 :: d, r)
  | _ => some ([], s)

/-- The exponent, if there is one, and the rest: yyjson.c:4456-4462, 4634-4650. -/
def readExpo (s : List UInt8) : Option (List UInt8 × List UInt8) :=
  match s with
  | e :: t =>
    if e = 101 ∨ e = 69 then
      let sgn := match t with
        | c :: _ => if c = 43 ∨ c = 45 then [c] else []
        | [] => []
      let (d, r) := spanDigits (t.drop sgn.length)
      if d = [] then none else some (e :: (sgn ++ d), r)
    else some ([], s)
  | [] => some ([], [])

/-- yyjson.c:4369-4978 `read_number`: the number and the rest.  Numerals of integers that do not fit 64 bits, and
those with a fraction or an exponent, are `double` numbers. -/
def readNumber (reals : Reals) (s : List UInt8) : Option (Json × List UInt8) :=
  let neg : Bool := decide (s.head? = some 45)
  let s := if neg then s.tail else s
  let (ip, r) := spanDigits s
  if ip = [] then none
  else if ip.head? = some 48 ∧ ip.length > 1 then none
  else match readFrac r with
    | none => none
    | some (f, r) =>
      match readExpo r with
      | none => none
      | some (e, r) =>
        let n := (digits 0 ip).1
        if f = [] ∧ e = [] ∧ (if neg then n ≤ 2 ^ 63 else n < 2 ^ 64) then
          some (.int (if neg then -(n : Int) else n), r)
        else match reals.read ((if neg then [45] else []) ++ ip ++ f ++ e) with
          | none => none
          | some d => some (.real d, r)

mutual
/-- yyjson.c:5692-5800 `read_root_single`, 5806-6190 `read_root_minify` and 6194-6620 `read_root_pretty`: a value
without space before it, and the rest.  The first argument bounds the number of calls. -/
def readValue (reals : Reals) : Nat → List UInt8 → Option (Json × List UInt8)
  | 0, _ => none
  | _ + 1, [] => none
  | fuel + 1, c :: t =>
    if c = 123 then (readMembers reals fuel true t).map fun r => (.obj r.1, r.2)
    else if c = 91 then (readItems reals fuel true t).map fun r => (.arr r.1, r.2)
    else if isDigit c ∨ c = 45 then readNumber reals (c :: t)
    else if c = 34 then (readString (t.length + 1) t).map fun r => (.str r.1, r.2)
    else if c = 116 then (if [114, 117, 101].isPrefixOf t then some (.bool true, t.drop 3) else none)
    else if c = 102 then (if [97, 108, 115, 101].isPrefixOf t then some (.bool false, t.drop 4) else none)
    else if c = 110 then (if [117, 108, 108].isPrefixOf t then some (.null, t.drop 3) else none)
    else none

/-- `arr_val_begin` and `arr_val_end`: the values up to the closing bracket and the rest; `first` tells
whether there is no value before (`ctn_len == 0`). -/
def readItems (reals : Reals) : Nat → Bool → List UInt8 → Option (List Json × List UInt8)
  | 0, _, _ => none
  | fuel + 1, first, s =>
    match skip s with
    | [] => none
    | c :: t =>
      if c = 93 then (if first then some ([], t) else none)
      else match readValue reals fuel (c :: t) with
        | none => none
        | some (v, t) =>
          match skip t with
          | [] => none
          | d :: t =>
            if d = 44 then (readItems reals fuel false t).map fun r => (v :: r.1, r.2)
            else if d = 93 then some ([v], t)
            else none

/-- `obj_key_begin` to `obj_val_end`: the members up to the closing brace and the rest. -/
def readMembers (reals : Reals) : Nat → Bool → List UInt8 → Option (List (List UInt8 × Json) × List UInt8)
  | 0, _, _ => none
  | fuel + 1, first, s =>
    match skip s with
    | [] => none
    | c :: t =>
      if c = 34 then
        match readString (t.length + 1) t with
        | none => none
        | some (k, t) =>
          match skip t with
          | [] => none
          | d :: t =>
            if d = 58 then
              match readValue reals fuel (skip t) with
              | none => none
              | some (v, t) =>
                match skip t with
                | [] => none
                | d :: t =>
                  if d = 44 then (readMembers reals fuel false t).map fun r => ((k, v) :: r.1, r.2)
                  else if d = 125 then some ([(k, v)], t)
                  else none
            else none
      else if c = 125 then (if first then some ([], t) else none)
      else none
end

/-- yyjson.c:6628-6730 `yyjson_read_opts` -/
def read (reals : Reals) (s : List UInt8) : Option Json :=
  match readValue reals (s.length + 1) (skip s) with
  | none => none
  | some (v, t) => if skip t = [] then some v else none

/-! ## Writing -/

/-- yyjson.c:7700-7766 `esc_hex_char_table` -/
def hexChar (n : Nat) : UInt8 := UInt8.ofNat (if n < 10 then 48 + n else 55 + n)

/-- yyjson.c:7899-8185 `write_string` without the quotation marks; `none` if the string is not UTF-8.  The first
argument bounds the number of characters. -/
def writeChars : Nat → List UInt8 → Option (List UInt8)
  | 0, _ => none
  | _ + 1, [] => some []
  | fuel + 1, c :: t =>
    if c = 34 then (writeChars fuel t).map fun r => 92 :: 34 :: r
    else if c = 92 then (writeChars fuel t).map fun r => 92 :: 92 :: r
    else if c = 8 then (writeChars fuel t).map fun r => 92 :: 98 :: r
    else if c = 9 then (writeChars fuel t).map fun r => 92 :: 116 :: r
    else if c = 10 then (writeChars fuel t).map fun r => 92 :: 110 :: r
    else if c = 12 then (writeChars fuel t).map fun r => 92 :: 102 :: r
    else if c = 13 then (writeChars fuel t).map fun r => 92 :: 114 :: r
    else if c.toNat < 32 then
      (writeChars fuel t).map fun r => 92 :: 117 :: 48 :: 48 :: hexChar (c.toNat / 16) :: hexChar (c.toNat % 16) :: r
    else if c.toNat < 128 then (writeChars fuel t).map fun r => c :: r
    else match sequence (c :: t) with
      | none => none
      | some (s, t) => (writeChars fuel t).map fun r => s ++ r

/-- `write_string` -/
def writeString (s : List UInt8) : Option (List UInt8) :=
  (writeChars (s.length + 1) s).map fun t => 34 :: (t ++ [34])

/-- yyjson.c:7079-7102 `write_u64`; the digits are written in groups of two there. -/
def writeNat (n : Nat) : List UInt8 :=
  if n < 10 then [UInt8.ofNat (48 + n)] else writeNat (n / 10) ++ [UInt8.ofNat (48 + n % 10)]

/-- yyjson.c:7580-7592 `write_number` for integers, which are of 64 bits with or without sign. -/
def writeInt (i : Int) : Option (List UInt8) :=
  if i < 0 then (if -(2 ^ 63) ≤ i then some (45 :: writeNat i.natAbs) else none)
  else if i < 2 ^ 64 then some (writeNat i.natAbs) else none

/-- yyjson.c:7365-7398 `write_f64_raw`: nothing for infinite numbers and those that are none. -/
def writeReal (reals : Reals) (d : UInt64) : Option (List UInt8) :=
  if (d.toNat >>> 52) &&& 2047 = 2047 then none else some (reals.write d)

mutual
/-- yyjson.c:8281-8390 `yyjson_write_single`, 8392-8572 `yyjson_write_minify`, 8943-9130 `yyjson_mut_write_minify` -/
def write (reals : Reals) : Json → Option (List UInt8)
  | .null => some [110, 117, 108, 108]
  | .bool true => some [116, 114, 117, 101]
  | .bool false => some [102, 97, 108, 115, 101]
  | .int i => writeInt i
  | .real d => writeReal reals d
  | .str s => writeString s
  | .arr l => (writeItems reals l).map fun t => 91 :: (t ++ [93])
  | .obj l => (writeMembers reals l).map fun t => 123 :: (t ++ [125])

/-- The elements with commas between them. -/
def writeItems (reals : Reals) : List Json → Option (List UInt8)
  | [] => some []
  | [v] => write reals v
  | v :: l =>
    match write reals v, writeItems reals l with
    | some t, some u => some (t ++ 44 :: u)
    | _, _ => none

/-- The members with commas between them. -/
def writeMembers (reals : Reals) : List (List UInt8 × Json) → Option (List UInt8)
  | [] => some []
  | [(k, v)] =>
    match writeString k, write reals v with
    | some s, some t => some (s ++ 58 :: t)
    | _, _ => none
  | (k, v) :: l =>
    match writeString k, write reals v, writeMembers reals l with
    | some s, some t, some u => some (s ++ 58 :: (t ++ 44 :: u))
    | _, _, _ => none
end

end Verif.Model.JsonText
