import Verif.Spec.Json
/-!
# JSON texts

RFC 8259 with strings in UTF-8 (RFC 3629).
-/
namespace Verif.Spec.Json

/-- RFC 3629, 3: the bytes of a character. -/
def utf8 (n : Nat) : List UInt8 :=
  if n < 0x80 then [UInt8.ofNat n]
  else if n < 0x800 then [UInt8.ofNat (0xC0 + n / 64), UInt8.ofNat (0x80 + n % 64)]
  else if n < 0x10000 then
    [UInt8.ofNat (0xE0 + n / 4096), UInt8.ofNat (0x80 + n / 64 % 64), UInt8.ofNat (0x80 + n % 64)]
  else [UInt8.ofNat (0xF0 + n / 262144), UInt8.ofNat (0x80 + n / 4096 % 64), UInt8.ofNat (0x80 + n / 64 % 64),
    UInt8.ofNat (0x80 + n % 64)]

/-- The code points of characters. -/
def Scalar (n : Nat) : Prop := n < 0xD800 ∨ (0xE000 ≤ n ∧ n < 0x110000)

/-- A string of characters. -/
inductive Utf8 : List UInt8 → Prop
  | nil : Utf8 []
  | char {n s} : Scalar n → Utf8 s → Utf8 (utf8 n ++ s)

/-- RFC 8259, 2: white space. -/
def White (l : List UInt8) : Prop := ∀ c ∈ l, c = 32 ∨ c = 9 ∨ c = 10 ∨ c = 13

/-- A decimal digit. -/
def Digit (c : UInt8) : Prop := 48 ≤ c.toNat ∧ c.toNat ≤ 57

/-- One digit or more. -/
def Digits (l : List UInt8) : Prop := l ≠ [] ∧ ∀ c ∈ l, Digit c

/-- The value of a hexadecimal digit. -/
def hexDigit (c : UInt8) : Option Nat :=
  if 48 ≤ c.toNat ∧ c.toNat ≤ 57 then some (c.toNat - 48)
  else if 65 ≤ c.toNat ∧ c.toNat ≤ 70 then some (c.toNat - 55)
  else if 97 ≤ c.toNat ∧ c.toNat ≤ 102 then some (c.toNat - 87)
  else none

/-- Four hexadecimal digits. -/
inductive Hex4 : List UInt8 → Nat → Prop
  | mk {a b c d i j k l} : hexDigit a = some i → hexDigit b = some j → hexDigit c = some k → hexDigit d = some l →
      Hex4 [a, b, c, d] (((i * 16 + j) * 16 + k) * 16 + l)

/-- The characters with escapes of one letter. -/
def Letter (c letter : UInt8) : Prop :=
  (c = 34 ∧ letter = 34) ∨ (c = 92 ∧ letter = 92) ∨ (c = 47 ∧ letter = 47) ∨ (c = 8 ∧ letter = 98) ∨
  (c = 12 ∧ letter = 102) ∨ (c = 10 ∧ letter = 110) ∨ (c = 13 ∧ letter = 114) ∨ (c = 9 ∧ letter = 116)

/-- RFC 8259, 7: a string and what is between the quotation marks. -/
inductive Chars : List UInt8 → List UInt8 → Prop
  | nil : Chars [] []
  | plain {n s t} : Scalar n → 32 ≤ n → n ≠ 34 → n ≠ 92 → Chars s t → Chars (utf8 n ++ s) (utf8 n ++ t)
  | letter {c l s t} : Letter c l → Chars s t → Chars (c :: s) (92 :: l :: t)
  | unicode {h n s t} : Hex4 h n → Scalar n → Chars s t → Chars (utf8 n ++ s) (92 :: 117 :: (h ++ t))
  | pair {g h hi lo s t} : Hex4 g hi → Hex4 h lo → 0xD800 ≤ hi → hi < 0xDC00 → 0xDC00 ≤ lo → lo < 0xE000 →
      Chars s t → Chars (utf8 (0x10000 + (hi - 0xD800) * 1024 + (lo - 0xDC00)) ++ s)
        (92 :: 117 :: (g ++ 92 :: 117 :: (h ++ t)))

/-- RFC 8259, 6: fraction. -/
def Frac (l : List UInt8) : Prop := l = [] ∨ ∃ d, Digits d ∧ l = 46 :: d

/-- RFC 8259, 6: exponent. -/
def Expo (l : List UInt8) : Prop :=
  l = [] ∨ ∃ e s d, (e = 101 ∨ e = 69) ∧ (s = [] ∨ s = [43] ∨ s = [45]) ∧ Digits d ∧ l = e :: (s ++ d)

/-- A sign. -/
def minus (neg : Bool) : List UInt8 := if neg then [45] else []

/-- The integer of a numeral. -/
def signed (neg : Bool) (n : Nat) : Int := if neg then -(n : Int) else n

/-- The integers kept as integers: those of 64 bits, with or without a sign. -/
def Fits (i : Int) : Prop := -(2 ^ 63) ≤ i ∧ i < 2 ^ 64

/-- Values, and what is between brackets and braces if it is not empty. -/
inductive Part where
  | value (v : Json)
  | items (l : List Json)
  | members (l : List (List UInt8 × Json))

/-- RFC 8259: the text of a value.  `reals` gives the `double` of a numeral, if there is one. -/
inductive Text (reals : List UInt8 → Option UInt64) : Part → List UInt8 → Prop
  | null : Text reals (.value .null) [110, 117, 108, 108]
  | true : Text reals (.value (.bool true)) [116, 114, 117, 101]
  | false : Text reals (.value (.bool false)) [102, 97, 108, 115, 101]
  | int {neg n} : Fits (signed neg n) → Text reals (.value (.int (signed neg n))) (minus neg ++ index n)
  | real {neg n f e d} : Frac f → Expo e → (f ≠ [] ∨ e ≠ [] ∨ ¬ Fits (signed neg n)) →
      reals (minus neg ++ index n ++ f ++ e) = some d →
      Text reals (.value (.real d)) (minus neg ++ index n ++ f ++ e)
  | str {s t} : Chars s t → Text reals (.value (.str s)) (34 :: (t ++ [34]))
  | noItems {w} : White w → Text reals (.value (.arr [])) (91 :: (w ++ [93]))
  | arr {l t} : Text reals (.items l) t → Text reals (.value (.arr l)) (91 :: (t ++ [93]))
  | noMembers {w} : White w → Text reals (.value (.obj [])) (123 :: (w ++ [125]))
  | obj {l t} : Text reals (.members l) t → Text reals (.value (.obj l)) (123 :: (t ++ [125]))
  | lastItem {v t w x} : White w → White x → Text reals (.value v) t → Text reals (.items [v]) (w ++ (t ++ x))
  | item {v l t u w x} : White w → White x → Text reals (.value v) t → Text reals (.items l) u →
      Text reals (.items (v :: l)) (w ++ (t ++ (x ++ 44 :: u)))
  | lastMember {k kt v t w x y z} : White w → White x → White y → White z → Chars k kt → Text reals (.value v) t →
      Text reals (.members [(k, v)]) (w ++ (34 :: (kt ++ 34 :: (x ++ 58 :: (y ++ (t ++ z))))))
  | member {k kt v l t u w x y z} : White w → White x → White y → White z → Chars k kt → Text reals (.value v) t →
      Text reals (.members l) u →
      Text reals (.members ((k, v) :: l)) (w ++ (34 :: (kt ++ 34 :: (x ++ 58 :: (y ++ (t ++ (z ++ 44 :: u)))))))

/-- RFC 8259, 2: a JSON text. -/
def Document (reals : List UInt8 → Option UInt64) (v : Json) (t : List UInt8) : Prop :=
  ∃ w u x, White w ∧ Text reals (.value v) u ∧ White x ∧ t = w ++ (u ++ x)

mutual
/-- The values that can be written: strings of characters, integers of 64 bits, and numbers. -/
def Proper : Json → Prop
  | .int i => Fits i
  | .real d => d.toNat / 2 ^ 52 % 2048 ≠ 2047
  | .str s => Utf8 s
  | .arr l => ProperItems l
  | .obj l => ProperMembers l
  | _ => True

/-- `Proper` for all elements. -/
def ProperItems : List Json → Prop
  | [] => True
  | v :: t => Proper v ∧ ProperItems t

/-- `Proper` for all members. -/
def ProperMembers : List (List UInt8 × Json) → Prop
  | [] => True
  | (k, v) :: t => Utf8 k ∧ Proper v ∧ ProperMembers t
end

end Verif.Spec.Json
